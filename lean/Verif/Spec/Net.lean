import Verif.Base.Net

/-!
# Specification: the byte stream behind a sequence of network events
-/

namespace Verif.Spec

/-- What follows the bytes of a stream. -/
inductive StreamEnd where
  /-- Nothing more arrives (a receive timeout expires). -/
  | quiet
  /-- The peer has closed the connection. -/
  | closed
  /-- A system call fails. -/
  | failed (code : Int)
deriving Repr, DecidableEq

/-- The bytes delivered before the first end, close or failure, and which of them
it is.  Segment boundaries and interruptions do not matter. -/
def stream : List NetEv → List (BitVec 8) × StreamEnd
  | [] => ([], .quiet)
  | .eintr :: net => stream net
  | .err code :: _ => ([], .failed code)
  | .eof :: _ => ([], .closed)
  | .seg b bs :: net => (b :: (bs ++ (stream net).1), (stream net).2)

/-- The first `n` bytes, with zeros for the missing ones. -/
def padTake (n : Nat) (bs : List (BitVec 8)) : List (BitVec 8) :=
  bs.take n ++ List.replicate (n - bs.length) 0#8

end Verif.Spec
