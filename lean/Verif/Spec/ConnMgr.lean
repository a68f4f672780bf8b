import Verif.Spec.Wire

/-!
# Specification: connection manager messages

CIP Volume 1, section 3-5.5 (forward open, large forward open, forward close) and
table 3-5.8 (network connection parameters).
-/

namespace Verif.Spec

/-- Bitwise OR of a list of values. -/
def orAll {w : Nat} : List (BitVec w) → BitVec w
  | [] => 0
  | v :: vs => v ||| orAll vs

/-- A reply to a forward open. -/
def openReply (o2tId t2oId serial vendor origSerial o2tApi t2oApi reserved : Nat)
    (app : List (BitVec 8)) : List (BitVec 8) :=
  le 4 o2tId ++ le 4 t2oId ++ le 2 serial ++ le 2 vendor ++ le 4 origSerial ++ le 4 o2tApi ++ le 4 t2oApi
    ++ le 1 (app.length / 2) ++ le 1 reserved ++ app

end Verif.Spec
