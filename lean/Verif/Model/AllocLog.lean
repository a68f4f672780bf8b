import Verif.Model.LogText
import Verif.Model.Alloc

/-!
# Running out of memory in the log

Source: `src/utils/Logger.h`, `src/utils/Logger.cpp`, and all statements with a `Logger` in `src`.

An insertion into a `std::ostringstream` never throws: if its buffer cannot grow, the characters for which there is no room are
lost and the stream ignores all later ones ([ostream.formatted.reqmts]: the exception is caught and `badbit` set).  Where the
buffer grows is up to the C++ library, so here memory may run out after any character.  A string that is made
for the insertion by a call may throw `std::bad_alloc` out of the statement; the logger is then destroyed on the way
and prints what it has.  The copy of the text that the destructor makes for the appender allocates if the text has more characters than a
string holds without, `small`, which is 15 for the GNU C++ library.
-/

namespace Verif

/-- What a statement inserts: a value, or a string that a call makes for it. -/
inductive Piece where
  | value (x : Inserted)
  | made (s : List Char)
deriving Repr, DecidableEq

/-- What an insertion writes when there is memory (Logger.h:83-87). -/
def Piece.inserted : Piece → Inserted
  | .value x => x
  | .made s => .str s

/-- Where memory is missing for one insertion: nowhere, for the string, or for the buffer of the stream after so many characters. -/
inductive Short where
  | enough
  | making
  | after (n : Nat)
deriving Repr, DecidableEq

/-- A `std::ostringstream` (Logger.h:101) and its `badbit`. -/
structure OStreamA where
  out : OStream := {}
  bad : Bool := false
deriving Repr, DecidableEq

/-- `_stream << x` (Logger.h:84); manipulators act on a bad stream too. -/
def OStreamA.put (o : OStreamA) (x : Inserted) (short : Short) : OStreamA :=
  let full := o.out.put x
  if o.bad then { o with out := { full with text := o.out.text } }
  else
    match short with
    | .after n =>
      if o.out.text.length + n < full.text.length then ⟨{ full with text := full.text.take (o.out.text.length + n) }, true⟩ else ⟨full, false⟩
    | _ => ⟨full, false⟩

/-- The insertions of a statement (Logger.h:83-87), and whether one of them threw `std::bad_alloc`. -/
def OStreamA.statement (o : OStreamA) : List (Piece × Short) → OStreamA × Bool
  | [] => (o, false)
  | (.made _, .making) :: _ => (o, true)
  | (p, short) :: rest => (o.put p.inserted short).statement rest

/-- The static data of the log: that of `Logger`, and whether the table of names in `ConsoleAppender::print` (Logger.cpp:33-39)
has been made. -/
structure LogsA where
  logs : Logs
  named : Bool
deriving Repr, DecidableEq

/-- For which of the allocations at the end of a statement there is no memory: the copy of the text, and the table of names. -/
structure EndMem where
  copy : Bool := false
  table : Bool := false
deriving Repr, DecidableEq

namespace LogsA

/-- `Logger::~Logger` (Logger.cpp:18-22) and `print` (Logger.cpp:32-42).  A destructor is `noexcept`: `std::bad_alloc`
ends the process. -/
def finish (fails : LogCall → Bool) (small : Nat) (e : EndMem) (l : LogLevel) (t : List Char) : Prog LogsA Unit := fun s =>
  if s.logs.level ≠ .off ∧ l.toNat ≤ s.logs.level.toNat then
    match s.logs.appender with
    | none => .ub
    | some a =>
      if e.copy ∧ small < t.length then .throw s .abort
      else if a = .console ∧ s.named = false ∧ e.table then .throw s .abort
      else
        let named := s.named || a == .console
        match s.logs.print fails ⟨a, l, String.ofList t⟩ with
        | .ok logs _ => .ok ⟨logs, named⟩ ()
        | .throw logs x => .throw ⟨logs, named⟩ x
        | .ub => .ub
  else .ok s ()

/-- A statement with a `Logger`: the insertions, and the end of the logger, also when an insertion threw. -/
def log (fails : LogCall → Bool) (small : Nat) (l : LogLevel) (ps : List (Piece × Short)) (e : EndMem) : Prog LogsA Unit := fun s =>
  let r := OStreamA.statement {} ps
  match finish fails small e l r.1.out.text s with
  | .ok s' _ => if r.2 then .throw s' .badAlloc else .ok s' ()
  | .throw s' x => .throw s' x
  | .ub => .ub

end LogsA

/-- The insertions of the messages of the library, with the strings that are made for them: `EndPoint::toString` (TCPSocket.cpp:61,164,
ConnectionManager.cpp:152), `EPath::toString` (MessageRouter.cpp:44) and `getStateName` (FileObjectState.cpp:38). -/
def LogLine.pieces : LogLine → List Piece
  | .tcpShort ep count size =>
    [.value (.str "Received from ".toList), .made ep.toStr.toList, .value (.str " ".toList), .value (.num count),
     .value (.str " of ".toList), .value (.num size)]
  | .request service path =>
    [.value (.str "Send request: service=0x".toList), .value .hex, .value (.num service.toNat), .value (.str " epath=".toList),
     .made path.toStr.toList]
  | .sendsTo ep => [.value (.str "Open UDP socket to send data to ".toList), .made ep.toStr.toList]
  | .file _ id state message =>
    [.value (.str "FileObject=".toList), .value .hex, .value (.num id.toNat), .value (.str " <".toList), .made state,
     .value (.str "> ".toList), .value (.str message)]
  | .tcpConnecting ep => [.value (.str "Connecting to ".toList), .made ep.toStr.toList]
  | l => l.inserted.map .value

/-- A request with its message (MessageRouter.cpp:37-81): the message is written before anything is sent; `shorts i` is
where memory is missing for its insertion `i`. -/
def sendRequestLogA {σ : Type} (fails : LogCall → Bool) (small : Nat) (m : Mem) (si : SessionIf (Scarce σ)) (use8 : Bool)
    (service : BitVec 8) (path : EPath) (data : List Byte) (extra : List CommonPacketItem) (shorts : Nat → Short) (e : EndMem) :
    Prog (LogsA × Scarce σ) MessageRouterResponse := fun (L, s) =>
  match LogsA.log fails small .info ((LogLine.request service path).pieces.zipIdx.map fun x => (x.1, shorts x.2)) e L with
  | .ub => .ub
  | .throw L' x => .throw (L', s) x
  | .ok L' _ =>
    match sendRequestA m si use8 service path data extra s with
    | .ub => .ub
    | .throw s' x => .throw (L', s') x
    | .ok s' r => .ok (L', s') r

end Verif
