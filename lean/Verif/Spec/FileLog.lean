import Verif.Model.FileLog
import Verif.Spec.LogText

/-!
# The messages of file objects: vocabulary
-/

namespace Verif.Spec

open FileObject

/-- The states whose beginning (`true`) and end (`false`) the messages tell. -/
def livesIn (ls : List LogLine) : List (Bool × List Char) :=
  ls.filterMap fun l =>
    match l with
    | .file _ _ name msg => if msg = "Start".toList then some (true, name) else if msg = "Stop".toList then some (false, name) else none
    | _ => none

/-- Each new state begins before the one it replaces ends: from `a` to `b`. -/
inductive Replaces : List Char → List (Bool × List Char) → List Char → Prop where
  | same (a : List Char) : Replaces a [] a
  | next {a b c : List Char} {l : List (Bool × List Char)} : Replaces a l b → Replaces a (l ++ [(true, c), (false, b)]) c

/-- The name of a state for users, by its code (FileObject.h:24-34). -/
def nameOf (code : BitVec 8) : List Char :=
  if code = 0 then "NONEXISTENT".toList
  else if code = 1 then "FILE_EMPTY".toList
  else if code = 2 then "FILE_LOADED".toList
  else if code = 5 then "TRANSFER_UPLOAD_IN_PROGRESS".toList
  else "UNKNOWN".toList

/-- A file object was made for the file `id`, all calls `ops` were made, and `s` is what there is now. -/
def FileLife {δ : Type} (m : Mem) (D : Device δ) (id : BitVec 16) (ops : List FileOp) (s : Said FileObject δ) : Prop :=
  ∃ (d : δ) (t : Said Unit δ) (f : FileObject),
    createSaid m D id (((), ⟨d, []⟩), []) = .ok t f ∧ runSaid m D ((f, t.1.2), t.2) ops = some s

/-- The requests that the messages tell. -/
def requestsIn (ls : List LogLine) : List (BitVec 8 × EPath) :=
  ls.filterMap fun l =>
    match l with
    | .request s p => some (s, p)
    | _ => none

/-- The errors among messages. -/
def errorsIn (ls : List LogLine) : List LogLine := ls.filter fun l => l.level = .error

/-- The calls of handlers that tell a failure. -/
def failuresIn (cs : List UploadCall) : List UploadCall := cs.filter fun c => c.status ≠ GeneralStatus.success

/-- An error that belongs to the call of a handler. -/
def Tells (id : BitVec 16) (l : LogLine) (c : UploadCall) : Prop :=
  (∃ r : MessageRouterResponse, l = .status r ∧ c.status = r.status) ∨
  (c.status = GeneralStatus.invalidParameter ∧
    (l = .file .error id "TRANSFER_UPLOAD_IN_PROGRESS".toList "Wrong transfer number".toList ∨
     l = .file .error id "TRANSFER_UPLOAD_IN_PROGRESS".toList "Wrong size of the uploaded file".toList))

/-- The state after a call, and how it ended. -/
def saidEnd {σ α : Type} : Res (σ × List LogLine) α → Res σ α
  | .ok s a => .ok s.1 a
  | .throw s e => .throw s.1 e
  | .ub => .ub

/-- The messages after a call. -/
def saidLines {σ α : Type} : Res (σ × List LogLine) α → List LogLine
  | .ok s _ => s.2
  | .throw s _ => s.2
  | .ub => []

end Verif.Spec
