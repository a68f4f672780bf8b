import Verif.Model.ManagerLog
import Verif.Spec.LogText
import Verif.Spec.Log

/-!
# Reading the open connections off the log
-/

namespace Verif.Spec

/-- The messages that tell something about which connections are open: opened, refused by the manager, being closed, timed out. -/
def aboutOpen : LogLine → Bool
  | .ioOpen _ _ _ => true
  | .exists_ _ => true
  | .close _ => true
  | .timedOut _ => true
  | _ => false

/-- What a reader of the log takes to be open: the low 16 bits of the T2O_ID, by which connections are told apart (C34), and the serial
number, of each connection.  A message moves it on. -/
def believe (open_ : List (BitVec 16 × BitVec 16)) : LogLine → List (BitVec 16 × BitVec 16)
  | .ioOpen _ t2o serial => (t2o.setWidth 16, serial) :: open_
  | .exists_ t2o => open_.eraseP fun e => e.1 = t2o.setWidth 16
  | .close t2o => open_.filter fun e => e.1 ≠ t2o.setWidth 16
  | .timedOut serial => open_.filter fun e => e.2 ≠ serial.setWidth 16
  | _ => open_

/-- What the reader takes to be open after all of the messages. -/
def believed (ls : List LogLine) : List (BitVec 16 × BitVec 16) := ls.foldl believe []

/-- The serial numbers that the messages about opened connections tell. -/
def serialsTold (ls : List LogLine) : List (BitVec 16) :=
  ls.filterMap fun l =>
    match l with
    | .ioOpen _ _ n => some n
    | _ => none

/-- A connection that the manager has. -/
def Has (s : Mgr) (key serial : BitVec 16) : Prop :=
  ∃ id c, (key, id) ∈ s.table ∧ s.heap[id]? = some c ∧ c.serialNumber.setWidth 16 = serial

/-- No call that throws has told something about which connections are open. -/
def QuietThrows : List (MOp × List MEv × MRet) → List (List LogLine) → Prop
  | (_, _, ret) :: tr, ls :: rest => (∀ x, ret = .threw x → ∀ l ∈ ls, aboutOpen l = false) ∧ QuietThrows tr rest
  | _, _ => True

end Verif.Spec
