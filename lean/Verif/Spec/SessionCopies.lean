import Verif.Model.SessionCopies
import Verif.Spec.EndToEnd

/-!
# Which connection a session object was made for
-/

namespace Verif.Spec

/-- A history: what was done and how it returned. -/
abbrev SessTrace := List (SessOp × SessRet)

/-- One more operation: the connections of the objects made so far, and the number of connections made so far.  A session
that is constructed is of the new connection, a copy is of that of the session it was copied from. -/
def addOrigin (s : List Nat × Nat) : SessOp × SessRet → List Nat × Nat
  | (.connect _, .unit) => (s.1 ++ [s.2], s.2 + 1)
  | (.connect _, _) => (s.1, s.2 + 1)
  | (.copy i, _) => (s.1 ++ [s.1[i]?.getD 0], s.2)
  | _ => s

/-- The connection that session object `i` is of. -/
def originOf (i : Nat) (tr : SessTrace) : Option Nat := (tr.foldl addOrigin ([], 0)).1[i]?

/-- The connections, as they were when connected. -/
def connectsOf (tr : SessTrace) : List Tcp :=
  tr.filterMap fun e => match e.1 with
    | .connect t => some t
    | _ => none

/-- A session object of connection `n` was destroyed. -/
def ended (n : Nat) (tr : SessTrace) : Prop :=
  ∃ i ret, (SessOp.destroy i, ret) ∈ tr ∧ originOf i tr = some n

/-- The session object that an operation needs to be good. -/
def usedBy : SessOp → Option Nat
  | .destroy i => some i
  | .request i _ => some i
  | _ => none

/-- Once an object of a connection was destroyed, no other object of it is used or destroyed. -/
def usedSoundly (tr : SessTrace) : Prop :=
  ∀ tr1 op ret tr2, tr = tr1 ++ (op, ret) :: tr2 → ∀ i n, usedBy op = some i → originOf i tr1 = some n → ¬ ended n tr1

/-- What an operation is to send on connection `n`, if `h` is the handle of its session and `tr` the whole history. -/
def sendsOn (n : Nat) (h : BitVec 32) (tr : SessTrace) : SessOp → List (List Byte)
  | .request i packet => if originOf i tr = some n then [packet.pack] else []
  | .destroy i => if originOf i tr = some n then [unregisterFrame h] else []
  | _ => []

/-- The packets of the requests of a history can be held in memory. -/
def packetsFit (tr : SessTrace) : Prop := ∀ i q ret, (SessOp.request i q, ret) ∈ tr → q.pack.length < 2 ^ 63

end Verif.Spec
