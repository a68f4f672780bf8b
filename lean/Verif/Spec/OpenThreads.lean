import Verif.Model.OpenThreads

/-!
# Numbers of connections, one call after the other
-/

namespace Verif.Spec

open Verif.OpenThreads

/-- In this schedule a thread begins a call only when no thread is inside one, as if each call took a lock. -/
def OpensLocked : Sys → List Nat → Prop
  | _, [] => True
  | s, i :: is => ((s.thr i).phase = .idle → ∀ j, (s.thr j).phase = .idle) ∧ ∀ s', step s i = some s' → OpensLocked s' is

/-- Two threads are about to access the same counter, and one of them writes it: a data race. -/
def Race (s : Sys) : Prop :=
  ∃ i j c wi wj, i ≠ j ∧ access (s.thr i) = some (c, wi) ∧ access (s.thr j) = some (c, wj) ∧ (wi = true ∨ wj = true)

/-- The numbers that the calls get if they are made one after the other, where `serial` calls were made before, and
`o2t` and `t2o` are the last identifiers given, if any was. -/
def InTurn (serial : Nat) (o2t : Option Nat) (t2o : Option Nat) : List (Nat × Want × Numbers) → Prop
  | [] => True
  | (_, w, n) :: rest =>
    let o2t' := if w.multicast then some ((o2t.getD 0 + 1) % 2 ^ 16) else o2t
    let t2o' := if w.p2p then some ((t2o.getD (w.inc.toNat * 2 ^ 16) + 1) % 2 ^ 32) else t2o
    n.serial.toNat = (serial + 1) % 2 ^ 16 ∧
    (n.o2t.map (·.toNat) = if w.multicast then o2t' else none) ∧
    (n.t2o.map (·.toNat) = if w.p2p then t2o' else none) ∧
    InTurn (serial + 1) o2t' t2o' rest

end Verif.Spec
