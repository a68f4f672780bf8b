import Verif.Model.ManagerThreads

/-!
# Threads that share a manager: what one thread would do, locks and races
-/

namespace Verif.Spec

open ManagerThreads

/-- The table of connections after a call that no other call disturbs, with the number of objects made, and the result of the call. -/
def soleCall (t : Table) (n : Nat) : Call → (Table × Nat) × Ret
  | .handle expired => ((t.filter fun e => !expired e.2, n), .handled (t.map (·.1)))
  | .fopen none => ((t, n), .opened none)
  | .fopen (some k) =>
    if k ∈ t.map (·.1) then ((t, n + 1), .opened none)
    else ((t.filter (fun e => decide (e.1.toNat < k.toNat)) ++ (k, n) :: t.filter (fun e => decide (k.toNat < e.1.toNat)), n + 1), .opened (some n))
  | .fclose o => ((t.filter fun e => decide (e.2 ≠ o), n), .closed (decide (o ∈ t.map (·.2))))

/-- Calls made one after the other. -/
def soleCalls (t : Table) (n : Nat) : List Call → (Table × Nat) × List Ret
  | [] => ((t, n), [])
  | c :: cs =>
    let r := soleCall t n c
    let rs := soleCalls r.1.1 r.1.2 cs
    (rs.1, r.2 :: rs.2)

/-- A thread may step if no lock is used, or no other thread is inside a call. -/
def MayStep (lock : Bool) (s : State) (i : Nat) : Prop := lock = true → ∀ j, j ≠ i → (s.thr j).pc = .idle

/-- What can be reached. -/
inductive MReach (lock : Bool) (s₀ : State) : Out → Prop where
  | refl : MReach lock s₀ (.ok s₀)
  | step {s : State} {i : Nat} {o : Out} : MReach lock s₀ (.ok s) → MayStep lock s i → step s i = some o → MReach lock s₀ o

/-- Two accesses of which one changes what the other uses. -/
def Conflict : Access → Access → Prop
  | .none, _ => False
  | _, .none => False
  | .write, _ => True
  | _, .write => True
  | .tick e, .tick e' => e = e'
  | _, _ => False

/-- Two threads may make conflicting accesses next. -/
def MapRace (lock : Bool) (s : State) : Prop :=
  ∃ i j, i ≠ j ∧ MayStep lock s i ∧ MayStep lock s j ∧ Conflict (access s i) (access s j)

/-- Keys are in order, and each object is in the table once, and was made. -/
def ValidTable (t : Table) (n : Nat) : Prop :=
  t.Pairwise (fun a b => a.1.toNat < b.1.toNat) ∧ t.Pairwise (fun a b => a.2 ≠ b.2) ∧ ∀ e ∈ t, e.2 < n

/-- No thread is inside a call, and none has ended. -/
def MStart (s : State) : Prop := ValidTable s.table s.fresh ∧ (∀ i, (s.thr i).pc = .idle) ∧ s.done = []

end Verif.Spec
