import Verif.Base.Outcome

/-!
# Programs over a state that survives exceptions

No project code is modelled here.  `Prog σ α` is a computation that reads and
changes a state of type `σ` (sockets, the network, callbacks that were run) and
returns, throws or is undefined.
-/

namespace Verif

/-- A stateful computation. -/
def Prog (σ : Type) (α : Type) : Type := σ → Res σ α

namespace Prog

variable {σ α β : Type}

@[inline] protected def bind (x : Prog σ α) (f : α → Prog σ β) : Prog σ β := fun s =>
  match x s with
  | .ok s' a => f a s'
  | .throw s' e => .throw s' e
  | .ub => .ub

instance : Monad (Prog σ) where
  pure a := fun s => .ok s a
  bind := Prog.bind

/-- Throw an exception. -/
def throw (e : Exn) : Prog σ α := fun s => .throw s e
/-- The current state. -/
def get : Prog σ σ := fun s => .ok s s
/-- Change the state. -/
def modify (f : σ → σ) : Prog σ Unit := fun s => .ok (f s) ()
/-- Undefined behaviour. -/
def undefined : Prog σ α := fun _ => .ub
/-- Run a computation that does not use the state. -/
def lift (x : Outcome α) : Prog σ α := fun s =>
  match x with
  | .ok a => .ok s a
  | .throw e => .throw s e
  | .ub => .ub

theorem bind_run (x : Prog σ α) (f : α → Prog σ β) (s : σ) :
    (x >>= f) s = match x s with
      | .ok s' a => f a s'
      | .throw s' e => .throw s' e
      | .ub => .ub := rfl

theorem bind_ok {x : Prog σ α} {f : α → Prog σ β} {s s' : σ} {a : α} (h : x s = .ok s' a) :
    (x >>= f) s = f a s' := by rw [bind_run, h]

theorem bind_throw {x : Prog σ α} {f : α → Prog σ β} {s s' : σ} {e : Exn} (h : x s = .throw s' e) :
    (x >>= f) s = .throw s' e := by rw [bind_run, h]

theorem bind_ub {x : Prog σ α} {f : α → Prog σ β} {s : σ} (h : x s = .ub) : (x >>= f) s = .ub := by
  rw [bind_run, h]

@[simp] theorem pure_run (a : α) (s : σ) : (pure a : Prog σ α) s = .ok s a := rfl
@[simp] theorem throw_run (e : Exn) (s : σ) : (throw e : Prog σ α) s = .throw s e := rfl
@[simp] theorem get_run (s : σ) : (get : Prog σ σ) s = .ok s s := rfl
@[simp] theorem modify_run (f : σ → σ) (s : σ) : modify f s = .ok (f s) () := rfl
@[simp] theorem lift_ok (a : α) (s : σ) : (lift (.ok a) : Prog σ α) s = .ok s a := rfl
@[simp] theorem lift_throw (e : Exn) (s : σ) : (lift (.throw e) : Prog σ α) s = .throw s e := rfl
@[simp] theorem lift_ub (s : σ) : (lift .ub : Prog σ α) s = .ub := rfl
theorem ite_run (c : Prop) [Decidable c] (x y : Prog σ α) (s : σ) :
    (if c then x else y) s = if c then x s else y s := by split <;> rfl

/-- A returned bind: both parts returned. -/
theorem bind_eq_ok {x : Prog σ α} {f : α → Prog σ β} {s s'' : σ} {b : β} (h : (x >>= f) s = .ok s'' b) :
    ∃ s' a, x s = .ok s' a ∧ f a s' = .ok s'' b := by
  rw [bind_run] at h
  match hx : x s, h with
  | .ok s' a, h => exact ⟨s', a, rfl, h⟩

end Prog

end Verif
