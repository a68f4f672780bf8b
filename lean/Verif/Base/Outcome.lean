/-!
# Outcomes of C++ computations

No project code is modelled here.  A computation of the modelled program ends
in one of three ways: it returns a value, it throws an exception, or it has
undefined behaviour.  Undefined behaviour is a separate outcome so that no
theorem can silently assume it away.
-/

namespace Verif

/-- A byte (`uint8_t`). -/
abbrev Byte := BitVec 8

/-- The exceptions thrown by the library and by the standard library functions
it calls.  The text of messages is not kept, only which `throw` it was. -/
inductive Exn where
  /-- `std::runtime_error` thrown by library code; the string names the site. -/
  | runtime (site : String)
  /-- `std::out_of_range`, thrown by `vector::at` and `map::at`. -/
  | outOfRange
  /-- `std::length_error`, thrown when a vector of impossible size is made. -/
  | lengthError
  /-- `std::system_error` with the given `errno`. -/
  | system (code : Int)
  /-- `std::bad_function_call` / failed `assert`: the process is aborted. -/
  | abort
  /-- `std::bad_alloc`, thrown when memory runs out (only in `Model/Alloc`). -/
  | badAlloc
deriving DecidableEq, Repr, BEq

/-- The outcome of a computation that keeps no state across exceptions. -/
inductive Outcome (α : Type u) where
  | ok (a : α)
  | throw (e : Exn)
  | ub
deriving Repr, DecidableEq

namespace Outcome

variable {α : Type u} {β : Type v}

@[inline] protected def bind (x : Outcome α) (f : α → Outcome β) : Outcome β :=
  match x with
  | .ok a => f a
  | .throw e => .throw e
  | .ub => .ub

instance : Monad Outcome where
  pure := .ok
  bind := Outcome.bind

@[simp] theorem pure_eq (a : α) : (pure a : Outcome α) = .ok a := rfl
@[simp] theorem ok_bind (a : α) {β : Type u} (f : α → Outcome β) : (Outcome.ok a >>= f) = f a := rfl
@[simp] theorem throw_bind (e : Exn) {β : Type u} (f : α → Outcome β) :
    ((Outcome.throw e : Outcome α) >>= f) = .throw e := rfl
@[simp] theorem ub_bind {β : Type u} (f : α → Outcome β) : ((Outcome.ub : Outcome α) >>= f) = .ub := rfl

/-- The computation returned normally. -/
def isOk : Outcome α → Bool
  | .ok _ => true
  | _ => false

/-- The computation threw an exception. -/
def isThrow : Outcome α → Bool
  | .throw _ => true
  | _ => false

/-- The computation has undefined behaviour. -/
def isUb : Outcome α → Bool
  | .ub => true
  | _ => false

end Outcome

/-- What a read outside the bounds of a vector does.  `none`: undefined
behaviour from there on.  `some b`: the stray read at that index happens to
return `b` and the program goes on.  Theorems quantified over every `Mem` hold
whatever the memory after the vector contains. -/
abbrev Mem := Nat → Option Byte

/-- The reading of the C++ standard: a stray read is undefined behaviour. -/
def Mem.strict : Mem := fun _ => none

/-- A memory in which every stray read returns some byte. -/
def Mem.Lenient (m : Mem) : Prop := ∀ i, ∃ b, m i = some b

/-- The outcome of a computation over a state that survives exceptions. -/
inductive Res (σ : Type u) (α : Type v) where
  | ok (s : σ) (a : α)
  | throw (s : σ) (e : Exn)
  | ub
deriving Repr, DecidableEq

end Verif
