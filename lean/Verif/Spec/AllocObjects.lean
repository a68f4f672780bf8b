import Verif.Spec.Alloc
import Verif.Model.AllocObjects

/-!
# Running out of memory in discovery and in the objects: vocabulary
-/

namespace Verif.Spec

/-- The outcome of a call on states that are `emb` of a state and the allocations to come. -/
def inMemory {σ σA α : Type} (emb : σ → List Bool → σA) (fails : List Bool) : Res σ α → Res σA α
  | .ok s a => .ok (emb s fails) a
  | .throw s e => .throw (emb s fails) e
  | .ub => .ub

/-- Of a call that is made with the allocations `fails` to come and comes to `ra`: no allocation that it made failed, and then it came to
`r`, its outcome when there is memory; or the last allocation that it made failed, and it threw `std::bad_alloc` in a state with `R`. -/
def Falls {σ σA α : Type} (emb : σ → List Bool → σA) (R : σ → Prop) (fails : List Bool) (ra : Res σA α) (r : Res σ α) : Prop :=
  (∃ k rest, fails = List.replicate k false ++ rest ∧ ra = inMemory emb rest r) ∨
  ∃ k rest s, fails = List.replicate k false ++ true :: rest ∧ ra = .throw (emb s rest) .badAlloc ∧ R s

/-- A device behind code that allocates: each request has its outcome or fails for want of memory. -/
def Scarcely {δ : Type} (DA : Device (Scarce δ)) (D : Device δ) : Prop :=
  ∀ r d fails, Falls Scarce.mk (fun _ => True) fails (DA.answer r ⟨d, fails⟩) (D.answer r d)

/-- A link to a device, with the allocations to come. -/
def linkIn {δ : Type} (L : Link δ) (fails : List Bool) : Link (Scarce δ) := ⟨⟨L.dev, fails⟩, L.sent⟩

/-- An object and a link. -/
def objectIn {ο δ : Type} (s : ο × Link δ) (fails : List Bool) : ο × Link (Scarce δ) := (s.1, linkIn s.2 fails)

/-- The state after a call, if it returned or threw. -/
def finalOf {σ α : Type} : Res σ α → Option σ
  | .ok s _ => some s
  | .throw s _ => some s
  | .ub => none

/-- The requests made so far are more than `sent`, and not more than at the end of a call that comes to `r`. -/
def Begun {δ α : Type} (sent : List Req) (r : Res (Link δ) α) (L : Link δ) : Prop :=
  sent <+: L.sent ∧ ∀ L', finalOf r = some L' → L.sent <+: L'.sent

/-- A client that calls `handleFaultParameters` at most so many times: again when it throws `std::bad_alloc`. -/
def retryFaults {δ : Type} (rnd : Rat → Rat) (pow : Nat → Rat) (m : Mem) (D : Device (Scarce δ)) (M : PowerFlex.FaultManager) :
    Nat → Prog (List PowerFlex.FaultInformation × Link (Scarce δ)) Unit
  | 0 => Prog.throw .badAlloc
  | n + 1 => fun s =>
    match PowerFlex.handleFaultParametersA rnd pow m D M s with
    | .throw s' .badAlloc => retryFaults rnd pow m D M n s'
    | r => r

/-- How `discover` ended. -/
def discoveryEnd {σ : Type} : Res σ (Option (List IdentityItem)) → Discovery.DiscRes
  | .ok _ (some devices) => .done devices
  | .ok _ none => .waiting
  | .throw _ e => .threw e
  | .ub => .ub

end Verif.Spec
