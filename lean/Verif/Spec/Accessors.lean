/-!
# Specification of setters

What a getter returns after a series of setter calls.
-/

namespace Verif.Spec

/-- The value given by the last call that `pick`s one, `init` if none does. -/
def lastSet {σ α : Type} (pick : σ → Option α) (init : α) : List σ → α
  | [] => init
  | s :: ss => lastSet pick ((pick s).getD init) ss

end Verif.Spec
