import Verif.Model.AllocLog
import Verif.Spec.Log
import Verif.Spec.LogText

/-!
# Running out of memory in the log: vocabulary
-/

namespace Verif.Spec

/-- The text of a statement when there is memory. -/
def fullText (ps : List (Piece × Short)) : List Char := OStream.render (ps.map fun p => p.1.inserted)

/-- There is memory for all insertions. -/
def Ample (ps : List (Piece × Short)) : Prop := ∀ p ∈ ps, p.2 = .enough

/-- There is no memory for a string that is made for the statement. -/
def Unmade (ps : List (Piece × Short)) : Prop := ∃ s, (Piece.made s, Short.making) ∈ ps

/-- A message with its insertions, and where memory is missing for them. -/
def messageIn (l : LogLine) (shorts : Nat → Short) : List (Piece × Short) := l.pieces.zipIdx.map fun x => (x.1, shorts x.2)

/-- The state of the log after a statement. -/
def logAfter : Res LogsA Unit → Option LogsA
  | .ok s _ => some s
  | .throw s _ => some s
  | .ub => none

end Verif.Spec
