import Verif.Model.LogText

/-!
# How a person or a script reads a log

Numbers are looked for after a label, and end where the digits end.
-/

namespace Verif.Spec

open Verif

/-- The value of a digit. -/
def digitValue (c : Char) : Option Nat :=
  if '0'.toNat ≤ c.toNat ∧ c.toNat ≤ '9'.toNat then some (c.toNat - '0'.toNat)
  else if 'a'.toNat ≤ c.toNat ∧ c.toNat ≤ 'f'.toNat then some (c.toNat - 'a'.toNat + 10)
  else if 'A'.toNat ≤ c.toNat ∧ c.toNat ≤ 'F'.toNat then some (c.toNat - 'A'.toNat + 10)
  else none

/-- The digits at the beginning of a text, in base `b`. -/
def leadingDigits (b : Nat) : List Char → List Nat
  | [] => []
  | c :: cs =>
    match digitValue c with
    | some d => if d < b then d :: leadingDigits b cs else []
    | none => []

/-- The number at the beginning of a text. -/
def numeral (b : Nat) (t : List Char) : Option Nat :=
  match leadingDigits b t with
  | [] => none
  | ds => some (ds.foldl (fun v d => v * b + d) 0)

/-- The text after the first place where the label is. -/
def textAfter (label : List Char) : List Char → Option (List Char)
  | [] => none
  | c :: cs => if label.isPrefixOf (c :: cs) then some ((c :: cs).drop label.length) else textAfter label cs

/-- The decimal number after a label. -/
def decAfter (label : String) (t : List Char) : Option Nat := (textAfter label.toList t).bind (numeral 10)

/-- The hexadecimal number after a label. -/
def hexAfter (label : String) (t : List Char) : Option Nat := (textAfter label.toList t).bind (numeral 16)

/-- The hexadecimal numbers after all places where the label is. -/
def allHexAfter (label : String) : List Char → List Nat
  | [] => []
  | c :: cs =>
    (if label.toList.isPrefixOf (c :: cs) then (numeral 16 ((c :: cs).drop label.toList.length)).toList else []) ++
      allHexAfter label cs

/-- The messages that tell of something lost, refused or ended, with what they begin with. -/
def trouble : LogLine → Option String
  | .status _ => some "[ERROR] "
  | .exists_ _ => some "[ERROR] "
  | .unknownFrom _ => some "[ERROR] "
  | .closeFailed _ => some "[WARNING] "
  | .alreadyClosed => some "[WARNING] "
  | .wrongSizeIn _ _ _ => some "[WARNING] "
  | .wrongSizeOut _ _ _ => some "[WARNING] "
  | .timedOut _ => some "[WARNING] "
  | .tcpShort _ _ _ => some "[WARNING] "
  | _ => none

/-- Does a listener of a connection get data in these events? -/
def toldListener (evs : List MEv) : Prop := ∃ id op es h q d, MEv.conn id op es ∈ evs ∧ IoEv.received h q d ∈ es

end Verif.Spec
