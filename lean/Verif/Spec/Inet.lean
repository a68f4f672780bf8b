import Verif.Spec.LogText

/-!
# Texts for IPv4 addresses
-/

namespace Verif.Spec

/-- All characters are digits of base `b`. -/
def DigitsOf (b : Nat) (t : List Char) : Prop := ∀ c ∈ t, ∃ d, digitValue c = some d ∧ d < b

/-- The value of digits. -/
def valueOf (b : Nat) (t : List Char) : Nat := t.foldl (fun v c => v * b + (digitValue c).getD 0) 0

/-- A number as in C: decimal, octal after 0, hexadecimal after 0x. -/
inductive CNumber : List Char → Nat → Prop
  | dec (t : List Char) : t ≠ [] → t.head? ≠ some '0' → DigitsOf 10 t → CNumber t (valueOf 10 t)
  | oct (t : List Char) : DigitsOf 8 t → CNumber ('0' :: t) (valueOf 8 t)
  | hex (x : Char) (t : List Char) : x = 'x' ∨ x = 'X' → t ≠ [] → DigitsOf 16 t → CNumber ('0' :: x :: t) (valueOf 16 t)

/-- White space. -/
def Space (c : Char) : Prop := c ∈ [' ', '\t', '\n', '\x0b', '\x0c', '\r']

/-- Numbers separated by dots, and then nothing, or a space and anything. -/
inductive HostNumbers : List Char → List Nat → Prop
  | last (t : List Char) (v : Nat) (tail : List Char) : CNumber t v → (∀ c, tail.head? = some c → Space c) →
      HostNumbers (t ++ tail) [v]
  | more (t : List Char) (v : Nat) (rest : List Char) (vs : List Nat) : CNumber t v → HostNumbers rest vs →
      HostNumbers (t ++ '.' :: rest) (v :: vs)

/-- A number in `n` bytes, the most significant first. -/
def bigEndian : Nat → Nat → List Nat
  | 0, _ => []
  | n + 1, v => bigEndian n (v / 256) ++ [v % 256]

/-- The bytes of the address: up to four numbers, the last of which fills the bytes that are left. -/
def addressOf : List Nat → Option (List Nat)
  | [d] => if d < 2 ^ 32 then some (bigEndian 4 d) else none
  | [a, d] => if a < 256 ∧ d < 2 ^ 24 then some (a :: bigEndian 3 d) else none
  | [a, b, d] => if a < 256 ∧ b < 256 ∧ d < 2 ^ 16 then some (a :: b :: bigEndian 2 d) else none
  | [a, b, c, d] => if a < 256 ∧ b < 256 ∧ c < 256 ∧ d < 256 then some [a, b, c, d] else none
  | _ => none

/-- What C takes for the text: all before the first zero character. -/
def cText (s : String) : List Char := s.toList.takeWhile (· ≠ '\x00')

/-- The usual text of an address. -/
def dottedText (a b c d : Nat) : String := toString a ++ "." ++ toString b ++ "." ++ toString c ++ "." ++ toString d

/-- A number with leading zeros up to three digits. -/
def padded (n : Nat) : String :=
  if n < 10 then "00" ++ toString n else if n < 100 then "0" ++ toString n else toString n

/-- Four numbers with leading zeros, as on the displays of devices: 192.168.001.010. -/
def paddedText (a b c d : Nat) : String := padded a ++ "." ++ padded b ++ "." ++ padded c ++ "." ++ padded d

end Verif.Spec
