import Verif.Spec.Wire

/-!
# Specification: EtherNet/IP encapsulation and common packet format

Written from CIP Volume 2, chapter 2 (encapsulation header; common packet
format).  Integers are natural numbers here; nothing refers to the model.
-/

namespace Verif.Spec

/-- The 24-byte encapsulation header followed by the payload. -/
def encapsFrame (command session status : Nat) (context : List (BitVec 8)) (options : Nat)
    (payload : List (BitVec 8)) : List (BitVec 8) :=
  le 2 command ++ le 2 payload.length ++ le 4 session ++ le 4 status ++ context ++ le 4 options ++ payload

/-- One item: type, length, data. -/
def cpfItem (type : Nat) (data : List (BitVec 8)) : List (BitVec 8) :=
  le 2 type ++ le 2 data.length ++ data

/-- A common packet: item count, then the items. -/
def cpf (items : List (Nat × List (BitVec 8))) : List (BitVec 8) :=
  le 2 items.length ++ items.flatMap fun i => cpfItem i.1 i.2

/-- The limits within which the format can express a list of items. -/
def CpfFits (items : List (Nat × List (BitVec 8))) : Prop :=
  items.length < 65536 ∧ ∀ i ∈ items, i.1 < 65536 ∧ i.2.length < 65536

/-- The grammar of accepted inputs: a count, complete items, and a rest.  Either
as many items as counted were found, or the input ended exactly after an item. -/
def CpfAccepts (data : List (BitVec 8)) (items : List (Nat × List (BitVec 8))) : Prop :=
  ∃ count tail, count < 65536 ∧ data = le 2 count ++ (items.flatMap (fun i => cpfItem i.1 i.2) ++ tail)
    ∧ items.length ≤ count ∧ (items.length = count ∨ tail = [])
    ∧ ∀ i ∈ items, i.1 < 65536 ∧ i.2.length < 65536

end Verif.Spec
