import Verif.Model.ExamplesMore
import Verif.Spec.Object

/-!
# Specification: the Yaskawa, identity and discovery examples
-/

namespace Verif.Spec

open Verif Verif.Examples

/-- Read the data (attribute 3) of an assembly (class 4). -/
def yReadReq (inst : BitVec 8) : YReq := ⟨0x0E#8, ⟨4, inst, 3, 3⟩, []⟩
/-- Write 128 bytes 0xDE to the data of assembly 0x6F. -/
def yWriteReq : YReq := ⟨0x10#8, ⟨4, 0x6F, 3, 3⟩, List.replicate 128 0xDE#8⟩

/-- The line about a read that was answered with `r`, if `n` bytes are read. -/
def yReadLine (n : Nat) (r : MessageRouterResponse) : YLine :=
  if r.status = 0x00#8 then .read n (r.data.headD 0#8) else .notRead r.status

/-- The line about a write that was answered with `r`. -/
def yWriteLine (r : MessageRouterResponse) : YLine := if r.status = 0x00#8 then .written else .notWritten r.status

/-- A success reply with fewer than `n` bytes. -/
def YShort (n : Nat) (r : MessageRouterResponse) : Prop := r.status = 0x00#8 ∧ r.data.length < n

/-- Requests that were made one after the other and all answered. -/
inductive YAnswered {δ : Type} (D : YDevice δ) : δ → List (YReq × MessageRouterResponse) → δ → Prop where
  | nil (d : δ) : YAnswered D d [] d
  | cons {d d1 d2 : δ} {q : YReq} {r : MessageRouterResponse} {rest : List (YReq × MessageRouterResponse)} :
      D.answer q d = .ok d1 r → YAnswered D d1 rest d2 → YAnswered D d ((q, r) :: rest) d2

/-- What the identity example prints of an identity. -/
def identityPrinted (i : Identity) : Nat × Nat × Nat × String × Nat × Nat × List (BitVec 8) :=
  (i.vendor, i.deviceType, i.productCode, s!"{i.major}.{i.minor}", i.status, i.serial, i.name)

/-- What the discovery example prints of a device. -/
def foundPrinted (f : Found) : List (BitVec 8) × String := (f.identity.name, s!"{f.host}:{f.port}")

end Verif.Spec
