import Verif.Spec.File
import Verif.Model.Alloc

/-!
# Running out of memory: vocabulary

What a call has done, apart from memory; a device that is asked with allocations around it; a device that sends a packet again.
-/

namespace Verif.Spec

/-- The outcome of a call, with so many allocations to come. -/
def withFails {σ α : Type} (fails : List Bool) : Res σ α → Res (Scarce σ) α
  | .ok s a => .ok ⟨s, fails⟩ a
  | .throw s e => .throw ⟨s, fails⟩ e
  | .ub => .ub

/-- A device that is asked through code that allocates before the request is sent and after the answer was taken. -/
def scarce {δ : Type} (D : Device δ) : Device (Scarce δ) :=
  ⟨fun r => do alloc; let resp ← noAlloc (D.answer r); alloc; pure resp⟩

/-- A device that sends the packets of a file in order, and the packet it sent last once more when asked for it
again.  `served k d`: in state `d` the device has sent packets 0 to k - 1. -/
structure Resends {δ : Type} (D : Device δ) (inst : BitVec 16) (parts : FileParts) (served : Nat → δ → Prop) : Prop where
  next : ∀ k d req ans, (fileTransfers inst parts.crc 0 parts.chunks parts.last)[k]? = some (req, ans) → served k d →
    ∃ d' resp, D.answer req d = .ok d' resp ∧ resp.status = 0x00#8 ∧ resp.data = ans ∧ served (k + 1) d'
  again : ∀ k d req ans, (fileTransfers inst parts.crc 0 parts.chunks parts.last)[k]? = some (req, ans) → served (k + 1) d →
    ∃ d' resp, D.answer req d = .ok d' resp ∧ resp.status = 0x00#8 ∧ resp.data = ans ∧ served (k + 1) d'

/-- A client that calls `handleTransfers` at most so many times, until it returns false, and calls it again when it
throws `std::bad_alloc`. -/
def retry {δ : Type} (m : Mem) (D : Device (Scarce δ)) : Nat → Prog (FileObject × Link (Scarce δ)) Unit
  | 0 => pure ()
  | n + 1 => fun s =>
    match FileObject.handleTransfersA m D s with
    | .ok s' true => retry m D n s'
    | .ok s' false => .ok s' ()
    | .throw s' .badAlloc => retry m D n s'
    | .throw s' e => .throw s' e
    | .ub => .ub

end Verif.Spec
