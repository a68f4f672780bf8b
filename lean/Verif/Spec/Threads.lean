import Verif.Model.Threads

/-!
# Specification of threads that share a session
-/

namespace Verif.Spec

open Verif.Threads

/-- What a call that is answered with this packet gives. -/
def gives (handle : BitVec 32) (p : EncapsPacket) : Outcome EncapsPacket :=
  if p.status ≠ 0#32 then .throw (.runtime "Bad encaps packet code")
  else if handle ≠ 0#32 ∧ p.sessionHandle ≠ handle then .throw (.runtime "Wrong session handle received")
  else .ok p

/-- Has the thread begun to receive a reply and not finished? -/
def midReply : Phase → Bool
  | .idle => false
  | .header got => !got.isEmpty
  | .body _ _ _ => true

/-- In this schedule something holds of every step and the state it is taken in. -/
def Always {δ : Type} (m : Mem) (handle : BitVec 32) (serve : δ → EncapsPacket → δ × EncapsPacket)
    (ok : Sys δ → Act → Prop) : Sys δ → List Act → Prop
  | _, [] => True
  | s, a :: as => ok s a ∧ ∀ s', step m handle serve s a = some s' → Always m handle serve ok s' as

/-- As if each call took a lock: a thread only sends when no thread is inside a call. -/
def Locked {δ : Type} (s : Sys δ) : Act → Prop
  | .send _ => ∀ j, (s.thr j).phase = .idle
  | _ => True

/-- As if receiving took a lock: a thread only receives when no other has part of a reply. -/
def WholeReplies {δ : Type} (s : Sys δ) : Act → Prop
  | .recv i _ => ∀ j, j ≠ i → midReply (s.thr j).phase = false
  | _ => True

/-- No receive timeout expires. -/
def NoTimeout (as : List Act) : Prop := ∀ i, Act.timeout i ∉ as

end Verif.Spec
