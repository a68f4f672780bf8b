import Verif.Spec.Net

/-!
# Specification: when the bytes of a stream arrive
-/

namespace Verif.Spec

/-- Each event comes at most `t` after the one before it (or after `now`). -/
def Prompt (t : Nat) : Nat → List (Nat × NetEv) → Prop
  | _, [] => True
  | now, (a, _) :: net => a ≤ now + t ∧ Prompt t (max now a) net

/-- The time when all of these events have arrived, not before `now`. -/
def latest : Nat → List (Nat × NetEv) → Nat
  | now, [] => now
  | now, (a, _) :: net => latest (max now a) net

/-- The peer neither closed the connection nor did a call fail: bytes and interruptions only. -/
def BytesOnly (net : List (Nat × NetEv)) : Prop := ∀ x ∈ net, ∀ c, x.2 ≠ .err c ∧ x.2 ≠ .eof

/-- Nothing comes in the time `t` after `now`. -/
def SilentFor (t now : Nat) (net : List (Nat × NetEv)) : Prop := ∀ x, net.head? = some x → now + t < x.1

/-- The bytes, without the times. -/
def bytesOf (net : List (Nat × NetEv)) : List (BitVec 8) := (stream (net.map (·.2))).1

/-- One byte every `t`, the first at `now + t`. -/
def drip (t : Nat) : Nat → List (BitVec 8) → List (Nat × NetEv)
  | _, [] => []
  | now, b :: bs => (now + t, .seg b []) :: drip t (now + t) bs

end Verif.Spec
