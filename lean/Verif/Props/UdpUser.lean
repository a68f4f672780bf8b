import Verif.Spec.UdpUser
import Verif.Props.Inet

/-!
# C112: UDP sockets used directly
-/

namespace Verif.Props

open Verif Verif.Spec Verif.UdpUser

theorem filled_sees (n : Nat) (d : List Byte) : (filled n d).length = n ∧ ∀ k, k < n → (filled n d).getD k 0 = d.getD k 0 := by
  constructor
  · simp [filled]; omega
  · intro k hk
    simp only [filled, List.getD_eq_getElem?_getD, List.getElem?_append, List.length_take, List.getElem?_replicate,
      List.getElem?_take]
    split
    · simp
    · next h =>
      rw [List.getElem?_eq_none (show d.length ≤ k by omega)]
      split <;> rfl

/-- C112: the calls that receive take the arrivals one by one, in their order; each sees its arrival, cut or filled with
zeros to the number of bytes it asked for, and what was cut off is not seen by the next.  The rest stays in the queue. -/
theorem C112_order (ops : List UdpUser.Op) (s s' : St) (seen : List Seen) (h : UdpUser.run s ops = some (s', seen)) :
    ∃ taken, s.queue = taken ++ s'.queue ∧ SeenInOrder ops taken seen := by
  induction ops generalizing s seen with
  | nil => cases h; exact ⟨[], rfl, rfl, rfl⟩
  | cons op ops ih =>
    simp only [UdpUser.run] at h
    cases hs : UdpUser.step s op with
    | none => rw [hs] at h; cases h
    | some r =>
      obtain ⟨s1, e⟩ := r
      rw [hs] at h
      dsimp only at h
      cases hr : UdpUser.run s1 ops with
      | none => rw [hr] at h; cases h
      | some r =>
        obtain ⟨s2, es⟩ := r
        rw [hr] at h
        cases h
        obtain ⟨taken, h2, h3⟩ := ih s1 es hr
        have tk : Op.takes op = true → ∀ a, s.queue = a :: s1.queue → Sees (Op.asks op) a e →
            ∃ taken, s.queue = taken ++ s2.queue ∧ SeenInOrder (op :: ops) taken (e :: es) := by
          intro hn a hq hsee
          refine ⟨a :: taken, by rw [hq, h2]; rfl, e, es, rfl, ?_⟩
          rw [if_pos hn]
          exact ⟨a, taken, rfl, hsee, h3⟩
        have nt : Op.takes op = false → s1.queue = s.queue →
            ∃ taken, s.queue = taken ++ s2.queue ∧ SeenInOrder (op :: ops) taken (e :: es) := by
          intro hn hq
          refine ⟨taken, by rw [← hq, h2], e, es, rfl, ?_⟩
          rw [if_neg (by simp [hn])]
          exact h3
        cases op with
        | receive n =>
          simp only [UdpUser.step, UdpUser.receive] at hs
          split at hs
          · cases hs
          · next c q hq => cases hs; exact tk rfl _ hq rfl
          · next d x q hq => cases hs; exact tk rfl _ hq (filled_sees n d)
        | receiveFrom n =>
          simp only [UdpUser.step, UdpUser.receiveFrom] at hs
          split at hs
          · cases hs
          · next c q hq => cases hs; exact tk rfl _ hq rfl
          · next d x q hq => cases hs; exact tk rfl _ hq (filled_sees n d)
        | reply d => cases hs; exact nt rfl rfl
        | replyByName d => cases hs; exact nt rfl rfl

/-- C112: after a datagram has been taken with its sender, a reply goes to the address and port of the sender, whether the
socket is made of the end point or of its host and port, and whatever is received without sender, or fails, in between. -/
theorem C112_reply (s s1 s2 : St) (n : Nat) (d : List Byte) (sender : SockAddr) (q : List UdpUser.Arrival) (e : Seen) (ops : List UdpUser.Op)
    (seen : List Seen) (hq : s.queue = .dgram d sender :: q) (h1 : UdpUser.step s (.receiveFrom n) = some (s1, e))
    (h2 : UdpUser.run s1 ops = some (s2, seen)) (ho : ∀ op ∈ ops, ∀ k, op ≠ .receiveFrom k) (data : List Byte) :
    UdpUser.step s2 (.reply data) = some (s2, .sent sender data) ∧
    ∃ to, UdpUser.step s2 (.replyByName data) = some (s2, .sent to data) ∧ to.addr = sender.addr ∧ to.port = sender.port := by
  have e1 : s1.ep = EndPoint.ofSockAddr sender := by
    simp only [UdpUser.step, UdpUser.receiveFrom, hq] at h1
    cases h1; rfl
  have key : ∀ ops s1 seen, UdpUser.run s1 ops = some (s2, seen) → (∀ op ∈ ops, ∀ k, op ≠ UdpUser.Op.receiveFrom k) → s2.ep = s1.ep := by
    intro ops
    induction ops with
    | nil => intro s1 seen h _; cases h; rfl
    | cons op ops ih =>
      intro s1 seen h ho
      simp only [UdpUser.run] at h
      cases hs : UdpUser.step s1 op with
      | none => rw [hs] at h; cases h
      | some r =>
        obtain ⟨s3, e⟩ := r
        rw [hs] at h
        dsimp only at h
        cases hr : UdpUser.run s3 ops with
        | none => rw [hr] at h; cases h
        | some r =>
          rw [hr] at h
          cases h
          rw [ih s3 _ hr fun op hop => ho op (by simp [hop])]
          cases op with
          | receive n =>
            simp only [UdpUser.step, UdpUser.receive] at hs
            split at hs <;> cases hs <;> rfl
          | receiveFrom n => exact absurd rfl (ho _ (by simp) n)
          | reply d => cases hs; rfl
          | replyByName d => cases hs; rfl
  have e2 := (key ops s1 seen h2 ho).trans e1
  refine ⟨by simp [UdpUser.step, e2, EndPoint.ofSockAddr], _, rfl, ?_⟩
  rw [e2]
  exact C110_round sender

/-- C112 violated: the length of a datagram is not seen.  Two datagrams are told apart by a call that asks for `n` bytes only if
they differ, with zeros after their ends, in the first `n` bytes. -/
theorem C112_length_violated (n : Nat) (ep : EndPoint) (q : List UdpUser.Arrival) (a b : List Byte) (x y : SockAddr) :
    (UdpUser.step ⟨.dgram a x :: q, ep⟩ (.receive n)).map (·.2) = (UdpUser.step ⟨.dgram b y :: q, ep⟩ (.receive n)).map (·.2) ↔
      ∀ k, k < n → a.getD k 0 = b.getD k 0 := by
  simp only [UdpUser.step, UdpUser.receive, Option.map_some, Option.some.injEq, Seen.got.injEq]
  obtain ⟨la, ha⟩ := filled_sees n a
  obtain ⟨lb, hb⟩ := filled_sees n b
  constructor
  · intro h k hk
    rw [← ha k hk, ← hb k hk, h]
  · intro h
    apply List.ext_getElem (by rw [la, lb])
    intro k h1 h2
    have hk : k < n := by omega
    have := (ha k hk).trans ((h k hk).trans (hb k hk).symm)
    simpa [List.getD_eq_getElem?_getD, List.getElem?_eq_getElem h1, List.getElem?_eq_getElem h2] using this

/-! ## Cases -/

/-- A datagram that is cut, an error, a datagram that is filled with zeros, and two replies. -/
example : UdpUser.run ⟨[.dgram [1, 2, 3] ⟨2, 0x1234, 0x0A00A8C0#32⟩, .err 104, .dgram [7] ⟨2, 1, 1⟩], EndPoint.ofHost Inet.host "" 0⟩
      [.receiveFrom 2, .receive 2, .receive 3, .reply [9], .replyByName [8]] =
    some (⟨[], ⟨"192.168.0.10", 0x3412, ⟨2, 0x1234, 0x0A00A8C0#32⟩⟩⟩,
      [.got [1, 2], .threw 104, .got [7, 0, 0], .sent ⟨2, 0x1234, 0x0A00A8C0#32⟩ [9], .sent ⟨2, 0x1234, 0x0A00A8C0#32⟩ [8]]) := by
  decide +kernel

end Verif.Props
