import Verif.Model.RecvTime
import Verif.Spec.Descriptors
import Verif.Props.Discovery

/-!
# Property C87: the socket and the time of discovery
-/

namespace Verif.Props

open Verif Verif.Spec

/-- Did the function return to its caller? -/
def discReturned : Discovery.DiscRes → Bool
  | .done _ => true
  | .threw _ => true
  | _ => false

theorem erase_head (x : Nat) (l : List Nat) : (x :: l).erase x = l := by simp

/-- C87. With its descriptor, `discover` ends as it does without (C52, C53). -/
theorem C87_refines (m : Mem) (alloc : Alloc) (ep : EndPoint) (ms : Int) (e : Discovery.Env) (s : Fds) :
    (Discovery.discoverFd m alloc ep ms e s).2 = (Discovery.discover m e).2 := by
  obtain ⟨se, be, cnt, recvs⟩ := e
  cases se with
  | some code => rfl
  | none =>
    cases be with
    | some code => rfl
    | none =>
      simp only [Discovery.discoverFd, Discovery.makeSocket, udpOpen, Discovery.discover]
      cases h : udpSendThrows EncapsPacketFactory.listIdentity.pack cnt
      · simp only [Bool.false_eq_true, if_false]
        cases Discovery.loop m [] recvs <;> rfl
      · rfl

/-- The calls of `discover` on the system, when it got a descriptor and permission to broadcast. -/
def discCalls (fd : Nat) (ep : EndPoint) (ms : Int) : List FdCall :=
  [.socket fd, .rcvTimeout fd (makePortableInterval ms), .broadcast fd,
    .sendto fd ep.addr (encapsFrame 0x63 0 0 (List.replicate 8 0#8) 0 [])]

/-- C87. What `discover` asks of the system, in every case: nothing before the socket, the receive
timeout and the permission to broadcast before the request, one request to the broadcast address,
and the socket closed exactly when the function returns or throws. -/
theorem C87_calls (m : Mem) (alloc : Alloc) (ep : EndPoint) (ms : Int) (e : Discovery.Env) (s : Fds) :
    let fd := alloc s.opened
    let r := Discovery.discoverFd m alloc ep ms e s
    r.1.calls = s.calls ++
      (match e.sockErr, e.broadcastErr with
      | some _, _ => [.socketFailed]
      | none, some _ => (discCalls fd ep ms).take 3 ++ [.shutdown fd, .close fd]
      | none, none => discCalls fd ep ms ++ (if discReturned r.2 then [.shutdown fd, .close fd] else [])) := by
  obtain ⟨se, be, cnt, recvs⟩ := e
  cases se with
  | some code => rfl
  | none =>
    cases be with
    | some code => simp [Discovery.discoverFd, Discovery.makeSocket, udpOpen, udpClose, Fds.note, Fds.add, Fds.remove, discCalls]
    | none =>
      simp only [Discovery.discoverFd, Discovery.makeSocket, udpOpen, C10_listIdentity]
      cases h : udpSendThrows (encapsFrame 0x63 0 0 (List.replicate 8 0#8) 0 []) cnt
      · simp only [Bool.false_eq_true, if_false]
        cases Discovery.loop m [] recvs <;>
          simp [udpClose, Fds.note, Fds.add, Fds.remove, discCalls, discReturned]
      · simp [udpClose, Fds.note, Fds.add, Fds.remove, discCalls, discReturned]

theorem discover_opened (m : Mem) (alloc : Alloc) (ep : EndPoint) (ms : Int) (e : Discovery.Env) (s : Fds) :
    (Discovery.discoverFd m alloc ep ms e s).1.opened =
      if discReturned (Discovery.discoverFd m alloc ep ms e s).2 then s.opened else alloc s.opened :: s.opened := by
  obtain ⟨se, be, cnt, recvs⟩ := e
  cases se with
  | some code => rfl
  | none =>
    cases be with
    | some code => simp [Discovery.discoverFd, Discovery.makeSocket, udpOpen, udpClose, Fds.note, Fds.add, Fds.remove, discReturned]
    | none =>
      simp only [Discovery.discoverFd, Discovery.makeSocket, udpOpen]
      cases h : udpSendThrows EncapsPacketFactory.listIdentity.pack cnt
      · simp only [Bool.false_eq_true, if_false]
        cases Discovery.loop m [] recvs <;>
          simp [udpClose, Fds.note, Fds.add, Fds.remove, discReturned]
      · simp [udpClose, Fds.note, Fds.add, Fds.remove, discReturned]

/-- C87. Every call is right, if the system never gives a descriptor that is in use; and when
`discover` has returned or thrown, the process has the descriptors that it had before. -/
theorem C87_descriptor (m : Mem) (alloc : Alloc) (hf : ∀ l, alloc l ∉ l) (ep : EndPoint) (ms : Int) (e : Discovery.Env)
    (s : Fds) (l0 : List Nat) (hs : replay l0 s.calls = some s.opened) :
    let r := Discovery.discoverFd m alloc ep ms e s
    replay l0 r.1.calls = some r.1.opened ∧
    r.1.opened = if discReturned r.2 then s.opened else alloc s.opened :: s.opened := by
  have hopened := discover_opened m alloc ep ms e s
  have happ : ∀ (a : List Nat) (xs ys : List FdCall) (b : List Nat), replay a xs = some b → replay a (xs ++ ys) = replay b ys := by
    intro a xs
    induction xs generalizing a with
    | nil => intro ys b h; simp [replay] at h; simp [h]
    | cons x xs ih =>
      intro ys b h
      simp only [replay, List.cons_append] at h ⊢
      cases h1 : fdStep a x with
      | none => simp [h1] at h
      | some a' => simp only [h1] at h ⊢; exact ih a' ys b h
  refine ⟨?_, hopened⟩
  rw [hopened, C87_calls m alloc ep ms e s, happ _ _ _ _ hs]
  obtain ⟨se, be, cnt, recvs⟩ := e
  have hfr := hf s.opened
  cases se with
  | some code =>
    simp [replay, fdStep, Discovery.discoverFd, Discovery.makeSocket, udpOpen, discReturned]
  | none =>
    cases be with
    | some code =>
      simp [replay, fdStep, Discovery.discoverFd, Discovery.makeSocket, udpOpen, discReturned, hfr, discCalls]
    | none =>
      simp only
      cases discReturned (Discovery.discoverFd m alloc ep ms ⟨none, none, cnt, recvs⟩ s).2 <;>
        simp [replay, fdStep, hfr, discCalls]

/-! ## Time -/

theorem limit_pos (ms : Int) (h : 0 < ms) : Discovery.rcvLimit (makePortableInterval ms) = some (ms.toNat * 1000) := by
  obtain ⟨n, rfl⟩ := Int.eq_ofNat_of_zero_le (Int.le_of_lt h)
  have h1 : makePortableInterval (n : Int) = (((n / 1000 : Nat) : Int), ((n % 1000 * 1000 : Nat) : Int)) := by
    unfold makePortableInterval
    rw [Int.tdiv_eq_ediv_of_nonneg (by omega), Int.tmod_eq_emod_of_nonneg (by omega)]
    ext
    · simp only; omega
    · simp only; omega
  rw [h1]
  unfold Discovery.rcvLimit
  rw [if_neg]
  · simp only [Int.toNat_natCast, Option.some.injEq]
    omega
  · intro h2
    rw [Prod.mk.injEq] at h2
    omega

theorem limit_zero (ms : Int) (h : ms ≤ 0) : Discovery.rcvLimit (makePortableInterval ms) = none := by
  have h1 : makePortableInterval ms = (0, 0) := by
    unfold makePortableInterval
    have := Int.tdiv_nonneg (a := -ms) (b := 1000) (by omega) (by omega)
    have := Int.tmod_nonneg (a := -ms) 1000 (by omega)
    have := Int.neg_tdiv ms 1000
    have := Int.neg_tmod ms 1000
    ext
    · simp only; omega
    · simp only; omega
  rw [h1]
  rfl

/-- The datagrams that have arrived by the time `e`. -/
def arrivedBy (arrivals : List (Nat × List Byte)) (e : Nat) : List (Nat × List Byte) := arrivals.filter (fun x => decide (x.1 ≤ e))

theorem timed_spec (t : Nat) (busy : Nat → Nat) (arr : List (Nat × List Byte)) (hs : arr.Pairwise (fun x y => x.1 ≤ y.1)) (i now : Nat) :
    ∃ e, Discovery.timedRecvs (some t) busy i now arr =
        ((arrivedBy arr e).map (fun x => Recv.dgram x.2) ++ [.err 11], some e) ∧ now + t ≤ e := by
  induction arr generalizing i now with
  | nil => exact ⟨now + t, rfl, Nat.le_refl _⟩
  | cons x rest ih =>
    obtain ⟨a, d⟩ := x
    rw [List.pairwise_cons] at hs
    simp only [Discovery.timedRecvs]
    by_cases h : a ≤ now + t
    · rw [if_pos h]
      obtain ⟨e, h1, h2⟩ := ih hs.2 (i + 1) (max now a + busy i)
      refine ⟨e, ?_, by omega⟩
      rw [h1]
      have h3 : a ≤ e := by omega
      simp [arrivedBy, h3]
    · rw [if_neg h]
      refine ⟨now + t, ?_, Nat.le_refl _⟩
      have h4 : arrivedBy ((a, d) :: rest) (now + t) = [] := by
        unfold arrivedBy
        rw [List.filter_eq_nil_iff]
        intro y hy
        rw [List.mem_cons] at hy
        simp only [decide_eq_true_eq]
        rcases hy with rfl | hy
        · exact h
        · have := hs.1 y hy
          simp only at this
          omega
      rw [h4]
      rfl

theorem timed_forever (busy : Nat → Nat) (arr : List (Nat × List Byte)) (i now : Nat) :
    Discovery.timedRecvs none busy i now arr = (arr.map (fun x => Recv.dgram x.2), none) := by
  induction arr generalizing i now with
  | nil => rfl
  | cons x rest ih => simp only [Discovery.timedRecvs, ih, List.map_cons]

theorem timed_quiet (t : Nat) (arr : List (Nat × List Byte)) (hs : arr.Pairwise (fun x y => x.1 ≤ y.1)) (i now e : Nat)
    (he : (Discovery.timedRecvs (some t) (fun _ => 0) i now arr).2 = some e) :
    (∀ x ∈ arr, x.1 ≤ now ∨ x.1 + t ≤ e ∨ e < x.1) ∧
    ∀ e', now + t ≤ e' → e' < e → ∃ x ∈ arr, e' < x.1 + t ∧ x.1 ≤ e' := by
  induction arr generalizing i now with
  | nil =>
    simp [Discovery.timedRecvs] at he
    exact ⟨by simp, fun e' h1 h2 => by omega⟩
  | cons x rest ih =>
    obtain ⟨a, d⟩ := x
    rw [List.pairwise_cons] at hs
    simp only [Discovery.timedRecvs] at he
    by_cases h : a ≤ now + t
    · rw [if_pos h] at he
      simp only [Nat.add_zero] at he
      obtain ⟨h1, h2⟩ := ih hs.2 (i + 1) (max now a) he
      obtain ⟨e0, h3, h4⟩ := timed_spec t (fun _ => 0) rest hs.2 (i + 1) (max now a)
      rw [h3] at he
      simp only [Option.some.injEq] at he
      subst he
      refine ⟨fun y hy => ?_, fun e' h5 h6 => ?_⟩
      · rw [List.mem_cons] at hy
        rcases hy with rfl | hy
        · simp only; omega
        · have := hs.1 y hy
          have := h1 y hy
          simp only at *
          omega
      · by_cases h7 : max now a + t ≤ e'
        · obtain ⟨y, hy, h8⟩ := h2 e' h7 h6
          exact ⟨y, List.mem_cons_of_mem _ hy, h8⟩
        · exact ⟨(a, d), List.mem_cons_self, by simp only; omega, by simp only; omega⟩
    · rw [if_neg h] at he
      simp only [Option.some.injEq] at he
      subst he
      refine ⟨fun y hy => ?_, fun e' h1 h2 => by omega⟩
      rw [List.mem_cons] at hy
      rcases hy with rfl | hy
      · simp only; omega
      · have := hs.1 y hy
        simp only at this
        omega

theorem discoverAt_res (m : Mem) (alloc : Alloc) (ep : EndPoint) (ms : Int) (busy : Nat → Nat) (start : Nat)
    (arr : List (Nat × List Byte)) (s : Fds) :
    (Discovery.discoverAt m alloc ep ms busy start arr s).2 =
      ((discoverGets m (Discovery.timedRecvs (Discovery.rcvLimit (makePortableInterval ms)) busy 0 start arr).1).2,
       (Discovery.timedRecvs (Discovery.rcvLimit (makePortableInterval ms)) busy 0 start arr).2) := by
  unfold Discovery.discoverAt discoverGets
  simp only
  rw [C87_refines]

/-- The datagram `d`, arriving at time `a`, announces these items. -/
def TimedAnswers (arr : List (Nat × List Byte)) (its : List Byte → List (Nat × List Byte)) : Prop :=
  ∀ x ∈ arr, Announces x.2 (its x.2)

/-- C87. With a positive timeout, however long the scanner takes between two receives: discovery
returns at some time `e`, not before the timeout has passed, and it returns exactly the devices
whose answers had arrived by then, in order of arrival. -/
theorem C87_returns (m : Mem) (alloc : Alloc) (ep : EndPoint) (ms : Int) (hms : 0 < ms) (busy : Nat → Nat) (start : Nat)
    (arr : List (Nat × List Byte)) (hsort : arr.Pairwise (fun x y => x.1 ≤ y.1))
    (its : List Byte → List (Nat × List Byte)) (ha : TimedAnswers arr its) (s : Fds) :
    ∃ e devs, (Discovery.discoverAt m alloc ep ms busy start arr s).2 = (.done devs, some e) ∧
      start + ms.toNat * 1000 ≤ e ∧
      devs.map foundView = ((arrivedBy arr e).flatMap (fun x => its x.2)).map (fun i => foundSpec (foundIn i.2)) ∧
      (Discovery.discoverAt m alloc ep ms busy start arr s).1.opened = s.opened := by
  obtain ⟨e, h1, h2⟩ := timed_spec (ms.toNat * 1000) busy arr hsort 0 start
  obtain ⟨devs, h3, h4⟩ := C52_discovers m ((arrivedBy arr e).map (fun x => (x.2, its x.2)))
    (fun a h => by
      rw [List.mem_map] at h
      obtain ⟨x, hx, rfl⟩ := h
      exact ha x ((List.mem_filter.1 hx).1)) []
  have h5 : (Discovery.discoverAt m alloc ep ms busy start arr s).2 = (.done devs, some e) := by
    rw [discoverAt_res, limit_pos ms hms, h1]
    simp only
    rw [List.map_map] at h3
    have h6 := congrArg Prod.snd h3
    simp only at h6
    rw [← h6]
    rfl
  refine ⟨e, devs, h5, h2, ?_, ?_⟩
  · rw [h4]
    simp [List.flatMap_map]
  · have h6 : (Discovery.discoverFd m alloc ep ms
        { sendCount := 24, recvs := (Discovery.timedRecvs (Discovery.rcvLimit (makePortableInterval ms)) busy 0 start arr).1 } s).2 =
        .done devs := by
      have := congrArg Prod.fst h5
      exact this
    show (Discovery.discoverFd m alloc ep ms
        { sendCount := 24, recvs := (Discovery.timedRecvs (Discovery.rcvLimit (makePortableInterval ms)) busy 0 start arr).1 } s).1.opened = _
    rw [discover_opened, h6]
    rfl

/-- C87. If the scanner takes no time between two receives, that time is the first one, from the
timeout on, with nothing received for as long as the timeout. So an answer that comes later than
the timeout after all others is not waited for, and answers that keep coming keep discovery going. -/
theorem C87_when (m : Mem) (alloc : Alloc) (ep : EndPoint) (ms : Int) (hms : 0 < ms) (start : Nat)
    (arr : List (Nat × List Byte)) (hsort : arr.Pairwise (fun x y => x.1 ≤ y.1)) (s : Fds) (r : Discovery.DiscRes) (e : Nat)
    (h : (Discovery.discoverAt m alloc ep ms (fun _ => 0) start arr s).2 = (r, some e)) :
    (∀ x ∈ arr, start < x.1 → ¬ (e < x.1 + ms.toNat * 1000 ∧ x.1 ≤ e)) ∧
    ∀ e', start + ms.toNat * 1000 ≤ e' → e' < e → ∃ x ∈ arr, e' < x.1 + ms.toNat * 1000 ∧ x.1 ≤ e' := by
  rw [discoverAt_res, limit_pos ms hms, Prod.mk.injEq] at h
  obtain ⟨h1, h2⟩ := timed_quiet _ arr hsort 0 start e h.2
  refine ⟨fun x hx h3 => ?_, h2⟩
  have := h1 x hx
  omega

/-- C87, false of the code: the timeout bounds the time of discovery. Answers that follow each
other within the timeout keep it going, for ever so many of them. -/
theorem C87_bounded_violated (m : Mem) (alloc : Alloc) (ep : EndPoint) (ms : Int) (hms : 0 < ms) (start : Nat)
    (d : List Byte) (its : List (Nat × List Byte)) (ha : Announces d its) (s : Fds) (n : Nat) :
    ∃ e devs, (Discovery.discoverAt m alloc ep ms (fun _ => 0) start
        ((List.range n).map fun k => (start + (k + 1) * (ms.toNat * 1000), d)) s).2 = (.done devs, some e) ∧
      start + (n + 1) * (ms.toNat * 1000) ≤ e := by
  have hsort : ((List.range n).map fun k => (start + (k + 1) * (ms.toNat * 1000), d)).Pairwise (fun x y => x.1 ≤ y.1) := by
    rw [List.pairwise_map]
    refine List.Pairwise.imp ?_ (List.pairwise_lt_range (n := n))
    intro a b hab
    simp only
    have := Nat.mul_le_mul_right (ms.toNat * 1000) (show a + 1 ≤ b + 1 by omega)
    omega
  obtain ⟨e, devs, h1, h2, _, _⟩ := C87_returns m alloc ep ms hms (fun _ => 0) start _ hsort (fun _ => its)
    (fun x hx => by
      rw [List.mem_map] at hx
      obtain ⟨k, _, rfl⟩ := hx
      exact ha) s
  refine ⟨e, devs, h1, ?_⟩
  have h3 := (C87_when m alloc ep ms hms start _ hsort s _ e h1).1
  have hpos : 0 < ms.toNat * 1000 := by omega
  have key : ∀ k, k ≤ n → start + (k + 1) * (ms.toNat * 1000) ≤ e := by
    intro k
    induction k with
    | zero => intro _; omega
    | succ k ih =>
      intro hk
      have h4 := ih (by omega)
      have hk0 : 0 < (k + 1) * (ms.toNat * 1000) := Nat.mul_pos (by omega) hpos
      have h5 := h3 (start + (k + 1) * (ms.toNat * 1000), d) (List.mem_map.2 ⟨k, by simp; omega, rfl⟩) (by simp only; omega)
      simp only at h5
      have h6 : (k + 1 + 1) * (ms.toNat * 1000) = (k + 1) * (ms.toNat * 1000) + ms.toNat * 1000 := Nat.succ_mul _ _
      omega
  exact key n (Nat.le_refl n)

/-- C87. With a timeout of zero or less there is no limit: whatever answers arrive, discovery does
not return, and its socket stays open. -/
theorem C87_forever_violated (m : Mem) (alloc : Alloc) (ep : EndPoint) (ms : Int) (hms : ms ≤ 0) (busy : Nat → Nat) (start : Nat)
    (arr : List (Nat × List Byte)) (its : List Byte → List (Nat × List Byte)) (ha : TimedAnswers arr its) (s : Fds) :
    (Discovery.discoverAt m alloc ep ms busy start arr s).2 = (.waiting, none) ∧
    (Discovery.discoverAt m alloc ep ms busy start arr s).1.opened = alloc s.opened :: s.opened := by
  have hw : (Discovery.discoverAt m alloc ep ms busy start arr s).2 = (.waiting, none) := by
    rw [discoverAt_res, limit_zero ms hms, timed_forever]
    simp only
    obtain ⟨more, h1, _⟩ := loop_good m (arr.map (fun x => (x.2, its x.2)))
      (fun a h => by
        rw [List.mem_map] at h
        obtain ⟨x, hx, rfl⟩ := h
        exact ha x hx) []
    have h3 := h1 []
    rw [List.append_nil, List.map_map] at h3
    unfold discoverGets Discovery.discover
    simp only
    rw [Prod.mk.injEq]
    refine ⟨?_, rfl⟩
    exact h3
  refine ⟨hw, ?_⟩
  have h6 : (Discovery.discoverFd m alloc ep ms
      { sendCount := 24, recvs := (Discovery.timedRecvs (Discovery.rcvLimit (makePortableInterval ms)) busy 0 start arr).1 } s).2 =
      .waiting := congrArg Prod.fst hw
  show (Discovery.discoverFd m alloc ep ms
      { sendCount := 24, recvs := (Discovery.timedRecvs (Discovery.rcvLimit (makePortableInterval ms)) busy 0 start arr).1 } s).1.opened = _
  rw [discover_opened, h6]
  rfl

end Verif.Props
