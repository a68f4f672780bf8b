import Verif.Spec.Alloc
import Verif.Props.Session
import Verif.Props.File

/-!
# Property C120: running out of memory
-/

namespace Verif.Props

open Verif Verif.Spec

/-! ## Code that allocates and code that does not -/

/-- With memory for the next `n` allocations `p` does what `q` does, and makes at most `n` allocations. -/
def Sim {σ α : Type} (n : Nat) (p : Prog (Scarce σ) α) (q : Prog σ α) : Prop :=
  ∀ s fs, (∀ b ∈ fs.take n, b = false) → ∃ k, k ≤ n ∧ p ⟨s, fs⟩ = withFails (fs.drop k) (q s)

theorem alloc_ok {σ : Type} (s : σ) (fs : List Bool) : alloc ⟨s, false :: fs⟩ = .ok ⟨s, fs⟩ () := rfl
theorem alloc_nil {σ : Type} (s : σ) : alloc ⟨s, []⟩ = .ok ⟨s, []⟩ () := rfl

theorem Sim.bind {σ α β : Type} {n k : Nat} {p : Prog (Scarce σ) α} {q : Prog σ α} {f : α → Prog (Scarce σ) β}
    {g : α → Prog σ β} (h : Sim n p q) (h' : ∀ a, Sim k (f a) (g a)) : Sim (n + k) (p >>= f) (q >>= g) := by
  intro s fs hf
  obtain ⟨i, hi, e⟩ := h s fs (fun b hb => hf b (by
    rw [List.take_add]; exact List.mem_append_left _ hb))
  rw [Prog.bind_run, Prog.bind_run, e]
  cases hq : q s with
  | ub => exact ⟨0, by omega, rfl⟩
  | throw s' x => exact ⟨i, by omega, rfl⟩
  | ok s' a =>
    obtain ⟨j, hj, e'⟩ := h' a s' (fs.drop i) (fun b hb => hf b (by
      rw [List.take_drop] at hb
      exact (List.take_subset_take_left fs (show i + k ≤ n + k by omega)) (List.drop_subset _ _ hb)))
    rw [List.drop_drop] at e'
    exact ⟨i + j, by omega, e'⟩

theorem Sim.alloc {σ α : Type} {n : Nat} {f : Unit → Prog (Scarce σ) α} {q : Prog σ α} (h : Sim n (f ()) q) :
    Sim (n + 1) (alloc >>= f) q := by
  intro s fs hf
  match fs, hf with
  | [], _ =>
    obtain ⟨k, hk, e⟩ := h s [] (by simp)
    exact ⟨k, by omega, e⟩
  | true :: fs, hf => exact absurd (hf true (by simp)) (by decide)
  | false :: fs, hf =>
    obtain ⟨k, hk, e⟩ := h s fs (fun b hb => hf b (by simp [hb]))
    exact ⟨k + 1, by omega, e⟩

theorem Sim.noAlloc {σ α : Type} (q : Prog σ α) : Sim 0 (noAlloc q) q := by
  intro s fs _
  refine ⟨0, by omega, ?_⟩
  unfold Verif.noAlloc withFails
  cases q s <;> rfl

theorem Sim.lift {σ α : Type} (x : Outcome α) : Sim (σ := σ) 0 (Prog.lift x) (Prog.lift x) := by
  intro s fs _
  refine ⟨0, by omega, ?_⟩
  cases x <;> rfl

theorem Sim.pure {σ α : Type} (x : α) : Sim (σ := σ) 0 (Pure.pure x) (Pure.pure x) := fun _ _ _ => ⟨0, by omega, rfl⟩
theorem Sim.throw {σ α : Type} (e : Exn) : Sim (σ := σ) (α := α) 0 (Prog.throw e) (Prog.throw e) :=
  fun _ _ _ => ⟨0, by omega, rfl⟩

theorem Sim.ite {σ α : Type} {n : Nat} (c : Prop) [Decidable c] {p p' : Prog (Scarce σ) α} {q q' : Prog σ α}
    (h : Sim n p q) (h' : Sim n p' q') : Sim n (if c then p else p') (if c then q else q') := by
  split
  · exact h
  · exact h'

/-! ## Sessions -/

theorem sim_sar (m : Mem) (handle : BitVec 32) (packet : EncapsPacket) :
    Sim 4 (sendAndReceiveA m handle packet) (sendAndReceive m handle packet) := by
  refine Sim.alloc (n := 3) ?_
  refine Sim.bind (n := 0) (k := 3) (.noAlloc _) fun _ => ?_
  refine Sim.alloc (n := 2) ?_
  refine Sim.bind (n := 0) (k := 2) (.noAlloc _) fun header => ?_
  refine Sim.bind (n := 0) (k := 2) (.lift _) fun length => ?_
  refine Sim.alloc (n := 1) ?_
  refine Sim.bind (n := 0) (k := 1) (.noAlloc _) fun data => ?_
  refine Sim.alloc (n := 0) ?_
  refine Sim.bind (n := 0) (k := 0) (.lift _) fun p => ?_
  exact .ite _ (.throw _) (.ite _ (.throw _) (.pure _))

/-- C120. While there is memory the results and effects are those without the question of memory: for a request on a
session, a request through the router, the end of a session. -/
theorem C120_plenty (m : Mem) (handle : BitVec 32) (s : Tcp) (fs : List Bool) :
    (∀ packet, (∀ b ∈ fs.take 4, b = false) →
      ∃ k ≤ 4, sendAndReceiveA m handle packet ⟨s, fs⟩ = withFails (fs.drop k) (sendAndReceive m handle packet s)) ∧
    (∀ r, (∀ b ∈ fs.take 6, b = false) →
      ∃ k ≤ 6, (Device.tcpA m handle).answer r ⟨s, fs⟩ = withFails (fs.drop k) ((Device.tcp m handle).answer r s)) ∧
    ((∀ b ∈ fs.take 1, b = false) →
      ∃ k ≤ 1, unregisterSessionA handle ⟨s, fs⟩ = withFails (fs.drop k) (unregisterSession handle s)) := by
  refine ⟨fun packet h => sim_sar m handle packet s fs h, fun r h => ?_, fun h => ?_⟩
  · have : Sim 6 ((Device.tcpA m handle).answer r) ((Device.tcp m handle).answer r) := by
      refine Sim.alloc (n := 5) ?_
      refine Sim.bind (n := 4) (k := 1) (sim_sar m handle _) fun p => ?_
      refine Sim.alloc (n := 0) ?_
      exact .lift _
    exact this s fs h
  · have hs : Sim 1 (do alloc; noAlloc (Tcp.send (EncapsPacketFactory.unRegisterSession handle).pack))
        (Tcp.send (EncapsPacketFactory.unRegisterSession handle).pack) := Sim.alloc (n := 0) (.noAlloc _)
    obtain ⟨k, hk, e⟩ := hs s fs h
    refine ⟨k, hk, ?_⟩
    unfold unregisterSessionA unregisterSession
    rw [e]
    cases Tcp.send (EncapsPacketFactory.unRegisterSession handle).pack s <;> rfl

/-- C120. What a request has done when memory runs out, at each of the four places: before the request is sent
nothing was done; after it was sent the reply is left in the stream; after the header was taken the data of the reply is
left; after the data was taken the reply is gone. -/
theorem C120_request (m : Mem) (handle : BitVec 32) (pkt p : EncapsPacket) (hp : WellFormed p) (s : Tcp)
    (hs : s.sends = []) (hk : pkt.pack.length < 2 ^ 63) (rest : List Byte) (hn : (stream s.net).1 = p.pack ++ rest)
    (fs : List Bool) :
    sendAndReceiveA m handle pkt ⟨s, true :: fs⟩ = .throw ⟨s, fs⟩ .badAlloc ∧
    sendAndReceiveA m handle pkt ⟨s, false :: true :: fs⟩ =
      .throw ⟨{ s with sent := s.sent ++ [pkt.pack] }, fs⟩ .badAlloc ∧
    (∃ net', stream net' = (p.data ++ rest, (stream s.net).2) ∧
      sendAndReceiveA m handle pkt ⟨s, false :: false :: true :: fs⟩ =
        .throw ⟨{ s with net := net', sent := s.sent ++ [pkt.pack] }, fs⟩ .badAlloc) ∧
    (∃ net', stream net' = (rest, (stream s.net).2) ∧
      sendAndReceiveA m handle pkt ⟨s, false :: false :: false :: true :: fs⟩ =
        .throw ⟨{ s with net := net', sent := s.sent ++ [pkt.pack] }, fs⟩ .badAlloc) := by
  have hsend := send_all s pkt.pack hs hk
  have hsendA : ∀ fs, noAlloc (Tcp.send pkt.pack) ⟨s, fs⟩ = .ok ⟨{ s with sent := s.sent ++ [pkt.pack] }, fs⟩ () := by
    intro fs; unfold noAlloc; rw [hsend]
  have hl := hp.pack_length
  have e24 : (p.pack ++ rest).drop 24 = p.data ++ rest := by
    rw [List.drop_append_of_le_length (by omega)]
    congr 1
    exact ((⟨rfl, hp.context⟩ : IsFrame p p.pack).fields.2.2.2.2.2.2).symm
  obtain ⟨n1, r1, e1⟩ := C21_receive 24 { s with sent := s.sent ++ [pkt.pack] } (by
    show 24 ≤ (stream s.net).1.length
    rw [hn]; simp; omega)
  simp only [hn, e24] at r1 e1
  have r1A : ∀ fs, noAlloc (Tcp.receive EncapsPacket.headerSize) ⟨{ s with sent := s.sent ++ [pkt.pack] }, fs⟩ =
      .ok ⟨{ s with net := n1, sent := s.sent ++ [pkt.pack] }, fs⟩ ((p.pack ++ rest).take 24) := by
    intro fs; unfold noAlloc; rw [show EncapsPacket.headerSize = 24 from rfl, r1]
  have hg : EncapsPacket.getLengthFromHeader ((p.pack ++ rest).take 24) = .ok p.data.length := by
    rw [getLength_eq _ (by rw [List.length_take]; simp; omega)]
    have := hp.frameLen rest
    rw [frameLen, padTake_of_le (by simp; omega), hl] at this
    congr 1
    omega
  obtain ⟨n2, r2, e2⟩ := C21_receive p.data.length { s with net := n1, sent := s.sent ++ [pkt.pack] } (by
    simp only [e1]; simp)
  simp only [e1, List.drop_left] at r2 e2
  have r2A : ∀ fs, noAlloc (Tcp.receive p.data.length) ⟨{ s with net := n1, sent := s.sent ++ [pkt.pack] }, fs⟩ =
      .ok ⟨{ s with net := n2, sent := s.sent ++ [pkt.pack] }, fs⟩ ((p.data ++ rest).take p.data.length) := by
    intro fs; unfold noAlloc; rw [r2]
  refine ⟨rfl, ?_, ⟨n1, e1, ?_⟩, n2, e2, ?_⟩
  · exact (Prog.bind_ok (alloc_ok _ _)).trans
      ((Prog.bind_ok (hsendA _)).trans (Prog.bind_throw rfl))
  · refine (Prog.bind_ok (alloc_ok _ _)).trans ((Prog.bind_ok (hsendA _)).trans ?_)
    refine (Prog.bind_ok (alloc_ok _ _)).trans ((Prog.bind_ok (r1A _)).trans ?_)
    rw [hg]
    exact (Prog.bind_ok (Prog.lift_ok _ _)).trans (Prog.bind_throw rfl)
  · refine (Prog.bind_ok (alloc_ok _ _)).trans ((Prog.bind_ok (hsendA _)).trans ?_)
    refine (Prog.bind_ok (alloc_ok _ _)).trans ((Prog.bind_ok (r1A _)).trans ?_)
    rw [hg]
    refine (Prog.bind_ok (Prog.lift_ok _ _)).trans ?_
    refine (Prog.bind_ok (alloc_ok _ _)).trans ((Prog.bind_ok (r2A _)).trans ?_)
    exact Prog.bind_throw rfl

/-- C120. A request that fails before it is sent, or after its reply was taken, leaves the session in step: requests
made after it get their own replies. -/
theorem C120_in_step (m : Mem) (handle : BitVec 32) (pkt p : EncapsPacket) (hp : WellFormed p)
    (hk : pkt.pack.length < 2 ^ 63) (requests replies : List EncapsPacket) (hlen : requests.length = replies.length)
    (hreq : ∀ r ∈ requests, r.pack.length < 2 ^ 63)
    (hrep : ∀ p ∈ replies, WellFormed p ∧ p.status = 0#32 ∧ p.sessionHandle = handle) (net : List NetEv)
    (rest : List Byte) (fs : List Bool) :
    ((stream net).1 = replies.flatMap EncapsPacket.pack ++ rest →
      ∃ s' net', sendAndReceiveA m handle pkt ⟨⟨net, [], []⟩, true :: fs⟩ = .throw s' .badAlloc ∧
        callAll m handle requests s'.st = .ok ⟨net', [], requests.map EncapsPacket.pack⟩ replies) ∧
    ((stream net).1 = p.pack ++ (replies.flatMap EncapsPacket.pack ++ rest) →
      ∃ s' net', sendAndReceiveA m handle pkt ⟨⟨net, [], []⟩, false :: false :: false :: true :: fs⟩ = .throw s' .badAlloc ∧
        callAll m handle requests s'.st = .ok ⟨net', [], pkt.pack :: requests.map EncapsPacket.pack⟩ replies) := by
  constructor
  · intro hn
    obtain ⟨net', h1, _⟩ := C22_in_step m handle requests replies hlen hreq hrep ⟨net, [], []⟩ rfl rest hn
    exact ⟨_, net', rfl, by simpa using h1⟩
  · intro hn
    obtain ⟨n1, e1, h⟩ := (C120_request m handle pkt p hp ⟨net, [], []⟩ rfl hk _ hn fs).2.2.2
    obtain ⟨net', h1, _⟩ := C22_in_step m handle requests replies hlen hreq hrep ⟨n1, [], [] ++ [pkt.pack]⟩ rfl rest
      (by simp only [e1])
    exact ⟨_, net', h, by simpa using h1⟩

/-- C120. "After an exception the session can be used" is false for the second place: every request made after it gets the reply
to the request before. -/
theorem C120_step_violated (m : Mem) (handle : BitVec 32) (pkt : EncapsPacket) (hk : pkt.pack.length < 2 ^ 63)
    (requests replies : List EncapsPacket) (hlen : requests.length = replies.length)
    (hreq : ∀ r ∈ requests, r.pack.length < 2 ^ 63)
    (hrep : ∀ p ∈ replies, WellFormed p ∧ p.status = 0#32 ∧ p.sessionHandle = handle) (last : EncapsPacket)
    (net : List NetEv) (fs : List Bool)
    (hn : (stream net).1 = (replies ++ [last]).flatMap EncapsPacket.pack) :
    ∃ s' net', sendAndReceiveA m handle pkt ⟨⟨net, [], []⟩, false :: true :: fs⟩ = .throw s' .badAlloc ∧
      callAll m handle requests s'.st = .ok ⟨net', [], pkt.pack :: requests.map EncapsPacket.pack⟩ replies ∧
      (stream net').1 = last.pack := by
  have hsend := send_all ⟨net, [], []⟩ pkt.pack rfl hk
  have h : sendAndReceiveA m handle pkt ⟨⟨net, [], []⟩, false :: true :: fs⟩ = .throw ⟨⟨net, [], [pkt.pack]⟩, fs⟩ .badAlloc := by
    refine (Prog.bind_ok (alloc_ok _ _)).trans ?_
    refine (Prog.bind_ok (s' := ⟨⟨net, [], [pkt.pack]⟩, true :: fs⟩) (a := ()) ?_).trans (Prog.bind_throw rfl)
    unfold noAlloc
    rw [hsend]
    rfl
  obtain ⟨net', h1, h2⟩ := C22_in_step m handle requests replies hlen hreq hrep ⟨net, [], [pkt.pack]⟩ rfl last.pack
    (by rw [hn]; simp)
  exact ⟨_, net', h, by simpa using h1, by rw [h2]⟩

/-- C120. And for the third: the data of the reply is taken for a frame.  Whoever determines the data of the reply
determines what the next request returns. -/
theorem C120_header_violated (m : Mem) (handle : BitVec 32) (pkt next p q : EncapsPacket) (hp : WellFormed p)
    (hk : pkt.pack.length < 2 ^ 63) (hk' : next.pack.length < 2 ^ 63) (hq : WellFormed q) (h0 : q.status = 0#32)
    (hh : q.sessionHandle = handle) (hd : p.data = q.pack) (net : List NetEv) (rest : List Byte)
    (hn : (stream net).1 = p.pack ++ rest) (fs : List Bool) :
    ∃ s' s'', sendAndReceiveA m handle pkt ⟨⟨net, [], []⟩, false :: false :: true :: fs⟩ = .throw s' .badAlloc ∧
      sendAndReceive m handle next s'.st = .ok s'' q := by
  obtain ⟨n1, e1, h⟩ := (C120_request m handle pkt p hp ⟨net, [], []⟩ rfl hk rest hn fs).2.2.1
  obtain ⟨n2, _, h2⟩ := sar_frame m handle next q hq ⟨n1, [], [] ++ [pkt.pack]⟩ rfl hk' rest (by simp only [e1, hd])
  rw [accept_of _ h0 (fun _ => hh)] at h2
  exact ⟨_, _, h, h2⟩

/-- C120. A request through the router fails before anything is sent, or after the reply was taken, or within the request on
the session. -/
theorem C120_router (m : Mem) (handle : BitVec 32) (r : Req) (s : Tcp) :
    (∀ fs, (Device.tcpA m handle).answer r ⟨s, true :: fs⟩ = .throw ⟨s, fs⟩ .badAlloc) ∧
    (∀ fs s' p, sendAndReceiveA m handle (routerPacket handle ⟨r.service, r.path, r.data, false⟩ []) ⟨s, fs⟩ = .ok s' p →
      ∀ fs', s'.fails = true :: fs' → (Device.tcpA m handle).answer r ⟨s, false :: fs⟩ = .throw ⟨s'.st, fs'⟩ .badAlloc) ∧
    (∀ fs s' e, sendAndReceiveA m handle (routerPacket handle ⟨r.service, r.path, r.data, false⟩ []) ⟨s, fs⟩ = .throw s' e →
      (Device.tcpA m handle).answer r ⟨s, false :: fs⟩ = .throw s' e) := by
  refine ⟨fun fs => rfl, fun fs s' p h fs' hf => ?_, fun fs s' e h => ?_⟩
  · refine (Prog.bind_ok (alloc_ok _ _)).trans ((Prog.bind_ok h).trans (Prog.bind_throw ?_))
    unfold alloc
    rw [hf]
  · exact (Prog.bind_ok (alloc_ok _ _)).trans (Prog.bind_throw h)

/-- C120. "An object can always be destroyed" is false: without memory the end of a session terminates the process, with
the session still registered at the device. -/
theorem C120_destroy_violated (handle : BitVec 32) (s : Tcp) (fs : List Bool) :
    unregisterSessionA handle ⟨s, true :: fs⟩ = .throw ⟨s, fs⟩ .abort := rfl

/-! ## File objects -/

variable {δ : Type}

theorem allocF_cons {ο : Type} (o : ο) (d : δ) (sent : List Req) (b : Bool) (fs : List Bool) :
    FileObject.allocF (o, (⟨⟨d, b :: fs⟩, sent⟩ : Link (Scarce δ))) =
      if b then .throw (o, ⟨⟨d, fs⟩, sent⟩) .badAlloc else .ok (o, ⟨⟨d, fs⟩, sent⟩) () := by
  cases b <;> rfl

theorem allocF_nil {ο : Type} (o : ο) (d : δ) (sent : List Req) :
    FileObject.allocF (o, (⟨⟨d, []⟩, sent⟩ : Link (Scarce δ))) = .ok (o, ⟨⟨d, []⟩, sent⟩) () := rfl

theorem allocF_cases {ο : Type} (o : ο) (L : Link (Scarce δ)) :
    (∃ L', FileObject.allocF (o, L) = .ok (o, L') ()) ∨ ∃ L', FileObject.allocF (o, L) = .throw (o, L') .badAlloc := by
  obtain ⟨⟨d, fs⟩, sent⟩ := L
  match fs with
  | [] => exact .inl ⟨_, rfl⟩
  | false :: fs => exact .inl ⟨_, rfl⟩
  | true :: fs => exact .inr ⟨_, rfl⟩

/-- C120. "A file object can always be destroyed": not during or after an upload.  In the other states it can. -/
theorem C120_destroy_file_violated (f : FileObject) (d : δ) (sent : List Req) (fs : List Bool) :
    ((∃ u, f.state = .uploading u) →
      FileObject.destroyA (f, ⟨⟨d, true :: fs⟩, sent⟩) = .throw (f, ⟨⟨d, fs⟩, sent⟩) .abort) ∧
    ((∀ u, f.state ≠ .uploading u) → ∀ s : FileObject × Link (Scarce δ), s.1 = f → FileObject.destroyA s = .ok s ()) := by
  constructor
  · rintro ⟨u, hu⟩
    unfold FileObject.destroyA
    rw [hu]
    rfl
  · rintro h s rfl
    unfold FileObject.destroyA
    split
    · exact absurd ‹_› (h _)
    · rfl

theorem onLink_throws {ο α : Type} {p : Prog (Link δ) α} {s s' : ο × Link δ} {e : Exn} (h : onLink p s = .throw s' e) :
    s'.1 = s.1 := by
  unfold onLink at h
  cases hp : p s.2 <;> rw [hp] at h <;> simp at h
  rw [← h.1]

theorem onLink_oks {ο α : Type} {p : Prog (Link δ) α} {s s' : ο × Link δ} {a : α} (h : onLink p s = .ok s' a) :
    s'.1 = s.1 := by
  unfold onLink at h
  cases hp : p s.2 <;> rw [hp] at h <;> simp at h
  rw [← h.1]

theorem bind_throws {σ α β : Type} {x : Prog σ α} {f : α → Prog σ β} {s s'' : σ} {e : Exn} (h : (x >>= f) s = .throw s'' e) :
    x s = .throw s'' e ∨ ∃ s' a, x s = .ok s' a ∧ f a s' = .throw s'' e := by
  rw [Prog.bind_run] at h
  cases hx : x s with
  | ok s' a => rw [hx] at h; exact .inr ⟨s', a, rfl, h⟩
  | throw s' e' => rw [hx] at h; injection h with h1 h2; exact .inl (by rw [h1, h2])
  | ub => rw [hx] at h; cases h

theorem lift_throws {σ α : Type} {x : Outcome α} {s s' : σ} {e : Exn} (h : Prog.lift x s = .throw s' e) : s' = s := by
  cases x with
  | ok a => cases h
  | throw e' => injection h with h _; exact h.symm
  | ub => cases h

theorem lift_oks {σ α : Type} {x : Outcome α} {s s' : σ} {a : α} (h : Prog.lift x s = .ok s' a) : s' = s := by
  cases x with
  | ok a => injection h with h _; exact h.symm
  | throw e' => cases h
  | ub => cases h

/-- C120. If `beginUpload` throws, for want of memory or otherwise, the object is as before. -/
theorem C120_begin (m : Mem) (D : Device (Scarce δ)) (handler : Nat) (f : FileObject) (L : Link (Scarce δ))
    (s' : FileObject × Link (Scarce δ)) (e : Exn) (h : FileObject.beginUploadA m D handler (f, L) = .throw s' e) : s'.1 = f := by
  replace h := (Prog.bind_ok (Prog.get_run (f, L))).symm.trans h
  dsimp only at h
  generalize hst : f.state = st at h
  cases st with
  | loaded =>
    rcases bind_throws h with h | ⟨s1, _, h1, h⟩
    · exact onLink_throws h
    have e1 := onLink_oks h1
    rcases bind_throws h with h | ⟨s2, resp, h2, h⟩
    · exact (onLink_throws h).trans e1
    have e2 := (onLink_oks h2).trans e1
    rcases bind_throws h with h | ⟨s3, _, h3, h⟩
    · exact (onLink_throws h).trans e2
    have e3 := (onLink_oks h3).trans e2
    split at h
    · rcases bind_throws h with h | ⟨s4, a, h4, h⟩
      · rw [lift_throws h]; exact e3
      have e4 := lift_oks h4
      rcases bind_throws h with h | ⟨s5, _, h5, h⟩
      · exact (onLink_throws h).trans (e4 ▸ e3)
      cases h
    · cases h
  | nonexistent => exact onLink_throws h
  | empty => exact onLink_throws h
  | uploading u => exact onLink_throws h

/-- C120. If `handleTransfers` throws, the object is as before, but for a last packet that makes the file too long or too
short: its data is kept, without a call of the handler. -/
theorem C120_file (m : Mem) (D : Device (Scarce δ)) (f : FileObject) (L : Link (Scarce δ))
    (s' : FileObject × Link (Scarce δ)) (e : Exn) (h : FileObject.handleTransfersA m D (f, L) = .throw s' e) :
    s'.1 = f ∨ (e = .badAlloc ∧ ∃ u bs, f.state = .uploading u ∧ (u.content ++ bs).length ≠ u.fileSize.toNat ∧
      s'.1 = { f with state := .uploading { u with content := u.content ++ bs } }) := by
  replace h := (Prog.bind_ok (Prog.get_run (f, L))).symm.trans h
  dsimp only at h
  generalize hu : f.state = st at h
  cases st with
  | nonexistent =>
    rcases bind_throws h with h | ⟨s1, _, h1, h⟩
    · exact .inl (onLink_throws h)
    · cases h
  | empty =>
    rcases bind_throws h with h | ⟨s1, _, h1, h⟩
    · exact .inl (onLink_throws h)
    · cases h
  | loaded => cases h
  | uploading u =>
  rcases bind_throws h with h | ⟨s1, _, h1, h⟩
  · exact .inl (onLink_throws h)
  have e1 := onLink_oks h1
  rcases bind_throws h with h | ⟨s2, resp, h2, h⟩
  · exact .inl ((onLink_throws h).trans e1)
  have e2 := (onLink_oks h2).trans e1
  rcases bind_throws h with h | ⟨s3, _, h3, h⟩
  · exact .inl ((onLink_throws h).trans e2)
  have e3 := (onLink_oks h3).trans e2
  split at h
  · rcases bind_throws h with h | ⟨s4, a, h4, h6⟩
    · exact .inl (by rw [lift_throws h]; exact e3)
    have e4 := lift_oks h4
    subst e4
    clear h
    cases a with
    | wrongNumber => cases h6
    | more bs => cases h6
    | last bs =>
      have h := h6
      clear h6
      dsimp only at h
      replace h := (Prog.bind_ok (Prog.modify_run _ s4)).symm.trans h
      rw [Prog.ite_run] at h
      split at h
      · cases h
      · rename_i hne
        rcases bind_throws h with h | ⟨s5, _, h5, h⟩
        · right
          have h' := onLink_throws h
          rcases allocF_cases ({ s4.1 with state := .uploading { u with content := u.content ++ bs } } : FileObject) s4.2 with
            ⟨L', hL⟩ | ⟨L', hL⟩
          · rw [hL] at h; cases h
          · rw [hL] at h
            injection h with _ he
            refine ⟨he.symm, u, bs, rfl, hne, h'.trans ?_⟩
            rw [← show s4.1 = f from e3]
        · cases h
  · cases h

/-- C120. If reading the state again throws, the object is as before; but if there is no memory for the end of an
upload the process is terminated. -/
theorem C120_sync (m : Mem) (D : Device (Scarce δ)) (f : FileObject) (L : Link (Scarce δ)) :
    (∀ s' e, FileObject.syncStateA m D (f, L) = .throw s' e → s'.1 = f) ∧
    (∀ L' g, FileObject.createA m D f.instanceId L = .ok L' g →
      ((∀ u, f.state ≠ .uploading u) ∨ L'.dev.fails.headD false = false →
        ∃ L'', FileObject.syncStateA m D (f, L) = .ok ({ f with state := g.state }, L'') ()) ∧
      ((∃ u, f.state = .uploading u) → L'.dev.fails.headD false = true →
        ∃ s', FileObject.syncStateA m D (f, L) = .throw s' .abort)) := by
  constructor
  · intro s' e h
    replace h := (Prog.bind_ok (Prog.get_run (f, L))).symm.trans h
    dsimp only at h
    rcases bind_throws h with h | ⟨s1, g, h1, h⟩
    · exact onLink_throws h
    have e1 := onLink_oks h1
    rcases bind_throws h with h | ⟨s2, _, h2, h⟩
    · unfold FileObject.destroyA at h
      split at h
      · rcases allocF_cases s1.1 s1.2 with ⟨L', hL⟩ | ⟨L', hL⟩
        · rw [show FileObject.allocF s1 = _ from hL] at h; cases h
        · rw [show FileObject.allocF s1 = _ from hL] at h
          injection h with h _
          rw [← h]; exact e1
      · cases h
    · cases h
  · intro L' g hc
    have run : FileObject.syncStateA m D (f, L) = (FileObject.destroyA >>= fun _ => Prog.modify fun s =>
        ({ s.1 with state := g.state }, s.2) : Prog (FileObject × Link (Scarce δ)) Unit) (f, L') := by
      refine (Prog.bind_ok (Prog.get_run (f, L))).trans ?_
      exact Prog.bind_ok (onLink_ok hc)
    rw [run]
    obtain ⟨⟨d, fs⟩, sent⟩ := L'
    constructor
    · intro h
      have hd : ∃ L'', FileObject.destroyA (f, (⟨⟨d, fs⟩, sent⟩ : Link (Scarce δ))) = .ok (f, L'') () := by
        unfold FileObject.destroyA
        dsimp only
        cases hst : f.state with
        | uploading u =>
          rcases h with h | h
          · exact absurd hst (h u)
          · match fs, h with
            | [], _ => exact ⟨_, rfl⟩
            | false :: fs, _ => exact ⟨_, rfl⟩
        | nonexistent => exact ⟨_, rfl⟩
        | empty => exact ⟨_, rfl⟩
        | loaded => exact ⟨_, rfl⟩
      obtain ⟨L'', hd⟩ := hd
      exact ⟨L'', (Prog.bind_ok hd).trans rfl⟩
    · rintro ⟨u, hu⟩ h
      match fs, h with
      | true :: fs, _ =>
        exact ⟨_, Prog.bind_throw ((C120_destroy_file_violated f d sent fs).1 ⟨u, hu⟩)⟩

/-- With memory, construction is as before. -/
theorem C120_create_plenty (m : Mem) {D : Device (Scarce δ)} {D0 : Device δ}
    (hD : ∀ r d, D.answer r ⟨d, []⟩ = withFails [] (D0.answer r d)) (inst : BitVec 16) (d : δ) (sent : List Req) :
    FileObject.createA m D inst ⟨⟨d, []⟩, sent⟩ =
      match FileObject.create m D0 inst ⟨d, sent⟩ with
      | .ok L f => .ok ⟨⟨L.dev, []⟩, L.sent⟩ f
      | .throw L e => .throw ⟨⟨L.dev, []⟩, L.sent⟩ e
      | .ub => .ub := by
  unfold FileObject.createA FileObject.create
  rw [Prog.bind_ok (show FileObject.allocL (⟨⟨d, []⟩, sent⟩ : Link (Scarce δ)) = .ok ⟨⟨d, []⟩, sent⟩ () from rfl),
    Prog.bind_run, Prog.bind_run]
  unfold ask
  dsimp only
  rw [hD]
  cases D0.answer ⟨ServiceCode.getAttributeSingle, EPath.mk3 FileObject.classId inst 1, []⟩ d with
  | ub => rfl
  | throw d' e => rfl
  | ok d' resp =>
    dsimp only [withFails]
    refine (Prog.bind_ok (show FileObject.allocL (⟨⟨d', []⟩, _⟩ : Link (Scarce δ)) = .ok ⟨⟨d', []⟩, _⟩ () from rfl)).trans ?_
    by_cases hs : resp.status = GeneralStatus.success
    · rw [if_pos hs, if_pos hs]
      cases Rd.u8.from m resp.data with
      | ub => rfl
      | throw e => rfl
      | ok b =>
        rw [Prog.bind_ok (Prog.lift_ok _ _), Prog.bind_ok (Prog.lift_ok _ _)]
        by_cases h0 : b = 0
        · rw [if_pos h0, if_pos h0]; rfl
        rw [if_neg h0, if_neg h0]
        by_cases h1 : b = 1
        · rw [if_pos h1, if_pos h1]; rfl
        rw [if_neg h1, if_neg h1]
        by_cases h2 : b = 2
        · rw [if_pos h2, if_pos h2]; rfl
        rw [if_neg h2, if_neg h2]
        by_cases h3 : b = 3 ∨ b = 5
        · rw [if_pos h3, if_pos h3]; rfl
        rw [if_neg h3, if_neg h3]
        rfl
    · rw [if_neg hs, if_neg hs]; rfl

/-- What a device does when no allocation fails. -/
def PlentyOf (D : Device (Scarce δ)) (D0 : Device δ) : Prop := ∀ r d, D.answer r ⟨d, []⟩ = withFails [] (D0.answer r d)

theorem plenty_scarce (D : Device δ) : PlentyOf (scarce D) D := by
  intro r d
  show (do alloc; let resp ← noAlloc (D.answer r); alloc; pure resp : Prog (Scarce δ) _) ⟨d, []⟩ = _
  rw [Prog.bind_ok (alloc_nil _), Prog.bind_run]
  unfold noAlloc
  cases D.answer r d <;> rfl

theorem plenty_tcp (m : Mem) (handle : BitVec 32) : PlentyOf (Device.tcpA m handle) (Device.tcp m handle) := by
  intro r d
  obtain ⟨k, _, h⟩ := (C120_plenty m handle d []).2.1 r (by simp)
  rw [List.drop_nil] at h
  exact h

/-- The outcome of a call on a file object, with no failures to come. -/
def roomy {α : Type} : Res (FileObject × Link δ) α → Res (FileObject × Link (Scarce δ)) α
  | .ok s a => .ok (s.1, ⟨⟨s.2.dev, []⟩, s.2.sent⟩) a
  | .throw s e => .throw (s.1, ⟨⟨s.2.dev, []⟩, s.2.sent⟩) e
  | .ub => .ub

theorem ask_roomy {D : Device (Scarce δ)} {D0 : Device δ} (h : PlentyOf D D0) (r : Req) (f : FileObject) (d : δ) (sent : List Req) :
    onLink (ask D r) (f, ⟨⟨d, []⟩, sent⟩) = roomy (onLink (ask D0 r) (f, ⟨d, sent⟩)) := by
  unfold onLink ask
  simp only [h r d]
  cases D0.answer r d <;> rfl

theorem bind_roomy {α β : Type} {p : Prog (FileObject × Link (Scarce δ)) α} {q : Prog (FileObject × Link δ) α}
    {g : α → Prog (FileObject × Link (Scarce δ)) β} {k : α → Prog (FileObject × Link δ) β} {f : FileObject} {d : δ} {sent : List Req}
    (h : p (f, ⟨⟨d, []⟩, sent⟩) = roomy (q (f, ⟨d, sent⟩)))
    (h' : ∀ a f d sent, g a (f, ⟨⟨d, []⟩, sent⟩) = roomy (k a (f, ⟨d, sent⟩))) :
    (p >>= g) (f, ⟨⟨d, []⟩, sent⟩) = roomy ((q >>= k) (f, ⟨d, sent⟩)) := by
  rw [Prog.bind_run, Prog.bind_run, h]
  cases q (f, ⟨d, sent⟩) with
  | ub => rfl
  | throw s e => rfl
  | ok s a => exact h' a s.1 s.2.dev s.2.sent

/-- C120. While there is memory, `beginUpload` and `handleTransfers` do what they do without the question of memory. -/
theorem C120_file_plenty (m : Mem) {D : Device (Scarce δ)} {D0 : Device δ} (hD : PlentyOf D D0) (f : FileObject) (d : δ)
    (sent : List Req) :
    (∀ handler, FileObject.beginUploadA m D handler (f, ⟨⟨d, []⟩, sent⟩) =
      roomy (FileObject.beginUpload m D0 handler (f, ⟨d, sent⟩))) ∧
    FileObject.handleTransfersA m D (f, ⟨⟨d, []⟩, sent⟩) = roomy (FileObject.handleTransfers m D0 (f, ⟨d, sent⟩)) := by
  constructor
  · intro handler
    refine (Prog.bind_ok (Prog.get_run _)).trans ?_
    refine Eq.trans ?_ (congrArg roomy (Prog.bind_ok (Prog.get_run (f, (⟨d, sent⟩ : Link δ)))).symm)
    dsimp only
    cases f.state with
    | nonexistent => rfl
    | empty => rfl
    | uploading u => rfl
    | loaded =>
      refine (Prog.bind_ok (allocF_nil _ _ _)).trans ?_
      refine bind_roomy (ask_roomy hD _ f d sent) fun resp f d sent => ?_
      refine (Prog.bind_ok (allocF_nil _ _ _)).trans ?_
      by_cases hs : resp.status = GeneralStatus.success
      · rw [if_pos hs, if_pos hs]
        refine bind_roomy ?_ fun a f d sent => rfl
        cases FileObject.announced.from m resp.data <;> rfl
      · rw [if_neg hs, if_neg hs]; rfl
  · refine (Prog.bind_ok (Prog.get_run _)).trans ?_
    refine Eq.trans ?_ (congrArg roomy (Prog.bind_ok (Prog.get_run (f, (⟨d, sent⟩ : Link δ)))).symm)
    dsimp only
    cases f.state with
    | nonexistent => rfl
    | empty => rfl
    | loaded => rfl
    | uploading u =>
      refine (Prog.bind_ok (allocF_nil _ _ _)).trans ?_
      refine bind_roomy (ask_roomy hD _ f d sent) fun resp f d sent => ?_
      refine (Prog.bind_ok (allocF_nil _ _ _)).trans ?_
      by_cases hs : resp.status = GeneralStatus.success
      · rw [if_pos hs, if_pos hs]
        refine bind_roomy ?_ fun a f d sent => ?_
        · cases (FileObject.packet u.number u.transferSize resp.data.length).from m resp.data <;> rfl
        · cases a with
          | wrongNumber => rfl
          | more bs => rfl
          | last bs =>
            refine (Prog.bind_ok (Prog.modify_run _ _)).trans ?_
            dsimp only
            by_cases hl : (u.content ++ bs).length = u.fileSize.toNat
            · rw [if_pos hl, if_pos hl]; rfl
            · rw [if_neg hl, if_neg hl]; rfl
      · rw [if_neg hs, if_neg hs]; rfl

/-! ### Trying again -/

theorem fileTransfers_at (inst : BitVec 16) (crc last : List Byte) (chunks : List (List Byte)) :
    ∀ k, (∀ i c, chunks[i]? = some c → (fileTransfers inst crc k chunks last)[i]? =
        some (fileNextReq inst (k + i), le 1 (k + i) ++ le 1 (if k + i = 0 then 0 else 1) ++ c)) ∧
      (fileTransfers inst crc k chunks last)[chunks.length]? = some (fileNextReq inst (k + chunks.length),
        le 1 (k + chunks.length) ++ le 1 (if k + chunks.length = 0 then 4 else 2) ++ last ++ crc) := by
  induction chunks with
  | nil => intro k; exact ⟨fun i c h => by simp at h, rfl⟩
  | cons x xs ih =>
    intro k
    refine ⟨fun i c h => ?_, ?_⟩
    · match i, h with
      | 0, h =>
        injection h with h
        subst h
        rfl
      | i + 1, h =>
        have := (ih (k + 1)).1 i c h
        rw [show k + 1 + i = k + (i + 1) by omega] at this
        exact this
    · have := (ih (k + 1)).2
      rw [show k + 1 + xs.length = k + (xs.length + 1) by omega] at this
      exact this

/-- One allocation, by the failures to come. -/
theorem allocF_count {ο : Type} (o : ο) (d : δ) (sent : List Req) (fs : List Bool) :
    (∃ fs', fs'.count true < fs.count true ∧
      FileObject.allocF (o, (⟨⟨d, fs⟩, sent⟩ : Link (Scarce δ))) = .throw (o, ⟨⟨d, fs'⟩, sent⟩) .badAlloc) ∨
    ∃ fs', fs'.count true ≤ fs.count true ∧
      FileObject.allocF (o, (⟨⟨d, fs⟩, sent⟩ : Link (Scarce δ))) = .ok (o, ⟨⟨d, fs'⟩, sent⟩) () := by
  match fs with
  | [] => exact .inr ⟨[], by simp, rfl⟩
  | false :: fs => exact .inr ⟨fs, by simp, rfl⟩
  | true :: fs => exact .inl ⟨fs, by simp, rfl⟩

theorem alloc_count {σ : Type} (d : σ) (fs : List Bool) :
    (∃ fs', fs'.count true < fs.count true ∧ alloc ⟨d, fs⟩ = .throw ⟨d, fs'⟩ .badAlloc) ∨
    ∃ fs', fs'.count true ≤ fs.count true ∧ alloc ⟨d, fs⟩ = .ok ⟨d, fs'⟩ () := by
  match fs with
  | [] => exact .inr ⟨[], by simp, rfl⟩
  | false :: fs => exact .inr ⟨fs, by simp, rfl⟩
  | true :: fs => exact .inl ⟨fs, by simp, rfl⟩

/-- One question to a device, with allocations before and after. -/
theorem scarce_ask (D : Device δ) (r : Req) (d d' : δ) (resp : MessageRouterResponse) (h : D.answer r d = .ok d' resp)
    (f : FileObject) (sent : List Req) (fs : List Bool) :
    (∃ fs' d1, fs'.count true < fs.count true ∧ (d1 = d ∨ d1 = d') ∧
      onLink (ask (scarce D) r) (f, ⟨⟨d, fs⟩, sent⟩) = .throw (f, ⟨⟨d1, fs'⟩, sent ++ [r]⟩) .badAlloc) ∨
    ∃ fs', fs'.count true ≤ fs.count true ∧
      onLink (ask (scarce D) r) (f, ⟨⟨d, fs⟩, sent⟩) = .ok (f, ⟨⟨d', fs'⟩, sent ++ [r]⟩) resp := by
  have key : ∀ x, (scarce D).answer r ⟨d, fs⟩ = x → onLink (ask (scarce D) r) (f, ⟨⟨d, fs⟩, sent⟩) =
      match x with
      | .ok s a => .ok (f, ⟨s, sent ++ [r]⟩) a
      | .throw s e => .throw (f, ⟨s, sent ++ [r]⟩) e
      | .ub => .ub := by
    rintro x rfl
    unfold onLink ask
    dsimp only
    cases (scarce D).answer r ⟨d, fs⟩ <;> rfl
  have hn : ∀ fs, noAlloc (D.answer r) ⟨d, fs⟩ = .ok ⟨d', fs⟩ resp := by
    intro fs; unfold noAlloc; rw [h]
  rcases alloc_count d fs with ⟨f1, c1, e1⟩ | ⟨f1, c1, e1⟩
  · exact .inl ⟨f1, d, c1, .inl rfl, key _ (Prog.bind_throw e1)⟩
  rcases alloc_count d' f1 with ⟨f2, c2, e2⟩ | ⟨f2, c2, e2⟩
  · exact .inl ⟨f2, d', by omega, .inr rfl, key _ ((Prog.bind_ok e1).trans ((Prog.bind_ok (hn f1)).trans (Prog.bind_throw e2)))⟩
  · exact .inr ⟨f2, by omega, key _ ((Prog.bind_ok e1).trans ((Prog.bind_ok (hn f1)).trans ((Prog.bind_ok e2).trans rfl)))⟩

/-- One call of `handleTransfers` when the device answers with this packet. -/
theorem transferA_step (m : Mem) (D : Device δ) (f : FileObject) (u : Upload) (hf : f.state = .uploading u) (d d' : δ)
    (resp : MessageRouterResponse) (p : Packet)
    (h : D.answer ⟨0x4F#8, ⟨0x37, f.instanceId, 0, 2⟩, [u.number]⟩ d = .ok d' resp) (hs : resp.status = 0x00#8)
    (hp : (FileObject.packet u.number u.transferSize resp.data.length).from m resp.data = .ok p) (sent : List Req)
    (fs : List Bool) :
    (∃ fs' d1 sent', fs'.count true < fs.count true ∧ (d1 = d ∨ d1 = d') ∧
      FileObject.handleTransfersA m (scarce D) (f, ⟨⟨d, fs⟩, sent⟩) = .throw (f, ⟨⟨d1, fs'⟩, sent'⟩) .badAlloc) ∨
    ∃ fs' sent', fs'.count true ≤ fs.count true ∧
      (∀ bs, p = .more bs → FileObject.handleTransfersA m (scarce D) (f, ⟨⟨d, fs⟩, sent⟩) =
        .ok ({ f with state := .uploading { u with content := u.content ++ bs, number := u.number + 1 } },
          ⟨⟨d', fs'⟩, sent'⟩) true) ∧
      (∀ bs, p = .last bs → (u.content ++ bs).length = u.fileSize.toNat →
        FileObject.handleTransfersA m (scarce D) (f, ⟨⟨d, fs⟩, sent⟩) =
        .ok ({ f with state := .uploading { u with content := u.content ++ bs }
                      calls := f.calls ++ [⟨u.handler, 0x00#8, u.content ++ bs⟩] }, ⟨⟨d', fs'⟩, sent'⟩) false) := by
  obtain ⟨inst, st, calls⟩ := f
  obtain rfl : st = .uploading u := hf
  rcases allocF_count (⟨inst, .uploading u, calls⟩ : FileObject) d sent fs with ⟨f1, c1, e1⟩ | ⟨f1, c1, e1⟩
  · refine .inl ⟨f1, d, sent, c1, .inl rfl, (Prog.bind_ok (Prog.get_run _)).trans (Prog.bind_throw e1)⟩
  rcases scarce_ask D _ d d' resp h ⟨inst, .uploading u, calls⟩ sent f1 with ⟨f2, d1, c2, hd, e2⟩ | ⟨f2, c2, e2⟩
  · exact .inl ⟨f2, d1, _, by omega, hd,
      (Prog.bind_ok (Prog.get_run _)).trans ((Prog.bind_ok e1).trans (Prog.bind_throw e2))⟩
  rcases allocF_count (⟨inst, .uploading u, calls⟩ : FileObject) d' (sent ++ [⟨0x4F#8, ⟨0x37, inst, 0, 2⟩, [u.number]⟩]) f2 with
    ⟨f3, c3, e3⟩ | ⟨f3, c3, e3⟩
  · exact .inl ⟨f3, d', _, by omega, .inr rfl,
      (Prog.bind_ok (Prog.get_run _)).trans ((Prog.bind_ok e1).trans ((Prog.bind_ok e2).trans (Prog.bind_throw e3)))⟩
  · right
    refine ⟨f3, sent ++ [⟨0x4F#8, ⟨0x37, inst, 0, 2⟩, [u.number]⟩], by omega, ?_, ?_⟩
    · rintro bs rfl
      refine (Prog.bind_ok (Prog.get_run _)).trans ((Prog.bind_ok e1).trans ((Prog.bind_ok e2).trans ((Prog.bind_ok e3).trans ?_)))
      rw [if_pos (show _ = GeneralStatus.success from hs), hp]
      rfl
    · rintro bs rfl hl
      refine (Prog.bind_ok (Prog.get_run _)).trans ((Prog.bind_ok e1).trans ((Prog.bind_ok e2).trans ((Prog.bind_ok e3).trans ?_)))
      rw [if_pos (show _ = GeneralStatus.success from hs), hp]
      refine (Prog.bind_ok (Prog.lift_ok _ _)).trans ?_
      refine (Prog.bind_ok (Prog.modify_run _ _)).trans ?_
      dsimp only
      rw [if_pos hl]
      rfl

theorem retry_from (m : Mem) (D : Device δ) (inst : BitVec 16) (parts : FileParts) (hparts : parts.Proper)
    (served : Nat → δ → Prop) (hD : Resends D inst parts served) (handler n : Nat) :
    ∀ i d fs sent, i ≤ parts.chunks.length → (served i d ∨ served (i + 1) d) →
      ∃ f' L', retry m (scarce D) n (⟨inst, .uploading ⟨BitVec.ofNat 32 parts.content.length, BitVec.ofNat 8 parts.ts,
          (parts.chunks.take i).flatten, BitVec.ofNat 8 i, handler⟩, []⟩, ⟨⟨d, fs⟩, sent⟩) = .ok (f', L') () ∧
        (f'.calls = [] ∨ f'.calls = [⟨handler, 0x00#8, parts.content⟩]) ∧
        (parts.chunks.length + 1 - i + fs.count true ≤ n → f'.calls = [⟨handler, 0x00#8, parts.content⟩]) := by
  obtain ⟨hts, hch, hcrc, hsize⟩ := hparts
  have e8 : (BitVec.ofNat 8 parts.ts).toNat = parts.ts := by rw [BitVec.toNat_ofNat]; omega
  induction n with
  | zero =>
    intro i d fs sent hi _
    exact ⟨_, _, rfl, .inl rfl, fun h => absurd h (by omega)⟩
  | succ n ih =>
    intro i d fs sent hi hs
    by_cases hlt : i < parts.chunks.length
    · obtain ⟨c, hc⟩ : ∃ c, parts.chunks[i]? = some c := ⟨_, List.getElem?_eq_getElem hlt⟩
      have hft := (fileTransfers_at inst parts.crc parts.last parts.chunks 0).1 i c hc
      simp only [Nat.zero_add] at hft
      obtain ⟨d', resp, ha, hst, hdat, hsv⟩ := hs.elim (hD.next i d _ _ hft) (hD.again i d _ _ hft)
      have hcl : c.length = (BitVec.ofNat 8 parts.ts).toNat := by
        rw [e8]; exact hch c (List.mem_of_getElem? hc)
      have hp := packet_more m (BitVec.ofNat 8 i) (BitVec.ofNat 8 parts.ts) i (if i = 0 then 0 else 1) c [] rfl
        (by split <;> simp) hcl resp.data.length
      rw [List.append_nil, ← hdat] at hp
      rw [fileNextReq, le_one_ofNat] at ha
      rcases transferA_step m D ⟨inst, .uploading ⟨BitVec.ofNat 32 parts.content.length, BitVec.ofNat 8 parts.ts,
          (parts.chunks.take i).flatten, BitVec.ofNat 8 i, handler⟩, []⟩ _ rfl d d' resp _ ha hst hp sent fs with
        ⟨fs', d1, sent', hcnt, hd1, he⟩ | ⟨fs', sent', hcnt, he, _⟩
      · obtain ⟨f', L', hr, h1, h2⟩ := ih i d1 fs' sent' hi (by
          rcases hd1 with rfl | rfl
          · exact hs
          · exact .inr hsv)
        refine ⟨f', L', ?_, h1, fun h => h2 (by omega)⟩
        simp only [retry, he]
        exact hr
      · have he := he c rfl
        have hn : BitVec.ofNat 8 i + 1 = BitVec.ofNat 8 (i + 1) := by
          apply BitVec.eq_of_toNat_eq; simp
        have htk : (parts.chunks.take i).flatten ++ c = (parts.chunks.take (i + 1)).flatten := by
          rw [List.take_add_one, hc]; simp
        rw [hn, htk] at he
        obtain ⟨f', L', hr, h1, h2⟩ := ih (i + 1) d' fs' sent' (by omega) (.inl hsv)
        refine ⟨f', L', ?_, h1, fun h => h2 (by omega)⟩
        simp only [retry, he]
        exact hr
    · obtain rfl : i = parts.chunks.length := by omega
      have hft := (fileTransfers_at inst parts.crc parts.last parts.chunks 0).2
      simp only [Nat.zero_add] at hft
      obtain ⟨d', resp, ha, hst, hdat, hsv⟩ := hs.elim (hD.next _ d _ _ hft) (hD.again _ d _ _ hft)
      have hp := packet_last m (BitVec.ofNat 8 parts.chunks.length) (BitVec.ofNat 8 parts.ts) parts.chunks.length
        (if parts.chunks.length = 0 then 4 else 2) parts.last parts.crc rfl (by split <;> simp) hcrc
      rw [← hdat] at hp
      rw [fileNextReq, le_one_ofNat] at ha
      rcases transferA_step m D ⟨inst, .uploading ⟨BitVec.ofNat 32 parts.content.length, BitVec.ofNat 8 parts.ts,
          (parts.chunks.take parts.chunks.length).flatten, BitVec.ofNat 8 parts.chunks.length, handler⟩, []⟩ _ rfl d d' resp _
          ha hst hp sent fs with
        ⟨fs', d1, sent', hcnt, hd1, he⟩ | ⟨fs', sent', hcnt, _, he⟩
      · obtain ⟨f', L', hr, h1, h2⟩ := ih _ d1 fs' sent' hi (by
          rcases hd1 with rfl | rfl
          · exact hs
          · exact .inr hsv)
        refine ⟨f', L', ?_, h1, fun h => h2 (by omega)⟩
        simp only [retry, he]
        exact hr
      · have hcont : (parts.chunks.take parts.chunks.length).flatten ++ parts.last = parts.content := by
          rw [List.take_length]; rfl
        have he := he parts.last rfl (by
          simp only [hcont]
          rw [BitVec.toNat_ofNat, Nat.mod_eq_of_lt hsize])
        simp only [hcont, List.nil_append] at he
        refine ⟨_, _, by simp only [retry, he]; rfl, .inr rfl, fun _ => rfl⟩

/-- C120. An upload from a device that sends a packet again when asked again: a client that calls `handleTransfers`
again whenever it threw `std::bad_alloc` gets the whole file, once, after at most as many calls as there are packets and
failures; before that the handler is not called. -/
theorem C120_retry (m : Mem) (D : Device δ) (inst : BitVec 16) (parts : FileParts) (hparts : parts.Proper)
    (served : Nat → δ → Prop) (hD : Resends D inst parts served) (handler : Nat) (d : δ) (hd : served 0 d) (fs : List Bool)
    (sent : List Req) (n : Nat) :
    ∃ f' L', retry m (scarce D) n (⟨inst, .uploading (freshUpload (BitVec.ofNat 32 parts.content.length)
        (BitVec.ofNat 8 parts.ts) handler), []⟩, ⟨⟨d, fs⟩, sent⟩) = .ok (f', L') () ∧
      (f'.calls = [] ∨ f'.calls = [⟨handler, 0x00#8, parts.content⟩]) ∧
      (parts.chunks.length + 1 + fs.count true ≤ n → f'.calls = [⟨handler, 0x00#8, parts.content⟩]) := by
  obtain ⟨f', L', h1, h2, h3⟩ := retry_from m D inst parts hparts served hD handler n 0 d fs sent (by omega) (.inl hd)
  exact ⟨f', L', h1, h2, fun h => h3 (by omega)⟩

/-- A device that sends packets again. -/
def resender (inst : BitVec 16) (parts : FileParts) : Device Nat :=
  ⟨fun r p =>
    let packets := fileTransfers inst parts.crc 0 parts.chunks parts.last
    match packets[p]? with
    | some (req, ans) =>
      if r = req then .ok (p + 1) { MessageRouterResponse.default with data := ans }
      else match packets[p - 1]? with
        | some (_, ans) => .ok p { MessageRouterResponse.default with data := ans }
        | none => .throw p (.runtime "no answer")
    | none => match packets[p - 1]? with
        | some (_, ans) => .ok p { MessageRouterResponse.default with data := ans }
        | none => .throw p (.runtime "no answer")⟩

theorem fileTransfers_req (inst : BitVec 16) (crc last : List Byte) (chunks : List (List Byte)) (k : Nat)
    (req : Req) (ans : List Byte) (h : (fileTransfers inst crc 0 chunks last)[k]? = some (req, ans)) : req = fileNextReq inst k := by
  have hl : ∀ (cs : List (List Byte)) j, (fileTransfers inst crc j cs last).length = cs.length + 1 := by
    intro cs
    induction cs with
    | nil => intro j; rfl
    | cons x xs ih => intro j; rw [fileTransfers, List.length_cons, ih]; rfl
  have hk : k < chunks.length + 1 := by
    rw [← hl chunks 0]
    exact (List.getElem?_eq_some_iff.mp h).1
  by_cases hlt : k < chunks.length
  · have := (fileTransfers_at inst crc last chunks 0).1 k _ (List.getElem?_eq_getElem hlt)
    rw [h] at this
    simp only [Nat.zero_add] at this
    injection this with this
    injection this with this _
  · obtain rfl : k = chunks.length := by omega
    have := (fileTransfers_at inst crc last chunks 0).2
    rw [h] at this
    simp only [Nat.zero_add] at this
    injection this with this
    injection this with this _

/-- For every file there is a device as in `C120_retry`. -/
theorem resender_resends (inst : BitVec 16) (parts : FileParts) : Resends (resender inst parts) inst parts (fun k d => d = k) := by
  constructor
  · rintro k d req ans h rfl
    refine ⟨d + 1, { MessageRouterResponse.default with data := ans }, ?_, rfl, rfl, rfl⟩
    simp only [resender, h, if_true]
  · rintro k d req ans h rfl
    refine ⟨k + 1, { MessageRouterResponse.default with data := ans }, ?_, rfl, rfl, rfl⟩
    have hr := fileTransfers_req _ _ _ _ _ _ _ h
    cases hnext : (fileTransfers inst parts.crc 0 parts.chunks parts.last)[k + 1]? with
    | none => simp only [resender, hnext, Nat.add_sub_cancel, h]
    | some x =>
      have hr' := fileTransfers_req _ _ _ _ _ _ _ hnext
      have hne : ¬ req = x.1 := by
        rw [hr, hr', fileNextReq, fileNextReq, le_one_ofNat, le_one_ofNat]
        intro he
        injection he with _ _ he
        injection he with he _
        have := congrArg BitVec.toNat he
        simp only [BitVec.toNat_ofNat] at this
        omega
      simp only [resender, hnext, hne, if_false, Nat.add_sub_cancel, h]

/-- Three failures, one of them after the packet was taken from the device: the file arrives. -/
example : ∃ f' L', retry Mem.strict (scarce (resender 1 ⟨2, [[1, 2], [3, 4]], [5], [0, 0]⟩)) 6
      (⟨1, .uploading (freshUpload 5 2 7), []⟩, ⟨⟨0, [true, false, false, false, true, false, true]⟩, []⟩) = .ok (f', L') () ∧
    f'.calls = [⟨7, 0x00#8, [1, 2, 3, 4, 5]⟩] := by
  obtain ⟨f', L', h1, _, h3⟩ := C120_retry Mem.strict (resender 1 ⟨2, [[1, 2], [3, 4]], [5], [0, 0]⟩) 1
    ⟨2, [[1, 2], [3, 4]], [5], [0, 0]⟩ ⟨by decide, by decide, rfl, by decide⟩ _ (resender_resends _ _) 7 0 rfl
    [true, false, false, false, true, false, true] [] 6
  exact ⟨f', L', h1, h3 (by decide)⟩

/-- A device that sends half of the announced file as the first and last packet, whenever asked. -/
def halfFile : Device Unit := ⟨fun _ s => .ok s { MessageRouterResponse.default with data := [0, 4, 1, 2, 0, 0] }⟩

/-- The object after the first attempt below. -/
def keptHalf : FileObject := ⟨1, .uploading ⟨4, 255, [1, 2], 0, 7⟩, []⟩

/-- C120. "A file is reported as uploaded only if its packets arrived" is false when memory runs out: the packet is of the
wrong size, the exception comes before the handler is called, and when the client tries again the packet
is taken twice; the handler gets a file that the device does not have, with status success. -/
theorem C120_file_violated :
    ∃ s1 s2, FileObject.handleTransfersA Mem.strict (scarce halfFile) (⟨1, .uploading (freshUpload 4 255 7), []⟩,
        ⟨⟨(), [false, false, false, false, true]⟩, []⟩) = .throw s1 .badAlloc ∧ s1.1 = keptHalf ∧
      FileObject.handleTransfersA Mem.strict (scarce halfFile) s1 = .ok s2 false ∧
      s2.1.calls = [⟨7, 0x00#8, [1, 2, 1, 2]⟩] := by
  refine ⟨(keptHalf, ⟨⟨(), []⟩, [fileNextReq 1 0]⟩),
    (⟨1, .uploading ⟨4, 255, [1, 2, 1, 2], 0, 7⟩, [⟨7, 0x00#8, [1, 2, 1, 2]⟩]⟩, ⟨⟨(), []⟩, [fileNextReq 1 0, fileNextReq 1 0]⟩),
    ?_, rfl, ?_, rfl⟩
  · decide +kernel
  · decide +kernel

/-- With memory the first attempt reports the wrong size. -/
example : ∃ s', FileObject.handleTransfersA Mem.strict (scarce halfFile) (⟨1, .uploading (freshUpload 4 255 7), []⟩,
    ⟨⟨(), []⟩, []⟩) = .ok s' false ∧ s'.1.calls = [⟨7, 0x20#8, []⟩] :=
  ⟨(⟨1, .uploading ⟨4, 255, [1, 2], 0, 7⟩, [⟨7, 0x20#8, []⟩]⟩, ⟨⟨(), []⟩, [fileNextReq 1 0]⟩), by decide +kernel, rfl⟩

/-! ## Concrete sessions -/

/-- A reply with data. -/
def scarceReply (b : Byte) : EncapsPacket := { EncapsPacket.default with sessionHandle := 7, length := 1, data := [b] }

/-- A reply whose data is a reply. -/
def scarceNested : EncapsPacket := { EncapsPacket.default with sessionHandle := 7, length := 25, data := (scarceReply 9).pack }

/-- The hypotheses of the theorems on sessions: the replies. -/
example : (∀ q ∈ [scarceReply 1, scarceReply 2], WellFormed q ∧ q.status = 0#32 ∧ q.sessionHandle = 7#32) ∧
    WellFormed scarceNested ∧ scarceNested.data = (scarceReply 9).pack := by
  refine ⟨?_, ⟨rfl, by decide +kernel⟩, rfl⟩
  intro q hq
  simp only [List.mem_cons, List.not_mem_nil, or_false] at hq
  rcases hq with rfl | rfl <;> exact ⟨⟨rfl, rfl⟩, rfl, rfl⟩

/-- A failure after the request was sent; the next request gets the first reply. -/
example (net : List NetEv) (hn : (stream net).1 = ([scarceReply 1] ++ [scarceReply 2]).flatMap EncapsPacket.pack) :
    ∃ s' net', sendAndReceiveA Mem.strict 7 (scarceReply 3) ⟨⟨net, [], []⟩, [false, true]⟩ = .throw s' .badAlloc ∧
      callAll Mem.strict 7 [scarceReply 4] s'.st = .ok ⟨net', [], [(scarceReply 3).pack, (scarceReply 4).pack]⟩ [scarceReply 1] := by
  obtain ⟨s', net', h1, h2, _⟩ := C120_step_violated Mem.strict 7 (scarceReply 3) (by decide +kernel) [scarceReply 4] [scarceReply 1] rfl
    (by intro r hr; simp only [List.mem_cons, List.not_mem_nil, or_false] at hr; subst hr; decide +kernel)
    (by intro r hr; simp only [List.mem_cons, List.not_mem_nil, or_false] at hr; subst hr; exact ⟨⟨rfl, rfl⟩, rfl, rfl⟩)
    (scarceReply 2) net [] hn
  exact ⟨s', net', h1, h2⟩

end Verif.Props
