import Verif.Props.Tcp

/-!
# Properties C22–C25, C71, C72 (sessions)
-/

namespace Verif.Props

open Verif Verif.Spec

/-! ## Helper lemmas -/

theorem padTake_length (n : Nat) (bs : List Byte) : (padTake n bs).length = n := by
  simp [padTake]; omega

theorem padTake_of_le {n : Nat} {bs : List Byte} (h : n ≤ bs.length) : padTake n bs = bs.take n := by
  simp [padTake, Nat.sub_eq_zero_of_le h]

theorem padTake_add (a b : Nat) (bs : List Byte) :
    padTake a bs ++ padTake b (bs.drop a) = padTake (a + b) bs := by
  by_cases h : a ≤ bs.length
  · rw [padTake_of_le h, padTake, padTake, ← List.append_assoc, ← List.take_add, List.length_drop]
    congr 2; omega
  · have h' : bs.length ≤ a := by omega
    simp only [padTake]
    rw [List.drop_eq_nil_of_le h', List.take_of_length_le h', List.take_of_length_le (show bs.length ≤ a + b by omega)]
    simp only [List.take_nil, List.nil_append, List.length_nil, Nat.sub_zero, List.append_assoc,
      List.replicate_append_replicate]
    congr 2; omega

theorem padTake_append_self (bs rest : List Byte) : padTake bs.length (bs ++ rest) = bs := by
  rw [padTake_of_le (by simp), List.take_left]

theorem receive_pad (n : Nat) (s : Tcp) (h : n ≤ (stream s.net).1.length ∨ (stream s.net).2 = .closed) :
    ∃ net', Tcp.receive n s = .ok { s with net := net' } (padTake n (stream s.net).1) ∧
      stream net' = ((stream s.net).1.drop n, (stream s.net).2) := by
  by_cases hn : n ≤ (stream s.net).1.length
  · rw [padTake_of_le hn]; exact C21_receive n s hn
  · have hc := h.resolve_left hn
    have := C24_receive_short n s (by omega)
    rw [hc] at this
    obtain ⟨net', h1, h2⟩ := this
    refine ⟨net', ?_, ?_⟩
    · rw [h1, padTake, List.take_of_length_le (by omega)]
    · rw [h2, hc, List.drop_eq_nil_of_le (by omega)]

theorem receive_fails (n : Nat) (s : Tcp) (h : (stream s.net).1.length < n) (h2 : (stream s.net).2 ≠ .closed) :
    ∃ s' c, Tcp.receive n s = .throw s' (.system c) := by
  have := C24_receive_short n s h
  cases he : (stream s.net).2 with
  | closed => exact absurd he h2
  | quiet => rw [he] at this; simp only at this; exact ⟨_, _, this⟩
  | failed c => rw [he] at this; obtain ⟨_, h1⟩ := this; exact ⟨_, _, h1⟩

theorem getLength_eq (data : List Byte) (h : 4 ≤ data.length) :
    EncapsPacket.getLengthFromHeader data = .ok (field data 2 2) := by
  match data, h with
  | a :: b :: c :: d :: rest, _ =>
    have := u16_at Mem.strict (Buffer.ofData [c, d]) (by simp [Buffer.ofData])
    simp only [EncapsPacket.getLengthFromHeader]
    rw [this]
    simp only [Buffer.ofData, field, List.drop_succ_cons, List.drop_zero, List.take_succ_cons, List.take_zero]
    have hlt := ofLe_lt [c, d]
    simp only [List.length_cons, List.length_nil] at hlt
    rw [BitVec.toNat_ofNat, Nat.mod_eq_of_lt (by omega)]

/-- A frame whose length field is right decodes to a packet with these bytes. -/
theorem parse_exact (m : Mem) (data : List Byte) (h : data.length = 24 + field data 2 2) :
    ∃ q, EncapsPacket.parse m data = .ok q ∧ q.pack = data ∧ q.context.length = 8 := by
  rcases C07_total m .default rfl data with ⟨q, h1, h2, h3, _⟩ | ⟨q, e, _, h1⟩
  · exact ⟨q, by simp [EncapsPacket.parse, h1], h2, h3⟩
  · exfalso
    have : field data 2 2 = ofLe ((data.drop 2).take 2) := rfl
    omega

/-- The packet whose bytes these are. -/
structure IsFrame (q : EncapsPacket) (bytes : List Byte) : Prop where
  bytes_eq : q.pack = bytes
  context : q.context.length = 8

theorem IsFrame.fields {q : EncapsPacket} {bytes : List Byte} (h : IsFrame q bytes) :
    q.command.toNat = field bytes 0 2 ∧ q.length.toNat = field bytes 2 2 ∧
    q.sessionHandle.toNat = field bytes 4 4 ∧
    q.status.toNat = field bytes 8 4 ∧ q.context = (bytes.drop 12).take 8 ∧
    q.options.toNat = field bytes 20 4 ∧ q.data = bytes.drop 24 := by
  rw [← h.bytes_eq, encaps_pack_eq]
  have hc := h.context
  refine ⟨?_, ?_, ?_, ?_, ?_, ?_, ?_⟩
  · rw [field16]
  · rw [field_skip _ _ _ _ _ (by omega), field16]
  · rw [field_skip _ _ _ _ _ (by omega), field_skip _ _ _ _ _ (by omega), field32]
  · rw [field_skip _ _ _ _ _ (by omega), field_skip _ _ _ _ _ (by omega),
      field_skip _ _ _ _ _ (by omega), field32]
  · rw [drop_skip _ _ _ _ (by omega), drop_skip _ _ _ _ (by omega), drop_skip _ _ _ _ (by omega),
      drop_skip _ _ _ _ (by omega), List.drop_zero, List.take_append_of_le_length (by omega),
      List.take_of_length_le (by omega)]
  · rw [field_skip _ _ _ _ _ (by omega), field_skip _ _ _ _ _ (by omega), field_skip _ _ _ _ _ (by omega),
      field_skip _ _ _ _ _ (by omega), field_after _ _ _ _ (by omega), hc, field32]
  · rw [drop_skip _ _ _ _ (by omega), drop_skip _ _ _ _ (by omega), drop_skip _ _ _ _ (by omega),
      drop_skip _ _ _ _ (by omega), List.drop_append, List.drop_eq_nil_of_le (by omega), hc, List.nil_append,
      drop_skip _ _ _ _ (by omega)]
    rfl


theorem IsFrame.unique {q p : EncapsPacket} {bytes : List Byte} (hq : IsFrame q bytes) (hp : IsFrame p bytes) :
    q = p := by
  have f1 := hq.fields
  have f2 := hp.fields
  rcases q with ⟨a1, a2, a3, a4, a5, a6, a7⟩
  rcases p with ⟨b1, b2, b3, b4, b5, b6, b7⟩
  simp only [EncapsPacket.mk.injEq]
  refine ⟨?_, ?_, ?_, ?_, ?_, ?_, ?_⟩
  · exact BitVec.eq_of_toNat_eq (f1.1.trans f2.1.symm)
  · exact BitVec.eq_of_toNat_eq (f1.2.1.trans f2.2.1.symm)
  · exact BitVec.eq_of_toNat_eq (f1.2.2.1.trans f2.2.2.1.symm)
  · exact BitVec.eq_of_toNat_eq (f1.2.2.2.1.trans f2.2.2.2.1.symm)
  · exact f1.2.2.2.2.1.trans f2.2.2.2.2.1.symm
  · exact BitVec.eq_of_toNat_eq (f1.2.2.2.2.2.1.trans f2.2.2.2.2.2.1.symm)
  · exact f1.2.2.2.2.2.2.trans f2.2.2.2.2.2.2.symm

theorem pack_data (p : EncapsPacket) (d : List Byte) :
    ({ p with data := d } : EncapsPacket).pack = ({ p with data := [] } : EncapsPacket).pack ++ d := by
  simp [encaps_pack_eq]

/-- The last checks of `sendAndReceive`, as a function of the reply frame. -/
def accept (handle : BitVec 32) (s : Tcp) (q : EncapsPacket) : Res Tcp EncapsPacket :=
  if q.status ≠ 0#32 then .throw s (.runtime "Bad encaps packet code")
  else if handle ≠ 0#32 ∧ q.sessionHandle ≠ handle then .throw s (.runtime "Wrong session handle received")
  else .ok s q

theorem accept_ok {handle : BitVec 32} {s s' : Tcp} {q p : EncapsPacket} (h : accept handle s q = .ok s' p) :
    s' = s ∧ p = q ∧ q.status = 0#32 ∧ (handle ≠ 0#32 → q.sessionHandle = handle) := by
  unfold accept at h
  split at h
  · cases h
  · split at h
    · cases h
    · injection h with h1 h2
      rename_i g1 g2
      exact ⟨h1.symm, h2.symm, Decidable.of_not_not g1,
        fun hh => Decidable.of_not_not fun g => g2 ⟨hh, g⟩⟩

theorem accept_of {handle : BitVec 32} (s : Tcp) {q : EncapsPacket} (h1 : q.status = 0#32)
    (h2 : handle ≠ 0#32 → q.sessionHandle = handle) : accept handle s q = .ok s q := by
  unfold accept
  rw [if_neg (fun h => h h1), if_neg (fun h => h.2 (h2 h.1))]

/-- The length of the frame at the front of a (zero-padded) stream. -/
def frameLen (bs : List Byte) : Nat := 24 + field (padTake 24 bs) 2 2

/-- `sendAndReceive` after a successful send, when a frame can be read. -/
theorem sar_compute (m : Mem) (handle : BitVec 32) (pkt : EncapsPacket) (s s1 : Tcp)
    (hs : Tcp.send pkt.pack s = .ok s1 ())
    (hf : frameLen (stream s1.net).1 ≤ (stream s1.net).1.length ∨ (stream s1.net).2 = .closed) :
    ∃ net' q, IsFrame q (padTake (frameLen (stream s1.net).1) (stream s1.net).1) ∧
      stream net' = ((stream s1.net).1.drop (frameLen (stream s1.net).1), (stream s1.net).2) ∧
      sendAndReceive m handle pkt s = accept handle { s1 with net := net' } q := by
  obtain ⟨n1, r1, e1⟩ := receive_pad 24 s1 (hf.imp_left fun h => by unfold frameLen at h; omega)
  have hg := getLength_eq (padTake 24 (stream s1.net).1) (by rw [padTake_length]; omega)
  obtain ⟨n2, r2, e2⟩ := receive_pad (field (padTake 24 (stream s1.net).1) 2 2) { s1 with net := n1 } (by
    simp only [e1]
    exact hf.imp_left fun h => by unfold frameLen at h; rw [List.length_drop]; omega)
  simp only [e1] at r2 e2
  have hpad := padTake_add 24 (field (padTake 24 (stream s1.net).1) 2 2) (stream s1.net).1
  obtain ⟨q, p1, p2, p3⟩ := parse_exact m (padTake (frameLen (stream s1.net).1) (stream s1.net).1) (by
    rw [padTake_length, frameLen, ← hpad]
    congr 1
    unfold field
    rw [List.drop_append_of_le_length (by rw [padTake_length]; omega), List.take_append_of_le_length (by
      rw [List.length_drop, padTake_length]; omega)])
  refine ⟨n2, q, ⟨p2, p3⟩, ?_, ?_⟩
  · rw [e2, List.drop_drop, frameLen]
  · unfold sendAndReceive
    rw [Prog.bind_ok hs, Prog.bind_ok (s' := { s1 with net := n1 }) r1, hg, Prog.bind_ok (Prog.lift_ok _ _),
      Prog.bind_ok r2, hpad]
    rw [frameLen] at p1
    rw [p1, Prog.bind_ok (Prog.lift_ok _ _)]
    rw [Prog.ite_run, Prog.ite_run]
    rfl

/-- When no whole frame arrives and the peer did not close, `sendAndReceive` throws. -/
theorem sar_fails (m : Mem) (handle : BitVec 32) (pkt : EncapsPacket) (s s1 : Tcp)
    (hs : Tcp.send pkt.pack s = .ok s1 ())
    (hf : (stream s1.net).1.length < frameLen (stream s1.net).1) (hc : (stream s1.net).2 ≠ .closed) :
    ∃ s' c, sendAndReceive m handle pkt s = .throw s' (.system c) := by
  unfold sendAndReceive
  rw [Prog.bind_ok hs]
  by_cases h24 : (stream s1.net).1.length < 24
  · obtain ⟨s', c, r⟩ := receive_fails 24 s1 h24 hc
    exact ⟨s', c, Prog.bind_throw r⟩
  · obtain ⟨n1, r1, e1⟩ := receive_pad 24 s1 (.inl (by omega))
    have hg := getLength_eq (padTake 24 (stream s1.net).1) (by rw [padTake_length]; omega)
    obtain ⟨s', c, r⟩ := receive_fails (field (padTake 24 (stream s1.net).1) 2 2) { s1 with net := n1 } (by
      simp only [e1, List.length_drop]; unfold frameLen at hf; omega) (by simpa only [e1] using hc)
    exact ⟨s', c, by
      rw [Prog.bind_ok (s' := { s1 with net := n1 }) r1, hg, Prog.bind_ok (Prog.lift_ok _ _), Prog.bind_throw r]⟩

/-- `sendAndReceive` is never undefined, whatever the memory after the buffers. -/
theorem sar_not_ub (m : Mem) (handle : BitVec 32) (pkt : EncapsPacket) (s : Tcp) :
    sendAndReceive m handle pkt s ≠ .ub := by
  cases hs : Tcp.send pkt.pack s with
  | ub => simp only [Tcp.send] at hs; split at hs <;> cases hs
  | throw s1 e => rw [sendAndReceive, Prog.bind_throw hs]; simp
  | ok s1 u =>
    by_cases hf : frameLen (stream s1.net).1 ≤ (stream s1.net).1.length ∨ (stream s1.net).2 = .closed
    · obtain ⟨net', q, _, _, h⟩ := sar_compute m handle pkt s s1 hs hf
      rw [h]; unfold accept; split
      · simp
      · split <;> simp
    · obtain ⟨s', c, h⟩ := sar_fails m handle pkt s s1 hs (by omega) (fun h => hf (.inr h))
      rw [h]; simp

/-! ## C23 -/

/-- C23. Whatever the peer sends and however the network behaves: if
`sendAndReceive` returns, the reply is the (zero-padded) frame at the front of the
stream, its status field is 0 and, for a session with a handle, its handle field
is that handle. -/
theorem C23_only_success (m : Mem) (handle : BitVec 32) (pkt reply : EncapsPacket) (s s' : Tcp)
    (h : sendAndReceive m handle pkt s = .ok s' reply) :
    reply.status = 0#32 ∧ (handle ≠ 0#32 → reply.sessionHandle = handle) ∧
    ∃ n, reply.pack = padTake n (stream s.net).1 ∧ 24 ≤ n ∧ n = 24 + field reply.pack 2 2 ∧
      field reply.pack 8 4 = 0 ∧ (handle ≠ 0#32 → field reply.pack 4 4 = handle.toNat) ∧
      reply.data = reply.pack.drop 24 := by
  cases hs : Tcp.send pkt.pack s with
  | ub => rw [sendAndReceive, Prog.bind_ub hs] at h; cases h
  | throw s1 e => rw [sendAndReceive, Prog.bind_throw hs] at h; cases h
  | ok s1 u =>
    have hnet : s1.net = s.net := by
      simp only [Tcp.send] at hs; split at hs
      · cases hs
      · injection hs with hs _; rw [← hs]
    by_cases hf : frameLen (stream s1.net).1 ≤ (stream s1.net).1.length ∨ (stream s1.net).2 = .closed
    · obtain ⟨net', q, hq, _, h'⟩ := sar_compute m handle pkt s s1 hs hf
      rw [h'] at h
      obtain ⟨_, rfl, h1, h2⟩ := accept_ok h
      have hl := congrArg List.length hq.bytes_eq
      rw [padTake_length] at hl
      have hF := (⟨rfl, hq.context⟩ : IsFrame reply reply.pack).fields
      refine ⟨h1, h2, frameLen (stream s1.net).1, by rw [hq.bytes_eq, hnet], by unfold frameLen; omega, ?_, ?_, ?_, ?_⟩
      · have : field reply.pack 2 2 = field (padTake 24 (stream s1.net).1) 2 2 := by
          rw [hq.bytes_eq, frameLen, ← padTake_add]
          unfold field
          rw [List.drop_append_of_le_length (by rw [padTake_length]; omega), List.take_append_of_le_length (by
            rw [List.length_drop, padTake_length]; omega)]
        rw [this, frameLen]
      · rw [← hF.2.2.2.1, h1]; rfl
      · intro hh; rw [← hF.2.2.1, h2 hh]
      · exact hF.2.2.2.2.2.2
    · obtain ⟨s', c, h'⟩ := sar_fails m handle pkt s s1 hs (by omega) (fun h => hf (.inr h))
      rw [h'] at h; cases h

/-! ## C22 -/

/-- A packet as a peer sends it: 8 bytes of context and a right length field. -/
structure WellFormed (p : EncapsPacket) : Prop where
  context : p.context.length = 8
  length : p.length.toNat = p.data.length

theorem WellFormed.pack_length {p : EncapsPacket} (h : WellFormed p) : p.pack.length = 24 + p.data.length := by
  rw [encaps_pack_eq]; simp [h.context]; omega

theorem WellFormed.frameLen {p : EncapsPacket} (h : WellFormed p) (rest : List Byte) :
    frameLen (p.pack ++ rest) = p.pack.length := by
  have hp := h.pack_length
  unfold Props.frameLen
  rw [padTake_of_le (by simp; omega), hp, ← h.length]
  congr 1
  have hF := (⟨rfl, h.context⟩ : IsFrame p p.pack).fields.2.1
  rw [hF]
  unfold field
  rw [List.drop_take, List.take_take, List.drop_append_of_le_length (by omega),
    List.take_append_of_le_length (by simp; omega)]
  rfl

/-- One exchange with a peer that answers with a whole frame. -/
theorem sar_frame (m : Mem) (handle : BitVec 32) (pkt p : EncapsPacket) (hp : WellFormed p) (s : Tcp)
    (hs : s.sends = []) (hk : pkt.pack.length < 2 ^ 63) (rest : List Byte)
    (hn : (stream s.net).1 = p.pack ++ rest) :
    ∃ net', stream net' = (rest, (stream s.net).2) ∧ sendAndReceive m handle pkt s =
      accept handle { s with net := net', sent := s.sent ++ [pkt.pack] } p := by
  have hsend := send_all s pkt.pack hs hk
  have hfl := hp.frameLen rest
  obtain ⟨net', q, hq, h1, h2⟩ := sar_compute m handle pkt s _ hsend (.inl (by
    show frameLen (stream s.net).1 ≤ (stream s.net).1.length
    rw [hn, hfl]; simp))
  simp only [hn, hfl] at hq h1
  rw [padTake_append_self] at hq
  have hqp : q = p := hq.unique ⟨rfl, hp.context⟩
  subst hqp
  rw [List.drop_left] at h1
  exact ⟨net', h1, h2⟩

/-- A client that makes a number of requests one after the other. -/
def callAll (m : Mem) (handle : BitVec 32) : List EncapsPacket → Prog Tcp (List EncapsPacket)
  | [] => pure []
  | r :: rs => do
    let p ← sendAndReceive m handle r
    let ps ← callAll m handle rs
    pure (p :: ps)

/-- C22. If the peer's stream consists of one well-formed successful frame of this
session per request, then the k-th request gets exactly the k-th frame, for any
number of requests and any segmentation; one request frame is written per call. -/
theorem C22_in_step (m : Mem) (handle : BitVec 32) (requests replies : List EncapsPacket)
    (hlen : requests.length = replies.length)
    (hreq : ∀ r ∈ requests, r.pack.length < 2 ^ 63)
    (hrep : ∀ p ∈ replies, WellFormed p ∧ p.status = 0#32 ∧ p.sessionHandle = handle)
    (s : Tcp) (hs : s.sends = []) (rest : List Byte)
    (hn : (stream s.net).1 = replies.flatMap EncapsPacket.pack ++ rest) :
    ∃ net', callAll m handle requests s =
        .ok { s with net := net', sent := s.sent ++ requests.map EncapsPacket.pack } replies ∧
      stream net' = (rest, (stream s.net).2) := by
  induction requests generalizing replies s with
  | nil =>
    have : replies = [] := List.length_eq_zero_iff.mp hlen.symm
    subst this
    refine ⟨s.net, by simp [callAll], ?_⟩
    rw [← show (stream s.net).1 = rest by simpa using hn]
  | cons r rs ih =>
    cases replies with
    | nil => simp at hlen
    | cons p ps =>
      have hp := hrep p (by simp)
      obtain ⟨n1, e1, r1⟩ := sar_frame m handle r p hp.1 s hs (hreq r (by simp))
        (ps.flatMap EncapsPacket.pack ++ rest) (by rw [hn]; simp)
      rw [accept_of _ hp.2.1 (fun _ => hp.2.2)] at r1
      obtain ⟨n2, r2, e2⟩ := ih ps (by simpa using hlen) (fun x hx => hreq x (by simp [hx]))
        (fun x hx => hrep x (by simp [hx])) { s with net := n1, sent := s.sent ++ [r.pack] } hs
        (by simp only [e1])
      refine ⟨n2, ?_, by rw [e2, e1]⟩
      unfold callAll
      rw [Prog.bind_ok r1, Prog.bind_ok r2]
      simp

/-- A non-trivial instance of the hypotheses: two replies cut into three segments
across the frame boundary. -/
example :
    let p (b : Byte) : EncapsPacket := { EncapsPacket.default with sessionHandle := 7, length := 1, data := [b] }
    let bytes := (p 1).pack ++ (p 2).pack
    let net : List NetEv := [.seg (bytes.headD 0) ((bytes.drop 1).take 26), .eintr,
      .seg ((bytes.drop 27).headD 0) ((bytes.drop 28).take 9), .seg ((bytes.drop 37).headD 0) (bytes.drop 38)]
    (∀ q ∈ [p 1, p 2], WellFormed q ∧ q.status = 0#32 ∧ q.sessionHandle = 7#32) ∧
    (stream net).1 = [p 1, p 2].flatMap EncapsPacket.pack ++ [] := by
  refine ⟨?_, by decide +kernel⟩
  intro q hq
  simp at hq
  rcases hq with rfl | rfl <;> exact ⟨⟨rfl, rfl⟩, rfl, rfl⟩

/-! ## C24 -/

/-- C24. Every reply that is cut anywhere after its header by the peer closing the
connection is returned as a success, the lost bytes replaced by zeros. -/
theorem C24_truncated_accepted (m : Mem) (handle : BitVec 32) (pkt p : EncapsPacket) (hp : WellFormed p)
    (h0 : p.status = 0#32) (hh : p.sessionHandle = handle) (s : Tcp) (hs : s.sends = [])
    (hk : pkt.pack.length < 2 ^ 63) (cut : Nat) (hcut : cut ≤ p.data.length)
    (hn : stream s.net = (p.pack.take (24 + cut), .closed)) :
    ∃ s' q, sendAndReceive m handle pkt s = .ok s' q ∧
      q = { p with data := p.data.take cut ++ List.replicate (p.data.length - cut) 0#8 } := by
  have hsend := send_all s pkt.pack hs hk
  have hpl := hp.pack_length
  have hfl : frameLen (p.pack.take (24 + cut)) = p.pack.length := by
    have := hp.frameLen []
    rw [List.append_nil] at this
    rw [← this]
    unfold frameLen
    rw [padTake_of_le (by simp; omega), padTake_of_le (by omega), List.take_take, Nat.min_eq_left (by omega)]
  obtain ⟨net', q, hq, h1, h2⟩ := sar_compute m handle pkt s _ hsend (.inr (by simp only [hn]))
  simp only [hn, hfl] at hq h1
  have hh24 : ({ p with data := [] } : EncapsPacket).pack.length = 24 := by
    rw [encaps_pack_eq]; simp [hp.context]
  have hb : padTake p.pack.length (p.pack.take (24 + cut)) =
      ({ p with data := p.data.take cut ++ List.replicate (p.data.length - cut) 0#8 } : EncapsPacket).pack := by
    unfold padTake
    rw [List.take_take, Nat.min_eq_right (by omega), List.length_take, Nat.min_eq_left (by omega), hpl,
      show 24 + p.data.length - (24 + cut) = p.data.length - cut by omega]
    rw [pack_data p (p.data.take cut ++ _), ← List.append_assoc]
    congr 1
    have := pack_data p p.data
    rw [show ({ p with data := p.data } : EncapsPacket) = p from rfl] at this
    rw [this, List.take_append, List.take_of_length_le (by omega), hh24, Nat.add_sub_cancel_left]
  rw [hb] at hq
  have hqp := hq.unique ⟨rfl, hp.context⟩
  subst hqp
  exact ⟨_, _, h2.trans (accept_of _ h0 (fun _ => hh)), rfl⟩

/-- C24. An instance: the peer sends the header and two of four bytes and closes. -/
example : ∃ s', sendAndReceive Mem.strict 7#32 EncapsPacketFactory.listIdentity
    ⟨[.seg 0x6F#8 ([0#8, 4#8, 0#8, 7#8, 0#8, 0#8, 0#8] ++ List.replicate 16 0#8 ++ [1#8, 2#8]), .eof], [], []⟩ =
    .ok s' ⟨0x6F#16, 4#16, 7#32, 0#32, List.replicate 8 0#8, 0#32, [1#8, 2#8, 0#8, 0#8]⟩ :=
  ⟨⟨[.eof], [], [EncapsPacketFactory.listIdentity.pack]⟩, by decide +kernel⟩

/-! ## C25 -/

/-- C25. Construction writes one RegisterSession frame with handle 0; when the
target answers with a well-formed frame, the stored handle is the one of the reply
if the status is success, and construction throws otherwise. -/
theorem C25_register (m : Mem) (p : EncapsPacket) (hp : WellFormed p) (s : Tcp) (hs : s.sends = [])
    (rest : List Byte) (hn : (stream s.net).1 = p.pack ++ rest) :
    ∃ net', stream net' = (rest, (stream s.net).2) ∧
      let s' : Tcp := { s with net := net', sent :=
        s.sent ++ [Spec.encapsFrame 0x65 0 0 (List.replicate 8 0#8) 0 (le 2 1 ++ le 2 0)] }
      if p.status = 0#32 then registerSession m s = .ok s' p.sessionHandle
      else ∃ e, registerSession m s = .throw s' e := by
  obtain ⟨net', h1, h2⟩ := sar_frame m 0#32 EncapsPacketFactory.registerSession p hp s hs (by decide) rest hn
  refine ⟨net', h1, ?_⟩
  rw [C10_registerSession] at h2
  by_cases h0 : p.status = 0#32
  · rw [accept_of _ h0 (fun h => absurd rfl h)] at h2
    simp only [if_pos h0, registerSession]
    rw [Prog.bind_ok h2, if_neg (by simp [h0, encapsSuccess])]
    rfl
  · simp only [if_neg h0, registerSession]
    unfold accept at h2
    rw [if_pos h0] at h2
    exact ⟨_, Prog.bind_throw h2⟩

/-- C25. After a successful registration every exchange of the session checks
replies against the granted handle: a reply with another handle is refused. -/
theorem C25_handle_enforced (m : Mem) (granted : BitVec 32) (hg : granted ≠ 0#32) (pkt p : EncapsPacket)
    (hp : WellFormed p) (h0 : p.status = 0#32) (hne : p.sessionHandle ≠ granted) (s : Tcp) (hs : s.sends = [])
    (hk : pkt.pack.length < 2 ^ 63) (rest : List Byte) (hn : (stream s.net).1 = p.pack ++ rest) :
    ∃ s', sendAndReceive m granted pkt s = .throw s' (.runtime "Wrong session handle received") := by
  obtain ⟨net', h1, h2⟩ := sar_frame m granted pkt p hp s hs hk rest hn
  unfold accept at h2
  rw [if_neg (fun h => h h0), if_pos ⟨hg, hne⟩] at h2
  exact ⟨_, h2⟩

/-- C25. The claim "construction succeeds only if the target granted a session" is
false: a peer that closes at once yields a session with handle 0, since the
missing reply reads as zeros. -/
theorem C25_registered_violated :
    ∃ s', registerSession Mem.strict ⟨[.eof], [], []⟩ = .ok s' 0#32 :=
  ⟨⟨[.eof], [], [EncapsPacketFactory.registerSession.pack]⟩, by decide +kernel⟩

/-! ## C71 -/

/-- C71. Destroying a session writes one UnRegisterSession frame with the session's
handle; if the system takes only part of it the process is terminated, otherwise
(including when the system call fails) destruction completes. -/
theorem C71_destructor (handle : BitVec 32) (s : Tcp) :
    (s.sends = [] → unregisterSession handle s =
      .ok { s with sent := s.sent ++ [encapsFrame 0x66 handle.toNat 0 (List.replicate 8 0#8) 0 []] } ()) ∧
    (∀ count rest, s.sends = count :: rest → -1 ≤ count → count ≤ 24 →
      ((∃ s', unregisterSession handle s = .throw s' .abort) ↔ 0 ≤ count ∧ count < 24)) := by
  have hl : (EncapsPacketFactory.unRegisterSession handle).pack.length = 24 := by
    rw [C10_unRegisterSession]; simp [encapsFrame]
  constructor
  · intro hs
    unfold unregisterSession
    rw [send_all _ _ hs (by rw [hl]; decide), C10_unRegisterSession]
  · intro count rest hs h1 h2
    obtain ⟨h3, _⟩ := C26_send s (EncapsPacketFactory.unRegisterSession handle).pack count rest hs h1
      (by rw [hl]; decide) (by rw [hl]; omega)
    rw [hl] at h3
    rw [show ((24 : Nat) : Int) = 24 from rfl] at h3
    rw [← h3]
    unfold unregisterSession
    cases hx : Tcp.send (EncapsPacketFactory.unRegisterSession handle).pack s with
    | ok s' u => simp
    | throw s' e => simp
    | ub => simp

/-- C71. The claim "destroying a session never terminates the process" is false. -/
theorem C71_never_terminates_violated :
    ∃ s', unregisterSession 5#32 ⟨[], [10], []⟩ = .throw s' .abort :=
  ⟨⟨[], [], [(EncapsPacketFactory.unRegisterSession 5#32).pack.take 10]⟩, by decide +kernel⟩

/-! ## C72 -/

/-- C72. A reply that arrives after the receive timeout of its own request is
returned as the answer to the next request, whatever the two requests were. -/
theorem C72_late_reply (m : Mem) (handle : BitVec 32) (r1 r2 p : EncapsPacket) (hp : WellFormed p)
    (h0 : p.status = 0#32) (hh : p.sessionHandle = handle) (hk1 : r1.pack.length < 2 ^ 63)
    (hk2 : r2.pack.length < 2 ^ 63) (net : List NetEv) (rest : List Byte)
    (hn : (stream net).1 = p.pack ++ rest) :
    ∃ s1 s2, sendAndReceive m handle r1 ⟨.err eagain :: net, [], []⟩ = .throw s1 (.system eagain) ∧
      sendAndReceive m handle r2 s1 = .ok s2 p ∧ s2.sent = [r1.pack, r2.pack] := by
  have h1 : sendAndReceive m handle r1 ⟨.err eagain :: net, [], []⟩ =
      .throw ⟨net, [], [r1.pack]⟩ (.system eagain) := by
    unfold sendAndReceive
    rw [Prog.bind_ok (send_all _ _ rfl hk1)]
    exact Prog.bind_throw rfl
  obtain ⟨net', e, h2⟩ := sar_frame m handle r2 p hp ⟨net, [], [r1.pack]⟩ rfl hk2 rest hn
  rw [accept_of _ h0 (fun _ => hh)] at h2
  exact ⟨_, _, h1, h2, rfl⟩

end Verif.Props
