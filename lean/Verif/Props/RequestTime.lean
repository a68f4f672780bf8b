import Verif.Props.TcpTime

/-!
# Properties C88 and C89: how long a request takes, and what a late reply does
-/

namespace Verif.Props

open Verif Verif.Spec

/-! ## The loop, when what is needed comes in time, and when it does not -/

theorem bytesOf_seg (a : Nat) (b : Byte) (bs : List Byte) (net : List (Nat × NetEv)) :
    bytesOf ((a, .seg b bs) :: net) = (b :: bs) ++ bytesOf net := rfl

theorem bytesOf_eintr (a : Nat) (net : List (Nat × NetEv)) : bytesOf ((a, .eintr) :: net) = bytesOf net := rfl

theorem bytesOnly_tail {x : Nat × NetEv} {net : List (Nat × NetEv)} (h : BytesOnly (x :: net)) : BytesOnly net :=
  fun y hy => h y (List.mem_cons_of_mem _ hy)

theorem latest_ge (pre : List (Nat × NetEv)) (now : Nat) : now ≤ latest now pre := by
  induction pre generalizing now with
  | nil => exact Nat.le_refl _
  | cons x pre ih => exact Nat.le_trans (Nat.le_max_left _ _) (ih _)

/-- The limit, if there is one, is kept by these events. -/
def InTime (limit : Option Nat) (now : Nat) (pre : List (Nat × NetEv)) : Prop := ∀ t, limit = some t → Prompt t now pre

theorem InTime.head {limit : Option Nat} {now a : Nat} {ev : NetEv} {pre : List (Nat × NetEv)} (h : InTime limit now ((a, ev) :: pre)) :
    ¬ (limit.any fun t => decide (now + t < a)) = true := by
  cases limit with
  | none => simp
  | some t => have := (h t rfl).1; simp; omega

theorem InTime.tail {limit : Option Nat} {now a : Nat} {ev : NetEv} {pre : List (Nat × NetEv)} (h : InTime limit now ((a, ev) :: pre)) :
    InTime limit (max now a) pre := fun t ht => (h t ht).2

theorem tloop_prompt (limit : Option Nat) (pre rest : List (Nat × NetEv)) (k : Nat) (got : List Byte) (now : Nat)
    (hp : InTime limit now pre) (hk : k ≤ (bytesOf pre).length) :
    ∃ pre' now', TTcp.recvLoop limit k got now (pre ++ rest) = .done (got ++ (bytesOf pre).take k) (pre' ++ rest) now' ∧
      bytesOf pre' = (bytesOf pre).drop k ∧ InTime limit now' pre' ∧ latest now' pre' = latest now pre ∧
      (BytesOnly pre → BytesOnly pre') ∧ interrupts pre' ≤ interrupts pre ∧ now ≤ now' := by
  induction pre generalizing k got now with
  | nil =>
    have : k = 0 := by simpa [bytesOf, stream] using hk
    subst this
    refine ⟨[], now, ?_, rfl, hp, rfl, id, Nat.le_refl _, Nat.le_refl _⟩
    cases rest <;> simp [TTcp.recvLoop]
  | cons x pre ih =>
    obtain ⟨a, ev⟩ := x
    by_cases h0 : k = 0
    · subst h0
      exact ⟨(a, ev) :: pre, now, by simp [TTcp.recvLoop], rfl, hp, rfl, id, Nat.le_refl _, Nat.le_refl _⟩
    · have hl := hp.head
      simp only [List.cons_append, TTcp.recvLoop, if_neg h0, if_neg hl]
      cases ev with
      | eintr =>
        obtain ⟨pre', now', h1, h2, h3, h4, h5, h6, h7⟩ := ih k got (max now a) hp.tail hk
        refine ⟨pre', now', h1, h2, h3, h4, fun h => h5 (bytesOnly_tail h), Nat.le_trans h6 ?_, by omega⟩
        simp [interrupts]
      | err c => simp [bytesOf, stream] at hk; omega
      | eof => simp [bytesOf, stream] at hk; omega
      | seg b bs =>
        rw [bytesOf_seg] at hk ⊢
        by_cases hb : k < (b :: bs).length
        · simp only [if_pos hb]
          cases hd : (b :: bs).drop k with
          | nil =>
            have := congrArg List.length hd
            simp only [List.length_drop, List.length_nil, List.length_cons] at this hb
            omega
          | cons c cs =>
            refine ⟨(a, .seg c cs) :: pre, max now a, ?_, ?_, ?_, ?_, ?_, ?_, by omega⟩
            · rw [List.take_append_of_le_length (by omega)]; rfl
            · rw [bytesOf_seg, List.drop_append_of_le_length (by omega), hd]
            · intro t ht
              refine ⟨by omega, ?_⟩
              have := hp.tail t ht
              rw [show max (max now a) a = max now a by omega]
              exact this
            · simp only [latest]
              rw [show max (max now a) a = max now a by omega]
            · intro h y hy c'
              rcases List.mem_cons.1 hy with rfl | hy
              · exact ⟨by simp, by simp⟩
              · exact bytesOnly_tail h y hy c'
            · simp [interrupts]
        · simp only [if_neg hb]
          have hb' : (b :: bs).length ≤ k := by omega
          obtain ⟨pre', now', h1, h2, h3, h4, h5, h6, h7⟩ := ih (k - (b :: bs).length) (got ++ (b :: bs)) (max now a) hp.tail (by
            simp only [List.length_append] at hk; omega)
          refine ⟨pre', now', ?_, ?_, h3, h4, fun h => h5 (bytesOnly_tail h), Nat.le_trans h6 (by simp [interrupts]), by omega⟩
          · rw [h1, List.take_append, List.take_of_length_le hb', List.append_assoc]
          · rw [h2, List.drop_append, List.drop_eq_nil_of_le hb', List.nil_append]

theorem tloop_silent (t : Nat) (pre rest : List (Nat × NetEv)) (k : Nat) (got : List Byte) (now : Nat)
    (hp : Prompt t now pre) (hb : BytesOnly pre) (hk : (bytesOf pre).length < k) (hs : SilentFor t (latest now pre) rest) :
    TTcp.recvLoop (some t) k got now (pre ++ rest) = .failed eagain rest (latest now pre + t) := by
  induction pre generalizing k got now with
  | nil =>
    have h0 : k ≠ 0 := by omega
    cases rest with
    | nil => simp [TTcp.recvLoop, h0, latest]
    | cons y rest =>
      obtain ⟨a, ev⟩ := y
      have := hs (a, ev) rfl
      simp only [latest] at this
      simp only [List.nil_append, TTcp.recvLoop, if_neg h0]
      rw [if_pos (by simpa using this)]
      rfl
  | cons x pre ih =>
    obtain ⟨a, ev⟩ := x
    have h0 : k ≠ 0 := by omega
    have hl : ¬ ((some t).any fun t => decide (now + t < a)) = true := by have := hp.1; simp; omega
    simp only [List.cons_append, TTcp.recvLoop, if_neg h0, if_neg hl]
    cases ev with
    | eintr => exact ih k got (max now a) hp.2 (bytesOnly_tail hb) hk hs
    | err c => exact absurd rfl (hb (a, .err c) (by simp) c).1
    | eof => exact absurd rfl (hb (a, .eof) (by simp) 0).2
    | seg b bs =>
      rw [bytesOf_seg, List.length_append] at hk
      have hb' : ¬ k < (b :: bs).length := by omega
      simp only [if_neg hb']
      exact ih _ _ _ hp.2 (bytesOnly_tail hb) (by omega) hs

theorem tloop_hangs (pre : List (Nat × NetEv)) (k : Nat) (got : List Byte) (now : Nat)
    (hb : BytesOnly pre) (hk : (bytesOf pre).length < k) :
    TTcp.recvLoop none k got now pre = .hangs := by
  induction pre generalizing k got now with
  | nil => have h0 : k ≠ 0 := by omega
           simp [TTcp.recvLoop, h0]
  | cons x pre ih =>
    obtain ⟨a, ev⟩ := x
    have h0 : k ≠ 0 := by omega
    simp only [TTcp.recvLoop, if_neg h0, Option.any_none, Bool.false_eq_true, if_false]
    cases ev with
    | eintr => exact ih k got _ (bytesOnly_tail hb) hk
    | err c => exact absurd rfl (hb (a, .err c) (by simp) c).1
    | eof => exact absurd rfl (hb (a, .eof) (by simp) 0).2
    | seg b bs =>
      rw [bytesOf_seg, List.length_append] at hk
      have hb' : ¬ k < (b :: bs).length := by omega
      simp only [if_neg hb']
      exact ih _ _ _ (bytesOnly_tail hb) (by omega)

theorem tsend_all (s : TTcp) (data : List Byte) (hs : s.sends = []) (hd : data.length < 2 ^ 63) :
    TTcp.send data s = .ok { s with sent := s.sent ++ [data] } () := by
  have := send_all s.plain data hs hd
  unfold TTcp.send
  rw [this]
  simp only [TTcp.plain]

/-! ## The whole request -/

/-- The state after a request: these events are still to be read, at this time. -/
def afterRequest (s : TTcp) (pkt : EncapsPacket) (net : List (Nat × NetEv)) (now : Nat) : TTcp :=
  { s with net := net, sent := s.sent ++ [pkt.pack], now := now }

theorem tsar_prompt (m : Mem) (limit : Option Nat) (handle : BitVec 32) (pkt : EncapsPacket) (s : TTcp) (hs : s.sends = [])
    (hk : pkt.pack.length < 2 ^ 63) (pre rest : List (Nat × NetEv)) (hn : s.net = pre ++ rest)
    (hp : InTime limit s.now pre) (hf : frameLen (bytesOf pre) ≤ (bytesOf pre).length) :
    ∃ q pre' now', IsFrame q ((bytesOf pre).take (frameLen (bytesOf pre))) ∧
      bytesOf pre' = (bytesOf pre).drop (frameLen (bytesOf pre)) ∧ latest now' pre' = latest s.now pre ∧
      (BytesOnly pre → BytesOnly pre') ∧ interrupts pre' ≤ interrupts pre ∧ s.now ≤ now' ∧ InTime limit now' pre' ∧
      TTcp.sendAndReceive m limit handle pkt s =
        if q.status ≠ 0#32 then .throw (afterRequest s pkt (pre' ++ rest) now') (.runtime "Bad encaps packet code")
        else if handle ≠ 0#32 ∧ q.sessionHandle ≠ handle then
          .throw (afterRequest s pkt (pre' ++ rest) now') (.runtime "Wrong session handle received")
        else .ok (afterRequest s pkt (pre' ++ rest) now') q := by
  have h24 : 24 ≤ (bytesOf pre).length := by unfold frameLen at hf; omega
  obtain ⟨pre1, now1, l1, b1, t1, m1, o1, i1, n1⟩ := tloop_prompt limit pre rest 24 [] s.now hp h24
  have hg := getLength_eq ((bytesOf pre).take 24) (by rw [List.length_take]; omega)
  have hfl : frameLen (bytesOf pre) = 24 + field ((bytesOf pre).take 24) 2 2 := by
    unfold frameLen; rw [padTake_of_le h24]
  obtain ⟨pre2, now2, l2, b2, t2, m2, o2, i2, n2⟩ := tloop_prompt limit pre1 rest (field ((bytesOf pre).take 24) 2 2) [] now1 t1 (by
    rw [b1, List.length_drop]; omega)
  have hbytes : (bytesOf pre).take 24 ++ (bytesOf pre1).take (field ((bytesOf pre).take 24) 2 2) = (bytesOf pre).take (frameLen (bytesOf pre)) := by
    rw [b1, hfl, List.take_add]
  obtain ⟨q, p1, p2, p3⟩ := parse_exact m ((bytesOf pre).take (frameLen (bytesOf pre))) (by
    rw [List.length_take, Nat.min_eq_left hf, hfl]
    congr 1
    unfold field
    rw [List.drop_take, List.take_take, List.drop_take, List.take_take]
    congr 2
    omega)
  refine ⟨q, pre2, now2, ⟨p2, p3⟩, ?_, by rw [m2, m1], fun h => o2 (o1 h), by omega, by omega, t2, ?_⟩
  · rw [b2, b1, List.drop_drop, hfl]
  · unfold TTcp.sendAndReceive
    rw [tsend_all s pkt.pack hs hk]
    simp only [TRes.andThen, TTcp.receive, EncapsPacket.headerSize, hn, l1, List.nil_append]
    rw [show 24 - ((bytesOf pre).take 24).length = 0 by rw [List.length_take]; omega, List.replicate_zero, List.append_nil, hg]
    simp only [TRes.lift, l2, List.nil_append]
    rw [show field ((bytesOf pre).take 24) 2 2 - ((bytesOf pre1).take (field ((bytesOf pre).take 24) 2 2)).length = 0 by
      rw [List.length_take, b1, List.length_drop]; omega, List.replicate_zero, List.append_nil, hbytes, p1]
    simp only [afterRequest]
    by_cases c1 : q.status ≠ 0#32
    · have hc : TTcp.check handle q = .throw (.runtime "Bad encaps packet code") := if_pos c1
      rw [if_pos c1, hc]
    · rw [if_neg c1]
      by_cases c2 : handle ≠ 0#32 ∧ q.sessionHandle ≠ handle
      · have hc : TTcp.check handle q = .throw (.runtime "Wrong session handle received") := (if_neg c1).trans (if_pos c2)
        rw [if_pos c2, hc]
      · have hc : TTcp.check handle q = .ok q := (if_neg c1).trans (if_neg c2)
        rw [if_neg c2, hc]

/-- C88. The reply that comes in time.  The session has a timeout of `ms` milliseconds; the events `pre`
come with no gap longer than that and hold a whole frame.  Then the request ends with the verdict on that
frame, no later than when the last of these events has come, and what is left is what followed the frame. -/
theorem C88_in_time (m : Mem) (ms : Int) (hms : 0 < ms) (handle : BitVec 32) (pkt : EncapsPacket) (s : TTcp) (hs : s.sends = [])
    (hk : pkt.pack.length < 2 ^ 63) (pre rest : List (Nat × NetEv)) (hn : s.net = pre ++ rest)
    (hp : Prompt (ms.toNat * 1000) s.now pre) (hf : frameLen (bytesOf pre) ≤ (bytesOf pre).length) :
    ∃ q pre' now', IsFrame q ((bytesOf pre).take (frameLen (bytesOf pre))) ∧
      bytesOf pre' = (bytesOf pre).drop (frameLen (bytesOf pre)) ∧ s.now ≤ now' ∧ now' ≤ latest s.now pre ∧
      TTcp.exchange m ms handle pkt s =
        if q.status ≠ 0#32 then .throw (afterRequest s pkt (pre' ++ rest) now') (.runtime "Bad encaps packet code")
        else if handle ≠ 0#32 ∧ q.sessionHandle ≠ handle then
          .throw (afterRequest s pkt (pre' ++ rest) now') (.runtime "Wrong session handle received")
        else .ok (afterRequest s pkt (pre' ++ rest) now') q := by
  unfold TTcp.exchange
  rw [limit_pos ms hms]
  obtain ⟨q, pre', now', h1, h2, h3, -, -, h4, -, h5⟩ := tsar_prompt m (some (ms.toNat * 1000)) handle pkt s hs hk pre rest hn
    (fun t ht => by injection ht with ht; rw [← ht]; exact hp) hf
  exact ⟨q, pre', now', h1, h2, h4, by rw [← h3]; exact latest_ge _ _, h5⟩

/-- C88. The target falls silent before the reply is complete, for longer than the timeout: the request ends
with the system's EAGAIN, exactly one timeout after the last event, and no event after that is lost. -/
theorem C88_gives_up (m : Mem) (ms : Int) (hms : 0 < ms) (handle : BitVec 32) (pkt : EncapsPacket) (s : TTcp) (hs : s.sends = [])
    (hk : pkt.pack.length < 2 ^ 63) (pre rest : List (Nat × NetEv)) (hn : s.net = pre ++ rest)
    (hp : Prompt (ms.toNat * 1000) s.now pre) (hb : BytesOnly pre)
    (hf : (bytesOf pre).length < frameLen (bytesOf pre)) (hq : SilentFor (ms.toNat * 1000) (latest s.now pre) rest) :
    TTcp.exchange m ms handle pkt s =
      .throw (afterRequest s pkt rest (latest s.now pre + ms.toNat * 1000)) (.system eagain) := by
  unfold TTcp.exchange
  rw [limit_pos ms hms]
  unfold TTcp.sendAndReceive
  rw [tsend_all s pkt.pack hs hk]
  simp only [TRes.andThen, TTcp.receive, EncapsPacket.headerSize, hn]
  by_cases h24 : (bytesOf pre).length < 24
  · rw [tloop_silent _ pre rest 24 [] s.now hp hb h24 hq]
    rfl
  · have h24 : 24 ≤ (bytesOf pre).length := by omega
    obtain ⟨pre1, now1, l1, b1, t1, m1, o1, -, -⟩ := tloop_prompt (some (ms.toNat * 1000)) pre rest 24 [] s.now
      (fun t ht => by injection ht with ht; rw [← ht]; exact hp) h24
    have hg := getLength_eq ((bytesOf pre).take 24) (by rw [List.length_take]; omega)
    have hfl : frameLen (bytesOf pre) = 24 + field ((bytesOf pre).take 24) 2 2 := by
      unfold frameLen; rw [padTake_of_le h24]
    rw [l1]
    simp only [List.nil_append]
    rw [show 24 - ((bytesOf pre).take 24).length = 0 by rw [List.length_take]; omega, List.replicate_zero, List.append_nil, hg]
    simp only [TRes.lift]
    rw [tloop_silent _ pre1 rest (field ((bytesOf pre).take 24) 2 2) [] now1 (t1 _ rfl) (o1 hb) (by
      rw [b1, List.length_drop]; omega) (by rw [m1]; exact hq), m1]
    rfl

/-- C88. A timeout of zero or less is no timeout: if the reply never becomes complete, the request never returns. -/
theorem C88_forever_violated (m : Mem) (ms : Int) (hms : ms ≤ 0) (handle : BitVec 32) (pkt : EncapsPacket) (s : TTcp) (hs : s.sends = [])
    (hk : pkt.pack.length < 2 ^ 63) (hb : BytesOnly s.net) (hf : (bytesOf s.net).length < frameLen (bytesOf s.net)) :
    TTcp.exchange m ms handle pkt s = .hangs := by
  unfold TTcp.exchange
  rw [limit_zero ms hms]
  unfold TTcp.sendAndReceive
  rw [tsend_all s pkt.pack hs hk]
  simp only [TRes.andThen, TTcp.receive, EncapsPacket.headerSize]
  by_cases h24 : (bytesOf s.net).length < 24
  · rw [tloop_hangs s.net 24 [] s.now hb h24]
  · have h24 : 24 ≤ (bytesOf s.net).length := by omega
    obtain ⟨pre1, now1, l1, b1, t1, m1, o1, -, -⟩ := tloop_prompt none s.net [] 24 [] s.now (fun t ht => by cases ht) h24
    have hg := getLength_eq ((bytesOf s.net).take 24) (by rw [List.length_take]; omega)
    have hfl : frameLen (bytesOf s.net) = 24 + field ((bytesOf s.net).take 24) 2 2 := by
      unfold frameLen; rw [padTake_of_le h24]
    simp only [List.append_nil] at l1
    rw [l1]
    simp only [List.nil_append]
    rw [show 24 - ((bytesOf s.net).take 24).length = 0 by rw [List.length_take]; omega, List.replicate_zero, List.append_nil, hg]
    simp only [TRes.lift]
    rw [tloop_hangs pre1 (field ((bytesOf s.net).take 24) 2 2) [] now1 (o1 hb) (by rw [b1, List.length_drop]; omega)]

/-! ## The bound -/

/-- What a call has used: some time, and interruptions that do not come again. -/
def Used {α : Type} (t n : Nat) (s : TTcp) (x : TRes α) : Prop :=
  match x with
  | .ok s' _ => s.now ≤ s'.now ∧ s'.now + interrupts s'.net * t ≤ s.now + (n + interrupts s.net) * t
  | .throw s' _ => s.now ≤ s'.now ∧ s'.now + interrupts s'.net * t ≤ s.now + (n + interrupts s.net) * t
  | .ub => False
  | .hangs => False

theorem sar_used (m : Mem) (t : Nat) (handle : BitVec 32) (pkt : EncapsPacket) (s : TTcp) :
    Used t (24 + 65535) s (TTcp.sendAndReceive m (some t) handle pkt s) := by
  have href := C88_refines m (some t) handle pkt s
  have hnub : TTcp.sendAndReceive m (some t) handle pkt s ≠ .ub := by
    intro h
    rw [h] at href
    exact sar_not_ub m handle pkt s.plain href
  obtain ⟨-, -, h3, h4, h5, h6⟩ := tsend_refines pkt.pack s
  have big : ∀ n, n ≤ 24 + 65535 + interrupts s.net → n * t ≤ (24 + 65535 + interrupts s.net) * t := fun n hn => Nat.mul_le_mul_right t hn
  unfold TTcp.sendAndReceive at hnub ⊢
  cases hsend : TTcp.send pkt.pack s with
  | ub => exact absurd hsend h3
  | hangs => exact absurd hsend h4
  | throw s1 e => simp only [TRes.andThen, Used]; rw [(h6 _ _ hsend).1, (h6 _ _ hsend).2, Nat.add_mul]; omega
  | ok s1 u =>
    obtain ⟨hn1, hw1⟩ := h5 _ _ hsend
    rw [hsend] at hnub
    simp only [TRes.andThen, TTcp.receive] at hnub ⊢
    have ht1 := tloop_time t s1.net EncapsPacket.headerSize [] s1.now
    rw [hn1, hw1] at hnub ht1 ⊢
    cases hl1 : TTcp.recvLoop (some t) EncapsPacket.headerSize [] s.now s.net with
    | hangs => rw [hl1] at ht1; exact ht1
    | failed c n' w' =>
      rw [hl1] at ht1
      simp only [Used, EncapsPacket.headerSize] at ht1 ⊢
      have := big (24 + interrupts s.net) (by omega)
      omega
    | done got net1 now1 =>
      rw [hl1] at ht1 hnub
      simp only [EncapsPacket.headerSize] at ht1 hnub ⊢
      have hb24 := big (24 + interrupts s.net) (by omega)
      have hlen : 4 ≤ (got ++ List.replicate (24 - got.length) 0#8).length := by
        rw [List.length_append, List.length_replicate]; omega
      rw [getLength_eq _ hlen] at hnub ⊢
      generalize hlenv : field (got ++ List.replicate (24 - got.length) 0#8) 2 2 = len at hnub ⊢
      have hlt : len < 65536 := by
        rw [← hlenv]
        have h1 := ofLe_lt (((got ++ List.replicate (24 - got.length) 0#8).drop 2).take 2)
        have h2 : (((got ++ List.replicate (24 - got.length) 0#8).drop 2).take 2).length ≤ 2 := by
          rw [List.length_take]; omega
        exact Nat.lt_of_lt_of_le h1 (Nat.pow_le_pow_right (show 256 > 0 by decide) h2)
      simp only [TRes.lift] at hnub ⊢
      have ht2 := tloop_time t net1 len [] now1
      have hboth : ∀ (w i2 : Nat), w + i2 * t ≤ now1 + (len + interrupts net1) * t →
          w + i2 * t ≤ s.now + (24 + 65535 + interrupts s.net) * t := by
        intro w i2 hw
        have hb := big (24 + len + interrupts s.net) (by omega)
        have e1 : (24 + len + interrupts s.net) * t = (24 + interrupts s.net) * t + len * t := by
          rw [← Nat.add_mul]; congr 1; omega
        have e2 : (len + interrupts net1) * t = len * t + interrupts net1 * t := Nat.add_mul _ _ _
        omega
      cases hl2 : TTcp.recvLoop (some t) len [] now1 net1 with
      | hangs => rw [hl2] at ht2; exact ht2
      | failed c n' w' =>
        rw [hl2] at ht2
        simp only [Used]
        exact ⟨by omega, hboth _ _ ht2.2⟩
      | done data net2 now2 =>
        rw [hl2] at ht2 hnub
        simp only at ht2 hnub ⊢
        have hfin : s.now ≤ now2 ∧ now2 + interrupts net2 * t ≤ s.now + (24 + 65535 + interrupts s.net) * t := ⟨by omega, hboth _ _ ht2.2⟩
        cases hp : EncapsPacket.parse m (got ++ List.replicate (24 - got.length) 0#8 ++ (data ++ List.replicate (len - data.length) 0#8)) with
        | ub => rw [hp] at hnub; exact absurd rfl hnub
        | throw e => exact hfin
        | ok p =>
          simp only [TTcp.check]
          split
          · rename_i h; split at h
            · cases h
            · split at h <;> cases h; exact hfin
          · exact hfin
          · rename_i h; split at h
            · cases h
            · split at h <;> cases h

/-- The call returned, by value or by exception, between these times. -/
def EndsIn {α : Type} (x : TRes α) (lo hi : Nat) : Prop :=
  match x with
  | .ok s _ => lo ≤ s.now ∧ s.now ≤ hi
  | .throw s _ => lo ≤ s.now ∧ s.now ≤ hi
  | .ub => False
  | .hangs => False

/-- C88. Whatever the target does: with a timeout of `ms` milliseconds every request ends, after at most
24 + 65535 times the timeout, and once more the timeout for each interruption. -/
theorem C88_bounded (m : Mem) (ms : Int) (hms : 0 < ms) (handle : BitVec 32) (pkt : EncapsPacket) (s : TTcp) :
    EndsIn (TTcp.exchange m ms handle pkt s) s.now (s.now + (24 + 65535 + interrupts s.net) * (ms.toNat * 1000)) := by
  unfold TTcp.exchange
  rw [limit_pos ms hms]
  have h := sar_used m (ms.toNat * 1000) handle pkt s
  cases hx : TTcp.sendAndReceive m (some (ms.toNat * 1000)) handle pkt s <;> rw [hx] at h <;> simp only [Used, EndsIn] at h ⊢
  · exact ⟨h.1, by omega⟩
  · exact ⟨h.1, by omega⟩

/-! ## The timeout is no bound for a request -/

theorem drip_bytes (t now : Nat) (bs : List Byte) : bytesOf (drip t now bs) = bs := by
  induction bs generalizing now with
  | nil => rfl
  | cons b bs ih => simp only [drip]; rw [bytesOf_seg, ih]; rfl

theorem drip_prompt (t now : Nat) (bs : List Byte) : Prompt t now (drip t now bs) := by
  induction bs generalizing now with
  | nil => trivial
  | cons b bs ih =>
    refine ⟨Nat.le_refl _, ?_⟩
    rw [Nat.max_eq_right (by omega)]
    exact ih _

theorem drip_latest (t now : Nat) (bs : List Byte) : latest now (drip t now bs) = now + bs.length * t := by
  induction bs generalizing now with
  | nil => simp [drip, latest]
  | cons b bs ih =>
    simp only [drip, latest]
    rw [Nat.max_eq_right (by omega), ih, List.length_cons, Nat.succ_mul]
    omega

theorem drip_only (t now : Nat) (bs : List Byte) : BytesOnly (drip t now bs) ∧ interrupts (drip t now bs) = 0 := by
  induction bs generalizing now with
  | nil => exact ⟨fun x hx => (by cases hx), rfl⟩
  | cons b bs ih =>
    refine ⟨fun x hx c => ?_, ?_⟩
    · rcases List.mem_cons.1 hx with rfl | hx
      · exact ⟨by simp, by simp⟩
      · exact (ih _).1 x hx c
    · have := (ih (now + t)).2
      simp only [interrupts] at this
      simp [drip, interrupts, this]

theorem nothing_left (pre : List (Nat × NetEv)) (h1 : BytesOnly pre) (h2 : interrupts pre = 0) (h3 : bytesOf pre = []) : pre = [] := by
  cases pre with
  | nil => rfl
  | cons x pre =>
    obtain ⟨a, ev⟩ := x
    cases ev with
    | eintr => simp [interrupts] at h2
    | err c => exact absurd rfl (h1 (a, .err c) (by simp) c).1
    | eof => exact absurd rfl (h1 (a, .eof) (by simp) 0).2
    | seg b bs => rw [bytesOf_seg] at h3; simp at h3

theorem WellFormed.take_frame {p : EncapsPacket} (h : WellFormed p) (rest : List Byte) :
    (p.pack ++ rest).take (Props.frameLen (p.pack ++ rest)) = p.pack ∧ (p.pack ++ rest).drop (Props.frameLen (p.pack ++ rest)) = rest := by
  rw [h.frameLen rest]
  exact ⟨List.take_left, List.drop_left⟩

/-- C88. "A request ends within its timeout" is false: a target that sends its (right) reply one byte per
timeout makes the request take as many timeouts as the reply has bytes, and it succeeds. -/
theorem C88_within_timeout_violated (m : Mem) (ms : Int) (hms : 0 < ms) (handle : BitVec 32) (pkt p : EncapsPacket)
    (hk : pkt.pack.length < 2 ^ 63) (hp : WellFormed p) (h0 : p.status = 0#32) (hh : p.sessionHandle = handle)
    (start : Nat) :
    TTcp.exchange m ms handle pkt ⟨drip (ms.toNat * 1000) start p.pack, [], [], start⟩ =
      .ok ⟨[], [], [pkt.pack], start + (24 + p.data.length) * (ms.toNat * 1000)⟩ p := by
  unfold TTcp.exchange
  rw [limit_pos ms hms]
  generalize ms.toNat * 1000 = t
  have hb := drip_bytes t start p.pack
  have hfr := hp.take_frame []
  have hfl := hp.frameLen []
  simp only [List.append_nil] at hfr hfl
  obtain ⟨q, pre', now', h1, h2, h3, h4, h5, h6, -, h7⟩ := tsar_prompt m (some t) handle pkt ⟨drip t start p.pack, [], [], start⟩ rfl hk
    (drip t start p.pack) [] (by simp) (fun t' ht => by injection ht with ht; rw [← ht]; exact drip_prompt _ _ _)
    (by rw [hb, hfl]; exact Nat.le_refl _)
  rw [hb] at h1 h2
  rw [hfr.1] at h1
  rw [hfr.2] at h2
  have hqp : q = p := h1.unique ⟨rfl, hp.context⟩
  subst hqp
  have hpre := nothing_left pre' (h4 (drip_only t start q.pack).1) (by have := (drip_only t start q.pack).2; omega) h2
  subst hpre
  rw [h7, if_neg (fun h => h h0), if_neg (fun h => h.2 hh)]
  simp only [latest, drip_latest] at h3
  rw [h3, hp.pack_length]
  rfl

/-! ## C89: a late reply -/

/-- A client that makes these requests, each not before its time and not before the one before has ended,
and goes on after exceptions: what it gets. -/
def requestsAt (m : Mem) (ms : Int) (handle : BitVec 32) : List (Nat × EncapsPacket) → TTcp → List (Outcome EncapsPacket)
  | [], _ => []
  | (t, r) :: rs, s =>
    match TTcp.exchange m ms handle r { s with now := max s.now t } with
    | .ok s' p => .ok p :: requestsAt m ms handle rs s'
    | .throw s' e => .throw e :: requestsAt m ms handle rs s'
    | .ub => [.ub]
    | .hangs => []

/-- These frames, each arriving as a whole at its time. -/
def framesAt (replies : List (Nat × EncapsPacket)) : List (Nat × NetEv) :=
  replies.map fun x => (x.1, match x.2.pack with | [] => .eintr | b :: bs => .seg b bs)

/-- A good reply in this session. -/
def GoodReply (handle : BitVec 32) (p : EncapsPacket) : Prop := WellFormed p ∧ p.status = 0#32 ∧ p.sessionHandle = handle

theorem framesAt_cons (a : Nat) (p : EncapsPacket) (hp : WellFormed p) (rs : List (Nat × EncapsPacket)) :
    ∃ b bs, p.pack = b :: bs ∧ framesAt ((a, p) :: rs) = (a, .seg b bs) :: framesAt rs := by
  have := hp.pack_length
  cases hc : p.pack with
  | nil => rw [hc] at this; simp at this; omega
  | cons b bs => exact ⟨b, bs, rfl, by simp [framesAt, hc]⟩

/-- One good reply that is there in time. -/
theorem one_reply (m : Mem) (ms : Int) (hms : 0 < ms) (handle : BitVec 32) (pkt p : EncapsPacket) (hk : pkt.pack.length < 2 ^ 63)
    (hp : GoodReply handle p) (s : TTcp) (hs : s.sends = []) (a : Nat) (rest : List (Nat × NetEv))
    (hn : s.net = framesAt [(a, p)] ++ rest) (ha : a ≤ s.now + ms.toNat * 1000) :
    TTcp.exchange m ms handle pkt s = .ok (afterRequest s pkt rest (max s.now a)) p := by
  obtain ⟨hw, h0, hh⟩ := hp
  obtain ⟨b, bs, hb, hf⟩ := framesAt_cons a p hw []
  unfold TTcp.exchange
  rw [limit_pos ms hms]
  have hbytes : bytesOf [(a, .seg b bs)] = p.pack := by rw [bytesOf_seg, hb]; simp [bytesOf, stream]
  have hfr := hw.take_frame []
  have hfl := hw.frameLen []
  simp only [List.append_nil] at hfr hfl
  obtain ⟨q, pre', now', h1, h2, h3, h4, h5, h6, -, h7⟩ := tsar_prompt m (some (ms.toNat * 1000)) handle pkt s hs hk
    [(a, .seg b bs)] rest (by rw [hn, hf]; rfl) (fun t' ht => by injection ht with ht; rw [← ht]; exact ⟨ha, trivial⟩)
    (by rw [hbytes, hfl]; exact Nat.le_refl _)
  rw [hbytes] at h1 h2
  rw [hfr.1] at h1
  rw [hfr.2] at h2
  have hqp : q = p := h1.unique ⟨rfl, hw.context⟩
  subst hqp
  have hpre := nothing_left pre' (h4 (fun x hx c => by
    simp only [List.mem_cons, List.not_mem_nil, or_false] at hx
    subst hx
    exact ⟨by simp, by simp⟩)) (by
    have : interrupts [(a, NetEv.seg b bs)] = 0 := by simp [interrupts]
    omega) h2
  subst hpre
  rw [h7, if_neg (fun h => h h0), if_neg (fun h => h.2 hh)]
  simp only [latest] at h3
  rw [h3]
  rfl

/-- C89. Replies in time.  If every request is answered by a good reply that has arrived before the timeout after
the request, every request gets its own reply. -/
theorem C89_in_time (m : Mem) (ms : Int) (hms : 0 < ms) (handle : BitVec 32)
    (exchanges : List ((Nat × EncapsPacket) × (Nat × EncapsPacket)))
    (hreq : ∀ x ∈ exchanges, x.1.2.pack.length < 2 ^ 63 ∧ GoodReply handle x.2.2)
    (htime : ∀ x ∈ exchanges, x.2.1 ≤ x.1.1 + ms.toNat * 1000)
    (more : List (Nat × EncapsPacket)) (s : TTcp) (hs : s.sends = []) (hn : s.net = framesAt (exchanges.map (·.2) ++ more)) :
    requestsAt m ms handle (exchanges.map (·.1)) s = exchanges.map fun x => .ok x.2.2 := by
  induction exchanges generalizing s with
  | nil => rfl
  | cons x xs ih =>
    obtain ⟨⟨t, r⟩, ⟨a, p⟩⟩ := x
    have hr := hreq _ (List.mem_cons_self ..)
    have ht := htime _ (List.mem_cons_self ..)
    simp only at hr ht
    simp only [List.map_cons, requestsAt]
    rw [one_reply m ms hms handle r p hr.1 hr.2 { s with now := max s.now t } hs a (framesAt (xs.map (·.2) ++ more))
      (by rw [hn]; rfl) (by simp only; omega)]
    simp only
    rw [ih (fun y hy => hreq y (List.mem_cons_of_mem _ hy)) (fun y hy => htime y (List.mem_cons_of_mem _ hy))]
    · exact hs
    · rfl

/-- C89. "A request gets its own reply or fails" is false.  The target answers every request with a good reply; only
the reply to the first comes after the timeout.  `later` pairs every later request with the reply to the request
before it, which is there in time for this one; `more` is the reply to the last request, and whatever follows.  Then
the first request fails with EAGAIN, and every later request returns, as a success, the reply to the one before it. -/
theorem C89_own_reply_violated (m : Mem) (ms : Int) (hms : 0 < ms) (handle : BitVec 32)
    (t0 : Nat) (r0 : EncapsPacket) (hr0 : r0.pack.length < 2 ^ 63)
    (later : List ((Nat × EncapsPacket) × (Nat × EncapsPacket)))
    (hreq : ∀ x ∈ later, x.1.2.pack.length < 2 ^ 63 ∧ GoodReply handle x.2.2)
    (hlate : ∀ x, later.head? = some x → t0 + ms.toNat * 1000 < x.2.1)
    (hbefore : ∀ x ∈ later, x.2.1 ≤ x.1.1 + ms.toNat * 1000)
    (more : List (Nat × EncapsPacket)) (hmore : later ≠ [])
    (s : TTcp) (hs : s.sends = []) (hnow : s.now ≤ t0) (hn : s.net = framesAt (later.map (·.2) ++ more)) :
    requestsAt m ms handle ((t0, r0) :: later.map (·.1)) s =
      .throw (.system eagain) :: later.map fun x => .ok x.2.2 := by
  simp only [requestsAt]
  rw [C88_gives_up m ms hms handle r0 { s with now := max s.now t0 } hs hr0 [] s.net rfl trivial (fun x hx => (by cases hx)) (by
    simp [bytesOf, stream, frameLen]; omega) (by
    rw [hn]
    intro x hx
    cases later with
    | nil => exact absurd rfl hmore
    | cons y ys =>
      have := hlate y rfl
      simp only [framesAt, List.map_cons, List.cons_append, List.head?_cons, Option.some.injEq] at hx
      subst hx
      simp only [latest]
      omega)]
  simp only
  rw [C89_in_time m ms hms handle later hreq hbefore more (afterRequest { s with now := max s.now t0 } r0 s.net _) hs hn]

end Verif.Props
