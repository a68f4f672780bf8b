import Verif.Props.ManagerRecv
import Verif.Props.ManagerOpen
import Verif.Props.Agreement
import Verif.Props.HandleTime
import Verif.Props.ManagerSample
import Verif.Spec.Defined

/-!
# C95: which calls of a connection manager have a defined outcome
-/

namespace Verif.Props

open Verif Verif.Spec

/-! ## What a wait looks at does not change while it receives -/

/-- The settings of a connection that decide what becomes of a datagram. -/
def recvView (c : Conn) : Nat × Bool × Nat × BitVec 32 := (headLen c, c.t2oFixedSize, c.t2oDataSize, c.t2oNetworkConnectionId)

/-- The same open connections with the same settings. -/
def Like (s s' : Mgr) : Prop :=
  s'.table = s.table ∧ ∀ id : Nat, (s'.heap[id]?).map recvView = (s.heap[id]?).map recvView

theorem Like.refl (s : Mgr) : Like s s := ⟨rfl, fun _ => rfl⟩

theorem Like.symm {s s' : Mgr} (h : Like s s') : Like s' s := ⟨h.1.symm, fun id => (h.2 id).symm⟩

theorem Like.trans {s s' s'' : Mgr} (h : Like s s') (h' : Like s' s'') : Like s s'' :=
  ⟨h'.1.trans h.1, fun id => (h'.2 id).trans (h.2 id)⟩

theorem Like.conn {s s' : Mgr} (h : Like s s') {id : Nat} {c : Conn} (hc : s.heap[id]? = some c) :
    ∃ c', s'.heap[id]? = some c' ∧ recvView c' = recvView c := by
  have := h.2 id
  rw [hc] at this
  cases hx : s'.heap[id]? with
  | none => rw [hx] at this; simp at this
  | some c' =>
    rw [hx] at this
    exact ⟨c', rfl, by simpa using this⟩

theorem malformed_like {s s' : Mgr} (h : Like s s') {d : List Byte} (hm : Malformed s d) : Malformed s' d := by
  rcases hm with hm | ⟨t0, addr, rest, h1, h2 | ⟨k, id, c, t1, payload, more, g1, g2, g3, g4, g5⟩⟩
  · exact .inl hm
  · exact .inr ⟨t0, addr, rest, h1, .inl h2⟩
  · obtain ⟨c', hc', hv⟩ := h.conn g2
    simp only [recvView, Prod.mk.injEq] at hv
    exact .inr ⟨t0, addr, rest, h1, .inr ⟨k, id, c', t1, payload, more, by rw [h.1]; exact g1, hc', g3, g4, by rw [hv.1]; exact g5⟩⟩

theorem goesOn_like {s s' : Mgr} (h : Like s s') {a : Arrival} (hm : GoesOn s a) : GoesOn s' a := by
  obtain ⟨d, t0, addr, rest, h1, h2, h3, h4 | ⟨k, id, c, t1, payload, more, g1, g2, g3, g4, g5, g6⟩⟩ := hm
  · exact ⟨d, t0, addr, rest, h1, h2, h3, .inl (by rw [h.1]; exact h4)⟩
  · obtain ⟨c', hc', hv⟩ := h.conn g2
    simp only [recvView, Prod.mk.injEq] at hv
    exact ⟨d, t0, addr, rest, h1, h2, h3, .inr ⟨k, id, c', t1, payload, more, by rw [h.1]; exact g1, hc', g3, g4,
      by rw [hv.1]; exact g5, by rw [hv.1, hv.2.1, hv.2.2.1]; exact g6⟩⟩

theorem inv_like {s s' : Mgr} (h : Like s s') (hh : s'.held = s.held) (hi : Inv s) (hl : s.heap.length ≤ s'.heap.length) : Inv s' := by
  refine ⟨by rw [h.1]; exact hi.sorted, ?_, ?_⟩
  · intro k id hm
    rw [h.1] at hm
    obtain ⟨c, hc, hk⟩ := hi.obj k id hm
    obtain ⟨c', hc', hv⟩ := h.conn hc
    simp only [recvView, Prod.mk.injEq] at hv
    exact ⟨c', hc', by rw [hk, hv.2.2.2]⟩
  · intro id hid
    rw [hh] at hid
    exact Nat.lt_of_lt_of_le (hi.held id hid) hl

/-! ## One arrival -/

theorem malformed_ub (P : Plat) (hP : P.mem = Mem.strict) (s : Mgr) (hi : Inv s) (d : List Byte) (h : Malformed s d) :
    s.deliver P (.dgram d) = .ub := by
  rcases h with hn | ⟨t0, addr, rest, h1, h2⟩
  · rcases C09_classification (asReceived d) (by rw [asReceived_length]; omega) with ⟨items, hx, _⟩ | ⟨_, hx, _⟩
    · exact absurd ⟨items, hx⟩ hn
    · simp only [Mgr.deliver, udpReceive_eq, hP, hx]
  · by_cases h4 : addr.length < 4
    · exact deliver_short P hP s d t0 addr rest h1 h4
    · rcases h2 with h2 | ⟨k, id, c, t1, payload, more, g1, g2, g3, rfl, g5⟩
      · exact absurd h2 h4
      · rw [deliver_known P s hi d t0 t1 addr payload more h1 (by omega) k id g1 g3 c g2, hP, C36_short c payload g5]

/-- What an arrival after which the wait goes on does. -/
theorem goesOn_ok (P : Plat) (s : Mgr) (hi : Inv s) (a : Arrival) (h : GoesOn s a) :
    ∃ s' evs, s.deliver P a.recv = .ok (s', evs) ∧ Mgr.raised a.throws evs = none ∧ Like s s' ∧ Inv s' := by
  obtain ⟨d, t0, addr, rest, h1, h2, h3, h4 | ⟨k, id, c, t1, payload, more, g1, g2, g3, rfl, g5, g6⟩⟩ := h
  · rw [h1]
    exact ⟨s, [], deliver_unknown P s d t0 addr rest h2 h3 h4, rfl, .refl s, hi⟩
  · rw [h1, deliver_known P s hi d t0 t1 addr payload more h2 h3 k id g1 g3 c g2]
    obtain ⟨header, seq, _, _, hn⟩ := notify_long P.mem c payload g5
    rw [hn]
    have hlike : ∀ c', recvView c' = recvView c → Like s { s with heap := s.heap.set id c' } := by
      intro c' hv
      refine ⟨rfl, fun j => ?_⟩
      simp only [List.getElem?_set]
      by_cases hj : id = j
      · subst hj
        rw [if_pos rfl, if_pos (List.getElem?_eq_some_iff.mp g2).1, g2]
        simp [hv]
      · rw [if_neg hj]
    by_cases hf : c.t2oFixedSize = true ∧ payload.length - headLen c ≠ c.t2oDataSize
    · rw [if_pos hf]
      exact ⟨_, _, rfl, rfl, hlike c rfl, inv_like (hlike c rfl) rfl hi (by simp)⟩
    · rw [if_neg hf]
      have hv : recvView { c with connectionTimeoutCount := 0 } = recvView c := rfl
      refine ⟨_, _, rfl, ?_, hlike _ hv, inv_like (hlike _ hv) rfl hi (by simp)⟩
      rcases g6 with g6 | g6
      · exact absurd g6 hf
      · rw [g6]; simp [Mgr.raised, Mgr.ranReceive]

/-- An arrival lets the wait go on, is malformed, or ends the wait with an exception. -/
theorem arrival_cases (P : Plat) (s : Mgr) (hi : Inv s) (a : Arrival) :
    GoesOn s a ∨ (∃ d, a.recv = .dgram d ∧ Malformed s d) ∨ (∃ e, s.deliver P a.recv = .throw e) ∨
      ∃ s' evs e, s.deliver P a.recv = .ok (s', evs) ∧ Mgr.raised a.throws evs = some e := by
  obtain ⟨r, th⟩ := a
  cases r with
  | err code => exact .inr (.inr (.inl ⟨_, rfl⟩))
  | dgram d =>
    rcases C09_classification (asReceived d) (by rw [asReceived_length]; omega) with ⟨items, hx, _⟩ | ⟨hn, _⟩
    · cases items with
      | nil => exact .inr (.inr (.inl ⟨_, deliver_nothing P s d hx⟩))
      | cons i rest =>
        obtain ⟨t0, addr⟩ := i
        by_cases h4 : addr.length < 4
        · exact .inr (.inl ⟨d, rfl, .inr ⟨t0, addr, rest, hx, .inl h4⟩⟩)
        · by_cases hk : ∃ e ∈ s.table, e.1.toNat = field addr 0 4 % 65536
          · obtain ⟨⟨k, id⟩, hm, hk⟩ := hk
            obtain ⟨c, hc, _⟩ := hi.obj k id hm
            cases rest with
            | nil =>
              refine .inr (.inr (.inl ⟨.outOfRange, ?_⟩))
              obtain ⟨v, b, h1, _, h2⟩ := u32_head P.mem addr (by omega)
              have hf : tblFind (v.setWidth 16) s.table = some id := by
                rw [show v.setWidth 16 = k from BitVec.eq_of_toNat_eq (h2.trans hk.symm)]
                exact tblFind_of_mem hi.sorted hm
              simp only [Mgr.deliver, udpReceive_eq, accepts_expand hx, List.map_cons, List.map_nil, List.getElem?_cons_zero,
                CommonPacketItem.mk', h1, hf, List.getElem?_cons_succ, List.getElem?_nil]
            | cons j more =>
              obtain ⟨t1, payload⟩ := j
              by_cases hl : payload.length < headLen c
              · exact .inr (.inl ⟨d, rfl, .inr ⟨t0, addr, _, hx, .inr ⟨k, id, c, t1, payload, more, hm, hc, hk, rfl, hl⟩⟩⟩)
              · by_cases hw : (c.t2oFixedSize = true ∧ payload.length - headLen c ≠ c.t2oDataSize) ∨ th = none
                · exact .inl ⟨d, t0, addr, _, rfl, hx, by omega, .inr ⟨k, id, c, t1, payload, more, hm, hc, hk, rfl, by omega, hw⟩⟩
                · rw [not_or] at hw
                  obtain ⟨e, he⟩ := Option.ne_none_iff_exists'.mp hw.2
                  refine .inr (.inr (.inr ?_))
                  simp only [deliver_known P s hi d t0 t1 addr payload more hx (by omega) k id hm hk c hc]
                  obtain ⟨header, seq, _, _, hn⟩ := notify_long P.mem c payload (by omega)
                  rw [hn, if_neg hw.1]
                  exact ⟨_, _, e, rfl, by simp [Mgr.raised, Mgr.ranReceive, he]⟩
          · exact .inl ⟨d, t0, addr, rest, rfl, hx, by omega, .inl fun e he hk' => hk ⟨e, he, hk'⟩⟩
    · exact .inr (.inl ⟨d, rfl, .inl hn⟩)

/-! ## A round and a wait -/

/-- The arrivals of a round: all let the wait go on, or the first that does not is malformed, or it ends the
wait with an exception. -/
theorem round_cases (P : Plat) (hP : P.mem = Mem.strict) (as : List Arrival) (s : Mgr) (hi : Inv s) :
    ((∀ a ∈ as, GoesOn s a) ∧ ∃ s' evs, Mgr.deliverAll P as s = .go s' evs ∧ Like s s' ∧ Inv s') ∨
    ((∃ pre a post d, as = pre ++ a :: post ∧ (∀ x ∈ pre, GoesOn s x) ∧ a.recv = .dgram d ∧ Malformed s d) ∧
      ∃ evs, Mgr.deliverAll P as s = .ub evs) ∨
    ∃ s' evs e, Mgr.deliverAll P as s = .threw s' evs e := by
  induction as generalizing s with
  | nil => exact .inl ⟨by simp, s, [], rfl, .refl s, hi⟩
  | cons a as ih =>
    simp only [Mgr.deliverAll]
    rcases arrival_cases P s hi a with h | ⟨d, h1, h2⟩ | ⟨e, h⟩ | ⟨s', evs, e, h1, h2⟩
    · obtain ⟨s1, evs, g1, g2, g3, g4⟩ := goesOn_ok P s hi a h
      simp only [g1, g2]
      rcases ih s1 g4 with ⟨k1, s2, ev2, k2, k3, k4⟩ | ⟨⟨pre, b, post, d, rfl, k1, k2, k3⟩, ev2, k4⟩ | ⟨s2, ev2, e, k1⟩
      · refine .inl ⟨?_, s2, _, by rw [k2], g3.trans k3, k4⟩
        intro x hx
        rw [List.mem_cons] at hx
        rcases hx with rfl | hx
        · exact h
        · exact goesOn_like g3.symm (k1 x hx)
      · refine .inr (.inl ⟨⟨a :: pre, b, post, d, rfl, ?_, k2, malformed_like g3.symm k3⟩, _, by rw [k4]⟩)
        intro x hx
        rw [List.mem_cons] at hx
        rcases hx with rfl | hx
        · exact h
        · exact goesOn_like g3.symm (k1 x hx)
      · exact .inr (.inr ⟨s2, _, e, by rw [k1]⟩)
    · refine .inr (.inl ⟨⟨[], a, as, d, rfl, by simp, h1, h2⟩, [], ?_⟩)
      rw [h1, malformed_ub P hP s hi d h2]
    · exact .inr (.inr ⟨s, [], e, by rw [h]⟩)
    · exact .inr (.inr ⟨s', evs, e, by rw [h1]; simp only [h2]⟩)

/-- No arrival both lets the wait go on and is malformed. -/
theorem goesOn_not_malformed (P : Plat) (hP : P.mem = Mem.strict) {s : Mgr} (hi : Inv s) {a : Arrival} (h : GoesOn s a)
    {d : List Byte} (hd : a.recv = .dgram d) : ¬ Malformed s d := by
  intro hm
  obtain ⟨s', evs, g1, _⟩ := goesOn_ok P s hi a h
  rw [hd, malformed_ub P hP s hi d hm] at g1
  cases g1

theorem round_ub_iff (P : Plat) (hP : P.mem = Mem.strict) (as : List Arrival) (s : Mgr) (hi : Inv s) :
    (∃ evs, Mgr.deliverAll P as s = .ub evs) ↔
      ∃ pre a post d, as = pre ++ a :: post ∧ (∀ x ∈ pre, GoesOn s x) ∧ a.recv = .dgram d ∧ Malformed s d := by
  constructor
  · rintro ⟨evs, h⟩
    rcases round_cases P hP as s hi with ⟨_, s', ev, g, _⟩ | ⟨g, _⟩ | ⟨s', ev, e, g⟩
    · rw [g] at h; cases h
    · exact g
    · rw [g] at h; cases h
  · rintro ⟨pre, a, post, d, rfl, h1, h2, h3⟩
    induction pre generalizing s with
    | nil => exact ⟨[], by simp only [List.nil_append, Mgr.deliverAll, h2, malformed_ub P hP s hi d h3]⟩
    | cons b pre ih =>
      obtain ⟨s1, evs, g1, g2, g3, g4⟩ := goesOn_ok P s hi b (h1 b List.mem_cons_self)
      obtain ⟨ev2, k⟩ := ih s1 g4 (fun x hx => goesOn_like g3 (h1 x (List.mem_cons_of_mem _ hx))) (malformed_like g3 h3)
      exact ⟨_, by simp only [List.cons_append, Mgr.deliverAll, g1, g2, k]; rfl⟩

theorem round_go (P : Plat) (as : List Arrival) (s : Mgr) (hi : Inv s) (h : ∀ a ∈ as, GoesOn s a) :
    ∃ s' evs, Mgr.deliverAll P as s = .go s' evs ∧ Like s s' ∧ Inv s' := by
  induction as generalizing s with
  | nil => exact ⟨s, [], rfl, .refl s, hi⟩
  | cons a as ih =>
    obtain ⟨s1, evs, g1, g2, g3, g4⟩ := goesOn_ok P s hi a (h a List.mem_cons_self)
    obtain ⟨s2, ev2, k1, k2, k3⟩ := ih s1 g4 fun x hx => goesOn_like g3 (h x (List.mem_cons_of_mem _ hx))
    exact ⟨s2, evs ++ ev2, by simp only [Mgr.deliverAll, g1, g2, k1], g3.trans k2, k3⟩

theorem wait_ub_iff (P : Plat) (hP : P.mem = Mem.strict) (stop now : Int) (rounds : List Round) (s : Mgr) (hi : Inv s) :
    (∃ evs, Mgr.selectLoop P stop now rounds s = .ub evs) ↔ MeetsMalformed s rounds := by
  induction rounds generalizing s now with
  | nil =>
    constructor
    · rintro ⟨evs, h⟩; simp [Mgr.selectLoop] at h
    · rintro ⟨before, r, rs, n, after, _, _, _, _, h, _⟩; simp at h
  | cons b rounds ih =>
    cases b with
    | fail code =>
      constructor
      · rintro ⟨evs, h⟩; simp [Mgr.selectLoop] at h
      · rintro ⟨before, r, rs, n, after, _, _, _, _, h, hb, _⟩
        cases before with
        | nil => simp at h
        | cons x before =>
          simp only [List.cons_append, List.cons.injEq] at h
          obtain ⟨_, _, _, hx, _⟩ := hb x List.mem_cons_self
          rw [hx] at h
          cases h.1
    | ready r rs n =>
      simp only [Mgr.selectLoop]
      constructor
      · rintro ⟨evs, h⟩
        rcases round_cases P hP (r :: rs) s hi with ⟨g0, s1, ev, g, g1, g2⟩ | ⟨⟨pre, a, post, d, k1, k2, k3, k4⟩, _⟩ | ⟨s', ev, e, g⟩
        · rw [g] at h
          simp only at h
          have : ∃ evs, Mgr.selectLoop P stop n rounds s1 = .ub evs := by
            cases hq : Mgr.selectLoop P stop n rounds s1 with
            | ub e => exact ⟨e, rfl⟩
            | threw _ _ _ => rw [hq] at h; cases h
            | go _ _ => rw [hq] at h; cases h
          obtain ⟨before, r', rs', now', after, pre, a, post, d, q1, q2, q3, q4, q5, q6⟩ := (ih n s1 g2).mp this
          refine ⟨.ready r rs n :: before, r', rs', now', after, pre, a, post, d, by rw [q1]; rfl, ?_, q3,
            fun x hx => goesOn_like g1.symm (q4 x hx), q5, malformed_like g1.symm q6⟩
          intro x hx
          rw [List.mem_cons] at hx
          rcases hx with rfl | hx
          · exact ⟨r, rs, n, rfl, g0⟩
          · obtain ⟨a1, a2, a3, a4, a5⟩ := q2 x hx
            exact ⟨a1, a2, a3, a4, fun y hy => goesOn_like g1.symm (a5 y hy)⟩
        · exact ⟨[], r, rs, n, rounds, pre, a, post, d, rfl, by simp, k1, k2, k3, k4⟩
        · rw [g] at h; cases h
      · rintro ⟨before, r', rs', now', after, pre, a, post, d, q1, q2, q3, q4, q5, q6⟩
        cases before with
        | nil =>
          simp only [List.nil_append, List.cons.injEq, Round.ready.injEq] at q1
          obtain ⟨⟨rfl, rfl, rfl⟩, rfl⟩ := q1
          obtain ⟨ev, hu⟩ := (round_ub_iff P hP (r :: rs) s hi).mpr ⟨pre, a, post, d, q3, q4, q5, q6⟩
          exact ⟨_, by rw [hu]⟩
        | cons x before =>
          simp only [List.cons_append, List.cons.injEq] at q1
          obtain ⟨rfl, rfl⟩ := q1
          obtain ⟨a1, a2, a3, a4, a5⟩ := q2 _ List.mem_cons_self
          injection a4 with b1 b2 b3
          subst b1 b2 b3
          obtain ⟨s1, ev, g, g1, g2⟩ := round_go P (r :: rs) s hi a5
          have hb : ∀ b ∈ before, ∃ r rs now, b = .ready r rs now ∧ ∀ x ∈ r :: rs, GoesOn s1 x := by
            intro y hy
            obtain ⟨a1, a2, a3, a4, a5⟩ := q2 y (List.mem_cons_of_mem _ hy)
            exact ⟨a1, a2, a3, a4, fun z hz => goesOn_like g1 (a5 z hz)⟩
          obtain ⟨ev2, hu⟩ := (ih n s1 g2).mpr ⟨before, r', rs', now', after, pre, a, post, d, rfl, hb, q3,
            fun x hx => goesOn_like g1 (q4 x hx), q5, malformed_like g1 q6⟩
          rw [g]
          simp only [hu]
          exact ⟨_, rfl⟩

/-! ## A call -/

theorem reachable_iff (s : Mgr) (id : Nat) : Reachable s id ↔ s.alive id = true := by
  unfold Reachable
  have := C42_expired_iff s id
  cases h : s.alive id with
  | false =>
    rw [h] at this
    obtain ⟨h1, h2⟩ := this.mp rfl
    constructor
    · rintro (⟨k, hk⟩ | hh)
      · exact absurd hk (h1 k)
      · exact absurd hh h2
    · intro h; cases h
  | true =>
    rw [h] at this
    refine ⟨fun _ => rfl, fun _ => ?_⟩
    by_cases hk : ∃ k, (k, id) ∈ s.table
    · exact .inl hk
    · by_cases hh : id ∈ s.held
      · exact .inr hh
      · exact absurd (this.mpr ⟨fun k hm => hk ⟨k, hm⟩, hh⟩) (by simp)

theorem sendEndPoint_cases (P : Plat) (hP : P.mem = Mem.strict) (host : String) (items : List CommonPacketItem) :
    (ShortAddress items ∧ Mgr.sendEndPoint P host items = .ub) ∨
    (¬ ShortAddress items ∧ ∃ ep, Mgr.sendEndPoint P host items = .ok ep) := by
  obtain ⟨h1, h2⟩ := C33_destination P host items
  by_cases hs : ShortAddress items
  · obtain ⟨pre, i, post, he, hpre, hi, hl⟩ := hs
    exact .inl ⟨⟨pre, i, post, he, hpre, hi, hl⟩, (h2 pre i post he hpre hi).2 hl hP⟩
  · refine .inr ⟨hs, ?_⟩
    by_cases hn : ∀ i ∈ items, i.typeId ≠ 0x8000#16
    · obtain ⟨ep, h, _⟩ := h1 hn
      exact ⟨ep, h⟩
    · have hsome : (items.find? fun i => i.typeId == 0x8000#16).isSome := by
        rw [List.find?_isSome]
        by_cases hx : ∃ i ∈ items, i.typeId = 0x8000#16
        · obtain ⟨i, hi, he⟩ := hx
          exact ⟨i, hi, by simpa using he⟩
        · exact absurd (fun i hi he => hx ⟨i, hi, he⟩) hn
      obtain ⟨i, hi⟩ := Option.isSome_iff_exists.mp hsome
      rw [List.find?_eq_some_iff_append] at hi
      obtain ⟨ht, pre, post, he, hpre⟩ := hi
      have ht' : i.typeId = 0x8000#16 := by simpa using ht
      have hpre' : ∀ j ∈ pre, j.typeId ≠ 0x8000#16 := fun j hj => by simpa using hpre j hj
      have hl : 16 ≤ i.data.length := by
        rcases Nat.lt_or_ge i.data.length 16 with h | h
        · exact absurd ⟨pre, i, post, he, hpre', ht', h⟩ hs
        · exact h
      obtain ⟨ep, h, _⟩ := (h2 pre i post he hpre' ht').1 hl
      exact ⟨ep, h⟩

theorem openReply_cases (data : List Byte) :
    (CompleteReply data ∧ ∃ r, ∀ m, ForwardOpenResponse.expand m data = .ok r) ∨
    (¬ CompleteReply data ∧ ForwardOpenResponse.expand Mem.strict data = .ub) := by
  obtain ⟨h1, h2⟩ := C20_classification data
  by_cases h : CompleteReply data
  · obtain ⟨r, hr, _⟩ := h1 ⟨h.2, h.1⟩
    exact .inl ⟨h, r, hr⟩
  · refine .inr ⟨h, h2 ?_⟩
    unfold CompleteReply at h
    omega

theorem openPack_ok (p : ConnectionParameters) (large : Bool) :
    ∃ data, (if large then largeForwardOpenPack p else forwardOpenPack p) = .ok data := by
  cases large
  · obtain ⟨bs, hb, _⟩ := C19_forwardOpen p
    exact ⟨bs, by rw [if_neg Bool.false_ne_true]; exact hb⟩
  · obtain ⟨bs, hb, _⟩ := C19_largeForwardOpen p
    exact ⟨bs, by rw [if_pos rfl]; exact hb⟩

theorem findOrCreate_no_ub (ep : EndPoint) (bindErr : Option Int) (socks : List EndPoint) :
    Mgr.findOrCreateSocket ep bindErr socks ≠ .ub := by
  unfold Mgr.findOrCreateSocket
  split
  · simp
  · split <;> simp

theorem open_stop_iff (P : Plat) (hP : P.mem = Mem.strict) (s : Mgr) (host : String) (p : ConnectionParameters) (large : Bool)
    (e : OpenEnv) (tr : MTrace) :
    (∃ evs why, s.step P (.forwardOpen host p large e) = .stop evs why) →
    (∃ evs, s.step P (.forwardOpen host p large e) = .stop evs .ub) ∧ Undefined s tr (.forwardOpen host p large e) := by
  rintro ⟨evs, why, h⟩
  simp only [Mgr.step, Mgr.forwardOpen] at h ⊢
  unfold Undefined
  by_cases hs : s.statics.serial = 2 ^ 31 - 1
  · refine ⟨?_, .inl hs⟩
    simp only [Mgr.bumpStatics, Mgr.nextSerial, if_pos hs]
    exact ⟨_, rfl⟩
  · simp only [Mgr.bumpStatics, Mgr.nextSerial, if_neg hs] at h ⊢
    generalize hst : ({ serial := s.statics.serial + 1, o2tId := _, t2oId := _ } : Statics) = st at h ⊢
    obtain ⟨data, hd⟩ := openPack_ok (Mgr.sentParams p large st) large
    simp only [hd] at h ⊢
    cases hr : e.reply with
    | ub => exact ⟨⟨_, rfl⟩, .inr (.inl rfl)⟩
    | throw x => rw [hr] at h; cases h
    | ok resp =>
      rw [hr] at h
      simp only at h ⊢
      by_cases hok : resp.status = GeneralStatus.success
      · rw [if_pos hok] at h ⊢
        unfold Mgr.accept at h ⊢
        rcases openReply_cases resp.data with ⟨hc, r, hx⟩ | ⟨hc, hx⟩
        · simp only [hx P.mem] at h ⊢
          by_cases hm : 32 ≤ p.connectionTimeoutMultiplier.toNat
          · simp only [Mgr.timeoutMultiplier, if_pos hm]
            exact ⟨⟨_, rfl⟩, .inr (.inr ⟨resp, rfl, hok, .inr (.inl hm)⟩)⟩
          · simp only [Mgr.timeoutMultiplier, if_neg hm] at h ⊢
            rcases sendEndPoint_cases P hP host resp.additionalItems with ⟨ha, hu⟩ | ⟨ha, ep, hu⟩
            · simp only [hu]
              exact ⟨⟨_, rfl⟩, .inr (.inr ⟨resp, rfl, hok, .inr (.inr ha)⟩)⟩
            · simp only [hu] at h
              exfalso
              cases hue : e.udpErr with
              | some code => rw [hue] at h; cases h
              | none =>
                rw [hue] at h
                simp only at h
                cases hf : Mgr.findOrCreateSocket (EndPoint.ofHost P.aton host Mgr.implicitPort) e.bindErr s.sockets with
                | ub => exact findOrCreate_no_ub _ _ _ hf
                | throw x => rw [hf] at h; cases h
                | ok q => rw [hf] at h; cases h
        · rw [hP]
          simp only [hx]
          exact ⟨⟨_, rfl⟩, .inr (.inr ⟨resp, rfl, hok, .inl hc⟩)⟩
      · rw [if_neg hok] at h; cases h

theorem open_undefined (P : Plat) (hP : P.mem = Mem.strict) (s : Mgr) (host : String) (p : ConnectionParameters) (large : Bool)
    (e : OpenEnv) (tr : MTrace) (h : Undefined s tr (.forwardOpen host p large e)) :
    ∃ evs, s.step P (.forwardOpen host p large e) = .stop evs .ub := by
  unfold Undefined at h
  simp only [Mgr.step, Mgr.forwardOpen]
  by_cases hs : s.statics.serial = 2 ^ 31 - 1
  · simp only [Mgr.bumpStatics, Mgr.nextSerial, if_pos hs]
    exact ⟨_, rfl⟩
  · simp only [Mgr.bumpStatics, Mgr.nextSerial, if_neg hs]
    generalize hst : ({ serial := s.statics.serial + 1, o2tId := _, t2oId := _ } : Statics) = st
    obtain ⟨data, hd⟩ := openPack_ok (Mgr.sentParams p large st) large
    simp only [hd]
    rcases h with h | h | ⟨resp, hr, hok, h⟩
    · exact absurd h hs
    · rw [h]; exact ⟨_, rfl⟩
    · rw [hr]
      simp only
      rw [if_pos (show resp.status = GeneralStatus.success from hok)]
      unfold Mgr.accept
      rcases openReply_cases resp.data with ⟨hc, r, hx⟩ | ⟨hc, hx⟩
      · simp only [hx P.mem]
        by_cases hm : 32 ≤ p.connectionTimeoutMultiplier.toNat
        · simp only [Mgr.timeoutMultiplier, if_pos hm]
          exact ⟨_, rfl⟩
        · simp only [Mgr.timeoutMultiplier, if_neg hm]
          rcases h with h | h | h
          · exact absurd hc h
          · exact absurd h hm
          · rcases sendEndPoint_cases P hP host resp.additionalItems with ⟨_, hu⟩ | ⟨ha, _⟩
            · simp only [hu]
              exact ⟨_, rfl⟩
            · exact absurd h ha
      · rw [hP]
        simp only [hx]
        exact ⟨_, rfl⟩

theorem sockets_iff (P : Plat) (inc : BitVec 16) (st : Statics) (s : Mgr) (ops : List MOp) (tr : MTrace)
    (hrun : (Mgr.new inc st).run P ops = some (s, tr)) : s.sockets ≠ [] ↔ ∃ e ∈ tr, ∃ id, e.2.2 = .ptr (some id) := by
  obtain ⟨_, _, h3⟩ := sock_run P _ s ops tr 0 ⟨rfl, by omega, by simp [Mgr.new]⟩ hrun
  have h0 : (Mgr.new inc st).sockets = [] := rfl
  rw [h0] at h3
  simpa using h3

theorem handle_stop (P : Plat) (s : Mgr) (start : Nat) (t : Int) (rounds : List Round) (ticks : Nat → TickEnv) (evs : List MEv) (why : Stop) :
    s.step P (.handle start t rounds ticks) = .stop evs why ↔
      (s.sockets = [] ∧ evs = [] ∧ why = .ub) ∨
      (s.sockets ≠ [] ∧ Mgr.selectLoop P (start + t * 1000000) start rounds s = .ub evs ∧ why = .ub) := by
  simp only [Mgr.step, Mgr.handle]
  cases hs : s.sockets with
  | nil =>
    simp only [StepRes.stop.injEq, ne_eq, not_true_eq_false, false_and, or_false, true_and]
    exact ⟨fun h => ⟨h.1.symm, h.2.symm⟩, fun h => ⟨h.1.symm, h.2.symm⟩⟩
  | cons x xs =>
    simp only
    cases hq : Mgr.selectLoop P (start + t * 1000000) start rounds s with
    | ub e =>
      simp only [StepRes.stop.injEq, Mgr.Stage.ub.injEq]
      constructor
      · rintro ⟨rfl, rfl⟩; exact .inr ⟨by simp, rfl, rfl⟩
      · rintro (⟨h, _⟩ | ⟨_, rfl, rfl⟩)
        · cases h
        · exact ⟨rfl, rfl⟩
    | threw a b c => simp
    | go a b =>
      simp only
      rcases Mgr.tickAll ticks a.table a.heap with ⟨heap, ev2, keys, _ | e⟩ <;> simp

/-- C95. In every reachable state, a call has undefined behaviour exactly if: it is an open after 2^31 - 1
opens, with a timeout code above 31, or answered by an incomplete reply or one with a short address; or it
waits before any open returned a connection, or meets a malformed datagram before anything that ends the
wait.  A close and the other calls never have. -/
theorem C95_undefined_iff (P : Plat) (hP : P.mem = Mem.strict) (inc : BitVec 16) (st : Statics) (s : Mgr) (ops : List MOp)
    (tr : MTrace) (hrun : (Mgr.new inc st).run P ops = some (s, tr)) (op : MOp) :
    (∃ evs, s.step P op = .stop evs .ub) ↔ Undefined s tr op := by
  have hi := inv_run P _ s ops tr (inv_new inc st) hrun
  cases op with
  | forwardOpen host p large e =>
    refine ⟨fun ⟨evs, h⟩ => (open_stop_iff P hP s host p large e tr ⟨evs, _, h⟩).2, open_undefined P hP s host p large e tr⟩
  | otherOpen a b c =>
    simp only [Mgr.step, Undefined, Mgr.bumpStatics, Mgr.nextSerial]
    by_cases hs : s.statics.serial = 2 ^ 31 - 1
    · simp [hs]
    · simp [hs]
  | forwardClose ptr reply =>
    cases ptr with
    | none => simp [Mgr.step, Mgr.forwardClose, Undefined]
    | some id =>
      simp only [Mgr.step, Mgr.forwardClose, Undefined, reachable_iff]
      cases ha : s.alive id with
      | false => simp
      | true =>
        obtain ⟨c, hc⟩ : ∃ c, s.heap[id]? = some c := ⟨_, List.getElem?_eq_getElem (alive_lt hi ha)⟩
        simp only [if_true, hc, true_and]
        cases reply with
        | ub => simp
        | throw x => simp
        | ok r =>
          simp only [reduceCtorEq, iff_false, not_exists]
          intro evs
          cases tblFind (c.t2oNetworkConnectionId.setWidth 16) s.table with
          | some _ => simp
          | none => simp only; split <;> simp
  | handle start t rounds ticks =>
    simp only [handle_stop, Undefined, and_true]
    rw [← wait_ub_iff P hP (start + t * 1000000) start rounds s hi, ← sockets_iff P inc st s ops tr hrun]
    by_cases hs : s.sockets = []
    · simp [hs]
    · simp [hs]
  | hasOpen => simp [Mgr.step, Undefined]
  | setData id data =>
    simp only [Mgr.step, Undefined, iff_false, not_exists]
    intro evs
    split <;> simp
  | lock id =>
    simp only [Mgr.step, Undefined, iff_false, not_exists]
    intro evs
    split <;> simp
  | release id => simp [Mgr.step, Undefined]

/-- C95. In every reachable state, a call is ended by an assertion exactly if assertions are compiled in and it
closes, through a pointer the user kept, a connection that is not in the manager any more. -/
theorem C95_asserts_iff (P : Plat) (hP : P.mem = Mem.strict) (inc : BitVec 16) (st : Statics) (s : Mgr) (ops : List MOp)
    (tr : MTrace) (hrun : (Mgr.new inc st).run P ops = some (s, tr)) (op : MOp) :
    (∃ evs, s.step P op = .stop evs .aborted) ↔ Asserts P s op := by
  have hi := inv_run P _ s ops tr (inv_new inc st) hrun
  cases op with
  | forwardOpen host p large e =>
    simp only [Asserts, iff_false, not_exists]
    intro evs h
    obtain ⟨⟨ev, h'⟩, _⟩ := open_stop_iff P hP s host p large e tr ⟨evs, _, h⟩
    rw [h] at h'
    cases h'
  | otherOpen a b c =>
    simp only [Mgr.step, Asserts, iff_false, not_exists]
    intro evs
    split <;> simp
  | forwardClose ptr reply =>
    cases ptr with
    | none => simp [Mgr.step, Mgr.forwardClose, Asserts]
    | some id =>
      cases ha : s.alive id with
      | false =>
        cases reply <;> simp [Mgr.step, Mgr.forwardClose, ha, Asserts, reachable_iff]
      | true =>
        obtain ⟨c, hc⟩ : ∃ c, s.heap[id]? = some c := ⟨_, List.getElem?_eq_getElem (alive_lt hi ha)⟩
        simp only [Mgr.step, Mgr.forwardClose, ha, if_true, hc]
        cases reply with
        | ub => simp [Asserts]
        | throw x => simp [Asserts]
        | ok r =>
          simp only [Asserts, reachable_iff, ha, true_and, hc, Option.some.injEq, exists_eq_left']
          have hkey : ∀ k : BitVec 16, k.toNat = c.t2oNetworkConnectionId.toNat % 65536 ↔
              k = c.t2oNetworkConnectionId.setWidth 16 := by
            intro k
            rw [← BitVec.toNat_inj, BitVec.toNat_setWidth]
          cases hf : tblFind (c.t2oNetworkConnectionId.setWidth 16) s.table with
          | some j =>
            simp only [reduceCtorEq, exists_false, false_iff, not_and]
            intro _ hn
            exact hn _ (tblFind_mem hf) ((hkey _).mpr rfl)
          | none =>
            simp only
            have hn : ∀ e ∈ s.table, e.1.toNat ≠ c.t2oNetworkConnectionId.toNat % 65536 :=
              fun e he h => tblFind_none hf e he ((hkey _).mp h)
            cases P.ndebug with
            | true => simp
            | false => simpa using fun a b hm => hn (a, b) hm
  | handle start t rounds ticks =>
    simp only [handle_stop, Asserts, iff_false, not_exists]
    rintro evs (⟨_, _, h⟩ | ⟨_, _, h⟩) <;> cases h
  | hasOpen => simp [Mgr.step, Asserts]
  | setData id data =>
    simp only [Mgr.step, Asserts, iff_false, not_exists]
    intro evs
    split <;> simp
  | lock id =>
    simp only [Mgr.step, Asserts, iff_false, not_exists]
    intro evs
    split <;> simp
  | release id => simp [Mgr.step, Asserts]

/-! ## Histories -/

theorem run_none {P : Plat} {s : Mgr} {ops : List MOp} (h : s.run P ops = none) :
    ∃ a op b s1 tr1 evs why, ops = a ++ op :: b ∧ s.run P a = some (s1, tr1) ∧ s1.step P op = .stop evs why := by
  induction ops generalizing s with
  | nil => simp [Mgr.run] at h
  | cons op ops ih =>
    simp only [Mgr.run] at h
    cases hs : s.step P op with
    | stop evs why => exact ⟨[], op, ops, s, [], evs, why, rfl, rfl, hs⟩
    | ok s1 evs ret =>
      rw [hs] at h
      simp only at h
      cases hr : s1.run P ops with
      | some q => rw [hr] at h; cases h
      | none =>
        obtain ⟨a, op', b, s2, tr2, evs', why, rfl, h2, h3⟩ := ih hr
        exact ⟨op :: a, op', b, s2, (op, evs, ret) :: tr2, evs', why, rfl, by simp only [Mgr.run, hs, h2], h3⟩

/-- Every connection has a header of at most n bytes. -/
theorem heads_run (P : Plat) (n : Nat) (s s' : Mgr) (ops : List MOp) (tr : MTrace) (h : s.run P ops = some (s', tr))
    (hp : ∀ op ∈ ops, ProperCall n op) (h0 : ∀ (id : Nat) c, s.heap[id]? = some c → headLen c ≤ n) :
    ∀ (id : Nat) c, s'.heap[id]? = some c → headLen c ≤ n := by
  induction ops generalizing s tr with
  | nil =>
    simp only [Mgr.run, Option.some.injEq, Prod.mk.injEq] at h
    rw [← h.1]; exact h0
  | cons op ops ih =>
    obtain ⟨s1, evs, ret, tr', h1, h2, rfl⟩ := mrun_cons h
    refine ih s1 tr' h2 (fun o ho => hp o (List.mem_cons_of_mem _ ho)) ?_
    have hold : ∀ (id : Nat) c, s1.heap[id]? = some c → id < s.heap.length → headLen c ≤ n := by
      intro id c hc hl
      obtain ⟨c', hc', hcfg⟩ := replay_config (step_replay P s s1 op evs ret h1) (List.getElem?_eq_getElem hl)
      rw [hc] at hc'
      injection hc' with hc'
      subst hc'
      have := h0 id _ (List.getElem?_eq_getElem hl)
      unfold headLen at this ⊢
      rw [hcfg.t2oRt, hcfg.trigger]
      exact this
    intro id c hc
    by_cases hl : id < s.heap.length
    · exact hold id c hc hl
    · cases op with
      | forwardOpen host p large e =>
        obtain ⟨st, data, _, _, hh⟩ := forwardOpen_cases P host p large e s s1 evs ret h1
        rcases hh with ⟨rfl, _⟩ | ⟨resp, _, _, r, mult, ep, socks, bs, _, _, _, _, _, rfl, _⟩
        · exact absurd (List.getElem?_eq_some_iff.mp hc).1 hl
        · rw [(register_shape _ _).1, List.getElem?_append_right (by simpa using hl)] at hc
          have h2 : (Mgr.newConn p large r mult ep e.now) = c := by
            rw [List.getElem?_singleton] at hc
            split at hc
            · injection hc
            · cases hc
          rw [← h2]
          exact (hp _ List.mem_cons_self).1
      | _ =>
        refine absurd ?_ hl
        have hlen : s1.heap.length = s.heap.length := by
          cases step_shape P s s1 _ evs ret h1 with
          | still hheap _ _ => rw [hheap]
          | opened c' hheap hev _ =>
            exfalso
            obtain ⟨a, b, d, bs, rfl, _⟩ := hev
            first
            | exact absurd (by simp) (handle_no_created h1 s.heap.length c')
            | (simp only [Mgr.step, Mgr.forwardClose] at h1
               repeat' split at h1
               all_goals
                 first
                 | cases h1
                 | (injection h1 with _ h1 _
                    have := congrArg List.length h1
                    simp at this))
          | handled hreplay hev _ =>
            exact applyEvs_length hreplay fun e he => by
              rcases hev e he with ⟨tv, rfl⟩ | ⟨id, op, io, rfl, _⟩ <;> simp
          | wrote i data hev hreplay _ =>
            refine applyEvs_length hreplay fun e he => ?_
            rw [hev] at he
            simp at he
            rw [he]; simp
        rw [← hlen]
        exact (List.getElem?_eq_some_iff.mp hc).1

theorem proper_not_malformed (P : Plat) (hP : P.mem = Mem.strict) (s : Mgr) (hi : Inv s) (n : Nat)
    (hh : ∀ (id : Nat) c, s.heap[id]? = some c → headLen c ≤ n) (d : List Byte) (h : Proper n d) : ¬ Malformed s d := by
  obtain ⟨t0, addr, t1, payload, rest, h1, h2, h3⟩ := h
  refine goesOn_not_malformed P hP hi (a := ⟨.dgram d, none⟩) ?_ rfl
  refine ⟨d, t0, addr, _, rfl, h1, h2, ?_⟩
  by_cases hk : ∃ e ∈ s.table, e.1.toNat = field addr 0 4 % 65536
  · obtain ⟨⟨k, id⟩, hm, hk⟩ := hk
    obtain ⟨c, hc, _⟩ := hi.obj k id hm
    exact .inr ⟨k, id, c, t1, payload, rest, hm, hc, hk, rfl, Nat.le_trans (hh id c hc) h3, .inr rfl⟩
  · exact .inl fun e he hk' => hk ⟨e, he, hk'⟩

theorem mem_receivedIn {rounds : List Round} {r : Arrival} {rs : List Arrival} {now : Nat} (h : .ready r rs now ∈ rounds)
    {a : Arrival} (ha : a ∈ r :: rs) : a ∈ receivedIn rounds := by
  induction rounds with
  | nil => simp at h
  | cons b rounds ih =>
    rw [List.mem_cons] at h
    rcases h with rfl | h
    · simp only [receivedIn, List.mem_append]
      exact .inl ha
    · cases b with
      | fail code => exact ih h
      | ready x xs n => simp only [receivedIn, List.mem_append]; exact .inr (ih h)

/-- C95. A program that passes proper arguments, waits only after an open has returned a connection, closes only
connections that are open (or is built without assertions) and makes fewer than 2^31 opens runs on,
whatever a target and a network that keep to the rules do, and whatever its listeners throw: no call has
undefined behaviour and none is ended by an assertion. -/
theorem C95_proper (P : Plat) (hP : P.mem = Mem.strict) (inc : BitVec 16) (st : Statics) (ops : List MOp) (n : Nat)
    (hp : ∀ op ∈ ops, ProperCall n op) (hw : WaitsAfterOpen P (Mgr.new inc st) ops)
    (hc : P.ndebug = true ∨ ClosesOpen P (Mgr.new inc st) ops) (ho : st.serial + ops.countP MOp.isOpen < 2 ^ 31) :
    ∃ s tr, (Mgr.new inc st).run P ops = some (s, tr) := by
  cases hr : (Mgr.new inc st).run P ops with
  | some q => exact ⟨q.1, q.2, rfl⟩
  | none =>
    exfalso
    obtain ⟨a, op, b, s1, tr1, evs, why, he, h1, h2⟩ := run_none hr
    have hi := inv_run P _ s1 a tr1 (inv_new inc st) h1
    have hop := hp op (by rw [he]; simp)
    have hser : MOp.isOpen op = true → s1.statics.serial ≠ 2 ^ 31 - 1 := by
      intro hopen
      obtain ⟨k1, _⟩ := run_statics P _ s1 a tr1 h1
      have k2 : countOps MOp.isOpen tr1 = a.countP MOp.isOpen := by
        rw [mrun_ops P _ _ _ _ h1, countOps, List.countP_map]
        rfl
      have k3 : ops.countP MOp.isOpen = a.countP MOp.isOpen + (1 + b.countP MOp.isOpen) := by
        rw [he, List.countP_append, List.countP_cons, if_pos hopen]
        omega
      have k4 : (Mgr.new inc st).statics.serial = st.serial := rfl
      omega
    cases why with
    | ub =>
      have hu := (C95_undefined_iff P hP inc st s1 a tr1 h1 op).mp ⟨evs, h2⟩
      cases op with
      | forwardOpen host p large e =>
        obtain ⟨_, p2, p3, p4⟩ := hop
        rcases hu with hu | hu | ⟨resp, q1, q2, q3⟩
        · exact hser rfl hu
        · exact p3 hu
        · obtain ⟨r1, r2⟩ := p4 resp q1 q2
          rcases q3 with q3 | q3 | q3
          · exact q3 r1
          · omega
          · exact r2 q3
      | otherOpen x y z => exact hser rfl hu
      | forwardClose ptr reply =>
        cases ptr with
        | none => exact hu
        | some id => exact hop hu.2
      | handle start t rounds ticks =>
        rcases hu with hu | ⟨before, r, rs, now, after, pre, x, post, d, m1, m2, m3, m4, m5, m6⟩
        · exact hu (hw a start t rounds ticks b s1 tr1 he h1)
        · refine proper_not_malformed P hP s1 hi n ?_ d ?_ m6
          · exact heads_run P n _ s1 a tr1 h1 (fun o hm => hp o (by rw [he]; simp [hm])) (by simp [Mgr.new])
          · refine hop x (mem_receivedIn (r := r) (rs := rs) (now := now) (by rw [m1]; simp) ?_) d m5
            rw [m3]; simp
      | hasOpen => exact hu
      | setData _ _ => exact hu
      | lock _ => exact hu
      | release _ => exact hu
    | aborted =>
      have hu := (C95_asserts_iff P hP inc st s1 a tr1 h1 op).mp ⟨evs, h2⟩
      cases op with
      | forwardClose ptr reply =>
        cases ptr with
        | none => exact hu
        | some id =>
          cases reply with
          | ub => exact hu
          | throw x => exact hu
          | ok r =>
            obtain ⟨u1, u2, c, u3, u4⟩ := hu
            rcases hc with hc | hc
            · rw [hc] at u1; cases u1
            · obtain ⟨k, hk⟩ := hc a id (.ok r) b s1 tr1 he h1 ((reachable_iff s1 id).mp u2)
              obtain ⟨c', hc', hkey⟩ := hi.obj k id hk
              rw [u3] at hc'
              injection hc' with hc'
              subst hc'
              refine u4 (k, id) hk ?_
              rw [hkey, BitVec.toNat_setWidth]
      | _ => exact hu

/-! ## The hypotheses are met -/

/-- A program whose first call is an open that returns a connection waits only after an open. -/
theorem opens_first (P : Plat) (s s' : Mgr) (op : MOp) (ops : List MOp) (evs : List MEv) (id : Nat)
    (h : s.step P op = .ok s' evs (.ptr (some id))) (hn : ∀ start t rounds ticks, op ≠ .handle start t rounds ticks) :
    WaitsAfterOpen P s (op :: ops) := by
  intro a start t rounds ticks b s1 tr1 he hr
  cases a with
  | nil => injection he with he _; exact absurd he (hn start t rounds ticks)
  | cons x a =>
    injection he with he _
    subst he
    obtain ⟨s2, evs2, ret, tr', h1, _, rfl⟩ := mrun_cons hr
    rw [h] at h1
    injection h1 with _ _ h3
    exact ⟨_, List.mem_cons_self, id, h3.symm⟩

/-- Two connections, datagrams for both and for nobody, output data, a close, a timeout. -/
def definedOps : List MOp := sampleHistory.filter fun op => match op with | .lock _ => false | _ => true

theorem definedOps_eq : definedOps = [sampleOpen 0xA 0x10001 1, sampleOpen 0xB 0x10002 2, .hasOpen,
   .handle 1000000 5 [.ready (.dgram (sampleDgram 0x10002 [7, 8])) [] 2000000,
      .ready (.dgram (sampleDgram 0x10001 [9, 9])) [.dgram (sampleDgram 0x77 [1, 1])] 3000000]
      (fun _ => ⟨12000000, { left := some [1, 2] }, 22⟩),
   .setData 0 [5, 6], .forwardClose (some 0) (.ok (sampleReply 0 0 0)), sampleHandle 90000000, .hasOpen] := rfl

example : ∃ s tr, (Mgr.new 1 {}).run samplePlat definedOps = some (s, tr) := by
  have hopen : ∃ s' evs, (Mgr.new 1 {}).step samplePlat (sampleOpen 0xA 0x10001 1) = .ok s' evs (.ptr (some 0)) := by
    cases h : (Mgr.new 1 {}).step samplePlat (sampleOpen 0xA 0x10001 1) with
    | stop evs why =>
      have : (match (Mgr.new 1 {}).step samplePlat (sampleOpen 0xA 0x10001 1) with
        | .stop _ _ => true | _ => false) = false := by decide +kernel
      rw [h] at this
      cases this
    | ok s' evs ret =>
      have : (match (Mgr.new 1 {}).step samplePlat (sampleOpen 0xA 0x10001 1) with
        | .ok _ _ r => r | _ => .unit) = .ptr (some 0) := by decide +kernel
      rw [h] at this
      exact ⟨s', evs, by rw [show ret = .ptr (some 0) from this]⟩
  obtain ⟨s', evs, hopen⟩ := hopen
  have hframe : ∀ id data, data.length = 2 → Proper 2 (sampleDgram id data) := fun id data hl =>
    ⟨_, _, _, _, [], frame_accepts id 1 (ioPayload (some 1) none data) (by simp [ioPayload, le_length, hl]),
      by simp [le_length], by simp [ioPayload, le_length, hl]⟩
  have hproper : ∀ o t n, n < 65536 → ProperCall 2 (sampleOpen o t n) := by
    intro o t n hn
    refine ⟨by decide, by decide, by simp, ?_⟩
    rintro resp he _
    injection he with he
    subst he
    refine ⟨?_, ?_⟩
    · have hl : (sampleReply o t n).data.length = 26 := by simp [sampleReply, openReply, le_length]
      have hf : field (sampleReply o t n).data 24 1 = 0 := by
        simp [sampleReply, openReply, field, ofLe, le]
      exact ⟨by omega, by omega⟩
    · rintro ⟨pre, i, post, he, _⟩
      simp [sampleReply] at he
  refine C95_proper samplePlat rfl 1 {} definedOps 2 ?_ ?_ (.inr (C82_weak_pointers _ _ _ _ ?_)) (by decide)
  · rw [definedOps_eq]
    intro op hop
    simp only [List.mem_cons, List.not_mem_nil, or_false] at hop
    rcases hop with rfl | rfl | rfl | rfl | rfl | rfl | rfl | rfl
    · exact hproper _ _ _ (by omega)
    · exact hproper _ _ _ (by omega)
    · trivial
    · intro a ha d hd
      simp only [receivedIn, List.cons_append, List.nil_append, List.mem_cons, List.not_mem_nil, or_false] at ha
      rcases ha with rfl | rfl | rfl <;> injection hd with hd <;> rw [← hd] <;> exact hframe _ _ rfl
    · trivial
    · exact by simp [ProperCall]
    · intro a ha; simp [receivedIn] at ha
    · trivial
  · rw [definedOps_eq]
    exact opens_first samplePlat _ s' _ _ evs 0 hopen (by simp [sampleOpen])
  · rw [definedOps_eq]
    simp [sampleOpen, sampleHandle]

end Verif.Props
