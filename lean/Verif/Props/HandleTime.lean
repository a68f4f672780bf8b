import Verif.Spec.HandleTime
import Verif.Props.Liveness
import Verif.Props.ManagerWait
import Verif.Props.ManagerSample

/-!
# C94: how long `handleConnections` takes and what it receives
-/

namespace Verif.Props

open Verif Verif.Spec

/-! ## One call -/

/-- The wait is the rest of the time in whole milliseconds. -/
theorem waitNanos_eq (stop : Int) (now : Nat) :
    (Mgr.waitNanos stop now : Int) = if (now : Int) ≤ stop then (stop - now) / 1000000 * 1000000 else 0 := by
  unfold Mgr.waitNanos Mgr.tvNanos
  obtain ⟨h1, h2, h3, h4⟩ := C48_interval (Mgr.remainingMs stop now)
  have key : (((makePortableInterval (Mgr.remainingMs stop now)).1.toNat * 1000000000 +
      (makePortableInterval (Mgr.remainingMs stop now)).2.toNat * 1000 : Nat) : Int) =
      (if 0 ≤ Mgr.remainingMs stop now then Mgr.remainingMs stop now else 0) * 1000000 := by
    rw [show (if 0 ≤ Mgr.remainingMs stop now then Mgr.remainingMs stop now else 0) * 1000000 =
      ((if 0 ≤ Mgr.remainingMs stop now then Mgr.remainingMs stop now else 0) * 1000) * 1000 by omega, ← h4]
    omega
  rw [key]
  unfold Mgr.remainingMs
  by_cases h : (now : Int) ≤ stop
  · rw [if_pos h, Int.tdiv_eq_ediv_of_nonneg (by omega), if_pos (Int.ediv_nonneg (by omega) (by omega))]
  · rw [if_neg h]
    have : (stop - (now : Int)).tdiv 1000000 ≤ 0 := by
      have e : stop - (now : Int) = -((now : Int) - stop) := by omega
      rw [e, Int.neg_tdiv]
      have := Int.tdiv_nonneg (a := (now : Int) - stop) (b := 1000000) (by omega) (by omega)
      omega
    split <;> omega

theorem waitNanos_bounds (stop : Int) (now : Nat) :
    (now : Int) + Mgr.waitNanos stop now ≤ max (now : Int) stop ∧ stop - 1000000 < (now : Int) + Mgr.waitNanos stop now := by
  rw [waitNanos_eq]
  split <;> omega

/-- What a stage of the loop is, without times. -/
theorem selectAt_spec (P : Plat) (stop : Int) (busy : Nat → Nat) (i now : Nat) (q : Queue) (s : Mgr) :
    ∃ rounds taken, (Mgr.selectAt P stop busy i now q s).1 = Mgr.selectLoop P stop now rounds s ∧
      q = taken ++ (Mgr.selectAt P stop busy i now q s).2.2 ∧
      rounds.flatMap received = taken.map (·.2) ∧
      now ≤ (Mgr.selectAt P stop busy i now q s).2.1 ∧
      (∀ x ∈ taken, x.1 ≤ (Mgr.selectAt P stop busy i now q s).2.1) ∧
      ((Mgr.selectAt P stop busy i now q s).2.1 : Int) ≤ max (now : Int) stop + ((List.range' i taken.length).map busy).sum ∧
      ∀ s' evs, (Mgr.selectAt P stop busy i now q s).1 = .go s' evs →
        stop - 1000000 < (Mgr.selectAt P stop busy i now q s).2.1 ∧
        ∀ x, (Mgr.selectAt P stop busy i now q s).2.2.head? = some x → (Mgr.selectAt P stop busy i now q s).2.1 < x.1 := by
  induction q generalizing i now s with
  | nil =>
    have hb := waitNanos_bounds stop now
    refine ⟨[], [], rfl, rfl, rfl, by simp [Mgr.selectAt], by simp, ?_, fun s' evs _ => ⟨?_, by simp [Mgr.selectAt]⟩⟩
    · simp only [Mgr.selectAt, List.length_nil, List.range'_zero, List.map_nil, List.sum_nil]; omega
    · simp only [Mgr.selectAt]; omega
  | cons e q ih =>
    obtain ⟨a, r⟩ := e
    have hb := waitNanos_bounds stop now
    simp only [Mgr.selectAt]
    by_cases ha : a ≤ now + Mgr.waitNanos stop now
    · rw [if_pos ha]
      cases hd : Mgr.deliverAll P [r] s with
      | ub evs =>
        refine ⟨[.ready r [] 0], [(a, r)], ?_, rfl, rfl, by simp; omega, by simp; omega, ?_, ?_⟩
        · simp only [Mgr.selectLoop, hd]
        · simp only [List.length_singleton, List.range'_one, List.map_singleton, List.sum_singleton]; omega
        · intro s' evs h; cases h
      | threw s' evs e =>
        refine ⟨[.ready r [] 0], [(a, r)], ?_, rfl, rfl, by simp; omega, by simp; omega, ?_, ?_⟩
        · simp only [Mgr.selectLoop, hd]
        · simp only [List.length_singleton, List.range'_one, List.map_singleton, List.sum_singleton]; omega
        · intro s' evs h; cases h
      | go s1 evs1 =>
        obtain ⟨rounds, taken, h1, h2, h3, h4, h5, h6, h7⟩ := ih (i + 1) (max now a + busy i) s1
        simp only
        generalize hg : Mgr.selectAt P stop busy (i + 1) (max now a + busy i) q s1 = g at *
        obtain ⟨st, now', q'⟩ := g
        simp only at h1 h2 h3 h4 h5 h6 h7
        refine ⟨.ready r [] (max now a + busy i) :: rounds, (a, r) :: taken, ?_, ?_, ?_, ?_, ?_, ?_, ?_⟩
        · simp only [Mgr.selectLoop, hd]
          rw [← h1]
          cases st <;> rfl
        · cases st <;> simp [h2]
        · simp [received, h3]
        · cases st <;> simp <;> omega
        · intro x hx
          rw [List.mem_cons] at hx
          have : x.1 ≤ now' := by
            rcases hx with rfl | hx
            · simp; omega
            · exact h5 x hx
          cases st <;> exact this
        · rw [List.length_cons, List.range'_succ, List.map_cons, List.sum_cons]
          generalize ((List.range' (i + 1) taken.length).map busy).sum = S at h6
          have : (now' : Int) ≤ max (now : Int) stop + ((busy i + S : Nat) : Int) := by omega
          cases st <;> exact this
        · intro s' evs h
          cases st with
          | ub => cases h
          | threw => cases h
          | go s2 evs2 =>
            simp only
            exact h7 s2 evs2 rfl
    · rw [if_neg ha]
      refine ⟨[], [], rfl, rfl, rfl, by simp, by simp, ?_, fun s' evs _ => ⟨?_, ?_⟩⟩
      · simp only [List.length_nil, List.range'_zero, List.map_nil, List.sum_nil]; omega
      · simp only; omega
      · intro x hx
        simp only [List.head?_cons, Option.some.injEq] at hx
        subst hx
        simp only
        omega

theorem handleAt_spec (P : Plat) (t : Int) (busy : Nat → Nat) (env : Nat → Hook × Int) (start : Nat) (q : Queue) (s : Mgr) :
    ∃ rounds taken ticks, (s.handleAt P t busy env start q).1 = s.step P (.handle start t rounds ticks) ∧
      (∀ id, (ticks id).now = (s.handleAt P t busy env start q).2.1) ∧
      q = taken ++ (s.handleAt P t busy env start q).2.2 ∧
      rounds.flatMap received = taken.map (·.2) ∧
      start ≤ (s.handleAt P t busy env start q).2.1 ∧
      (∀ x ∈ taken, x.1 ≤ (s.handleAt P t busy env start q).2.1) ∧
      ((s.handleAt P t busy env start q).2.1 : Int) ≤ max (start : Int) (start + t * 1000000) + ((List.range taken.length).map busy).sum ∧
      ∀ s' evs, (s.handleAt P t busy env start q).1 = .ok s' evs .unit →
        start + t * 1000000 - 1000000 < ((s.handleAt P t busy env start q).2.1 : Int) ∧
        ∀ x, (s.handleAt P t busy env start q).2.2.head? = some x → (s.handleAt P t busy env start q).2.1 < x.1 := by
  obtain ⟨rounds, taken, h1, h2, h3, h4, h5, h6, h7⟩ := selectAt_spec P (start + t * 1000000) busy 0 start q s
  rw [← List.range_eq_range'] at h6
  unfold Mgr.handleAt
  cases hs : s.sockets with
  | nil =>
    refine ⟨[], [], fun _ => ⟨start, {}, 0⟩, by simp [Mgr.step, Mgr.handle, hs], fun _ => rfl, rfl, rfl, by simp, by simp, ?_, ?_⟩
    · simp; omega
    · intro s' evs h; cases h
  | cons a b =>
    simp only
    generalize hg : Mgr.selectAt P (start + t * 1000000) busy 0 start q s = g at *
    obtain ⟨st, now', q'⟩ := g
    simp only at h1 h2 h3 h4 h5 h6 h7
    cases st with
    | ub evs =>
      refine ⟨rounds, taken, fun _ => ⟨now', {}, 0⟩, ?_, fun _ => rfl, h2, h3, h4, h5, h6, ?_⟩
      · simp only [Mgr.step, Mgr.handle, hs, ← h1]
      · intro s' evs h; cases h
    | threw s1 evs e =>
      refine ⟨rounds, taken, fun _ => ⟨now', {}, 0⟩, ?_, fun _ => rfl, h2, h3, h4, h5, h6, ?_⟩
      · simp only [Mgr.step, Mgr.handle, hs, ← h1]
      · intro s' evs h; cases h
    | go s1 evs =>
      simp only
      obtain ⟨g1, g2⟩ := h7 _ _ rfl
      refine ⟨rounds, taken, fun id => ⟨now', (env id).1, (env id).2⟩, ?_, ?_, ?_, h3, ?_, ?_, ?_, ?_⟩
      · simp only [Mgr.step, Mgr.handle, hs, ← h1]
        generalize Mgr.tickAll (fun id => ⟨now', (env id).1, (env id).2⟩) s1.table s1.heap = w
        obtain ⟨w1, w2, w3, w4⟩ := w
        cases w4 <;> rfl
      all_goals
        generalize Mgr.tickAll (fun id => ⟨now', (env id).1, (env id).2⟩) s1.table s1.heap = w
        obtain ⟨w1, w2, w3, w4⟩ := w
      · cases w4 <;> exact fun _ => rfl
      · cases w4 <;> exact h2
      · cases w4 <;> exact h4
      · cases w4 <;> exact h5
      · cases w4 <;> exact h6
      · cases w4
        · exact fun _ _ _ => ⟨g1, g2⟩
        · intro _ _ h; cases h

theorem inOrder_tail {q taken rest : Queue} (h : InOrder q) (e : q = taken ++ rest) : InOrder rest := by
  unfold InOrder at *
  rw [e, List.pairwise_append] at h
  exact h.2.1

/-- C94. Whenever datagrams arrive and however long their handling takes, a call does what
`handleConnections` does without times when it receives the datagrams `taken`, one after the other, and
ticks at the end; they are the first of those that arrive, and the rest stays for the next call. -/
theorem C94_receives (P : Plat) (t : Int) (busy : Nat → Nat) (env : Nat → Hook × Int) (start now : Nat) (q rest : Queue)
    (s : Mgr) (res : StepRes) (h : s.handleAt P t busy env start q = (res, now, rest)) :
    ∃ rounds taken ticks, res = s.step P (.handle start t rounds ticks) ∧ (∀ id, (ticks id).now = now) ∧
      rounds.flatMap received = taken.map (·.2) ∧ q = taken ++ rest := by
  obtain ⟨rounds, taken, ticks, h1, h2, h3, h4, _⟩ := handleAt_spec P t busy env start q s
  rw [h] at h1 h2 h3
  exact ⟨rounds, taken, ticks, h1, h2, h4, h3⟩

/-- C94. A call that returns normally has received every datagram that had arrived when it returned, and
none twice.  It returns at the earliest one millisecond before its timeout is over, and at the latest when
the timeout is over and the handlers had the time they need for the datagrams it received. -/
theorem C94_time (P : Plat) (t : Int) (busy : Nat → Nat) (env : Nat → Hook × Int) (start now : Nat) (q rest : Queue)
    (s s' : Mgr) (evs : List MEv) (h : s.handleAt P t busy env start q = (.ok s' evs .unit, now, rest)) (hq : InOrder q) :
    ∃ taken, q = taken ++ rest ∧ (∀ x ∈ taken, x.1 ≤ now) ∧ (∀ x ∈ rest, now < x.1) ∧
      start ≤ now ∧ start + t * 1000000 - 1000000 < (now : Int) ∧
      (now : Int) ≤ max (start : Int) (start + t * 1000000) + ((List.range taken.length).map busy).sum := by
  obtain ⟨rounds, taken, ticks, _, _, h3, _, h5, h6, h7, h8⟩ := handleAt_spec P t busy env start q s
  rw [h] at h3 h5 h6 h7 h8
  obtain ⟨g1, g2⟩ := h8 s' evs rfl
  refine ⟨taken, h3, h6, ?_, h5, g1, h7⟩
  have ho := inOrder_tail hq h3
  cases hr : rest with
  | nil => simp
  | cons x xs =>
    subst hr
    have hx := g2 x rfl
    simp only at hx
    unfold InOrder at ho
    rw [List.pairwise_cons] at ho
    intro y hy
    rw [List.mem_cons] at hy
    rcases hy with rfl | hy
    · exact hx
    · exact Nat.lt_of_lt_of_le hx (ho.1 y hy)

/-! ## Many calls -/

theorem loopAt_cons {P : Plat} {t : Int} {busy : Nat → Nat → Nat} {env : Nat → Nat → Hook × Int} {n start : Nat}
    {q rest : Queue} {s s' : Mgr} {outs : List (Nat × List MEv)}
    (h : s.loopAt P t busy env (n + 1) start q = some (s', outs, rest)) :
    ∃ s1 evs now q1 outs', s.handleAt P t (busy n) (env n) start q = (.ok s1 evs .unit, now, q1) ∧
      s1.loopAt P t busy env n now q1 = some (s', outs', rest) ∧ outs = (now, evs) :: outs' := by
  simp only [Mgr.loopAt] at h
  split at h
  · rename_i s1 evs now q1 h1
    split at h
    · rename_i s2 outs' q2 h2
      cases h
      exact ⟨s1, evs, now, q1, outs', h1, h2, rfl⟩
    · cases h
  · cases h

/-- C94. Calling `handleConnections` again and again, each datagram is received by exactly one call, in the
order of arrival: the calls are those of the model without times, what they received is a first part of
what arrived, and all of it is received that arrived until the last call returned. -/
theorem C94_loop (P : Plat) (t : Int) (busy : Nat → Nat → Nat) (env : Nat → Nat → Hook × Int) (n start : Nat)
    (q rest : Queue) (s s' : Mgr) (outs : List (Nat × List MEv))
    (h : s.loopAt P t busy env n start q = some (s', outs, rest)) (hq : InOrder q) :
    ∃ (calls : List (Nat × List Round × (Nat → TickEnv))) (taken : Queue) (tr : MTrace),
      s.run P (calls.map fun c => .handle c.1 t c.2.1 c.2.2) = some (s', tr) ∧
      calls.length = n ∧ outs.length = n ∧ allEvs tr = loopEvs outs ∧ (∀ e ∈ tr, e.2.2 = .unit) ∧
      (calls.flatMap fun c => c.2.1.flatMap received) = taken.map (·.2) ∧ q = taken ++ rest ∧
      (∀ x ∈ taken, x.1 ≤ endTime start outs) ∧ (0 < n → ∀ x ∈ rest, endTime start outs < x.1) ∧
      start ≤ endTime start outs := by
  induction n generalizing start q s outs with
  | zero =>
    simp only [Mgr.loopAt, Option.some.injEq, Prod.mk.injEq] at h
    obtain ⟨rfl, rfl, rfl⟩ := h
    exact ⟨[], [], [], rfl, rfl, rfl, rfl, by simp, rfl, rfl, by simp, by simp, Nat.le_refl _⟩
  | succ n ih =>
    obtain ⟨s1, evs, now, q1, outs', h1, h2, rfl⟩ := loopAt_cons h
    obtain ⟨rounds, taken, ticks, g1, g2, g3, g4⟩ := C94_receives P t _ _ start now q q1 s _ h1
    obtain ⟨taken', k1, k2, k3, k4, _⟩ := C94_time P t _ _ start now q q1 s s1 evs h1 hq
    have ht : taken' = taken := by rw [k1] at g4; exact List.append_cancel_right g4
    subst ht
    obtain ⟨calls, tk, tr, i1, i2, i3, i4, i5, i6, i7, i8, i9, i10⟩ := ih now q1 s1 outs' h2 (inOrder_tail hq g4)
    refine ⟨(start, rounds, ticks) :: calls, taken' ++ tk, (.handle start t rounds ticks, evs, .unit) :: tr, ?_, by simp [i2],
      by simp [i3], ?_, ?_, by simp [g3, i6], by rw [g4, i7, List.append_assoc], ?_, ?_, ?_⟩
    · simp only [List.map_cons, Mgr.run, ← g1, i1]
    · simp only [allEvs, loopEvs, List.flatMap_cons] at i4 ⊢
      rw [i4]
    · intro e he
      rw [List.mem_cons] at he
      rcases he with rfl | he
      · rfl
      · exact i5 e he
    · intro x hx
      rw [List.mem_append] at hx
      simp only [endTime]
      rcases hx with hx | hx
      · exact Nat.le_trans (k2 x hx) i10
      · exact i8 x hx
    · intro _ x hx
      simp only [endTime]
      cases n with
      | zero =>
        have ho : outs' = [] := List.eq_nil_of_length_eq_zero i3
        subst ho
        have : tk = [] := by
          have hc : calls = [] := List.eq_nil_of_length_eq_zero i2
          subst hc
          simpa using i6.symm
        rw [this, List.nil_append] at i7
        rw [← i7] at hx
        exact k3 x hx
      | succ n => exact i9 (by omega) x hx
    · simp only [endTime]; exact Nat.le_trans k4 i10

/-! ## Sending -/

theorem timer_le_step (m : Mem) (c d : Conn) (op : ConnOp) (evs : List IoEv) (h : c.step m op = some (d, evs))
    (ht : c.o2tTimer.toNat ≤ c.o2tAPI.toNat) : d.o2tTimer.toNat ≤ d.o2tAPI.toNat := by
  cases op with
  | tick now hook count =>
    obtain ⟨ret, ht'⟩ := tick_step h
    cases ht' with
    | dead h => exact ht
    | idle h h2 => exact Nat.le_of_lt (BitVec.lt_def.mp h2)
    | prod => exact Nat.zero_le _
  | recv data =>
    rcases recv_cases m c d data evs (recv_step h) with ⟨rfl, rfl⟩ | ⟨rfl, _⟩
    · exact ht
    · exact ht
  | setData data =>
    obtain ⟨rfl, rfl⟩ := setData_step h
    exact ht

theorem timer_le_run (m : Mem) (c c' : Conn) (ops : List ConnOp) (tr : IoTrace) (h : c.run m ops = some (c', tr))
    (ht : c.o2tTimer.toNat ≤ c.o2tAPI.toNat) : c'.o2tTimer.toNat ≤ c'.o2tAPI.toNat := by
  induction ops generalizing c tr with
  | nil => simp [Conn.run] at h; rw [← h.1]; exact ht
  | cons op ops ih =>
    obtain ⟨d, evs, tr', h1, h2, rfl⟩ := run_cons h
    exact ih d tr' h2 (timer_le_step m c d op evs h1 ht)

theorem applyEvs_length {m : Mem} {heap heap' : List Conn} {evs : List MEv} (h : applyEvs m heap evs = some heap')
    (hn : ∀ e ∈ evs, ∀ id c, e ≠ .created id c) : heap'.length = heap.length := by
  induction evs generalizing heap with
  | nil => simp [applyEvs] at h; rw [h]
  | cons e es ih =>
    simp only [applyEvs] at h
    split at h
    · cases h
    · rename_i h1 he
      rw [ih h fun e' h' => hn e' (List.mem_cons_of_mem _ h')]
      cases e with
      | created id c => exact absurd rfl (hn _ List.mem_cons_self id c)
      | conn id op io =>
        simp only [applyEv] at he
        split at he
        · cases he
        · split at he
          · cases he
          · split at he
            · injection he with he; rw [← he]; simp
            · cases he
      | request => simp [applyEv] at he; rw [he]
      | bound => simp [applyEv] at he; rw [he]
      | waited => simp [applyEv] at he; rw [he]

theorem heap_timer (P : Plat) (s s' : Mgr) (ops : List MOp) (tr : MTrace) (h : s.run P ops = some (s', tr))
    (hs : ∀ (id : Nat) (d : Conn), s.heap[id]? = some d → d.o2tTimer.toNat ≤ d.o2tAPI.toNat) :
    ∀ (id : Nat) (d : Conn), s'.heap[id]? = some d → d.o2tTimer.toNat ≤ d.o2tAPI.toNat := by
  induction ops generalizing s tr with
  | nil => simp [Mgr.run] at h; rw [← h.1]; exact hs
  | cons op ops ih =>
    obtain ⟨s1, evs, ret, tr', h1, h2, rfl⟩ := mrun_cons h
    refine ih s1 tr' h2 ?_
    have hrep : applyEvs P.mem s.heap evs = some s1.heap → s1.heap.length = s.heap.length →
        ∀ (id : Nat) (d : Conn), s1.heap[id]? = some d → d.o2tTimer.toNat ≤ d.o2tAPI.toNat := by
      intro hr hl id d hd
      have hlt := (List.getElem?_eq_some_iff.mp hd).1
      obtain ⟨c', e1, e2⟩ := replay_project P.mem s.heap s1.heap evs hr id s.heap[id] (List.getElem?_eq_getElem (by omega))
      rw [hd] at e1
      injection e1 with e1
      subst e1
      exact timer_le_run P.mem _ _ _ _ e2 (hs id _ (List.getElem?_eq_getElem (by omega)))
    cases step_shape P s s1 op evs ret h1 with
    | still hheap => rw [hheap]; exact hs
    | opened c hheap hev _ =>
      have hcr : MEv.created s.heap.length c ∈ evs := by
        obtain ⟨_, _, _, bs, he, _⟩ := hev
        rw [he]; simp
      have hf := created_fresh P s s1 [op] [(op, evs, ret)] (by simp only [Mgr.run, h1]) s.heap.length c
        (by simpa [allEvs] using hcr)
      rw [hheap]
      intro id d hd
      rw [List.getElem?_append] at hd
      split at hd
      · exact hs id d hd
      · have : d = c := by
          cases hi : id - s.heap.length with
          | zero => rw [hi] at hd; simpa using hd.symm
          | succ j => rw [hi] at hd; simp at hd
        rw [this, hf.1]
        exact Nat.zero_le _
    | handled hr hev =>
      refine hrep hr ?_
      exact applyEvs_length hr fun e he => by
        rcases hev e he with ⟨tv, rfl⟩ | ⟨id, op, io, rfl, _⟩ <;> simp
    | wrote id data hev hr =>
      refine hrep hr (applyEvs_length hr fun e he => ?_)
      rw [hev] at he
      simp at he
      rw [he]
      simp

/-- The ticks of a call are at the times that the environment gives them. -/
theorem tickAll_times (ticks : Nat → TickEnv) (t : List (BitVec 16 × Nat)) (heap : List Conn) :
    ∀ id now hook count io, MEv.conn id (.tick now hook count) io ∈ (Mgr.tickAll ticks t heap).2.1 → now = (ticks id).now := by
  induction t generalizing heap with
  | nil => simp [Mgr.tickAll]
  | cons e t ih =>
    obtain ⟨k, i⟩ := e
    intro id now hook count io hm
    simp only [Mgr.tickAll] at hm
    split at hm
    · exact ih _ _ _ _ _ _ hm
    · split at hm
      · simp at hm; rw [hm.1, hm.2.1.1]
      all_goals
        simp only [List.mem_cons] at hm
        rcases hm with hm | hm
        · simp at hm; rw [hm.1, hm.2.1.1]
        · exact ih _ _ _ _ _ _ hm

theorem mem_tickTimes {tr : IoTrace} {x : Nat} (h : x ∈ tickTimes (tr.map Prod.fst)) :
    ∃ hook count io, (ConnOp.tick x hook count, io) ∈ tr := by
  induction tr with
  | nil => simp [tickTimes] at h
  | cons e tr ih =>
    obtain ⟨op, io⟩ := e
    have key : x ∈ tickTimes (tr.map Prod.fst) → ∃ hook count io', (ConnOp.tick x hook count, io') ∈ (op, io) :: tr := fun h => by
      obtain ⟨a, b, c, hm⟩ := ih h
      exact ⟨a, b, c, List.mem_cons_of_mem _ hm⟩
    cases op with
    | tick now hook count =>
      simp only [List.map_cons, tickTimes, List.mem_cons] at h
      rcases h with rfl | h
      · exact ⟨hook, count, io, List.mem_cons_self⟩
      · exact key h
    | recv d => exact key h
    | setData d => exact key h

/-- All ticks of a call are at the time given by the environment, which is the same for all. -/
theorem handle_tickTimes (P : Plat) (s s' : Mgr) (start : Nat) (t : Int) (rounds : List Round) (ticks : Nat → TickEnv)
    (evs : List MEv) (h : s.step P (.handle start t rounds ticks) = .ok s' evs .unit) (now : Nat)
    (ht : ∀ id, (ticks id).now = now) (id : Nat) : ∀ x ∈ tickTimes ((connTrace id evs).map Prod.fst), x = now := by
  obtain ⟨s1, pre, hsel, rfl, _, _⟩ := handle_parts P start t rounds ticks s s' evs h
  intro x hx
  obtain ⟨hook, count, io, hm⟩ := mem_tickTimes hx
  rw [mem_connTrace, List.mem_append] at hm
  rcases hm with hm | hm
  · have := (selectLoop_waits P _ rounds start s _ _ hsel).2.1 _ hm
    simp [MEv.isTick] at this
  · rw [tickAll_times ticks _ _ _ _ _ _ _ hm, ht]

/-- What one call does to the timer of a connection that it neither closes nor lets produce. -/
theorem conn_call (m : Mem) (c c' : Conn) (ops : List ConnOp) (tr : IoTrace) (T : Nat) (h : c.run m ops = some (c', tr))
    (hT : ∀ x ∈ tickTimes ops, x = T) (hopen : ∀ e ∈ tr, IoEv.closed ∉ e.2) (hno : asks tr = 0)
    (hle : c.lastHandleTime ≤ T) (hw : c.o2tTimer.toNat + (T - c.lastHandleTime) / 1000000 * 1000 < 2 ^ 32) :
    (tickTimes ops = [] → c'.lastHandleTime = c.lastHandleTime ∧ c'.o2tTimer = c.o2tTimer) ∧
    (tickTimes ops ≠ [] → c'.lastHandleTime = T ∧
      c'.o2tTimer.toNat = c.o2tTimer.toNat + (T - c.lastHandleTime) / 1000000 * 1000 ∧ c'.o2tTimer.toNat < c.o2tAPI.toNat) := by
  induction ops generalizing c tr with
  | nil => simp [Conn.run] at h; simp [h.1, tickTimes]
  | cons op ops ih =>
    obtain ⟨d, evs, tr', h1, h2, rfl⟩ := run_cons h
    have hc := step_config m c d op evs h1
    have hno' : asks tr' = 0 ∧ evs.countP IoEv.isAsked = 0 := by simp only [asks] at hno; omega
    have hopen' : ∀ e ∈ tr', IoEv.closed ∉ e.2 := fun e he => hopen e (List.mem_cons_of_mem _ he)
    cases op with
    | tick now hook count =>
      obtain ⟨ret, ht⟩ := tick_step h1
      simp only [tickTimes] at hT
      have hn : now = T := hT now List.mem_cons_self
      subst hn
      cases ht with
      | dead _ => exact absurd List.mem_cons_self (hopen _ List.mem_cons_self)
      | prod _ _ _ _ hev =>
        rcases hev with ⟨rfl, _⟩ | ⟨_, rfl, _⟩ | ⟨_, rfl, _⟩ <;> simp [IoEv.isAsked] at hno'
      | idle _ hlt =>
        have hp : (c.o2tTimer + BitVec.ofNat 32 (period c now)).toNat = c.o2tTimer.toNat + (now - c.lastHandleTime) / 1000000 * 1000 := by
          rw [BitVec.toNat_add, BitVec.toNat_ofNat]
          unfold period
          rw [Nat.add_mod_mod, Nat.mod_eq_of_lt hw]
        obtain ⟨i1, i2⟩ := ih _ tr' h2 (fun x hx => hT x (List.mem_cons_of_mem _ hx)) hopen' hno'.1 (Nat.le_refl _) (by
          simp only [hp, Nat.sub_self]; omega)
        refine ⟨by simp [tickTimes], fun _ => ?_⟩
        have hlt' := BitVec.lt_def.mp hlt
        by_cases hx : tickTimes ops = []
        · obtain ⟨a, b⟩ := i1 hx
          rw [a, b]
          exact ⟨rfl, hp, hlt'⟩
        · obtain ⟨a, b, d⟩ := i2 hx
          simp only [Nat.sub_self, Nat.zero_div, Nat.zero_mul, Nat.add_zero] at b
          exact ⟨a, by rw [b, hp], d⟩
    | recv data =>
      simp only [tickTimes] at hT ⊢
      have : d.lastHandleTime = c.lastHandleTime ∧ d.o2tTimer = c.o2tTimer ∧ d.o2tAPI = c.o2tAPI := by
        rcases recv_cases m c d data evs (recv_step h1) with ⟨rfl, rfl⟩ | ⟨rfl, _⟩ <;> exact ⟨rfl, rfl, rfl⟩
      have i := ih d tr' h2 hT hopen' hno'.1 (by rw [this.1]; exact hle) (by rw [this.1, this.2.1]; exact hw)
      rw [this.1, this.2.1, this.2.2] at i
      exact i
    | setData data =>
      simp only [tickTimes] at hT ⊢
      obtain ⟨rfl, rfl⟩ := setData_step h1
      exact ih { c with outputData := data } tr' h2 hT hopen' hno'.1 hle hw

theorem asks_append (a b : IoTrace) : asks (a ++ b) = asks a + asks b := by
  induction a with
  | nil => simp [asks]
  | cons e a ih => simp [asks, ih]; omega

theorem loop_mono (P : Plat) (t : Int) (busy : Nat → Nat → Nat) (env : Nat → Nat → Hook × Int) (n start : Nat)
    (q rest : Queue) (s s' : Mgr) (outs : List (Nat × List MEv))
    (h : s.loopAt P t busy env n start q = some (s', outs, rest)) :
    start ≤ endTime start outs ∧ ∀ e ∈ s'.table, e ∈ s.table := by
  induction n generalizing start q s outs with
  | zero =>
    simp only [Mgr.loopAt, Option.some.injEq, Prod.mk.injEq] at h
    obtain ⟨rfl, rfl, rfl⟩ := h
    exact ⟨Nat.le_refl _, fun _ h => h⟩
  | succ n ih =>
    obtain ⟨s1, evs, now, q1, outs', h1, h2, rfl⟩ := loopAt_cons h
    obtain ⟨rounds, _, ticks, g1, _, _, _, g3, _⟩ := handleAt_spec P t (busy n) (env n) start q s
    rw [h1] at g1 g3
    obtain ⟨i1, i2⟩ := ih now q1 s1 outs' h2
    refine ⟨Nat.le_trans g3 i1, fun e he => ?_⟩
    exact handles_shrink P s s1 [.handle start t rounds ticks] [(.handle start t rounds ticks, evs, .unit)]
      (by simp only [Mgr.run, ← g1]) (by simp [isHandle]) e (i2 e he)

theorem loop_timer (P : Plat) (t : Nat) (busy : Nat → Nat → Nat) (env : Nat → Nat → Hook × Int) (n start : Nat)
    (q rest : Queue) (s s' : Mgr) (outs : List (Nat × List MEv)) (hi : Inv s) (ht : 1 ≤ t)
    (h : s.loopAt P t busy env n start q = some (s', outs, rest))
    (k : BitVec 16) (id : Nat) (hk : (k, id) ∈ s'.table) (c : Conn) (hc : s.heap[id]? = some c) (hlast : c.lastHandleTime ≤ start)
    (htimer : c.o2tTimer.toNat ≤ c.o2tAPI.toNat)
    (hw : c.o2tAPI.toNat + (endTime start outs - c.lastHandleTime) / 1000 < 2 ^ 32)
    (hno : asks (connTrace id (loopEvs outs)) = 0) (hn : 0 < n) :
    c.o2tTimer.toNat + n * ((t - 1) * 1000) < c.o2tAPI.toNat := by
  induction n generalizing start q s outs c with
  | zero => omega
  | succ n ih =>
    obtain ⟨s1, evs, now, q1, outs', h1, h2, rfl⟩ := loopAt_cons h
    obtain ⟨rounds, _, ticks, g1, g2, _, _, g3, _, _, g4⟩ := handleAt_spec P t (busy n) (env n) start q s
    rw [h1] at g1 g2 g3 g4
    have hstep : s.step P (.handle start t rounds ticks) = .ok s1 evs .unit := g1.symm
    simp only at g2 g3
    obtain ⟨g4, _⟩ := g4 s1 evs rfl
    simp only at g4
    have hi1 := inv_step P s s1 _ evs _ hi hstep
    obtain ⟨hend, htab⟩ := loop_mono P t busy env n now q1 rest s1 s' outs' h2
    have hk1 := htab _ hk
    have hk0 := handles_shrink P s s1 [.handle start t rounds ticks] [(.handle start t rounds ticks, evs, .unit)]
      (by simp only [Mgr.run, hstep]) (by simp [isHandle]) _ hk1
    simp only [loopEvs, List.flatMap_cons, connTrace_append, asks_append] at hno
    simp only [endTime] at hw
    have hno1 : asks (connTrace id evs) = 0 := by omega
    have hno2 : asks (connTrace id (loopEvs outs')) = 0 := by unfold loopEvs; omega
    obtain ⟨d, hd, hrun⟩ := replay_project P.mem s.heap s1.heap evs (step_replay P s s1 _ evs _ hstep) id c hc
    have hcfg := run_config P.mem c d _ _ hrun
    have hclosed : ∀ e ∈ connTrace id evs, IoEv.closed ∉ e.2 := by
      intro e he hcl
      have := (handle_removes P s s1 hi start t rounds ticks evs hstep k id hk0).mpr ⟨e.1, e.2, mem_connTrace.mp he, hcl⟩
      exact this hk1
    have hticks : tickTimes ((connTrace id evs).map Prod.fst) ≠ [] := by
      have := handle_entry P s s1 hi start t rounds ticks evs hstep k id hk0
      intro h0; rw [h0] at this; simp at this
    have hper : (now - c.lastHandleTime) / 1000000 * 1000 ≤ (now - c.lastHandleTime) / 1000 := by omega
    have hlong : (now - c.lastHandleTime) / 1000 ≤ (endTime now outs' - c.lastHandleTime) / 1000 :=
      Nat.div_le_div_right (by omega)
    obtain ⟨_, hcall⟩ := conn_call P.mem c d _ _ now hrun
      (handle_tickTimes P s s1 start t rounds ticks evs hstep now g2 id) hclosed hno1 (by omega) (by omega)
    obtain ⟨e1, e2, e3⟩ := hcall hticks
    have hmin : t - 1 ≤ (now - c.lastHandleTime) / 1000000 := by omega
    have hmin' : (t - 1) * 1000 ≤ (now - c.lastHandleTime) / 1000000 * 1000 := Nat.mul_le_mul_right _ hmin
    rw [Nat.succ_mul]
    by_cases hn0 : n = 0
    · subst hn0; omega
    · have := ih now q1 s1 outs' hi1 h2 d hd (by omega) (by rw [hcfg.o2tAPI]; omega) (by
        rw [hcfg.o2tAPI, e1]
        have : (endTime now outs' - now) / 1000 ≤ (endTime now outs' - c.lastHandleTime) / 1000 := Nat.div_le_div_right (by omega)
        omega) hno2 (by omega)
      rw [hcfg.o2tAPI] at this
      omega

/-- C94. In a loop of calls of `handleConnections`, each with a timeout of `t` milliseconds, a connection that
is still open at the end has been asked for output data at least once if `n * (t - 1)` milliseconds are at
least the agreed interval.  (`t - 1` and not `t`: a call may return up to a millisecond early.)  Datagrams
may arrive at any time, for any connection, and need any time. -/
theorem C94_sends (P : Plat) (inc : BitVec 16) (st : Statics) (ops : List MOp) (tr : MTrace) (t : Nat) (busy : Nat → Nat → Nat)
    (env : Nat → Nat → Hook × Int) (n start : Nat) (q rest : Queue) (s s' : Mgr) (outs : List (Nat × List MEv))
    (hr : (Mgr.new inc st).run P ops = some (s, tr)) (h : s.loopAt P t busy env n start q = some (s', outs, rest))
    (k : BitVec 16) (id : Nat) (hk : (k, id) ∈ s'.table) (c : Conn) (hc : s.heap[id]? = some c)
    (hlast : c.lastHandleTime ≤ start) (ht : 1 ≤ t) (hn : 0 < n)
    (hlong : c.o2tAPI.toNat ≤ n * ((t - 1) * 1000))
    (hw : c.o2tAPI.toNat + (endTime start outs - c.lastHandleTime) / 1000 < 2 ^ 32) :
    0 < asks (connTrace id (loopEvs outs)) := by
  have hi := inv_run P _ s ops tr (inv_new inc st) hr
  have htimer := heap_timer P _ s ops tr hr (by simp [Mgr.new]) id c hc
  rcases Nat.eq_zero_or_pos (asks (connTrace id (loopEvs outs))) with h0 | h0
  · have := loop_timer P t busy env n start q rest s s' outs hi ht h k id hk c hc hlast htimer hw h0 hn
    omega
  · exact h0

/-! ## Starving -/

theorem tick_lazy (c : Conn) (now : Nat) (hook : Hook) (count : Int) (h : now - c.lastHandleTime < 1000000)
    (h1 : c.o2tTimer < c.o2tAPI) (h2 : c.connectionTimeoutCount ≤ c.connectionTimeoutMultiplier.setWidth 32 * c.t2oAPI) :
    c.notifyTick now hook count = ({ c with lastHandleTime := now }, [], .alive) := by
  have h0 : (now - c.lastHandleTime) / 1000000 = 0 := Nat.div_eq_of_lt h
  have h3 : ¬ c.connectionTimeoutCount > c.connectionTimeoutMultiplier.setWidth 32 * c.t2oAPI := BitVec.not_lt.mpr h2
  have h4 : ¬ c.o2tTimer ≥ c.o2tAPI := BitVec.not_le.mpr h1
  have e1 : c.connectionTimeoutCount + BitVec.ofNat 32 ((now - c.lastHandleTime) / 1000000 * 1000) = c.connectionTimeoutCount := by
    rw [h0]; simp
  have e2 : c.o2tTimer + BitVec.ofNat 32 ((now - c.lastHandleTime) / 1000000 * 1000) = c.o2tTimer := by
    rw [h0]; simp
  unfold Conn.notifyTick
  simp only [e1, e2, h3, h4, if_false]

/-- A connection that has nothing to do at `now`. -/
structure Lazy (now : Nat) (c : Conn) : Prop where
  recent : now - c.lastHandleTime < 1000000
  early : c.o2tTimer < c.o2tAPI
  alive : c.connectionTimeoutCount ≤ c.connectionTimeoutMultiplier.setWidth 32 * c.t2oAPI

theorem tickAll_lazy (ticks : Nat → TickEnv) (now : Nat) (hnow : ∀ id, (ticks id).now = now) (t : List (BitVec 16 × Nat))
    (heap : List Conn) (h : ∀ e ∈ t, ∃ c, heap[e.2]? = some c ∧ Lazy now c) :
    ∃ heap' evs, Mgr.tickAll ticks t heap = (heap', evs, [], none) ∧ (∀ id op io, MEv.conn id op io ∈ evs → io = []) ∧
      (∀ id, (∀ k, (k, id) ∉ t) → heap'[id]? = heap[id]?) ∧
      ∀ e ∈ t, ∀ c, heap[e.2]? = some c → heap'[e.2]? = some { c with lastHandleTime := now } := by
  induction t generalizing heap with
  | nil => exact ⟨heap, [], rfl, by simp, fun _ _ => rfl, by simp⟩
  | cons e t ih =>
    obtain ⟨k, i⟩ := e
    obtain ⟨c, hc, hl⟩ := h _ List.mem_cons_self
    have hlt := (List.getElem?_eq_some_iff.mp hc).1
    simp only at hc
    have htick : c.notifyTick (ticks i).now (ticks i).hook (ticks i).count = ({ c with lastHandleTime := now }, [], .alive) := by
      rw [hnow]; exact tick_lazy c now _ _ hl.recent hl.early hl.alive
    obtain ⟨heap', evs, g1, g2, g3, g4⟩ := ih (heap.set i { c with lastHandleTime := now }) (by
      intro e he
      by_cases hi : i = e.2
      · refine ⟨{ c with lastHandleTime := now }, ?_, ?_⟩
        · rw [← hi, List.getElem?_set_self hlt]
        · exact ⟨by simp, hl.early, hl.alive⟩
      · rw [List.getElem?_set_ne hi]
        exact h e (List.mem_cons_of_mem _ he))
    refine ⟨heap', MEv.conn i (.tick (ticks i).now (ticks i).hook (ticks i).count) [] :: evs, ?_, ?_, ?_, ?_⟩
    · simp only [Mgr.tickAll, hc, htick, g1]
    · intro id op io hm
      rw [List.mem_cons] at hm
      rcases hm with hm | hm
      · cases hm; rfl
      · exact g2 id op io hm
    · intro id hid
      rw [g3 id fun k' hk' => hid k' (List.mem_cons_of_mem _ hk')]
      exact List.getElem?_set_ne (fun hh => hid k (by rw [hh]; exact List.mem_cons_self))
    · intro e he d hd
      by_cases hi : i = e.2
      · have hdc : d = c := by rw [← hi, hc] at hd; exact (Option.some.inj hd).symm
        subst hdc
        by_cases hin : ∃ k', (k', i) ∈ t
        · obtain ⟨k', hk'⟩ := hin
          have := g4 _ hk' { d with lastHandleTime := now } (List.getElem?_set_self hlt)
          rw [← hi]
          exact this
        · rw [← hi, g3 i fun k' hk' => hin ⟨k', hk'⟩, List.getElem?_set_self hlt]
      · rw [List.mem_cons] at he
        rcases he with rfl | he
        · exact absurd rfl hi
        · exact g4 e he d (by rw [List.getElem?_set_ne hi]; exact hd)

/-- C94 violated: calling `handleConnections` with a timeout of one millisecond while a datagram that belongs
to no connection arrives every `gap` nanoseconds, less than a millisecond, the calls go on for as long as one likes and nothing happens to any
connection: it neither sends nor times out. -/
theorem C94_starved_violated (P : Plat) (env : Nat → Nat → Hook × Int) (start : Nat) (s : Mgr) (d : List Byte)
    (t0 : Nat) (addr : List Byte) (items : List (Nat × List Byte)) (hs : s.sockets ≠ [])
    (hd : CpfAccepts (asReceived d) ((t0, addr) :: items)) (ha : 4 ≤ addr.length)
    (hu : ∀ e ∈ s.table, e.1.toNat ≠ field addr 0 4 % 65536)
    (hl : ∀ e ∈ s.table, ∃ c, s.heap[e.2]? = some c ∧ c.lastHandleTime = start ∧ c.o2tTimer < c.o2tAPI ∧
      c.connectionTimeoutCount ≤ c.connectionTimeoutMultiplier.setWidth 32 * c.t2oAPI) (gap : Nat)
    (hg0 : 0 < gap) (hg : gap < 1000000) (n : Nat) :
    ∃ s' outs, s.loopAt P 1 (fun _ _ => 0) env n start
        ((List.range n).map fun i => (start + (i + 1) * gap, .dgram d)) = some (s', outs, []) ∧
      endTime start outs = start + n * gap ∧ s'.table = s.table ∧
      ∀ id op io, MEv.conn id op io ∈ loopEvs outs → io = [] := by
  induction n generalizing start s with
  | zero => exact ⟨s, [], rfl, by simp [endTime], rfl, by simp [loopEvs]⟩
  | succ n ih =>
    have hw1 : start + gap ≤ start + Mgr.waitNanos (start + 1 * 1000000) start := by
      have := waitNanos_eq (start + 1 * 1000000) start
      rw [if_pos (by omega)] at this
      omega
    have hw2 : Mgr.waitNanos (start + 1 * 1000000) (start + gap) = 0 := by
      have := waitNanos_eq (start + 1 * 1000000) (start + gap : Nat)
      rw [if_pos (by omega)] at this
      omega
    have hdel : Mgr.deliverAll P [.dgram d] s = .go s [] := by
      have := deliver_unknown P s d t0 addr items hd ha hu
      simp only [Mgr.deliverAll, Arrival.recv, this]
      rfl
    have hq : ((List.range (n + 1)).map fun i => ((start + (i + 1) * gap, .dgram d) : Nat × Arrival)) =
        (start + gap, .dgram d) :: (List.range n).map fun i => (start + gap + (i + 1) * gap, .dgram d) := by
      rw [List.range_succ_eq_map, List.map_cons, List.map_map]
      congr 1
      · simp
      · refine List.map_congr_left fun i _ => ?_
        have : start + (i + 1 + 1) * gap = start + gap + (i + 1) * gap := by rw [Nat.add_mul (i + 1), Nat.one_mul]; omega
        simp only [Function.comp, Nat.succ_eq_add_one, this]
    obtain ⟨w, hsel⟩ : ∃ w, (∀ id op io, MEv.conn id op io ∉ w) ∧
        Mgr.selectAt P (start + 1 * 1000000) (fun _ => 0) 0 start
          ((List.range (n + 1)).map fun i => (start + (i + 1) * gap, .dgram d)) s =
        (.go s w, start + gap, (List.range n).map fun i => (start + gap + (i + 1) * gap, .dgram d)) := by
      refine ⟨[.waited (makePortableInterval (Mgr.remainingMs (start + 1 * 1000000) start)),
        .waited (makePortableInterval (Mgr.remainingMs (start + 1 * 1000000) (start + gap : Nat)))], by simp, ?_⟩
      have hmax : max start (start + gap) + 0 = start + gap := by omega
      rw [hq]
      simp only [Mgr.selectAt, hdel, hmax]
      rw [if_pos hw1]
      cases n with
      | zero => simp only [List.range_zero, List.map_nil, Mgr.selectAt, hw2, List.append_nil, Nat.add_zero, List.cons_append, List.nil_append]
      | succ n =>
        rw [List.range_succ_eq_map, List.map_cons]
        simp only [Mgr.selectAt, hw2]
        rw [if_neg (by rw [Nat.zero_add, Nat.one_mul]; omega)]
        simp
    obtain ⟨hwait, hsel⟩ := hsel
    obtain ⟨heap', evs, g1, g2, g3, g4⟩ := tickAll_lazy (fun id => ⟨start + gap, (env n id).1, (env n id).2⟩) (start + gap)
      (fun _ => rfl) s.table s.heap (by
        intro e he
        obtain ⟨c, h1, h2, h3, h4⟩ := hl e he
        exact ⟨c, h1, ⟨by omega, h3, h4⟩⟩)
    have hcall : s.handleAt P 1 (fun _ => 0) (env n) start
          ((List.range (n + 1)).map fun i => (start + (i + 1) * gap, .dgram d)) =
        (.ok { s with heap := heap' } (w ++ evs) .unit, start + gap,
          (List.range n).map fun i => (start + gap + (i + 1) * gap, .dgram d)) := by
      unfold Mgr.handleAt
      cases hs' : s.sockets with
      | nil => exact absurd hs' hs
      | cons a b =>
        have hf : s.table.filter (fun e => !([] : List (BitVec 16)).contains e.1) = s.table := by simp
        simp only [hsel, g1, hf, hs']
    obtain ⟨s', outs, i1, i2, i3, i4⟩ := ih (start + gap) { s with heap := heap' } hs hu (by
      intro e he
      obtain ⟨c, h1, h2, h3, h4⟩ := hl e he
      exact ⟨_, g4 e he c h1, rfl, h3, h4⟩)
    refine ⟨s', (start + gap, w ++ evs) :: outs, ?_, ?_, i3, ?_⟩
    · simp only [Mgr.loopAt, hcall, i1]
    · simp only [endTime, i2, Nat.add_mul, Nat.one_mul]; omega
    · intro id op io hm
      simp only [loopEvs, List.flatMap_cons, List.mem_append] at hm
      rcases hm with (hm | hm) | hm
      · exact absurd hm (hwait id op io)
      · exact g2 id op io hm
      · exact i4 id op io hm

/-! ## Concrete loops -/

/-- Of a call: when it returned, what was delivered and how often the first connection was asked for data. -/
structure CallSummary where
  time : Nat
  got : List (Nat × List Byte)
  asked : Nat
deriving DecidableEq

/-- Of a loop: the table afterwards, the calls, and the times of the datagrams not received. -/
structure LoopSummary where
  table : List (BitVec 16 × Nat)
  calls : List CallSummary
  left : List Nat
deriving DecidableEq

/-- A loop from a manager with one connection, opened at time 0, that produces every 10 ms. -/
def sampleLoop (t n busy : Nat) (q : Queue) : Option LoopSummary :=
  (((Mgr.new 1 {}).run samplePlat [sampleOpen 0xA 0x10001 1]).bind fun r =>
    r.1.loopAt samplePlat t (fun _ _ => busy) (fun _ _ => ({ left := some [1, 2] }, 22)) n 0 q).map fun r =>
      ⟨r.1.table, r.2.1.map (fun o => ⟨o.1, deliveries o.2, asks (connTrace 0 o.2)⟩), r.2.2.map (·.1)⟩

/-- The hypotheses of `C94_loop` and `C94_sends` are met: three calls of 5 ms, two datagrams for the connection
and one for nobody, each of which takes 0.3 ms.  The first call returns after 4.1 ms. -/
example : sampleLoop 5 3 300000 [(1500000, .dgram (sampleDgram 0x10001 [7, 8])), (1700000, .dgram (sampleDgram 0x77 [7, 8])),
      (11000000, .dgram (sampleDgram 0x10001 [9, 9])), (20000000, .dgram (sampleDgram 0x10001 [1, 1]))] =
    some ⟨[(1, 0)], [⟨4100000, [(0, [1, 0, 7, 8])], 0⟩, ⟨9100000, [], 0⟩, ⟨13300000, [(0, [1, 0, 9, 9])], 1⟩], [20000000]⟩ := by
  decide +kernel

/-- Without datagrams, the connection produces in the second call of 5 ms. -/
example : sampleLoop 5 3 0 [] = some ⟨[(1, 0)], [⟨5000000, [], 0⟩, ⟨10000000, [], 1⟩, ⟨15000000, [], 0⟩], []⟩ := by
  decide +kernel

theorem frame_accepts (id seq : Nat) (payload : List Byte) (h : payload.length + 18 ≤ 8192) :
    CpfAccepts (asReceived (ioFrame id seq payload)) [(0x8002, le 4 id ++ le 4 seq), (0xB1, payload)] := by
  have hl : (ioFrame id seq payload).length = payload.length + 18 := by
    simp [ioFrame, cpf, cpfItem, le_length]; omega
  refine ⟨2, List.replicate (8192 - (payload.length + 18)) 0#8, by omega, ?_, by simp, .inl rfl, ?_⟩
  · rw [asReceived_short _ (8192 - (payload.length + 18)) (by omega)]
    simp [ioFrame, cpf, cpfItem, List.append_assoc]
  · intro i hi
    simp only [List.mem_cons, List.not_mem_nil, or_false] at hi
    rcases hi with rfl | rfl <;> constructor <;> simp [le_length] <;> omega

/-- The hypotheses of `C94_starved_violated` are met: a connection that should send every 10 ms does nothing at
all while a datagram for nobody arrives every 0.9 ms, for any number of calls. -/
example (n : Nat) : ∃ s tr s' outs, (Mgr.new 1 {}).run samplePlat [sampleOpen 0xA 0x10001 1] = some (s, tr) ∧
    (s.heap.map fun c => c.o2tAPI.toNat) = [10000] ∧ s.table = [(1, 0)] ∧
    s.loopAt samplePlat 1 (fun _ _ => 0) (fun _ _ => ({ left := some [1, 2] }, 22)) n 0
      ((List.range n).map fun i => (0 + (i + 1) * 900000, .dgram (sampleDgram 0x77 [1, 1]))) = some (s', outs, []) ∧
    endTime 0 outs = 0 + n * 900000 ∧ s'.table = [(1, 0)] ∧ ∀ id op io, MEv.conn id op io ∈ loopEvs outs → io = [] := by
  cases hr : (Mgr.new 1 {}).run samplePlat [sampleOpen 0xA 0x10001 1] with
  | none => exact absurd hr (by decide +kernel)
  | some r =>
    obtain ⟨s, tr⟩ := r
    have facts : ((Mgr.new 1 {}).run samplePlat [sampleOpen 0xA 0x10001 1]).map (fun r =>
        (r.1.sockets.isEmpty, r.1.heap.map (fun c => (c.o2tAPI, c.lastHandleTime)), r.1.table)) =
        some (false, [(10000, 0)], [(1, 0)]) := by decide +kernel
    have facts' : ((Mgr.new 1 {}).run samplePlat [sampleOpen 0xA 0x10001 1]).map (fun r =>
        r.1.heap.map fun c => decide (c.o2tTimer < c.o2tAPI) &&
          decide (c.connectionTimeoutCount ≤ c.connectionTimeoutMultiplier.setWidth 32 * c.t2oAPI)) =
        some [true] := by decide +kernel
    rw [hr] at facts'
    simp only [Option.map_some, Option.some.injEq] at facts'
    rw [hr] at facts
    simp only [Option.map_some, Option.some.injEq, Prod.mk.injEq] at facts
    obtain ⟨f1, f2, f3⟩ := facts
    obtain ⟨c, hh⟩ : ∃ c, s.heap = [c] := by
      match hs : s.heap with
      | [] => rw [hs] at f2; cases f2
      | [c] => exact ⟨c, rfl⟩
      | a :: b :: l => rw [hs] at f2; simp at f2
    rw [hh] at f2 facts'
    simp only [List.map_cons, List.map_nil, List.cons.injEq, Bool.and_eq_true, decide_eq_true_eq, and_true] at facts'
    simp only [List.map_cons, List.map_nil, List.cons.injEq, Prod.mk.injEq, decide_eq_true_eq, and_true] at f2
    obtain ⟨s', outs, g1, g2, g3, g4⟩ := C94_starved_violated samplePlat (fun _ _ => ({ left := some [1, 2] }, 22)) 0 s
      (sampleDgram 0x77 [1, 1]) _ _ _ (by intro h0; rw [h0] at f1; cases f1)
      (frame_accepts 0x77 1 (ioPayload (some 1) none [1, 1]) (by decide)) (by simp [le_length])
      (by intro e he; rw [f3] at he; simp at he; rw [he]; decide)
      (by intro e he; rw [f3] at he; simp at he; rw [he, hh]; exact ⟨c, rfl, f2.2, facts'⟩) 900000 (by omega) (by omega) n
    exact ⟨s, tr, s', outs, rfl, by rw [hh]; simp [f2.1], f3, g1, g2, g3.trans f3, g4⟩

end Verif.Props
