import Verif.Props.ReentrantThms

/-!
# C78: how often listeners run, and which calls are defined
-/

namespace Verif.Props

open Verif Verif.Spec

/-! ## The close listener runs once -/

theorem count_le_one {l : List Nat} (h : l.Nodup) (a : Nat) : l.count a ≤ 1 := by
  induction l with
  | nil => simp
  | cons x xs ih =>
    obtain ⟨h1, h2⟩ := List.nodup_cons.mp h
    rw [List.count_cons]
    by_cases hx : x = a
    · subst hx
      rw [List.count_eq_zero.mpr h1]
      simp
    · have := ih h2
      simpa [hx] using this

theorem countP_closed_le (id : Nat) (evs : List MEv)
    (h : ∀ cop io, MEv.conn id cop io ∈ evs → IoEv.closed ∈ io → ∃ n hk ct, cop = .tick n hk ct) :
    (connTrace id evs).countP (fun d => decide (IoEv.closed ∈ d.2)) ≤ (ticked evs).count id := by
  induction evs with
  | nil => simp [connTrace]
  | cons x xs ih =>
    have ih' := ih fun cop io hm => h cop io (List.mem_cons_of_mem _ hm)
    have hx := fun cop io => h cop io
    cases x with
    | conn i cop io =>
      simp only [connTrace]
      by_cases hi : i = id
      · subst hi
        simp only [if_true, List.countP_cons]
        by_cases hcl : IoEv.closed ∈ io
        · obtain ⟨n, hk, ct, rfl⟩ := hx cop io List.mem_cons_self hcl
          simp only [hcl, decide_true, if_true, ticked, List.filterMap_cons, tickedId, List.count_cons_self]
          simp only [ticked] at ih'
          omega
        · simp only [hcl, decide_false, Bool.false_eq_true, if_false, Nat.add_zero]
          refine Nat.le_trans ih' ?_
          exact List.Sublist.count_le _ (by
            simp only [ticked, List.filterMap_cons]
            split
            · exact List.Sublist.refl _
            · exact List.sublist_cons_self _ _)
      · simp only [hi, if_false]
        refine Nat.le_trans ih' ?_
        exact List.Sublist.count_le _ (by
          simp only [ticked, List.filterMap_cons]
          split
          · exact List.Sublist.refl _
          · exact List.sublist_cons_self _ _)
    | _ => exact ih'

/-- An event concerns an object that exists afterwards. -/
theorem replay_conn_lt {m : Mem} {hp hp' : List Conn} {evs : List MEv} (h : applyEvs m hp evs = some hp') {id : Nat}
    {cop : ConnOp} {io : List IoEv} (hm : MEv.conn id cop io ∈ evs) : id < hp'.length := by
  induction evs generalizing hp with
  | nil => simp at hm
  | cons x xs ih =>
    simp only [applyEvs] at h
    split at h
    · cases h
    · rename_i h1 he
      rw [List.mem_cons] at hm
      rcases hm with rfl | hm
      · refine Nat.lt_of_lt_of_le ?_ (replay_length _ _ _ _ h)
        simp only [applyEv] at he
        split at he
        · cases he
        · rename_i c hc
          split at he
          · cases he
          · split at he
            · injection he with he
              rw [← he, List.length_set]
              exact (List.getElem?_eq_some_iff.mp hc).1
            · cases he
      · exact ih h hm

theorem handleR_ticked_nodup (P : Plat) (s s' : Mgr) (hi : Inv s) (start : Nat) (t : Int) (rounds : List RoundR)
    (ticks : Nat → TickEnvR) (hh : opFlat (.handle start t rounds ticks)) (evs : List REv) (ret : MRet)
    (h : s.stepR P (.handle start t rounds ticks) = .ok s' evs ret) : (ticked (evsOf evs)).Nodup := by
  have hnone : ∀ w : List REv, (∀ e ∈ evsOf w, MEv.isTick e = false) → ticked (evsOf w) = [] := by
    intro w hw
    rw [List.eq_nil_iff_forall_not_mem]
    intro id hid
    obtain ⟨n, hk, c, io, hm⟩ := mem_ticked.mp hid
    have := hw _ hm
    simp [MEv.isTick] at this
  have main : ∀ s1 s2 w e2, Waited P s s1 w → Swept P none s1 s2 e2 → (ticked (evsOf (w ++ e2))).Nodup := by
    intro s1 s2 w e2 hw hsw
    rw [evsOf_append, ticked_append, hnone w hw.noTick, List.nil_append]
    refine List.Pairwise.imp_of_mem ?_ hsw.order
    intro a b ha hb hab heq
    subst heq
    obtain ⟨c, hc, _⟩ := hsw.later a ha
    exact absurd (hab c c hc hc) (BitVec.lt_irrefl _)
  rcases handleR_parts P s s' hi start t rounds ticks hh.1 hh.2 evs ret h with
    ⟨w, _⟩ | ⟨s1, s2, w, e2, hw, rfl, hsw, ⟨rfl, _⟩ | ⟨keys, _, _, _, rfl⟩⟩
  · rw [hnone _ w.noTick]; simp
  · exact main s1 s' w e2 hw hsw
  · exact main s1 s2 w e2 hw hsw

/-- One operation runs a close listener at most once, and then the connection is gone
if the operation returned normally. -/
theorem stepR_closed (P : Plat) (s s' : Mgr) (hi : Inv s) (op : Mgr.MOpR) (hf : opFlat op) (evs : List REv) (ret : MRet)
    (h : s.stepR P op = .ok s' evs ret) (id : Nat) :
    (connTrace id (evsOf evs)).countP (fun d => decide (IoEv.closed ∈ d.2)) ≤ 1 ∧
    (ret = .unit → ∀ cop io, MEv.conn id cop io ∈ evsOf evs → IoEv.closed ∈ io → ∀ k, (k, id) ∉ s'.table) := by
  have hmic := stepR_micros P s s' hi op hf evs ret h
  have htick := fun cop io (hm : MEv.conn id cop io ∈ evsOf evs) hcl => replay_closed_tick (micros_replay hmic) hm hcl
  have key : ∀ (start : Nat) (t : Int) (rounds : List RoundR) (ticks : Nat → TickEnvR) (evs2 : List REv),
      opFlat (.handle start t rounds ticks) → s.stepR P (.handle start t rounds ticks) = .ok s' evs2 ret →
      evsOf evs2 = evsOf evs →
      (connTrace id (evsOf evs)).countP (fun d => decide (IoEv.closed ∈ d.2)) ≤ 1 ∧
      (ret = .unit → ∀ cop io, MEv.conn id cop io ∈ evsOf evs → IoEv.closed ∈ io → ∀ k, (k, id) ∉ s'.table) := by
    intro start t rounds ticks evs2 hfl hstep heq
    refine ⟨Nat.le_trans (countP_closed_le id _ htick) ?_, ?_⟩
    · rw [← heq]
      exact count_le_one (handleR_ticked_nodup P s s' hi start t rounds ticks hfl evs2 ret hstep) id
    · rintro rfl cop io hm hcl
      rw [← heq] at hm
      exact handleR_closed_gone P s s' hi start t rounds ticks hfl evs2 hstep id cop io hm hcl
  cases op with
  | handle start t rounds ticks => exact key start t rounds ticks evs hf h rfl
  | plain op =>
    by_cases hop : MOp.isHandle op = false
    · -- other calls run no listener
      have hno : ∀ cop io, MEv.conn id cop io ∈ evsOf evs → IoEv.closed ∉ io := by
        intro cop io hm hcl
        simp only [Mgr.stepR] at h
        split at h
        · rename_i s1 evs1 r1 hs
          simp only [Mgr.StepResR.ok.injEq] at h
          obtain ⟨rfl, rfl, rfl⟩ := h
          rw [evsOf_map] at hm
          obtain ⟨rfl, _⟩ := call_quiet P s _ op evs1 _ hop hs id cop io hm
          simp at hcl
        · cases h
      refine ⟨?_, fun _ cop io hm hcl => absurd hcl (hno cop io hm)⟩
      rw [List.countP_eq_zero.mpr]
      · exact Nat.zero_le _
      · rintro ⟨cop, io⟩ hd
        simpa using hno cop io (mem_connTrace.mp hd)
    · cases op with
      | handle start t rounds ticks =>
        have hc := handleR_plain P s hi start t rounds ticks
        simp only [Mgr.stepR, Mgr.step, ← hc] at h
        cases hr : s.handleR P start t (rounds.map Round.quiet) fun id => { toTickEnv := ticks id, calls := [] } with
        | stop _ _ => rw [hr] at h; simp [forget] at h
        | ok s2 evs2 ret2 =>
          rw [hr] at h
          simp only [forget, Mgr.StepResR.ok.injEq] at h
          obtain ⟨rfl, rfl, rfl⟩ := h
          refine key start t _ _ evs2 ⟨?_, ?_⟩ hr (by rw [evsOf_map])
          · intro r hr
            obtain ⟨q, _, rfl⟩ := List.mem_map.mp hr
            cases q with
            | fail _ => trivial
            | ready f m n =>
              intro x hx
              rw [List.mem_cons, List.mem_map] at hx
              rcases hx with rfl | ⟨_, _, rfl⟩ <;> (intro o ho; simp at ho)
          · intro id o ho; simp at ho
      | _ => simp [MOp.isHandle] at hop

/-- C78. The close listener of a connection runs at most once in any history in which
the calls of `handleConnections` that run close listeners return normally, whatever
calls the listeners make. -/
theorem C78_closed_once (P : Plat) (inc : BitVec 16) (st : Statics) (s' : Mgr) (ops : List Mgr.MOpR)
    (hf : ∀ op ∈ ops, opFlat op) (tr : RTrace) (h : (Mgr.new inc st).runR P ops = some (s', tr))
    (hret : ∀ e ∈ tr, (∃ id cop io, MEv.conn id cop io ∈ evsOf e.2.1 ∧ IoEv.closed ∈ io) → e.2.2 = .unit) (id : Nat) :
    (connTrace id (allEvsR tr)).countP (fun d => decide (IoEv.closed ∈ d.2)) ≤ 1 := by
  have gen : ∀ (ops : List Mgr.MOpR) (s : Mgr) (tr : RTrace), (∀ op ∈ ops, opFlat op) → Inv s →
      s.runR P ops = some (s', tr) →
      (∀ e ∈ tr, (∃ id cop io, MEv.conn id cop io ∈ evsOf e.2.1 ∧ IoEv.closed ∈ io) → e.2.2 = .unit) →
      (connTrace id (allEvsR tr)).countP (fun d => decide (IoEv.closed ∈ d.2)) ≤ 1 := by
    intro ops
    induction ops with
    | nil =>
      intro s tr _ _ h _
      simp only [Mgr.runR, Option.some.injEq, Prod.mk.injEq] at h
      rw [← h.2]
      simp [allEvsR, connTrace]
    | cons op ops ih =>
      intro s tr hf hi h hret
      obtain ⟨s1, evs, ret, tr', h1, h2, rfl⟩ := runR_cons h
      have hfo := hf op List.mem_cons_self
      have hf' : ∀ o ∈ ops, opFlat o := fun o ho => hf o (List.mem_cons_of_mem _ ho)
      have hmic := stepR_micros P s s1 hi op hfo evs ret h1
      have hi1 := micros_inv hmic hi
      have hrest := ih s1 tr' hf' hi1 h2 fun e he => hret e (List.mem_cons_of_mem _ he)
      obtain ⟨c1, c2⟩ := stepR_closed P s s1 hi op hfo evs ret h1 id
      rw [allEvsR_cons, connTrace_append, List.countP_append]
      by_cases hz : (connTrace id (evsOf evs)).countP (fun d => decide (IoEv.closed ∈ d.2)) = 0
      · simp only at hz ⊢; omega
      · have hpos : 0 < (connTrace id (evsOf evs)).countP (fun d => decide (IoEv.closed ∈ d.2)) := by omega
        rw [List.countP_pos_iff] at hpos
        obtain ⟨⟨cop, io⟩, hd, hcl⟩ := hpos
        rw [mem_connTrace] at hd
        simp only [decide_eq_true_eq] at hcl
        have hu := hret _ List.mem_cons_self ⟨id, cop, io, hd, hcl⟩
        have hgone := c2 hu cop io hd hcl
        have hlt : id < s1.heap.length := by
          have hx := replay_conn_lt (micros_replay hmic) hd
          exact hx
        have hq := (micros_gone (runR_micros P s1 s' hi1 ops hf' tr' h2) id hlt hgone).2.2
        have hz' : (connTrace id (allEvsR tr')).countP (fun d => decide (IoEv.closed ∈ d.2)) = 0 := by
          rw [List.countP_eq_zero]
          intro d hd
          obtain ⟨data, rfl⟩ := hq d hd
          simp
        rw [hz']
        exact c1
  exact gen ops _ tr hf (inv_new inc st) h hret

/-! ## Closing one's own connection in a listener -/

theorem close_self (P : Plat) (s s' : Mgr) (hi : Inv s) (id : Nat) (hl : id < s.heap.length) (r : MessageRouterResponse)
    (evs : List MEv) (ret : MRet) (h : s.step P (.forwardClose (some id) (.ok r)) = .ok s' evs ret) :
    ∀ k, (k, id) ∉ s'.table := by
  intro k hm
  have hin : (k, id) ∈ s.table := by
    apply Classical.byContradiction
    intro hn
    have hg : ∀ k', (k', id) ∉ s.table := by
      intro k' hk'
      obtain ⟨c, hc, hkc⟩ := hi.obj k' id hk'
      obtain ⟨c2, hc2, hk2⟩ := (inv_step P s s' _ evs ret hi h).obj k id hm
      obtain ⟨c3, hc3, hcfg⟩ := replay_config (step_replay P s s' _ evs ret h) hc
      rw [hc3] at hc2
      injection hc2 with hc2
      rw [← hc2, hcfg.t2oId, ← hkc] at hk2
      rw [hk2] at hn
      exact hn hk'
    exact (gone_step P s s' _ evs ret h id hl hg).1 k hm
  obtain ⟨c, hc, hk⟩ := hi.obj k id hin
  have hal : s.alive id = true := by
    unfold Mgr.alive
    rw [Bool.or_eq_true, List.any_eq_true]
    exact .inl ⟨(k, id), hin, by simp⟩
  have hfind : tblFind (c.t2oNetworkConnectionId.setWidth 16) s.table = some id := by
    rw [← hk]; exact tblFind_of_mem hi.sorted hin
  simp only [Mgr.step, Mgr.forwardClose, hal, if_true, hc, hfind] at h
  cases h
  simp only [tblErase, List.mem_filter] at hm
  rw [← hk] at hm
  simp at hm

theorem nested_self_close (P : Plat) (calls : List MOp) (hn : noHandle calls) (s s1 : Mgr) (hi : Inv s) (evs : List REv)
    (keys : List (BitVec 16)) (h : Mgr.nested P calls s = .go s1 evs keys) (k : BitVec 16) (id : Nat)
    (hl : id < s.heap.length) (hm : (k, id) ∈ s1.table) (r : MessageRouterResponse) :
    MOp.forwardClose (some id) (.ok r) ∉ calls := by
  induction calls generalizing s evs keys with
  | nil => simp
  | cons op ops ih =>
    intro hmem
    simp only [Mgr.nested] at h
    obtain ⟨s2, e1, k1, e2, k2, h1, h2, rfl, rfl⟩ := andThen_go h
    have hn' : noHandle ops := fun o ho => hn o (List.mem_cons_of_mem _ ho)
    cases hs : s.step P op with
    | stop _ _ => rw [hs] at h1; simp [Mgr.ofStep] at h1
    | ok s3 evs3 ret =>
      rw [hs] at h1
      simp only [Mgr.ofStep, RRes.go.injEq] at h1
      obtain ⟨rfl, rfl, rfl⟩ := h1
      have hi3 := inv_step P s s3 op evs3 ret hi hs
      have hl3 := Nat.lt_of_lt_of_le hl (replay_length _ _ _ _ (step_replay P s s3 op evs3 ret hs))
      rw [List.mem_cons] at hmem
      rcases hmem with rfl | hmem
      · have hg := close_self P s s3 hi id hl r evs3 ret hs
        exact (micros_gone (nested_go P ops hn' s3 s1 e2 k2 h2).2.1 id hl3 hg).1 k hm
      · exact ih hn' s3 hi3 e2 k2 h2 hl3 hmem

theorem Visited.no_self_close {P : Plat} {t : TickEnvR} {k : BitVec 16} {id : Nat} {s s' : Mgr} {evs : List REv}
    {ret : TickRet} (hn : noHandle t.calls) (hi : Inv s) (hl : id < s.heap.length) (h : Visited P t k id s s' evs ret)
    (i : Nat) (n : Nat) (hk : Hook) (ct : Int) (io : List IoEv)
    (hm : MEv.conn i (.tick n hk ct) io ∈ evsOf evs) (hio : io ≠ []) (r : MessageRouterResponse) :
    i = id ∧ MOp.forwardClose (some id) (.ok r) ∉ t.calls := by
  obtain ⟨s1, inner, e, run, hrun, h1, h2, h3, h4, rfl, h6, h7⟩ := h.ex
  have hn' : noHandle run := by
    rcases hrun with rfl | rfl
    · exact hn
    · intro op hop; simp at hop
  rw [h6, List.mem_append] at hm
  rcases hm with hm | hm
  · obtain ⟨_, d, hd⟩ := nested_quiet P run hn' s s1 inner [] h1 i _ io hm
    cases hd
  · simp only [List.mem_singleton, MEv.conn.injEq] at hm
    obtain ⟨rfl, _, rfl⟩ := hm
    have hrc := h7 hio
    subst hrc
    exact ⟨rfl, nested_self_close P _ hn s s1 hi inner [] h1 k i hl h3 r⟩

theorem sweep_self_close (P : Plat) (ticks : Nat → TickEnvR) (hn : ∀ id, noHandle (ticks id).calls) (n : Nat)
    (prev : Option (BitVec 16)) (s : Mgr) (hi : Inv s) (id : Nat) (now : Nat) (hk : Hook) (ct : Int)
    (io : List IoEv) (hio : io ≠ []) (r : MessageRouterResponse) (evs : List REv)
    (hm : MEv.conn id (.tick now hk ct) io ∈ evsOf evs)
    (h : (∃ s' keys, Mgr.sweep P ticks n prev s = .go s' evs keys) ∨ ∃ s' x, Mgr.sweep P ticks n prev s = .threw s' evs x) :
    MOp.forwardClose (some id) (.ok r) ∉ (ticks id).calls := by
  induction n generalizing prev s evs with
  | zero =>
    rcases h with ⟨s', keys, h⟩ | ⟨s', x, h⟩
    · simp only [Mgr.sweep, RRes.go.injEq] at h
      obtain ⟨_, rfl, _⟩ := h
      simp at hm
    · simp [Mgr.sweep] at h
  | succ n ih =>
    cases hnx : Mgr.nextEntry prev s.table with
    | none =>
      rcases h with ⟨s', keys, h⟩ | ⟨s', x, h⟩
      · simp only [Mgr.sweep, hnx, RRes.go.injEq] at h
        obtain ⟨_, rfl, _⟩ := h
        simp at hm
      · simp [Mgr.sweep, hnx] at h
    | some e =>
      obtain ⟨k, i⟩ := e
      obtain ⟨hmem, _⟩ := nextEntry_mem hnx
      obtain ⟨c, hc, _⟩ := hi.obj k i hmem
      have hl := (List.getElem?_eq_some_iff.mp hc).1
      obtain ⟨v1, v2⟩ := visit_serial P (ticks i) (hn i) k i s hmem c hc
      have step : ∀ s1 e1 ret e2, Visited P (ticks i) k i s s1 e1 ret → evs = e1 ++ e2 →
          (MEv.conn id (.tick now hk ct) io ∈ evsOf e2 → MOp.forwardClose (some id) (.ok r) ∉ (ticks id).calls) →
          MOp.forwardClose (some id) (.ok r) ∉ (ticks id).calls := by
        intro s1 e1 ret e2 hv he hrest
        rw [he, evsOf_append, List.mem_append] at hm
        rcases hm with hm | hm
        · obtain ⟨rfl, hno⟩ := hv.no_self_close (hn i) hi hl id now hk ct io hm hio r
          exact hno
        · exact hrest hm
      rcases h with ⟨s', keys, h⟩ | ⟨s', x, h⟩
      · simp only [Mgr.sweep, hnx] at h
        obtain ⟨s1, e1, k1, e2, k2, h1, h2, rfl, rfl⟩ := andThen_go h
        obtain ⟨ret, hv, _⟩ := v1 _ _ _ h1
        exact step s1 e1 ret e2 hv rfl fun hm2 =>
          ih (some k) s1 (micros_inv (visited_micros (hn i) hv) hi) e2 hm2 (.inl ⟨_, _, h2⟩)
      · simp only [Mgr.sweep, hnx] at h
        rcases andThen_threw h with h | ⟨s1, e1, k1, e2, h1, h2, rfl⟩
        · exact step s' evs _ [] (v2 _ _ _ h) (by simp) (by simp)
        · obtain ⟨ret, hv, _⟩ := v1 _ _ _ h1
          exact step s1 e1 ret e2 hv rfl fun hm2 =>
            ih (some k) s1 (micros_inv (visited_micros (hn i) hv) hi) e2 hm2 (.inr ⟨_, _, h2⟩)

/-- C78. A call of `handleConnections` in which a send or close listener runs and
successfully closes its own connection never has a defined continuation: if the call
returns or throws, no listener it ran in a tick did that. -/
theorem C78_self_close (P : Plat) (inc : BitVec 16) (st : Statics) (s s' : Mgr) (ops : List Mgr.MOpR)
    (hf : ∀ op ∈ ops, opFlat op) (tr : RTrace) (hrun : (Mgr.new inc st).runR P ops = some (s, tr)) (start : Nat) (t : Int)
    (rounds : List RoundR) (ticks : Nat → TickEnvR) (hh : opFlat (.handle start t rounds ticks)) (evs : List REv)
    (ret : MRet) (h : s.stepR P (.handle start t rounds ticks) = .ok s' evs ret) (id : Nat) (now : Nat)
    (hk : Hook) (ct : Int) (io : List IoEv) (hm : MEv.conn id (.tick now hk ct) io ∈ evsOf evs)
    (hio : io ≠ []) (r : MessageRouterResponse) : MOp.forwardClose (some id) (.ok r) ∉ (ticks id).calls := by
  have hi := micros_inv (runR_micros P _ s (inv_new inc st) ops hf tr hrun) (inv_new inc st)
  have hw := selectLoopR_waited P (↑start + t * 1000000) rounds hh.1 ↑start s
  have notWait : ∀ s1 w, Waited P s s1 w → MEv.conn id (.tick now hk ct) io ∉ evsOf w := by
    intro s1 w hwt hmem
    have := hwt.noTick _ hmem
    simp [MEv.isTick] at this
  simp only [Mgr.stepR, Mgr.handleR] at h
  split at h
  · cases h
  · generalize hg : (Mgr.selectLoopR P (↑start + t * 1000000) (↑start) rounds s).andThen (Mgr.sweep P ticks 65536 none) = q at h
    cases q with
    | stop _ _ => cases h
    | threw s2 e2 x =>
      simp only [Mgr.eraseKeys, Mgr.StepResR.ok.injEq] at h
      obtain ⟨_, rfl, _⟩ := h
      rcases andThen_threw hg with hg | ⟨s1, e1, k1, e3, h1, h2, rfl⟩
      · exact absurd hm (notWait _ _ (hw.2 _ _ _ hg))
      · obtain ⟨_, w1⟩ := hw.1 _ _ _ h1
        rw [evsOf_append, List.mem_append] at hm
        exact sweep_self_close P ticks hh.2 65536 none s1 (micros_inv w1.micros hi) id now hk ct io hio r e3
          (hm.resolve_left (notWait _ _ w1)) (.inr ⟨_, _, h2⟩)
    | go s2 e2 keys =>
      simp only [Mgr.eraseKeys, Mgr.StepResR.ok.injEq] at h
      obtain ⟨_, rfl, _⟩ := h
      obtain ⟨s1, e1, k1, e3, k3, h1, h2, rfl, rfl⟩ := andThen_go hg
      obtain ⟨_, w1⟩ := hw.1 _ _ _ h1
      rw [evsOf_append, List.mem_append] at hm
      exact sweep_self_close P ticks hh.2 65536 none s1 (micros_inv w1.micros hi) id now hk ct io hio r e3
        (hm.resolve_left (notWait _ _ w1)) (.inl ⟨_, _, h2⟩)

/-! ## Calls that do no harm -/

/-- The same objects, as far as their identifiers go. -/
def SameIds (h h' : List Conn) : Prop :=
  h'.map (fun c => c.t2oNetworkConnectionId) = h.map fun c => c.t2oNetworkConnectionId

theorem SameIds.get {h h' : List Conn} (hs : SameIds h h') (id : Nat) :
    (h'[id]?).map (fun c => c.t2oNetworkConnectionId) = (h[id]?).map fun c => c.t2oNetworkConnectionId := by
  have := congrArg (fun l => l[id]?) hs
  simpa using this

theorem SameIds.set {h : List Conn} {id : Nat} {c d : Conn} (hc : h[id]? = some c)
    (hd : d.t2oNetworkConnectionId = c.t2oNetworkConnectionId) : SameIds h (h.set id d) := by
  unfold SameIds
  apply List.ext_getElem?
  intro j
  rw [List.getElem?_map, List.getElem?_map, List.getElem?_set]
  by_cases hj : id = j
  · subst hj
    rw [if_pos rfl, if_pos (List.getElem?_eq_some_iff.mp hc).1, hc]
    simp [hd]
  · simp [hj]

theorem harmless_mono {h h' : List Conn} (hs : SameIds h h') {own : BitVec 16} {op : MOp} (ho : Harmless h own op) :
    Harmless h' own op := by
  cases op <;> try exact ho
  obtain ⟨h1, h2⟩ := ho
  refine ⟨h1, fun id c hp hc => ?_⟩
  have := hs.get id
  rw [hc] at this
  cases hx : h[id]? with
  | none => rw [hx] at this; simp at this
  | some d =>
    rw [hx] at this
    simp only [Option.map_some, Option.some.injEq] at this
    rw [this]
    exact h2 id d hp hx

theorem harmless_step (P : Plat) (s : Mgr) (own : BitVec 16) (op : MOp) (ho : Harmless s.heap own op) :
    (∃ s' evs ret, s.step P op = .ok s' evs ret ∧ SameIds s.heap s'.heap ∧ ∀ id, (own, id) ∈ s.table → (own, id) ∈ s'.table) ∨
    (P.ndebug = false ∧ ∃ evs, s.step P op = .stop evs .aborted) := by
  cases op with
  | setData i d =>
    left
    simp only [Mgr.step]
    split
    · rename_i c _ hc
      exact ⟨_, _, _, rfl, SameIds.set hc rfl, fun _ h => h⟩
    · exact ⟨_, _, _, rfl, rfl, fun _ h => h⟩
  | lock i =>
    left
    simp only [Mgr.step]
    split <;> exact ⟨_, _, _, rfl, rfl, fun _ h => h⟩
  | release i => exact .inl ⟨_, _, _, rfl, rfl, fun _ h => h⟩
  | hasOpen => exact .inl ⟨_, _, _, rfl, rfl, fun _ h => h⟩
  | forwardClose ptr reply =>
    obtain ⟨h1, h2⟩ := ho
    simp only [Mgr.step, Mgr.forwardClose]
    cases ptr with
    | none => exact .inl ⟨_, _, _, rfl, rfl, fun _ h => h⟩
    | some i =>
      simp only
      split
      · cases hc : s.heap[i]? with
        | none => exact .inl ⟨_, _, _, rfl, rfl, fun _ h => h⟩
        | some c =>
          cases reply with
          | ub => exact absurd rfl h1
          | throw x => exact .inl ⟨_, _, _, rfl, rfl, fun _ h => h⟩
          | ok r =>
            simp only
            cases tblFind (c.t2oNetworkConnectionId.setWidth 16) s.table with
            | some _ =>
              refine .inl ⟨_, _, _, rfl, rfl, fun id hm => ?_⟩
              have hne := h2 i c rfl hc
              simp only [tblErase, List.mem_filter]
              exact ⟨hm, by simpa using fun h => hne h.symm⟩
            | none =>
              simp only
              split
              · exact .inl ⟨_, _, _, rfl, rfl, fun _ h => h⟩
              · rename_i hnd
                exact .inr ⟨by simpa using hnd, _, rfl⟩
      · exact .inl ⟨_, _, _, rfl, rfl, fun _ h => h⟩
  | _ => exact absurd ho (by simp [Harmless])

theorem harmless_nested (P : Plat) (own : BitVec 16) (calls : List MOp) (s : Mgr)
    (ho : ∀ op ∈ calls, Harmless s.heap own op) :
    (∃ s' evs, Mgr.nested P calls s = .go s' evs [] ∧ SameIds s.heap s'.heap ∧
      ∀ id, (own, id) ∈ s.table → (own, id) ∈ s'.table) ∨
    (P.ndebug = false ∧ ∃ evs, Mgr.nested P calls s = .stop evs .aborted) := by
  induction calls generalizing s with
  | nil => exact .inl ⟨s, [], rfl, rfl, fun _ h => h⟩
  | cons op ops ih =>
    simp only [Mgr.nested]
    rcases harmless_step P s own op (ho op List.mem_cons_self) with ⟨s1, evs1, ret, h1, h2, h3⟩ | ⟨hnd, evs1, h1⟩
    · simp only [h1, Mgr.ofStep, RRes.andThen]
      rcases ih s1 fun o hm => harmless_mono h2 (ho o (List.mem_cons_of_mem _ hm)) with ⟨s2, e2, g1, g2, g3⟩ | ⟨hnd, e2, g1⟩
      · refine .inl ⟨s2, _, by rw [g1]; rfl, ?_, fun id hm => g3 id (h3 id hm)⟩
        unfold SameIds at *; rw [g2, h2]
      · exact .inr ⟨hnd, _, by rw [g1]; rfl⟩
    · exact .inr ⟨hnd, _, by rw [h1]; rfl⟩

theorem tickHead_id (now : Nat) (c : Conn) : (c.tickHead now).1.t2oNetworkConnectionId = c.t2oNetworkConnectionId := by
  rw [tickHead_bump]; rfl

theorem tickTail_id (addr : CommonPacketItem) (head : Buffer) (hook : Hook) (count : Int) (c : Conn) :
    (c.tickTail addr head hook count).1.t2oNetworkConnectionId = c.t2oNetworkConnectionId := by
  unfold Conn.tickTail
  cases hook.throws with
  | some e => rfl
  | none =>
    simp only
    split <;> rfl

/-- The outcome of a part with harmless calls: state with the same objects, an
exception, or an assertion. -/
def Fine (P : Plat) (s : Mgr) : RRes → Prop
  | .go s' _ _ => SameIds s.heap s'.heap
  | .threw _ _ _ => True
  | .stop _ why => why = .aborted ∧ P.ndebug = false

theorem harmless_visit (P : Plat) (t : TickEnvR) (k : BitVec 16) (id : Nat) (s : Mgr) (hm : (k, id) ∈ s.table) (c : Conn)
    (hc : s.heap[id]? = some c) (ho : ∀ op ∈ t.calls, Harmless s.heap k op) : Fine P s (Mgr.visit P t k id s) := by
  unfold Mgr.visit
  simp only [hc]
  have hset : SameIds s.heap (s.heap.set id (c.tickHead t.now).1) := SameIds.set hc (tickHead_id t.now c)
  have hlis := harmless_nested P k t.calls { s with heap := s.heap.set id (c.tickHead t.now).1 }
    fun op hop => harmless_mono hset (ho op hop)
  have hl : ∀ q, (∃ s' evs, Mgr.nested P t.calls q = .go s' evs []) →
      ∃ s' evs ev', Mgr.nested P t.calls q = .go s' evs [] ∧ Mgr.listener P id t.calls q = .go s' ev' [] := by
    rintro q ⟨s', evs, h⟩
    exact ⟨s', evs, .enter id :: evs ++ [.leave id], h, by simp [Mgr.listener, RRes.andThen, h, RRes.after]⟩
  have hstop : ∀ q evs why, Mgr.nested P t.calls q = .stop evs why →
      ∃ ev', Mgr.listener P id t.calls q = .stop ev' why := by
    intro q evs why h
    exact ⟨.enter id :: evs, by simp [Mgr.listener, RRes.andThen, h, RRes.after]⟩
  cases hh : c.tickHead t.now with
  | mk c1 head =>
    rw [hh] at hset hlis
    simp only at hset hlis
    cases head with
    | quiet => exact hset
    | closing =>
      simp only
      rcases hlis with ⟨s1, evs, g1, g2, g3⟩ | ⟨hnd, evs, g1⟩
      · obtain ⟨s1', evs', ev', k1, k2⟩ := hl _ ⟨s1, evs, g1⟩
        rw [g1] at k1
        injection k1 with k1
        subst k1
        simp only [k2, RRes.andThen, Mgr.checkEntry, g3 id hm, if_true, Mgr.resumeClose]
        cases t.hook.throws with
        | some e => trivial
        | none =>
          simp only [RRes.after, Fine]
          unfold SameIds at *; rw [g2, hset]
      · obtain ⟨ev', k2⟩ := hstop _ _ _ g1
        rw [k2]
        exact ⟨rfl, hnd⟩
    | sending addr hd =>
      simp only
      rcases hlis with ⟨s1, evs, g1, g2, g3⟩ | ⟨hnd, evs, g1⟩
      · obtain ⟨s1', evs', ev', k1, k2⟩ := hl _ ⟨s1, evs, g1⟩
        rw [g1] at k1
        injection k1 with k1
        subst k1
        simp only [k2, RRes.andThen, Mgr.checkEntry, g3 id hm, if_true, Mgr.resumeSend]
        have hall : SameIds s.heap s1.heap := by unfold SameIds at *; rw [g2, hset]
        cases hd1 : s1.heap[id]? with
        | none =>
          have := hall.get id
          rw [hd1, hc] at this
          simp at this
        | some d =>
          simp only [Mgr.endSend]
          split
          · trivial
          · simp only [RRes.after, Fine]
            have := SameIds.set hd1 (tickTail_id addr hd t.hook t.count d)
            unfold SameIds at *; rw [this, hall]
      · obtain ⟨ev', k2⟩ := hstop _ _ _ g1
        rw [k2]
        exact ⟨rfl, hnd⟩

theorem harmless_sweep (P : Plat) (ticks : Nat → TickEnvR) (hn : ∀ id, noHandle (ticks id).calls) (n : Nat)
    (prev : Option (BitVec 16)) (s : Mgr) (hi : Inv s)
    (ho : ∀ id c, s.heap[id]? = some c → ∀ op ∈ (ticks id).calls,
      Harmless s.heap (c.t2oNetworkConnectionId.setWidth 16) op) :
    Fine P s (Mgr.sweep P ticks n prev s) := by
  induction n generalizing prev s with
  | zero => exact (rfl : SameIds _ _)
  | succ n ih =>
    simp only [Mgr.sweep]
    cases hnx : Mgr.nextEntry prev s.table with
    | none => exact (rfl : SameIds _ _)
    | some e =>
      obtain ⟨k, id⟩ := e
      obtain ⟨hm, _⟩ := nextEntry_mem hnx
      obtain ⟨c, hc, hk⟩ := hi.obj k id hm
      have hv := harmless_visit P (ticks id) k id s hm c hc (by rw [hk]; exact ho id c hc)
      obtain ⟨v1, v2⟩ := visit_serial P (ticks id) (hn id) k id s hm c hc
      simp only
      cases hr : Mgr.visit P (ticks id) k id s with
      | threw _ _ _ => trivial
      | stop _ _ => rw [hr] at hv; exact hv
      | go s1 e1 k1 =>
        rw [hr] at hv
        obtain ⟨ret, hvis, _⟩ := v1 _ _ _ hr
        have hi1 := micros_inv (visited_micros (hn id) hvis) hi
        have hids : SameIds s.heap s1.heap := hv
        have := ih (some k) s1 hi1 (by
          intro i d hd op hop
          have hg := hids.get i
          rw [hd] at hg
          cases hx : s.heap[i]? with
          | none => rw [hx] at hg; simp at hg
          | some d0 =>
            rw [hx] at hg
            simp only [Option.map_some, Option.some.injEq] at hg
            rw [hg]
            exact harmless_mono hids (ho i d0 hx op hop))
        simp only [RRes.andThen]
        cases hs : Mgr.sweep P ticks n (some k) s1 with
        | go s2 e2 k2 =>
          rw [hs] at this
          simp only [RRes.after, Fine] at this ⊢
          unfold SameIds at *; rw [this, hids]
        | threw _ _ _ => trivial
        | stop _ _ => rw [hs] at this; exact this

theorem harmless_noHandle {h : List Conn} {own : BitVec 16} {ops : List MOp} (ho : ∀ op ∈ ops, Harmless h own op) :
    noHandle ops := by
  intro op hop
  have := ho op hop
  cases op <;> first | rfl | exact absurd this (by simp [Harmless])

/-- C78. A call of `handleConnections` that receives nothing has no undefined
behaviour if the listeners make harmless calls only; with assertions compiled out it
always returns or throws. -/
theorem C78_harmless (P : Plat) (inc : BitVec 16) (st : Statics) (s : Mgr) (ops : List Mgr.MOpR)
    (hf : ∀ op ∈ ops, opFlat op) (tr : RTrace) (hrun : (Mgr.new inc st).runR P ops = some (s, tr))
    (hsock : s.sockets ≠ []) (start : Nat) (t : Int) (ticks : Nat → TickEnvR) (hn : ∀ id, noHandle (ticks id).calls)
    (ho : ∀ id c, s.heap[id]? = some c → ∀ op ∈ (ticks id).calls,
      Harmless s.heap (c.t2oNetworkConnectionId.setWidth 16) op) (evs : List REv) (why : Stop)
    (h : s.stepR P (.handle start t [] ticks) = .stop evs why) : why = .aborted ∧ P.ndebug = false := by
  have hi := micros_inv (runR_micros P _ s (inv_new inc st) ops hf tr hrun) (inv_new inc st)
  have hs := harmless_sweep P ticks hn 65536 none s hi ho
  simp only [Mgr.stepR, Mgr.handleR, Mgr.selectLoopR, RRes.andThen] at h
  split at h
  · rename_i he; exact absurd he hsock
  · cases hr : Mgr.sweep P ticks 65536 none s with
    | go _ _ _ => rw [hr] at h; simp [RRes.after, Mgr.eraseKeys] at h
    | threw _ _ _ => rw [hr] at h; simp [RRes.after, Mgr.eraseKeys] at h
    | stop e w =>
      rw [hr] at h hs
      simp only [RRes.after, Mgr.eraseKeys, Mgr.StepResR.stop.injEq] at h
      rw [← h.2]
      exact hs

end Verif.Props
