import Verif.Props.ReentrantRun
import Verif.Props.ManagerSample

/-!
# C78: listeners that call back into the manager
-/

namespace Verif.Props

open Verif Verif.Spec

/-! ## Histories as small steps -/

theorem Micros.weaken {P : Plat} {s s' : Mgr} {evs : List MEv} (h : Micros P false s evs s') : Micros P true s evs s' := by
  induction h with
  | refl => exact .refl
  | snoc _ m ih =>
    refine .snoc ih ?_
    cases m with
    | call _ h => exact .call (by simp) h
    | wait => exact .wait
    | conn h1 h2 h3 h4 => exact .conn h1 h2 h3 h4
    | erase _ h => cases h

/-- The stages of `handleConnections`. -/
theorem handleR_parts (P : Plat) (s s' : Mgr) (hi : Inv s) (start : Nat) (t : Int) (rounds : List RoundR)
    (ticks : Nat → TickEnvR) (hr : roundsNoHandle rounds) (ht : ∀ id, noHandle (ticks id).calls) (evs : List REv)
    (ret : MRet) (h : s.stepR P (.handle start t rounds ticks) = .ok s' evs ret) :
    (Waited P s s' evs ∧ ∃ x, ret = .threw x) ∨
    ∃ s1 s2 w e2, Waited P s s1 w ∧ evs = w ++ e2 ∧ Swept P none s1 s2 e2 ∧
      ((s' = s2 ∧ ∃ x, ret = .threw x) ∨
        ∃ keys, Collected s1 s2 e2 keys ∧ Complete none s1 s2 e2 ∧ ret = .unit ∧
          s' = { s2 with table := s2.table.filter fun e => !keys.contains e.1 }) := by
  simp only [Mgr.stepR, Mgr.handleR] at h
  split at h
  · cases h
  · generalize hg : (Mgr.selectLoopR P (↑start + t * 1000000) (↑start) rounds s).andThen (Mgr.sweep P ticks 65536 none) = r at h
    have hw := selectLoopR_waited P (↑start + t * 1000000) rounds hr ↑start s
    cases r with
    | stop _ _ => cases h
    | threw s2 e2 x =>
      simp only [Mgr.eraseKeys, Mgr.StepResR.ok.injEq] at h
      obtain ⟨rfl, rfl, rfl⟩ := h
      rcases andThen_threw hg with hg | ⟨s1, e1, k1, e3, h1, h2, rfl⟩
      · exact .inl ⟨hw.2 _ _ _ hg, x, rfl⟩
      · obtain ⟨rfl, w1⟩ := hw.1 _ _ _ h1
        have := (sweep_spec P ticks ht 65536 none s1 (micros_inv w1.micros hi) (Nat.le_refl _)).2 _ _ _ h2
        exact .inr ⟨s1, _, e1, e3, w1, rfl, this, .inl ⟨rfl, x, rfl⟩⟩
    | go s2 e2 keys =>
      simp only [Mgr.eraseKeys, Mgr.StepResR.ok.injEq] at h
      obtain ⟨rfl, rfl, rfl⟩ := h
      obtain ⟨s1, e1, k1, e3, k3, h1, h2, rfl, rfl⟩ := andThen_go hg
      obtain ⟨rfl, w1⟩ := hw.1 _ _ _ h1
      obtain ⟨g1, g2, g3⟩ := (sweep_spec P ticks ht 65536 none s1 (micros_inv w1.micros hi) (Nat.le_refl _)).1 _ _ _ h2
      exact .inr ⟨s1, s2, e1, e3, w1, rfl, g1, .inr ⟨k3, g2, g3, rfl, rfl⟩⟩

theorem stepR_micros (P : Plat) (s s' : Mgr) (hi : Inv s) (op : Mgr.MOpR) (hf : opFlat op) (evs : List REv) (ret : MRet)
    (h : s.stepR P op = .ok s' evs ret) : Micros P true s (evsOf evs) s' := by
  cases op with
  | plain op =>
    simp only [Mgr.stepR] at h
    split at h
    · rename_i s1 evs1 r1 hs
      simp only [Mgr.StepResR.ok.injEq] at h
      obtain ⟨rfl, rfl, rfl⟩ := h
      rw [evsOf_map]
      exact (Micro.call (by simp) hs).one
    · cases h
  | handle start t rounds ticks =>
    rcases handleR_parts P s s' hi start t rounds ticks hf.1 hf.2 evs ret h with
      ⟨w, _⟩ | ⟨s1, s2, w, e2, hw, rfl, hsw, ⟨rfl, _⟩ | ⟨keys, _, _, _, rfl⟩⟩
    · exact w.micros.weaken
    · rw [evsOf_append]; exact hw.micros.weaken.trans hsw.micros.weaken
    · rw [evsOf_append]
      have h1 := hw.micros.weaken.trans hsw.micros.weaken
      have h2 := Micros.snoc h1 (Micro.erase keys rfl)
      rwa [List.append_nil] at h2

theorem runR_cons {P : Plat} {s s' : Mgr} {op : Mgr.MOpR} {ops : List Mgr.MOpR} {tr : RTrace}
    (h : s.runR P (op :: ops) = some (s', tr)) :
    ∃ s1 evs ret tr', s.stepR P op = .ok s1 evs ret ∧ s1.runR P ops = some (s', tr') ∧ tr = (op, evs, ret) :: tr' := by
  simp only [Mgr.runR] at h
  split at h
  · cases h
  · rename_i s1 evs ret hs
    split at h
    · cases h
    · rename_i s2 tr' hr
      simp only [Option.some.injEq, Prod.mk.injEq] at h
      obtain ⟨rfl, rfl⟩ := h
      exact ⟨s1, evs, ret, tr', hs, hr, rfl⟩

theorem allEvsR_cons (e : Mgr.MOpR × List REv × MRet) (tr : RTrace) : allEvsR (e :: tr) = evsOf e.2.1 ++ allEvsR tr := by
  simp [allEvsR]

theorem runR_micros (P : Plat) (s s' : Mgr) (hi : Inv s) (ops : List Mgr.MOpR) (hf : ∀ op ∈ ops, opFlat op) (tr : RTrace)
    (h : s.runR P ops = some (s', tr)) : Micros P true s (allEvsR tr) s' := by
  induction ops generalizing s tr with
  | nil =>
    simp only [Mgr.runR, Option.some.injEq, Prod.mk.injEq] at h
    obtain ⟨rfl, rfl⟩ := h
    exact .refl
  | cons op ops ih =>
    obtain ⟨s1, evs, ret, tr', h1, h2, rfl⟩ := runR_cons h
    have m1 := stepR_micros P s s1 hi op (hf op List.mem_cons_self) evs ret h1
    rw [allEvsR_cons]
    exact m1.trans (ih s1 (micros_inv m1 hi) (fun o ho => hf o (List.mem_cons_of_mem _ ho)) tr' h2)

/-! ## Isolation and the table -/

/-- C78. Whatever calls the listeners make, everything that happens to a connection
is a history of that connection alone. -/
theorem C78_isolated (P : Plat) (inc : BitVec 16) (st : Statics) (s' : Mgr) (ops : List Mgr.MOpR)
    (hf : ∀ op ∈ ops, opFlat op) (tr : RTrace) (h : (Mgr.new inc st).runR P ops = some (s', tr)) (id : Nat) (c : Conn)
    (hc : MEv.created id c ∈ allEvsR tr) :
    ∃ c', s'.heap[id]? = some c' ∧
      c.run P.mem ((connTrace id (allEvsR tr)).map Prod.fst) = some (c', connTrace id (allEvsR tr)) :=
  replay_created P.mem [] s'.heap (allEvsR tr) id c (micros_replay (runR_micros P _ s' (inv_new inc st) ops hf tr h)) hc
    (Nat.zero_le _)

/-- C78. Whatever calls the listeners make, the table stays a map from the low 16 bits
of T→O identifiers to the connections that have them. -/
theorem C78_table (P : Plat) (inc : BitVec 16) (st : Statics) (s : Mgr) (ops : List Mgr.MOpR)
    (hf : ∀ op ∈ ops, opFlat op) (tr : RTrace) (h : (Mgr.new inc st).runR P ops = some (s, tr)) :
    (∀ k id, (k, id) ∈ s.table → ∃ c, s.heap[id]? = some c ∧ k.toNat = c.t2oNetworkConnectionId.toNat % 65536 ∧
      s.alive id = true) ∧
    s.table.Pairwise (fun a b => a.1 ≠ b.1 ∧ a.2 ≠ b.2) := by
  have hi := micros_inv (runR_micros P _ s (inv_new inc st) ops hf tr h) (inv_new inc st)
  constructor
  · intro k id hm
    obtain ⟨c, hc, hk⟩ := hi.obj k id hm
    refine ⟨c, hc, by rw [hk]; simp, ?_⟩
    unfold Mgr.alive
    rw [Bool.or_eq_true, List.any_eq_true]
    exact .inl ⟨(k, id), hm, by simp⟩
  · have h1 : s.table.Pairwise fun a b => a.1 ≠ b.1 := hi.sorted.imp fun hlt heq => by
      rw [heq] at hlt; exact absurd hlt (BitVec.lt_irrefl _)
    exact h1.and (ids_distinct hi)

/-! ## Ticks -/

/-- C78. One call of `handleConnections` ticks every connection at most once, in
the order of the keys, even when listeners open and close connections meanwhile. -/
theorem C78_ticked_once (P : Plat) (inc : BitVec 16) (st : Statics) (s s' : Mgr) (ops : List Mgr.MOpR)
    (hf : ∀ op ∈ ops, opFlat op) (tr : RTrace) (hrun : (Mgr.new inc st).runR P ops = some (s, tr)) (start : Nat) (t : Int)
    (rounds : List RoundR) (ticks : Nat → TickEnvR) (hh : opFlat (.handle start t rounds ticks)) (evs : List REv)
    (ret : MRet) (h : s.stepR P (.handle start t rounds ticks) = .ok s' evs ret) :
    (ticked (evsOf evs)).Nodup ∧
    (ticked (evsOf evs)).Pairwise fun a b => ∀ ca cb, s'.heap[a]? = some ca → s'.heap[b]? = some cb →
      ca.t2oNetworkConnectionId.toNat % 65536 < cb.t2oNetworkConnectionId.toNat % 65536 := by
  have hi := micros_inv (runR_micros P _ s (inv_new inc st) ops hf tr hrun) (inv_new inc st)
  have hnone : ∀ w : List REv, (∀ e ∈ evsOf w, MEv.isTick e = false) → ticked (evsOf w) = [] := by
    intro w hw
    rw [List.eq_nil_iff_forall_not_mem]
    intro id hid
    obtain ⟨n, hk, c, io, hm⟩ := mem_ticked.mp hid
    have := hw _ hm
    simp [MEv.isTick] at this
  have hkey : ∀ c : Conn, (keyOf c).toNat = c.t2oNetworkConnectionId.toNat % 65536 := by
    intro c; simp [keyOf]
  have main : ∀ s1 s2 w e2, Waited P s s1 w → Swept P none s1 s2 e2 → s'.heap = s2.heap →
      (ticked (evsOf (w ++ e2))).Nodup ∧
      (ticked (evsOf (w ++ e2))).Pairwise fun a b => ∀ ca cb, s'.heap[a]? = some ca → s'.heap[b]? = some cb →
        ca.t2oNetworkConnectionId.toNat % 65536 < cb.t2oNetworkConnectionId.toNat % 65536 := by
    intro s1 s2 w e2 hw hsw hheap
    rw [evsOf_append, ticked_append, hnone w hw.noTick, List.nil_append, hheap]
    constructor
    · refine List.Pairwise.imp_of_mem ?_ hsw.order
      intro a b ha hb hab heq
      subst heq
      obtain ⟨c, hc, _⟩ := hsw.later a ha
      exact absurd (hab c c hc hc) (BitVec.lt_irrefl _)
    · refine hsw.order.imp ?_
      intro a b hab ca cb hca hcb
      have := hab ca cb hca hcb
      rw [BitVec.lt_def, hkey, hkey] at this
      exact this
  rcases handleR_parts P s s' hi start t rounds ticks hh.1 hh.2 evs ret h with
    ⟨w, _⟩ | ⟨s1, s2, w, e2, hw, rfl, hsw, ⟨rfl, _⟩ | ⟨keys, _, _, _, rfl⟩⟩
  · rw [hnone _ w.noTick]; simp
  · exact main s1 s' w e2 hw hsw rfl
  · exact main s1 s2 w e2 hw hsw rfl

/-- C78. A call of `handleConnections` that returns normally ticks every connection
that is in the table before and after it. -/
theorem C78_all_ticked (P : Plat) (inc : BitVec 16) (st : Statics) (s s' : Mgr) (ops : List Mgr.MOpR)
    (hf : ∀ op ∈ ops, opFlat op) (tr : RTrace) (hrun : (Mgr.new inc st).runR P ops = some (s, tr)) (start : Nat) (t : Int)
    (rounds : List RoundR) (ticks : Nat → TickEnvR) (hh : opFlat (.handle start t rounds ticks)) (evs : List REv)
    (h : s.stepR P (.handle start t rounds ticks) = .ok s' evs .unit) (k : BitVec 16) (id : Nat)
    (hm : (k, id) ∈ s.table) (hm' : (k, id) ∈ s'.table) : id ∈ ticked (evsOf evs) := by
  have hi := micros_inv (runR_micros P _ s (inv_new inc st) ops hf tr hrun) (inv_new inc st)
  rcases handleR_parts P s s' hi start t rounds ticks hh.1 hh.2 evs .unit h with
    ⟨_, x, hx⟩ | ⟨s1, s2, w, e2, hw, rfl, hsw, ⟨_, x, hx⟩ | ⟨keys, _, hcomp, _, rfl⟩⟩
  · cases hx
  · cases hx
  · have h2 : (k, id) ∈ s2.table := (List.mem_filter.mp hm').1
    obtain ⟨c, hc, _⟩ := hi.obj k id hm
    have hi1 := micros_inv hw.micros hi
    have hl : id < s1.heap.length :=
      Nat.lt_of_lt_of_le (List.getElem?_eq_some_iff.mp hc).1 (micros_length hw.micros)
    have h1 := micros_stayed hsw.micros hi1 k id hl h2
    rw [evsOf_append, ticked_append, List.mem_append]
    exact .inr (hcomp k id h1 (by simp) h2)

/-! ## Removal -/

/-- An entry disappears only by a ForwardClose request. -/
theorem call_removes (P : Plat) (s s' : Mgr) (op : MOp) (hop : MOp.isHandle op = false) (evs : List MEv) (ret : MRet)
    (h : s.step P op = .ok s' evs ret) (k : BitVec 16) (id : Nat) (hm : (k, id) ∈ s.table) (hm' : (k, id) ∉ s'.table) :
    ∃ path data, MEv.request 0x4E#8 path data ∈ evs := by
  cases op with
  | handle => simp [MOp.isHandle] at hop
  | forwardClose ptr reply =>
    simp only [Mgr.step, Mgr.forwardClose] at h
    repeat' split at h
    all_goals first | (cases h; exact ⟨_, _, List.mem_singleton.mpr rfl⟩) | (cases h; exact absurd hm hm') | cases h
  | forwardOpen host p large e =>
    exfalso
    obtain ⟨_, _, _, _, hh⟩ := forwardOpen_cases P _ _ _ _ s s' evs ret h
    rcases hh with ⟨rfl, _, _⟩ | ⟨_, _, _, r, mult, ep, socks, bs, _, _, _, _, hf, rfl, _, _⟩
    · exact hm' hm
    · refine hm' ?_
      obtain ⟨_, g2, _⟩ := register_shape (Mgr.newConn p large r mult ep e.now) { s with statics := _, sockets := socks }
      rcases g2 with ⟨_, _, g⟩ | ⟨_, g⟩
      · rw [g]; exact hm
      · rw [g, tblPut_mem]; exact .inr hm
  | otherOpen inc mc p2p =>
    simp only [Mgr.step] at h
    split at h <;> cases h
    exact absurd hm hm'
  | hasOpen => simp only [Mgr.step] at h; cases h; exact absurd hm hm'
  | setData i d => simp only [Mgr.step] at h; split at h <;> cases h <;> exact absurd hm hm'
  | lock i => simp only [Mgr.step] at h; split at h <;> cases h <;> exact absurd hm hm'
  | release i => simp only [Mgr.step] at h; cases h; exact absurd hm hm'

theorem micros_removes {P : Plat} {s s' : Mgr} {evs : List MEv} (h : Micros P false s evs s') (k : BitVec 16) (id : Nat)
    (hm : (k, id) ∈ s.table) (hm' : (k, id) ∉ s'.table) : ∃ path data, MEv.request 0x4E#8 path data ∈ evs := by
  induction h with
  | refl => exact absurd hm hm'
  | @snoc evs s1 evs' s2 _ m ih =>
    by_cases h1 : (k, id) ∈ s1.table
    · cases m with
      | call hop h =>
        obtain ⟨path, data, hr⟩ := call_removes P _ _ _ (hop rfl) _ _ h k id h1 hm'
        exact ⟨path, data, List.mem_append.mpr (.inr hr)⟩
      | wait => exact absurd h1 hm'
      | conn _ _ _ _ => exact absurd h1 hm'
      | erase _ h => cases h
    · obtain ⟨path, data, hr⟩ := ih h1
      exact ⟨path, data, List.mem_append.mpr (.inl hr)⟩

/-- C78. A connection leaves the table during `handleConnections` only if its close
listener ran, or if a listener sent a ForwardClose request. -/
theorem C78_removed (P : Plat) (inc : BitVec 16) (st : Statics) (s s' : Mgr) (ops : List Mgr.MOpR)
    (hf : ∀ op ∈ ops, opFlat op) (tr : RTrace) (hrun : (Mgr.new inc st).runR P ops = some (s, tr)) (start : Nat) (t : Int)
    (rounds : List RoundR) (ticks : Nat → TickEnvR) (hh : opFlat (.handle start t rounds ticks)) (evs : List REv)
    (ret : MRet) (h : s.stepR P (.handle start t rounds ticks) = .ok s' evs ret) (k : BitVec 16) (id : Nat)
    (hm : (k, id) ∈ s.table) (hm' : (k, id) ∉ s'.table) :
    (∃ cop io, MEv.conn id cop io ∈ evsOf evs ∧ IoEv.closed ∈ io) ∨
    ∃ path data, MEv.request 0x4E#8 path data ∈ evsOf evs := by
  have hi := micros_inv (runR_micros P _ s (inv_new inc st) ops hf tr hrun) (inv_new inc st)
  rcases handleR_parts P s s' hi start t rounds ticks hh.1 hh.2 evs ret h with
    ⟨w, _⟩ | ⟨s1, s2, w, e2, hw, rfl, hsw, ⟨rfl, _⟩ | ⟨keys, hcol, _, _, rfl⟩⟩
  · exact .inr (micros_removes w.micros k id hm hm')
  · rw [evsOf_append]
    exact .inr (micros_removes (hw.micros.trans hsw.micros) k id hm hm')
  · rw [evsOf_append]
    by_cases h2 : (k, id) ∈ s2.table
    · left
      have hk : k ∈ keys := by
        apply Classical.byContradiction
        intro hk
        exact hm' (List.mem_filter.mpr ⟨h2, by simpa using hk⟩)
      obtain ⟨i, cop, io, c, hev, hcl, _, _, huniq⟩ := hcol.keyClosed k hk
      obtain ⟨d, hd, _⟩ := hi.obj k id hm
      have hl := Nat.lt_of_lt_of_le (List.getElem?_eq_some_iff.mp hd).1 (micros_length hw.micros)
      have := huniq id hl h2
      subst this
      exact ⟨cop, io, List.mem_append.mpr (.inr hev), hcl⟩
    · exact .inr (micros_removes (hw.micros.trans hsw.micros) k id hm h2)

/-- Close listeners run in ticks only. -/
theorem replay_closed_tick {m : Mem} {hp hp' : List Conn} {evs : List MEv} (h : applyEvs m hp evs = some hp') {id : Nat}
    {cop : ConnOp} {io : List IoEv} (hm : MEv.conn id cop io ∈ evs) (hcl : IoEv.closed ∈ io) :
    ∃ n hk ct, cop = .tick n hk ct := by
  induction evs generalizing hp with
  | nil => simp at hm
  | cons x xs ih =>
    simp only [applyEvs] at h
    split at h
    · cases h
    · rename_i h1 he
      rw [List.mem_cons] at hm
      rcases hm with rfl | hm
      · simp only [applyEv] at he
        split at he
        · cases he
        · split at he
          · cases he
          · rename_i c' evs' hs
            split at he
            · rename_i heq
              subst heq
              cases cop with
              | tick n hk ct => exact ⟨n, hk, ct, rfl⟩
              | recv d =>
                exfalso
                rcases recv_cases m _ c' d _ (recv_step hs) with ⟨_, rfl⟩ | ⟨_, _, _, _, rfl, _⟩ <;> simp at hcl
              | setData d => rw [(setData_step hs).2] at hcl; simp at hcl
            · cases he
      · exact ih h hm

theorem handleR_closed_gone (P : Plat) (s s' : Mgr) (hi : Inv s) (start : Nat) (t : Int) (rounds : List RoundR)
    (ticks : Nat → TickEnvR) (hh : opFlat (.handle start t rounds ticks)) (evs : List REv)
    (h : s.stepR P (.handle start t rounds ticks) = .ok s' evs .unit) (id : Nat) (cop : ConnOp) (io : List IoEv)
    (hev : MEv.conn id cop io ∈ evsOf evs) (hcl : IoEv.closed ∈ io) : ∀ k, (k, id) ∉ s'.table := by
  intro k hm'
  rcases handleR_parts P s s' hi start t rounds ticks hh.1 hh.2 evs .unit h with
    ⟨_, x, hx⟩ | ⟨s1, s2, w, e2, hw, rfl, hsw, ⟨_, x, hx⟩ | ⟨keys, hcol, hcomp, _, rfl⟩⟩
  · cases hx
  · cases hx
  · rw [evsOf_append, List.mem_append] at hev
    have hi2 := micros_inv hsw.micros (micros_inv hw.micros hi)
    rcases hev with hev | hev
    · -- a close listener runs in a tick only
      exfalso
      have hnt := hw.noTick _ hev
      obtain ⟨n, hk, ct, rfl⟩ := replay_closed_tick (micros_replay hw.micros) hev hcl
      simp [MEv.isTick] at hnt
    · obtain ⟨c, hc, hkey⟩ := hcol.closedKey id cop io hev hcl
      obtain ⟨h2, h3⟩ := List.mem_filter.mp hm'
      obtain ⟨d, hd, hkd⟩ := hi2.obj k id h2
      rw [hc] at hd
      injection hd with hd
      subst hd
      have : k ∈ keys := by rw [hkd]; exact hkey
      simp [this] at h3

/-- C78. A connection whose close listener ran in a call of `handleConnections` that
returns normally is out of the table afterwards, whatever the listeners did. -/
theorem C78_closed_removed (P : Plat) (inc : BitVec 16) (st : Statics) (s s' : Mgr) (ops : List Mgr.MOpR)
    (hf : ∀ op ∈ ops, opFlat op) (tr : RTrace) (hrun : (Mgr.new inc st).runR P ops = some (s, tr)) (start : Nat) (t : Int)
    (rounds : List RoundR) (ticks : Nat → TickEnvR) (hh : opFlat (.handle start t rounds ticks)) (evs : List REv)
    (h : s.stepR P (.handle start t rounds ticks) = .ok s' evs .unit) (id : Nat) (cop : ConnOp) (io : List IoEv)
    (hev : MEv.conn id cop io ∈ evsOf evs) (hcl : IoEv.closed ∈ io) : ∀ k, (k, id) ∉ s'.table :=
  handleR_closed_gone P s s' (micros_inv (runR_micros P _ s (inv_new inc st) ops hf tr hrun) (inv_new inc st)) start t
    rounds ticks hh evs h id cop io hev hcl

/-- C78. Once a connection is out of the table nothing is sent for it and none of its
listeners runs, ever, whatever the other listeners call. -/
theorem C78_silent_after_removal (P : Plat) (inc : BitVec 16) (st : Statics) (s s' : Mgr) (ops ops' : List Mgr.MOpR)
    (hf : ∀ op ∈ ops ++ ops', opFlat op) (tr tr' : RTrace) (h : (Mgr.new inc st).runR P ops = some (s, tr))
    (h' : s.runR P ops' = some (s', tr')) (id : Nat) (c : Conn) (hc : MEv.created id c ∈ allEvsR tr)
    (hg : ∀ k, (k, id) ∉ s.table) :
    (∀ k, (k, id) ∉ s'.table) ∧
    ∀ cop io, MEv.conn id cop io ∈ allEvsR tr' → io = [] ∧ ∃ data, cop = .setData data := by
  have hf1 : ∀ op ∈ ops, opFlat op := fun o ho => hf o (List.mem_append.mpr (.inl ho))
  have hf2 : ∀ op ∈ ops', opFlat op := fun o ho => hf o (List.mem_append.mpr (.inr ho))
  obtain ⟨c', hc', _⟩ := C78_isolated P inc st s ops hf1 tr h id c hc
  have hi := micros_inv (runR_micros P _ s (inv_new inc st) ops hf1 tr h) (inv_new inc st)
  obtain ⟨g1, _, g3⟩ := micros_gone (runR_micros P s s' hi ops' hf2 tr' h') id (List.getElem?_eq_some_iff.mp hc').1 hg
  refine ⟨g1, fun cop io hm => ?_⟩
  obtain ⟨data, hd⟩ := g3 _ (mem_connTrace.mpr hm)
  injection hd with h1 h2
  exact ⟨h2, data, h1⟩

/-! ## Transmission, pacing and timeouts -/

theorem micros_created_fresh {P : Plat} {er : Bool} {s s' : Mgr} {evs : List MEv} (h : Micros P er s evs s') (id : Nat)
    (c : Conn) (hc : MEv.created id c ∈ evs) :
    c.o2tTimer = 0 ∧ c.o2tSequenceNumber = 0 ∧ c.sequenceValueCount = 0 ∧ c.connectionTimeoutCount = 0 ∧
      c.outputData = [] := by
  induction h with
  | refl => simp at hc
  | @snoc evs0 s1 evs1 s2 _ m ih =>
    rw [List.mem_append] at hc
    rcases hc with hc | hc
    · exact ih hc
    · cases m with
      | call _ h =>
        rename_i op ret _
        refine created_fresh P s1 s2 [op] [(op, evs1, ret)] ?_ id c (by simpa [allEvs] using hc)
        simp [Mgr.run, h]
      | wait => simp at hc
      | conn _ _ _ _ => simp at hc
      | erase _ _ => simp at hc

/-- C78. With listeners that make calls, what a connection transmits is still the
frame of C37 and C50, numbered without gaps. -/
theorem C78_transmission (P : Plat) (inc : BitVec 16) (st : Statics) (s' : Mgr) (ops : List Mgr.MOpR)
    (hf : ∀ op ∈ ops, opFlat op) (tr : RTrace) (h : (Mgr.new inc st).runR P ops = some (s', tr)) (id : Nat) (c : Conn)
    (hc : MEv.created id c ∈ allEvsR tr) (pre post : IoTrace) (op : ConnOp) (evs : List IoEv) (to : Option EndPoint)
    (bytes : List Byte) (htr : connTrace id (allEvsR tr) = pre ++ (op, evs) :: post) (hsent : IoEv.sent to bytes ∈ evs) :
    ∃ now hook count data, op = .tick now hook count ∧ hook.throws = none ∧ data = hook.left.getD (lastWritten [] pre) ∧
      evs = [.asked data, .sent to bytes] ∧ to = c.socket ∧ (c.o2tFixedSize = true → data.length = c.o2tDataSize) ∧
      (data.length + 6 < 65536 →
        bytes = ioFrame c.o2tNetworkConnectionId.toNat ((asks pre + 1) % 2 ^ 32)
          (ioPayload (if hasCount c.transportTypeTrigger then some ((asks pre + 1) % 2 ^ 16) else none)
            (if c.o2tRealTimeFormat then some 1 else none) data)) := by
  obtain ⟨c', _, hr⟩ := C78_isolated P inc st s' ops hf tr h id c hc
  obtain ⟨_, h2, h3, _, h5⟩ := micros_created_fresh (runR_micros P _ s' (inv_new inc st) ops hf tr h) id c hc
  rw [htr] at hr
  have := C37_C50_transmission P.mem c c' _ pre post op evs to bytes ⟨h2, h3⟩ hr hsent
  rw [h5] at this
  exact this

/-- C78. With listeners that make calls, a connection never sends faster than the
interval the target granted. -/
theorem C78_never_faster (P : Plat) (inc : BitVec 16) (st : Statics) (s' : Mgr) (ops : List Mgr.MOpR)
    (hf : ∀ op ∈ ops, opFlat op) (tr : RTrace) (h : (Mgr.new inc st).runR P ops = some (s', tr)) (id : Nat) (c : Conn)
    (hc : MEv.created id c ∈ allEvsR tr)
    (hclock : (c.lastHandleTime :: tickTimes ((connTrace id (allEvsR tr)).map Prod.fst)).Pairwise (· ≤ ·)) :
    (c.lastHandleTime :: prodTimes (connTrace id (allEvsR tr))).Pairwise (fun a b => a + c.o2tAPI.toNat * 1000 ≤ b) := by
  obtain ⟨c', _, hr⟩ := C78_isolated P inc st s' ops hf tr h id c hc
  obtain ⟨h1, _⟩ := micros_created_fresh (runR_micros P _ s' (inv_new inc st) ops hf tr h) id c hc
  exact C38_never_faster P.mem c c' _ _ h1 hclock hr

/-- C78. With listeners that make calls, the close listener runs exactly when the
connection has been silent for longer than the timeout. -/
theorem C78_timeout (P : Plat) (inc : BitVec 16) (st : Statics) (s' : Mgr) (ops : List Mgr.MOpR)
    (hf : ∀ op ∈ ops, opFlat op) (tr : RTrace) (h : (Mgr.new inc st).runR P ops = some (s', tr)) (id : Nat) (c : Conn)
    (hc : MEv.created id c ∈ allEvsR tr) (pre post : IoTrace) (now : Nat) (hook : Hook) (count : Int)
    (evs : List IoEv) (htr : connTrace id (allEvsR tr) = pre ++ (.tick now hook count, evs) :: post)
    (hopen : ∀ e ∈ pre, IoEv.closed ∉ e.2)
    (hlim : c.connectionTimeoutMultiplier.toNat * c.t2oAPI.toNat < 2 ^ 32)
    (hgaps : Steps (fun a b => c.connectionTimeoutMultiplier.toNat * c.t2oAPI.toNat + (b - a) / 1000 < 2 ^ 32)
      c.lastHandleTime (tickTimes ((connTrace id (allEvsR tr)).map Prod.fst))) :
    IoEv.closed ∈ evs ↔
      c.connectionTimeoutMultiplier.toNat * c.t2oAPI.toNat <
        1000 * silence c.lastHandleTime 0 (pre ++ [(.tick now hook count, evs)]) := by
  obtain ⟨c', _, hr⟩ := C78_isolated P inc st s' ops hf tr h id c hc
  obtain ⟨_, _, _, h4, _⟩ := micros_created_fresh (runR_micros P _ s' (inv_new inc st) ops hf tr h) id c hc
  rw [htr] at hr hgaps
  exact C40_timeout P.mem c c' _ pre post now hook count evs h4 hr hopen hlim hgaps

/-! ## Listeners that make no calls -/

/-- A part of `handleConnections` here and the same part in the model without calls. -/
def SameStage : RRes → Mgr.Stage → Prop
  | .go s evs keys, .go s' evs' => s = s' ∧ evsOf evs = evs' ∧ keys = []
  | .threw s evs e, .threw s' evs' e' => s = s' ∧ evsOf evs = evs' ∧ e = e'
  | .stop evs why, .ub evs' => evsOf evs = evs' ∧ why = .ub
  | _, _ => False

theorem listener_nil (P : Plat) (id : Nat) (s : Mgr) : Mgr.listener P id [] s = .go s [.enter id, .leave id] [] := rfl

theorem deliverR_plain (P : Plat) (r : Arrival) (s s1 : Mgr) (evs1 : List MEv) (hd : s.deliver P r.recv = .ok (s1, evs1)) :
    ∃ e1, evsOf e1 = evs1 ∧ Mgr.deliverR P { r with } s =
      match Mgr.raised r.throws evs1 with
      | some e => .threw s1 e1 e
      | none => .go s1 e1 [] := by
  simp only [Mgr.deliverR, hd, Mgr.raised]
  cases Mgr.ranReceive evs1 with
  | none => exact ⟨evs1.map .ev ++ [], by simp, rfl⟩
  | some id =>
    refine ⟨evs1.map .ev ++ ([.enter id, .leave id] ++ []), by simp, ?_⟩
    simp only [listener_nil, Mgr.raise]
    cases r.throws <;> rfl

theorem deliverAllR_plain (P : Plat) (rs : List Arrival) (s : Mgr) :
    SameStage (Mgr.deliverAllR P (rs.map fun r => { r with }) s) (Mgr.deliverAll P rs s) := by
  induction rs generalizing s with
  | nil => exact ⟨rfl, rfl, rfl⟩
  | cons r rs ih =>
    simp only [List.map_cons, Mgr.deliverAllR, Mgr.deliverAll]
    cases hd : s.deliver P r.recv with
    | ub => simp only [Mgr.deliverR, hd]; exact ⟨rfl, rfl⟩
    | throw e => simp only [Mgr.deliverR, hd]; exact ⟨rfl, rfl, rfl⟩
    | ok q =>
      obtain ⟨s1, evs1⟩ := q
      obtain ⟨e1, rfl, h1⟩ := deliverR_plain P r s s1 evs1 hd
      simp only [h1]
      cases Mgr.raised r.throws (evsOf e1) with
      | some e => exact ⟨rfl, rfl, rfl⟩
      | none =>
        simp only [RRes.andThen]
        have ih' := ih s1
        cases ha : Mgr.deliverAllR P (rs.map fun r => { r with }) s1 <;> cases hb : Mgr.deliverAll P rs s1 <;>
          rw [ha, hb] at ih' <;> simp only [SameStage] at ih' <;> simp [SameStage, RRes.after, ih']

theorem selectLoopR_plain (P : Plat) (stop : Int) (rounds : List Round) (now : Int) (s : Mgr) :
    SameStage (Mgr.selectLoopR P stop now (rounds.map Round.quiet) s) (Mgr.selectLoop P stop now rounds s) := by
  induction rounds generalizing now s with
  | nil => exact ⟨rfl, rfl, rfl⟩
  | cons r rounds ih =>
    cases r with
    | fail code => exact ⟨rfl, rfl, rfl⟩
    | ready f m now' =>
      simp only [List.map_cons, Round.quiet, Mgr.selectLoopR, Mgr.selectLoop]
      have hd := deliverAllR_plain P (f :: m) s
      simp only [List.map_cons] at hd
      cases ha : Mgr.deliverAllR P ({ f with } :: m.map fun r => { r with }) s <;> cases hb : Mgr.deliverAll P (f :: m) s <;>
        rw [ha, hb] at hd
      case go.go s1 e1 k1 s2 e2 =>
        obtain ⟨rfl, rfl, rfl⟩ := hd
        have ih' := ih now' s1
        simp only [RRes.andThen, ha]
        cases hx : Mgr.selectLoopR P stop now' (rounds.map Round.quiet) s1 <;>
          cases hy : Mgr.selectLoop P stop now' rounds s1 <;> rw [hx, hy] at ih' <;> simp_all [SameStage, RRes.after]
      all_goals simp_all [SameStage, RRes.after, RRes.andThen]

theorem visit_plain (P : Plat) (t : TickEnv) (k : BitVec 16) (id : Nat) (s : Mgr) (hm : (k, id) ∈ s.table) (c : Conn)
    (hc : s.heap[id]? = some c) :
    ∃ evs, evsOf evs = [.conn id (.tick t.now t.hook t.count) (c.notifyTick t.now t.hook t.count).2.1] ∧
    Mgr.visit P { toTickEnv := t, calls := [] } k id s =
      match (c.notifyTick t.now t.hook t.count).2.2 with
      | .threw e => .threw { s with heap := s.heap.set id (c.notifyTick t.now t.hook t.count).1 } evs e
      | .alive => .go { s with heap := s.heap.set id (c.notifyTick t.now t.hook t.count).1 } evs []
      | .dead => .go { s with heap := s.heap.set id (c.notifyTick t.now t.hook t.count).1 } evs [k] := by
  have hlt := (List.getElem?_eq_some_iff.mp hc).1
  unfold Mgr.visit
  simp only [hc]
  rw [notifyTick_split]
  cases hh : c.tickHead t.now with
  | mk c1 head =>
    cases head with
    | quiet => exact ⟨_, rfl, rfl⟩
    | closing =>
      refine ⟨[.enter id, .leave id, .ev (.conn id (.tick t.now t.hook t.count) [.closed])], rfl, ?_⟩
      simp only [listener_nil, RRes.andThen, Mgr.checkEntry, hm, if_true, Mgr.resumeClose, Conn.closeRet]
      cases t.hook.throws <;> simp [RRes.after]
    | sending addr hd =>
      refine ⟨[.enter id, .leave id, .ev (.conn id (.tick t.now t.hook t.count) (c1.tickTail addr hd t.hook t.count).2.1)],
        rfl, ?_⟩
      simp only [listener_nil, RRes.andThen, Mgr.checkEntry, hm, if_true, Mgr.resumeSend, List.getElem?_set_self hlt]
      simp only [Mgr.endSend]
      rcases tickTail_ret addr hd t.hook t.count c1 with h0 | ⟨y, h0⟩
      · simp [h0, RRes.after]
      · simp [h0, RRes.after]

theorem sweep_plain (P : Plat) (ticks : Nat → TickEnv) (n : Nat) (prev : Option (BitVec 16)) (s : Mgr)
    (pre rest : List (BitVec 16 × Nat)) (ht : s.table = pre ++ rest) (hs : s.table.Pairwise fun a b => a.1 < b.1)
    (hpre : ∀ e ∈ pre, ∃ p, prev = some p ∧ ¬ p < e.1) (hrest : ∀ e ∈ rest, ∀ p, prev = some p → p < e.1)
    (hf : Fuel n prev) :
    ∃ evs, evsOf evs = (Mgr.tickAll ticks rest s.heap).2.1 ∧
    Mgr.sweep P (fun id => { toTickEnv := ticks id, calls := [] }) n prev s =
      match (Mgr.tickAll ticks rest s.heap).2.2.2 with
      | none => .go { s with heap := (Mgr.tickAll ticks rest s.heap).1 } evs (Mgr.tickAll ticks rest s.heap).2.2.1
      | some e => .threw { s with heap := (Mgr.tickAll ticks rest s.heap).1 } evs e := by
  induction rest generalizing n prev s pre with
  | nil =>
    refine ⟨[], rfl, ?_⟩
    cases n with
    | zero => rfl
    | succ n =>
      have : Mgr.nextEntry prev s.table = none := by
        cases hx : Mgr.nextEntry prev s.table with
        | none => rfl
        | some e =>
          obtain ⟨h1, h2⟩ := nextEntry_mem hx
          rw [ht, List.append_nil] at h1
          obtain ⟨p, hp, hn⟩ := hpre e h1
          exact absurd (h2 p hp) hn
      simp only [Mgr.sweep, this]
      rfl
  | cons e rest ih =>
    obtain ⟨k, id⟩ := e
    have hm : (k, id) ∈ s.table := by rw [ht]; simp
    cases n with
    | zero =>
      exfalso
      cases prev with
      | none => simp [Fuel] at hf
      | some p =>
        have hlt : p < k := hrest (k, id) List.mem_cons_self p rfl
        rw [BitVec.lt_def] at hlt
        simp only [Fuel] at hf
        have := k.isLt
        omega
    | succ n =>
      have hnx : Mgr.nextEntry prev s.table = some (k, id) := by
        cases hx : Mgr.nextEntry prev s.table with
        | none =>
          obtain ⟨p, h1, h2⟩ := nextEntry_none hx hm
          exact absurd (hrest (k, id) List.mem_cons_self p h1) h2
        | some e =>
          obtain ⟨k0, id0⟩ := e
          obtain ⟨h1, h2⟩ := nextEntry_mem hx
          rcases nextEntry_least hs hx hm (fun p hp => hrest (k, id) List.mem_cons_self p hp) with h3 | h3
          · rw [h3]
          · exfalso
            rw [ht, List.mem_append, List.mem_cons] at h1
            rcases h1 with h1 | h1 | h1
            · obtain ⟨p, hp, hn⟩ := hpre _ h1
              exact absurd (h2 p hp) hn
            · injection h1 with h1 _
              rw [h1] at h3
              exact absurd h3 (BitVec.lt_irrefl _)
            · rw [ht, List.pairwise_append, List.pairwise_cons] at hs
              exact absurd (BitVec.lt_trans h3 (hs.2.1.1 _ h1)) (BitVec.lt_irrefl _)
      have hf' : Fuel n (some k) := by
        cases prev with
        | none => simp only [Fuel] at hf ⊢; omega
        | some p =>
          have hlt : p < k := hrest (k, id) List.mem_cons_self p rfl
          rw [BitVec.lt_def] at hlt
          simp only [Fuel] at hf ⊢
          omega
      have ih' := fun (s1 : Mgr) (h1 : s1.table = s.table) =>
        ih n (some k) s1 (pre ++ [(k, id)]) (by rw [h1, ht]; simp) (by rw [h1]; exact hs)
          (by
            intro e he
            refine ⟨k, rfl, ?_⟩
            rw [List.mem_append, List.mem_singleton] at he
            rcases he with he | rfl
            · rw [ht, List.pairwise_append] at hs
              intro hlt
              exact absurd (BitVec.lt_trans hlt (hs.2.2 e he (k, id) List.mem_cons_self)) (BitVec.lt_irrefl _)
            · exact BitVec.lt_irrefl _)
          (by
            intro e he p hp
            injection hp with hp
            subst hp
            rw [ht, List.pairwise_append, List.pairwise_cons] at hs
            exact hs.2.1.1 e he)
          hf'
      simp only [Mgr.sweep, hnx]
      cases hc : s.heap[id]? with
      | none =>
        obtain ⟨evs, h1, h2⟩ := ih' s rfl
        have hta : Mgr.tickAll ticks ((k, id) :: rest) s.heap = Mgr.tickAll ticks rest s.heap := by
          simp only [Mgr.tickAll, hc]
        rw [hta]
        refine ⟨evs, h1, ?_⟩
        have hv : Mgr.visit P { toTickEnv := ticks id, calls := [] } k id s = .go s [] [] := by
          unfold Mgr.visit; simp [hc]
        simp only [hv, RRes.andThen, h2]
        cases (Mgr.tickAll ticks rest s.heap).2.2.2 <;> simp [RRes.after]
      | some c =>
        obtain ⟨ev, hv1, hv2⟩ := visit_plain P (ticks id) k id s hm c hc
        obtain ⟨evs, h1, h2⟩ := ih' { s with heap := s.heap.set id (c.notifyTick (ticks id).now (ticks id).hook (ticks id).count).1 } rfl
        simp only at h1 h2
        rw [hv2]
        simp only [Mgr.tickAll, hc]
        generalize c.notifyTick (ticks id).now (ticks id).hook (ticks id).count = r at *
        obtain ⟨c', io, ret⟩ := r
        simp only at h1 h2 hv1 ⊢
        cases ret with
        | threw e => exact ⟨ev, hv1, rfl⟩
        | alive =>
          refine ⟨ev ++ evs, by rw [evsOf_append, hv1, h1]; rfl, ?_⟩
          simp only [RRes.andThen, h2]
          cases (Mgr.tickAll ticks rest (s.heap.set id c')).2.2.2 <;> simp [RRes.after]
        | dead =>
          refine ⟨ev ++ evs, by rw [evsOf_append, hv1, h1]; rfl, ?_⟩
          simp only [RRes.andThen, h2]
          cases (Mgr.tickAll ticks rest (s.heap.set id c')).2.2.2 <;> simp [RRes.after]

theorem handleR_plain (P : Plat) (s : Mgr) (hi : Inv s) (start : Nat) (t : Int) (rounds : List Round)
    (ticks : Nat → TickEnv) :
    forget (s.handleR P start t (rounds.map Round.quiet) fun id => { toTickEnv := ticks id, calls := [] }) =
      s.handle P start t rounds ticks := by
  unfold Mgr.handleR Mgr.handle
  cases hsock : s.sockets with
  | nil => rfl
  | cons a as =>
    simp only
    have hsel := selectLoopR_plain P (start + t * 1000000) rounds start s
    have hq := selectLoop_quiet P (start + t * 1000000) rounds start s
    cases ha : Mgr.selectLoopR P (start + t * 1000000) start (rounds.map Round.quiet) s <;>
      cases hb : Mgr.selectLoop P (start + t * 1000000) start rounds s <;> rw [ha, hb] at hsel
    case go.go s1 e1 k1 s2 e2 =>
      obtain ⟨rfl, rfl, rfl⟩ := hsel
      have hi1 := (hq.1 _ _ hb).inv hi
      obtain ⟨evs, h1, h2⟩ := sweep_plain P ticks 65536 none s1 [] s1.table rfl hi1.sorted (by simp) (by simp)
        (Nat.le_refl _)
      simp only [RRes.andThen, h2]
      generalize Mgr.tickAll ticks s1.table s1.heap = q at h1 ⊢
      obtain ⟨hp, ev, keys, ex⟩ := q
      simp only at h1
      cases ex <;> simp [RRes.after, Mgr.eraseKeys, forget, h1]
    all_goals simp_all [SameStage, RRes.andThen, Mgr.eraseKeys, forget]

/-- C78. When no listener makes a call, this model and the one in which listeners are
atomic agree on every call of `handleConnections`. -/
theorem C78_conservative (P : Plat) (inc : BitVec 16) (st : Statics) (s : Mgr) (ops : List Mgr.MOpR)
    (hf : ∀ op ∈ ops, opFlat op) (tr : RTrace) (hrun : (Mgr.new inc st).runR P ops = some (s, tr)) (start : Nat) (t : Int)
    (rounds : List Round) (ticks : Nat → TickEnv) :
    forget (s.stepR P (.handle start t (rounds.map Round.quiet) fun id => { toTickEnv := ticks id, calls := [] })) =
      s.step P (.handle start t rounds ticks) :=
  handleR_plain P s (micros_inv (runR_micros P _ s (inv_new inc st) ops hf tr hrun) (inv_new inc st)) start t rounds ticks

end Verif.Props
