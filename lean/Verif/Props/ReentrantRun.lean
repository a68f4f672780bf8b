import Verif.Props.Reentrant

/-!
# Listeners that call back into the manager: histories
-/

namespace Verif.Props

open Verif Verif.Spec

/-! ## What small steps keep -/

theorem micro_replay {P : Plat} {er : Bool} {s s' : Mgr} {evs : List MEv} (h : Micro P er s evs s') :
    applyEvs P.mem s.heap evs = some s'.heap := by
  cases h with
  | call _ h => exact step_replay P _ _ _ _ _ h
  | wait => rfl
  | conn _ hc hs _ => exact applyEvs_conn hc hs
  | erase keys _ => rfl

theorem micros_replay {P : Plat} {er : Bool} {s s' : Mgr} {evs : List MEv} (h : Micros P er s evs s') :
    applyEvs P.mem s.heap evs = some s'.heap := by
  induction h with
  | refl => rfl
  | snoc _ m ih => rw [applyEvs_append, ih]; exact micro_replay m

theorem micro_inv {P : Plat} {er : Bool} {s s' : Mgr} {evs : List MEv} (h : Micro P er s evs s') (hi : Inv s) : Inv s' := by
  have hrep := micro_replay h
  cases h with
  | call _ h => exact inv_step P _ _ _ _ _ hi h
  | wait => exact hi
  | conn _ hc hs _ =>
    refine ⟨hi.sorted, fun k id hm => ?_, fun id hm => ?_⟩
    · obtain ⟨d, hd, hk⟩ := hi.obj k id hm
      obtain ⟨d', hd', hcfg⟩ := replay_config hrep hd
      exact ⟨d', hd', by rw [hcfg.t2oId]; exact hk⟩
    · have := hi.held id hm
      simpa using this
  | erase keys _ =>
    refine ⟨hi.sorted.filter _, fun k id hm => ?_, hi.held⟩
    exact hi.obj k id (List.mem_filter.mp hm).1

theorem micros_inv {P : Plat} {er : Bool} {s s' : Mgr} {evs : List MEv} (h : Micros P er s evs s') (hi : Inv s) : Inv s' := by
  induction h with
  | refl => exact hi
  | snoc _ m ih => exact micro_inv m ih

/-- A connection that is out of the table stays out and is only written to. -/
theorem micro_gone {P : Plat} {er : Bool} {s s' : Mgr} {evs : List MEv} (h : Micro P er s evs s') (id : Nat) (hl : id < s.heap.length)
    (hg : ∀ k, (k, id) ∉ s.table) :
    (∀ k, (k, id) ∉ s'.table) ∧ id < s'.heap.length ∧ ∀ d ∈ connTrace id evs, ∃ data, d = (.setData data, []) := by
  cases h with
  | call _ h => exact gone_step P _ _ _ _ _ h id hl hg
  | wait => exact ⟨hg, hl, by simp [connTrace]⟩
  | @conn k i c c' cop io hm hc hs _ =>
    refine ⟨hg, by simpa using hl, fun d hd => ?_⟩
    simp only [connTrace] at hd
    split at hd
    · rename_i hi; subst hi; exact absurd hm (hg k)
    · simp at hd
  | erase keys _ => exact ⟨fun k hm => hg k (List.mem_filter.mp hm).1, hl, by simp [connTrace]⟩

theorem micros_gone {P : Plat} {er : Bool} {s s' : Mgr} {evs : List MEv} (h : Micros P er s evs s') (id : Nat) (hl : id < s.heap.length)
    (hg : ∀ k, (k, id) ∉ s.table) :
    (∀ k, (k, id) ∉ s'.table) ∧ id < s'.heap.length ∧ ∀ d ∈ connTrace id evs, ∃ data, d = (.setData data, []) := by
  induction h with
  | refl => exact ⟨hg, hl, by simp [connTrace]⟩
  | snoc _ m ih =>
    obtain ⟨i1, i2, i3⟩ := ih
    obtain ⟨j1, j2, j3⟩ := micro_gone m id i2 i1
    refine ⟨j1, j2, fun d hd => ?_⟩
    rw [connTrace_append, List.mem_append] at hd
    rcases hd with hd | hd
    · exact i3 d hd
    · exact j3 d hd

theorem micros_length {P : Plat} {er : Bool} {s s' : Mgr} {evs : List MEv} (h : Micros P er s evs s') :
    s.heap.length ≤ s'.heap.length := replay_length _ _ _ _ (micros_replay h)

/-- A connection of the table at the end that existed at the beginning was in it then. -/
theorem micros_stayed {P : Plat} {er : Bool} {s s' : Mgr} {evs : List MEv} (h : Micros P er s evs s') (hi : Inv s) (k : BitVec 16)
    (id : Nat) (hl : id < s.heap.length) (hm : (k, id) ∈ s'.table) : (k, id) ∈ s.table := by
  by_cases hg : ∀ k', (k', id) ∉ s.table
  · exact absurd hm ((micros_gone h id hl hg).1 k)
  · obtain ⟨k', hk'⟩ := Classical.not_forall.mp hg
    have hk' := Classical.not_not.mp hk'
    obtain ⟨c, hc, hk⟩ := hi.obj k' id hk'
    obtain ⟨c', hc', hcfg⟩ := replay_config (micros_replay h) hc
    obtain ⟨c2, hc2, hk2⟩ := (micros_inv h hi).obj k id hm
    rw [hc'] at hc2
    injection hc2 with hc2
    rw [← hc2, hcfg.t2oId, ← hk] at hk2
    rw [hk2]
    exact hk'

/-! ## Parts of `handleConnections` as small steps -/

theorem visited_micros {P : Plat} {t : TickEnvR} {k : BitVec 16} {id : Nat} {s s' : Mgr} {evs : List REv} {ret : TickRet}
    (hn : noHandle t.calls) (h : Visited P t k id s s' evs ret) : Micros P false s (evsOf evs) s' := by
  obtain ⟨s1, inner, e, run, hrun, h1, h2, h3, h4, rfl, h6, _⟩ := h.ex
  have hn' : noHandle run := by
    rcases hrun with rfl | rfl
    · exact hn
    · intro op hop; simp at hop
  rw [h6]
  exact .snoc (nested_go P run hn' s s1 inner [] h1).2.1 (.conn h3 h2 rfl (by simp))

theorem nextEntry_mem {prev : Option (BitVec 16)} {t : List (BitVec 16 × Nat)} {e : BitVec 16 × Nat}
    (h : Mgr.nextEntry prev t = some e) : e ∈ t ∧ ∀ p, prev = some p → p < e.1 := by
  unfold Mgr.nextEntry at h
  cases prev with
  | none => exact ⟨List.mem_of_mem_head? h, by simp⟩
  | some p =>
    refine ⟨List.mem_of_find?_eq_some h, fun q hq => ?_⟩
    injection hq with hq
    subst hq
    simpa using List.find?_some h

theorem ticked_append (a b : List MEv) : ticked (a ++ b) = ticked a ++ ticked b := List.filterMap_append

theorem mem_ticked {id : Nat} {evs : List MEv} : id ∈ ticked evs ↔ ∃ n h c io, MEv.conn id (.tick n h c) io ∈ evs := by
  simp only [ticked, List.mem_filterMap]
  constructor
  · rintro ⟨e, hm, he⟩
    unfold tickedId at he
    split at he
    · injection he with he; subst he; exact ⟨_, _, _, _, hm⟩
    · cases he
  · rintro ⟨n, h, c, io, hm⟩
    exact ⟨_, hm, rfl⟩

/-- A call other than `handleConnections` ticks nothing and delivers nothing. -/
theorem call_quiet (P : Plat) (s s' : Mgr) (op : MOp) (evs : List MEv) (ret : MRet) (hop : MOp.isHandle op = false)
    (h : s.step P op = .ok s' evs ret) (id : Nat) (cop : ConnOp) (io : List IoEv) (hm : MEv.conn id cop io ∈ evs) :
    io = [] ∧ ∃ d, cop = .setData d := by
  cases op with
  | handle => simp [MOp.isHandle] at hop
  | forwardOpen host p large e =>
    exfalso
    obtain ⟨_, _, _, _, hh⟩ := forwardOpen_cases P _ _ _ _ s s' evs ret h
    rcases hh with ⟨_, rfl, _⟩ | ⟨_, _, _, _, _, _, _, bs, _, _, _, _, hf, _, rfl, _⟩
    · simp at hm
    · simp only [List.cons_append, List.mem_cons, reduceCtorEq, List.mem_append, List.not_mem_nil, or_false,
        false_or] at hm
      obtain ⟨x, hx⟩ := findOrCreate_events _ _ _ _ _ hf _ hm
      cases hx
  | otherOpen inc mc p2p =>
    simp only [Mgr.step] at h
    split at h <;> cases h
    simp at hm
  | forwardClose ptr reply =>
    simp only [Mgr.step, Mgr.forwardClose] at h
    repeat' split at h
    all_goals first | (cases h; simp at hm; done) | cases h
  | hasOpen => simp only [Mgr.step] at h; cases h; simp at hm
  | setData i d =>
    simp only [Mgr.step] at h
    split at h <;> cases h <;> simp at hm
    exact ⟨hm.2.2, d, hm.2.1⟩
  | lock i => simp only [Mgr.step] at h; split at h <;> cases h <;> simp at hm
  | release i => simp only [Mgr.step] at h; cases h; simp at hm

theorem nested_quiet (P : Plat) (ops : List MOp) (hn : noHandle ops) (s s' : Mgr) (evs : List REv) (keys : List (BitVec 16))
    (h : Mgr.nested P ops s = .go s' evs keys) (id : Nat) (cop : ConnOp) (io : List IoEv)
    (hm : MEv.conn id cop io ∈ evsOf evs) : io = [] ∧ ∃ d, cop = .setData d := by
  induction ops generalizing s evs keys with
  | nil =>
    simp only [Mgr.nested, RRes.go.injEq] at h
    obtain ⟨_, rfl, _⟩ := h
    simp at hm
  | cons op ops ih =>
    simp only [Mgr.nested] at h
    obtain ⟨s1, e1, k1, e2, k2, h1, h2, rfl, rfl⟩ := andThen_go h
    rw [evsOf_append, List.mem_append] at hm
    cases hs : s.step P op with
    | stop _ _ => rw [hs] at h1; simp [Mgr.ofStep] at h1
    | ok s2 evs2 ret =>
      rw [hs] at h1
      simp only [Mgr.ofStep, RRes.go.injEq] at h1
      obtain ⟨rfl, rfl, rfl⟩ := h1
      rcases hm with hm | hm
      · rw [evsOf_map] at hm
        exact call_quiet P s s2 op evs2 ret (hn op List.mem_cons_self) hs id cop io hm
      · exact ih (fun o ho => hn o (List.mem_cons_of_mem _ ho)) s2 e2 k2 h2 hm

theorem ticked_nested (P : Plat) (ops : List MOp) (hn : noHandle ops) (s s' : Mgr) (evs : List REv)
    (keys : List (BitVec 16)) (h : Mgr.nested P ops s = .go s' evs keys) : ticked (evsOf evs) = [] := by
  rw [List.eq_nil_iff_forall_not_mem]
  intro id hid
  obtain ⟨n, hk, c, io, hm⟩ := mem_ticked.mp hid
  obtain ⟨_, d, hd⟩ := nested_quiet P ops hn s s' evs keys h id _ _ hm
  cases hd

theorem Visited.tick_only {P : Plat} {t : TickEnvR} {k : BitVec 16} {id : Nat} {s s' : Mgr} {evs : List REv} {ret : TickRet}
    (hn : noHandle t.calls) (h : Visited P t k id s s' evs ret) :
    ticked (evsOf evs) = [id] ∧
    (∀ i cop io, MEv.conn i cop io ∈ evsOf evs → IoEv.closed ∈ io → i = id ∧ ret = Conn.closeRet t.hook) ∧
    (ret = .dead → ∃ cop io, MEv.conn id cop io ∈ evsOf evs ∧ IoEv.closed ∈ io) ∧ (∃ k', (k', id) ∈ s'.table ∧ k' = k) := by
  obtain ⟨s1, inner, e, run, hrun, h1, h2, h3, h4, rfl, h6, _⟩ := h.ex
  have hn' : noHandle run := by
    rcases hrun with rfl | rfl
    · exact hn
    · intro op hop; simp at hop
  refine ⟨?_, ?_, ?_, ⟨k, h3, rfl⟩⟩
  · rw [h6, ticked_append, ticked_nested P run hn' s s1 inner [] h1]
    rfl
  · intro i cop io hm hcl
    rw [h6, List.mem_append] at hm
    rcases hm with hm | hm
    · obtain ⟨rfl, _⟩ := nested_quiet P run hn' s s1 inner [] h1 i cop io hm
      simp at hcl
    · simp only [List.mem_singleton, MEv.conn.injEq] at hm
      obtain ⟨rfl, _, rfl⟩ := hm
      refine ⟨rfl, ?_⟩
      rw [← h4]
      exact (closed_dead (tick_cases _ _ _ _)).1 hcl
  · intro hr
    refine ⟨_, _, by rw [h6]; exact List.mem_append.mpr (.inr (List.mem_singleton.mpr rfl)), ?_⟩
    rw [notifyTick_split] at h4 ⊢
    split at h4
    · rw [hr] at h4; cases h4
    · simp
    · rename_i c1 addr head _
      rcases tickTail_ret addr head t.hook t.count c1 with h0 | ⟨y, h0⟩
      · rw [h0, hr] at h4; cases h4
      · rw [h0, hr] at h4; cases h4

/-- The low 16 bits of an object's T→O identifier. -/
def keyOf (c : Conn) : BitVec 16 := c.t2oNetworkConnectionId.setWidth 16

/-- The loop, from a given key on: it is a sequence of small steps and ticks
connections in the order of their keys. -/
structure Swept (P : Plat) (prev : Option (BitVec 16)) (s s' : Mgr) (evs : List REv) : Prop where
  micros : Micros P false s (evsOf evs) s'
  order : (ticked (evsOf evs)).Pairwise fun a b => ∀ ca cb, s'.heap[a]? = some ca → s'.heap[b]? = some cb →
    keyOf ca < keyOf cb
  later : ∀ id ∈ ticked (evsOf evs), ∃ c, s'.heap[id]? = some c ∧ ∀ p, prev = some p → p < keyOf c

/-- The keys collected are those of the connections that were closed. -/
structure Collected (s s' : Mgr) (evs : List REv) (keys : List (BitVec 16)) : Prop where
  closedKey : ∀ id cop io, MEv.conn id cop io ∈ evsOf evs → IoEv.closed ∈ io →
    ∃ c, s'.heap[id]? = some c ∧ keyOf c ∈ keys
  keyClosed : ∀ k ∈ keys, ∃ id cop io c, MEv.conn id cop io ∈ evsOf evs ∧ IoEv.closed ∈ io ∧
    s'.heap[id]? = some c ∧ k = keyOf c ∧ ∀ i, i < s.heap.length → (k, i) ∈ s'.table → i = id

/-- Every connection after `prev` that is still there at the end was ticked. -/
def Complete (prev : Option (BitVec 16)) (s s' : Mgr) (evs : List REv) : Prop :=
  ∀ k id, (k, id) ∈ s.table → (∀ p, prev = some p → p < k) → (k, id) ∈ s'.table → id ∈ ticked (evsOf evs)

/-- The number of passes left is enough. -/
def Fuel (n : Nat) : Option (BitVec 16) → Prop
  | none => 65536 ≤ n
  | some p => 65535 ≤ n + p.toNat

theorem nextEntry_none {prev : Option (BitVec 16)} {t : List (BitVec 16 × Nat)} (h : Mgr.nextEntry prev t = none)
    {k : BitVec 16} {id : Nat} (hm : (k, id) ∈ t) : ∃ p, prev = some p ∧ ¬ p < k := by
  unfold Mgr.nextEntry at h
  cases prev with
  | none => simp only [List.head?_eq_none_iff] at h; rw [h] at hm; simp at hm
  | some p =>
    refine ⟨p, rfl, ?_⟩
    have := List.find?_eq_none.mp h _ hm
    simpa using this

theorem nextEntry_least {prev : Option (BitVec 16)} {t : List (BitVec 16 × Nat)} {k0 : BitVec 16} {id0 : Nat}
    (hs : t.Pairwise fun a b => a.1 < b.1) (h : Mgr.nextEntry prev t = some (k0, id0))
    {k : BitVec 16} {id : Nat} (hm : (k, id) ∈ t) (hp : ∀ p, prev = some p → p < k) : (k, id) = (k0, id0) ∨ k0 < k := by
  unfold Mgr.nextEntry at h
  induction t with
  | nil => simp at hm
  | cons e t ih =>
    rw [List.pairwise_cons] at hs
    cases prev with
    | none =>
      simp only [List.head?_cons, Option.some.injEq] at h
      subst h
      rw [List.mem_cons] at hm
      rcases hm with hm | hm
      · exact .inl hm
      · exact .inr (hs.1 _ hm)
    | some p =>
      simp only [List.find?_cons] at h
      split at h
      · injection h with h
        subst h
        rw [List.mem_cons] at hm
        rcases hm with hm | hm
        · exact .inl hm
        · exact .inr (hs.1 _ hm)
      · rename_i hf
        rw [List.mem_cons] at hm
        rcases hm with rfl | hm
        · have := hp p rfl
          simp [this] at hf
        · exact ih hs.2 h hm

theorem sweep_spec (P : Plat) (ticks : Nat → TickEnvR) (hn : ∀ id, noHandle (ticks id).calls) (n : Nat)
    (prev : Option (BitVec 16)) (s : Mgr) (hi : Inv s) (hf : Fuel n prev) :
    (∀ s' evs keys, Mgr.sweep P ticks n prev s = .go s' evs keys →
      Swept P prev s s' evs ∧ Collected s s' evs keys ∧ Complete prev s s' evs) ∧
    (∀ s' evs x, Mgr.sweep P ticks n prev s = .threw s' evs x → Swept P prev s s' evs) := by
  induction n generalizing prev s with
  | zero =>
    refine ⟨fun s' evs keys h => ?_, fun s' evs x h => by simp [Mgr.sweep] at h⟩
    simp only [Mgr.sweep, RRes.go.injEq] at h
    obtain ⟨rfl, rfl, rfl⟩ := h
    refine ⟨⟨.refl, by simp [ticked], by simp [ticked]⟩, ⟨by simp, by simp⟩, ?_⟩
    intro k id hm hp _
    exfalso
    cases prev with
    | none => simp [Fuel] at hf
    | some p =>
      simp only [Fuel] at hf
      have := hp p rfl
      rw [BitVec.lt_def] at this
      have := k.isLt
      omega
  | succ n ih =>
    cases hnx : Mgr.nextEntry prev s.table with
    | none =>
      refine ⟨fun s' evs keys h => ?_, fun s' evs x h => by simp [Mgr.sweep, hnx] at h⟩
      simp only [Mgr.sweep, hnx, RRes.go.injEq] at h
      obtain ⟨rfl, rfl, rfl⟩ := h
      refine ⟨⟨.refl, by simp [ticked], by simp [ticked]⟩, ⟨by simp, by simp⟩, ?_⟩
      intro k id hm hp _
      obtain ⟨p, h1, h2⟩ := nextEntry_none hnx hm
      exact absurd (hp p h1) h2
    | some e =>
      obtain ⟨k, id⟩ := e
      obtain ⟨hm, hp⟩ := nextEntry_mem hnx
      obtain ⟨c, hc, hk⟩ := hi.obj k id hm
      obtain ⟨v1, v2⟩ := visit_serial P (ticks id) (hn id) k id s hm c hc
      have hf' : Fuel n (some k) := by
        cases prev with
        | none => simp only [Fuel] at hf ⊢; omega
        | some p =>
          have hlt : p < k := hp p rfl
          rw [BitVec.lt_def] at hlt
          simp only [Fuel] at hf ⊢
          omega
      -- the part common to both endings
      have glue : ∀ s1 e1 ret s' e2, Visited P (ticks id) k id s s1 e1 ret → Swept P (some k) s1 s' e2 →
          Swept P prev s s' (e1 ++ e2) ∧ ∃ c', s'.heap[id]? = some c' ∧ keyOf c' = k := by
        intro s1 e1 ret s' e2 hv hsw
        have hmv := visited_micros (hn id) hv
        obtain ⟨t1, _, _, _⟩ := hv.tick_only (hn id)
        obtain ⟨c', hc', hcfg⟩ := replay_config (micros_replay (hmv.trans hsw.micros)) hc
        have hkey : keyOf c' = k := by unfold keyOf; rw [hcfg.t2oId, hk]
        refine ⟨⟨?_, ?_, ?_⟩, c', hc', hkey⟩
        · rw [evsOf_append]; exact hmv.trans hsw.micros
        · rw [evsOf_append, ticked_append, t1, List.singleton_append, List.pairwise_cons]
          refine ⟨fun b hb ca cb ha hcb => ?_, hsw.order⟩
          obtain ⟨d, hd, hlt⟩ := hsw.later b hb
          rw [hd] at hcb
          injection hcb with hcb
          rw [hc'] at ha
          injection ha with ha
          rw [← hcb, ← ha, hkey]
          exact hlt k rfl
        · intro i hmem
          rw [evsOf_append, ticked_append, t1, List.singleton_append, List.mem_cons] at hmem
          rcases hmem with rfl | hmem
          · exact ⟨c', hc', fun p hpp => by rw [hkey]; exact hp p hpp⟩
          · obtain ⟨d, hd, hlt⟩ := hsw.later i hmem
            exact ⟨d, hd, fun p hpp => BitVec.lt_trans (hp p hpp) (hlt k rfl)⟩
      refine ⟨fun s' evs keys h => ?_, fun s' evs x h => ?_⟩
      · simp only [Mgr.sweep, hnx] at h
        obtain ⟨s1, e1, k1, e2, k2, h1, h2, rfl, rfl⟩ := andThen_go h
        obtain ⟨ret, hv, hret⟩ := v1 _ _ _ h1
        have hmv := visited_micros (hn id) hv
        have hi1 := micros_inv hmv hi
        obtain ⟨g1, g2, g3⟩ := (ih (some k) s1 hi1 hf').1 _ _ _ h2
        obtain ⟨sw, c', hc', hkey⟩ := glue _ _ _ _ _ hv g1
        obtain ⟨t1, t2, t3, t4⟩ := hv.tick_only (hn id)
        refine ⟨sw, ⟨?_, ?_⟩, ?_⟩
        · intro i cop io hmem hcl
          rw [evsOf_append, List.mem_append] at hmem
          rcases hmem with hmem | hmem
          · obtain ⟨rfl, hdead⟩ := t2 i cop io hmem hcl
            refine ⟨c', hc', ?_⟩
            rw [hkey]
            rcases hret with ⟨hr, _⟩ | ⟨_, rfl⟩
            · rw [hr] at hdead; unfold Conn.closeRet at hdead; split at hdead <;> cases hdead
            · simp
          · obtain ⟨d, hd, hkd⟩ := g2.closedKey i cop io hmem hcl
            exact ⟨d, hd, List.mem_append.mpr (.inr hkd)⟩
        · intro k' hk'
          rw [List.mem_append] at hk'
          rcases hk' with hk' | hk'
          · rcases hret with ⟨_, rfl⟩ | ⟨hr, rfl⟩
            · simp at hk'
            · simp only [List.mem_singleton] at hk'
              subst hk'
              obtain ⟨cop, io, hmem, hcl⟩ := t3 hr
              refine ⟨id, cop, io, c', by rw [evsOf_append]; exact List.mem_append.mpr (.inl hmem), hcl, hc', hkey.symm,
                fun i hil hend => ?_⟩
              obtain ⟨k0, hk0, rfl⟩ := t4
              have hst := micros_stayed g1.micros hi1 k0 i (Nat.lt_of_lt_of_le hil (micros_length hmv)) hend
              have e1 := tblFind_of_mem hi1.sorted hst
              rw [tblFind_of_mem hi1.sorted hk0] at e1
              injection e1 with e1
              exact e1.symm
          · obtain ⟨i, cop, io, d, hmem, h5, h6, h7, h8⟩ := g2.keyClosed k' hk'
            exact ⟨i, cop, io, d, by rw [evsOf_append]; exact List.mem_append.mpr (.inr hmem), h5, h6, h7,
              fun j hj => h8 j (Nat.lt_of_lt_of_le hj (micros_length hmv))⟩
        · intro k' id' hm' hp' hend
          rw [evsOf_append, ticked_append, List.mem_append]
          rcases nextEntry_least hi.sorted hnx hm' hp' with heq | hlt
          · injection heq with _ hid
            left
            rw [t1, hid]
            simp
          · right
            have hl : id' < s1.heap.length := by
              obtain ⟨d, hd, _⟩ := hi.obj k' id' hm'
              exact Nat.lt_of_lt_of_le (List.getElem?_eq_some_iff.mp hd).1 (micros_length hmv)
            have hmid := micros_stayed g1.micros hi1 k' id' hl hend
            exact g3 k' id' hmid (fun p hpp => by injection hpp with hpp; rw [← hpp]; exact hlt) hend
      · simp only [Mgr.sweep, hnx] at h
        rcases andThen_threw h with h | ⟨s1, e1, k1, e2, h1, h2, rfl⟩
        · have hv := v2 _ _ _ h
          have hmv := visited_micros (hn id) hv
          have := glue _ _ _ s' [] hv ⟨.refl, by simp [ticked], by simp [ticked]⟩
          simpa using this.1
        · obtain ⟨ret, hv, hret⟩ := v1 _ _ _ h1
          have hi1 := micros_inv (visited_micros (hn id) hv) hi
          exact (glue _ _ _ _ _ hv ((ih (some k) s1 hi1 hf').2 _ _ _ h2)).1

/-! ## Waiting -/

/-- Small steps that tick nothing and close nothing. -/
structure Waited (P : Plat) (s s' : Mgr) (evs : List REv) : Prop where
  micros : Micros P false s (evsOf evs) s'
  noTick : ∀ e ∈ evsOf evs, MEv.isTick e = false

theorem Waited.refl {P : Plat} {s : Mgr} : Waited P s s [] := ⟨.refl, by simp⟩

theorem Waited.trans {P : Plat} {a b c : Mgr} {x y : List REv} (h : Waited P a b x) (g : Waited P b c y) :
    Waited P a c (x ++ y) := by
  refine ⟨by rw [evsOf_append]; exact h.micros.trans g.micros, fun e he => ?_⟩
  rw [evsOf_append, List.mem_append] at he
  rcases he with he | he
  · exact h.noTick e he
  · exact g.noTick e he

theorem listener_waited {P : Plat} {id : Nat} {calls : List MOp} (hn : noHandle calls) {s s' : Mgr} {evs : List REv}
    {keys : List (BitVec 16)} (h : Mgr.listener P id calls s = .go s' evs keys) : keys = [] ∧ Waited P s s' evs := by
  obtain ⟨inner, h1, rfl⟩ := listener_go h
  obtain ⟨rfl, h2, _⟩ := nested_go P calls hn s s' inner keys h1
  refine ⟨rfl, by simpa using h2, fun e he => ?_⟩
  simp only [List.cons_append, evsOf_enter, evsOf_append, evsOf_leave, evsOf_nil, List.append_nil] at he
  cases e with
  | conn i cop io =>
    obtain ⟨_, d, rfl⟩ := nested_quiet P calls hn s s' inner [] h1 i cop io he
    rfl
  | _ => rfl

theorem raise_go {th : Option Exn} {s s' : Mgr} {evs : List REv} {keys : List (BitVec 16)}
    (h : Mgr.raise th s = .go s' evs keys) : s' = s ∧ evs = [] ∧ keys = [] := by
  cases th with
  | none =>
    simp only [Mgr.raise, RRes.go.injEq] at h
    exact ⟨h.1.symm, h.2.1.symm, h.2.2.symm⟩
  | some e => simp only [Mgr.raise] at h; cases h

theorem raise_threw {th : Option Exn} {s s' : Mgr} {evs : List REv} {x : Exn}
    (h : Mgr.raise th s = .threw s' evs x) : s' = s ∧ evs = [] := by
  cases th with
  | none => simp only [Mgr.raise] at h; cases h
  | some e =>
    simp only [Mgr.raise, RRes.threw.injEq] at h
    exact ⟨h.1.symm, h.2.1.symm⟩

theorem deliverR_waited (P : Plat) (r : RecvR) (hn : noHandle r.calls) (s : Mgr) :
    (∀ s' evs keys, Mgr.deliverR P r s = .go s' evs keys → keys = [] ∧ Waited P s s' evs) ∧
    (∀ s' evs x, Mgr.deliverR P r s = .threw s' evs x → Waited P s s' evs) := by
  unfold Mgr.deliverR
  cases hd : s.deliver P r.recv with
  | ub => simp
  | throw e =>
    refine ⟨by simp, fun s' evs x h => ?_⟩
    simp only [RRes.threw.injEq] at h
    obtain ⟨rfl, rfl, _⟩ := h
    exact .refl
  | ok q =>
    obtain ⟨s1, evs1⟩ := q
    have hdr := deliver_replay P r.recv s s1 evs1 hd
    have hw : Waited P s s1 (evs1.map .ev) := by
      obtain ⟨h1, h2, h3, h4, h5, h6, h7⟩ := hdr
      rcases h7 with rfl | ⟨id, data, io, rfl, k, hk⟩
      · simp only [applyEvs, Option.some.injEq] at h1
        have : s1 = s := by cases s1; cases s; simp_all
        rw [this]
        exact .refl
      · refine ⟨?_, by simp [MEv.isTick]⟩
        rw [evsOf_map]
        simp only [applyEvs, applyEv] at h1
        split at h1
        · cases h1
        · rename_i h' he
          injection h1 with h1
          subst h1
          split at he
          · cases he
          · rename_i c hc
            split at he
            · cases he
            · rename_i c' evs' hs
              split at he
              · rename_i heq
                injection he with he
                subst heq
                have : s1 = { s with heap := s.heap.set id c' } := by cases s1; cases s; simp_all
                rw [this]
                exact (Micro.conn hk hc hs (by simp)).one
              · cases he
    simp only
    constructor
    · intro s' evs keys h
      obtain ⟨s2, e1, k1, e2, k2, h1, h2, rfl, rfl⟩ := andThen_go h
      simp only [RRes.go.injEq] at h1
      obtain ⟨rfl, rfl, rfl⟩ := h1
      split at h2
      · obtain ⟨s3, e3, k3, e4, k4, h3, h4, rfl, rfl⟩ := andThen_go h2
        obtain ⟨rfl, hl⟩ := listener_waited hn h3
        obtain ⟨rfl, rfl, rfl⟩ := raise_go h4
        exact ⟨rfl, hw.trans (hl.trans .refl)⟩
      · simp only [RRes.go.injEq] at h2
        obtain ⟨rfl, rfl, rfl⟩ := h2
        exact ⟨rfl, hw.trans .refl⟩
    · intro s' evs x h
      rcases andThen_threw h with h | ⟨s2, e1, k1, e2, h1, h2, rfl⟩
      · cases h
      · simp only [RRes.go.injEq] at h1
        obtain ⟨rfl, rfl, rfl⟩ := h1
        split at h2
        · rcases andThen_threw h2 with h2 | ⟨s3, e3, k3, e4, h3, h4, rfl⟩
          · exact absurd h2 (listener_no_throw _ _ _ _ _ _ _)
          · obtain ⟨rfl, rfl⟩ := raise_threw h4
            exact hw.trans ((listener_waited hn h3).2.trans .refl)
        · cases h2

theorem deliverAllR_waited (P : Plat) (rs : List RecvR) (hn : ∀ r ∈ rs, noHandle r.calls) (s : Mgr) :
    (∀ s' evs keys, Mgr.deliverAllR P rs s = .go s' evs keys → keys = [] ∧ Waited P s s' evs) ∧
    (∀ s' evs x, Mgr.deliverAllR P rs s = .threw s' evs x → Waited P s s' evs) := by
  induction rs generalizing s with
  | nil =>
    refine ⟨fun s' evs keys h => ?_, by simp [Mgr.deliverAllR]⟩
    simp only [Mgr.deliverAllR, RRes.go.injEq] at h
    obtain ⟨rfl, rfl, rfl⟩ := h
    exact ⟨rfl, .refl⟩
  | cons r rs ih =>
    have hd := deliverR_waited P r (hn r List.mem_cons_self) s
    have ih' := fun s => ih (fun x hx => hn x (List.mem_cons_of_mem _ hx)) s
    simp only [Mgr.deliverAllR]
    constructor
    · intro s' evs keys h
      obtain ⟨s1, e1, k1, e2, k2, h1, h2, rfl, rfl⟩ := andThen_go h
      obtain ⟨rfl, w1⟩ := hd.1 _ _ _ h1
      obtain ⟨rfl, w2⟩ := (ih' s1).1 _ _ _ h2
      exact ⟨rfl, w1.trans w2⟩
    · intro s' evs x h
      rcases andThen_threw h with h | ⟨s1, e1, k1, e2, h1, h2, rfl⟩
      · exact hd.2 _ _ _ h
      · exact (hd.1 _ _ _ h1).2.trans ((ih' s1).2 _ _ _ h2)

theorem selectLoopR_waited (P : Plat) (stop : Int) (rounds : List RoundR) (hn : roundsNoHandle rounds) (now : Int)
    (s : Mgr) :
    (∀ s' evs keys, Mgr.selectLoopR P stop now rounds s = .go s' evs keys → keys = [] ∧ Waited P s s' evs) ∧
    (∀ s' evs x, Mgr.selectLoopR P stop now rounds s = .threw s' evs x → Waited P s s' evs) := by
  have hwait : ∀ (s : Mgr) tv, Waited P s s [.ev (.waited tv)] := fun s tv => ⟨Micro.wait.one, by simp [MEv.isTick]⟩
  induction rounds generalizing now s with
  | nil =>
    refine ⟨fun s' evs keys h => ?_, by simp [Mgr.selectLoopR]⟩
    simp only [Mgr.selectLoopR, RRes.go.injEq] at h
    obtain ⟨rfl, rfl, rfl⟩ := h
    exact ⟨rfl, hwait _ _⟩
  | cons r rounds ih =>
    have hn' : roundsNoHandle rounds := fun x hx => hn x (List.mem_cons_of_mem _ hx)
    cases r with
    | fail code =>
      refine ⟨by simp [Mgr.selectLoopR], fun s' evs x h => ?_⟩
      simp only [Mgr.selectLoopR, RRes.threw.injEq] at h
      obtain ⟨rfl, rfl, _⟩ := h
      exact hwait _ _
    | ready f m now' =>
      have hd := fun s => deliverAllR_waited P (f :: m) (hn _ List.mem_cons_self) s
      simp only [Mgr.selectLoopR]
      constructor
      · intro s' evs keys h
        obtain ⟨s1, e1, k1, e2, k2, h1, h2, rfl, rfl⟩ := andThen_go h
        simp only [RRes.go.injEq] at h1
        obtain ⟨rfl, rfl, rfl⟩ := h1
        obtain ⟨s3, e3, k3, e4, k4, h3, h4, rfl, rfl⟩ := andThen_go h2
        obtain ⟨rfl, w1⟩ := (hd _).1 _ _ _ h3
        obtain ⟨rfl, w2⟩ := (ih hn' now' s3).1 _ _ _ h4
        exact ⟨rfl, (hwait _ _).trans (w1.trans w2)⟩
      · intro s' evs x h
        rcases andThen_threw h with h | ⟨s1, e1, k1, e2, h1, h2, rfl⟩
        · cases h
        · simp only [RRes.go.injEq] at h1
          obtain ⟨rfl, rfl, rfl⟩ := h1
          rcases andThen_threw h2 with h2 | ⟨s3, e3, k3, e4, h3, h4, rfl⟩
          · exact (hwait _ _).trans ((hd _).2 _ _ _ h2)
          · exact (hwait _ _).trans (((hd _).1 _ _ _ h3).2.trans ((ih hn' now' s3).2 _ _ _ h4))

end Verif.Props
