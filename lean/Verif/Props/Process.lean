import Verif.Spec.Process
import Verif.Props.ManagerOpen

/-!
# C98: several managers in one process
-/

namespace Verif.Props

open Verif Verif.Spec

theorem prun_cons {P : Plat} {p p' : Proc} {op : POp} {ops : List POp} {tr : PTrace}
    (h : p.run P (op :: ops) = some (p', tr)) :
    ∃ p1 evs ret tr', p.step P op = .ok p1 evs ret ∧ p1.run P ops = some (p', tr') ∧ tr = (op, evs, ret) :: tr' := by
  simp only [Proc.run] at h
  split at h
  · rename_i p1 evs ret hs
    split at h
    · cases h
    · rename_i p2 tr' hr
      injection h with h; injection h with h1 h2
      subst h1
      exact ⟨p1, evs, ret, tr', hs, hr, h2.symm⟩
  · cases h

theorem prun_split (P : Plat) (p p' : Proc) (ops : List POp) (pre post : PTrace) (e : POp × List MEv × MRet)
    (h : p.run P ops = some (p', pre ++ e :: post)) :
    ∃ opsPre opsPost p1 p2, ops = opsPre ++ e.1 :: opsPost ∧ p.run P opsPre = some (p1, pre) ∧
      p1.step P e.1 = .ok p2 e.2.1 e.2.2 ∧ p2.run P opsPost = some (p', post) := by
  induction pre generalizing p ops with
  | nil =>
    cases ops with
    | nil => simp [Proc.run] at h
    | cons op ops =>
      obtain ⟨p1, evs, ret, tr', h1, h2, h3⟩ := prun_cons h
      simp only [List.nil_append, List.cons.injEq] at h3
      obtain ⟨rfl, rfl⟩ := h3
      exact ⟨[], ops, p, p1, rfl, rfl, h1, h2⟩
  | cons x pre ih =>
    cases ops with
    | nil => simp [Proc.run] at h
    | cons op ops =>
      obtain ⟨p1, evs, ret, tr', h1, h2, h3⟩ := prun_cons h
      simp only [List.cons_append, List.cons.injEq] at h3
      obtain ⟨rfl, rfl⟩ := h3
      obtain ⟨o1, o2, q1, q2, rfl, g1, g2, g3⟩ := ih p1 ops h2
      exact ⟨op :: o1, o2, q1, q2, rfl, by simp [Proc.run, h1, g1], g2, g3⟩

/-! ## What one operation changes -/

/-- A call, opened up. -/
theorem call_shape {P : Plat} {p p' : Proc} {i : Nat} {op : MOp} {evs : List MEv} {ret : MRet}
    (h : p.step P (.call i op) = .ok p' evs ret) :
    ∃ m m', p.mgrs[i]? = some m ∧ ({ m with statics := p.statics } : Mgr).step P op = .ok m' evs ret ∧
      p' = { p with statics := m'.statics, mgrs := p.mgrs.set i m' } ∧ (∀ a b c, op ≠ .otherOpen a b c) := by
  simp only [Proc.step, Proc.call] at h
  split at h
  · cases h
  · rename_i m hm
    split at h
    · rename_i hc
      split at h
      · cases h
      · rename_i m' evs' ret' hs
        cases h
        exact ⟨m, m', hm, hs, rfl, fun a b c hop => by subst hop; simp [Proc.callable] at hc⟩
    · cases h

/-- A call changes the counters only if it is an open, and then by the caller's number. -/
theorem call_statics {P : Plat} {m m' : Mgr} {op : MOp} {evs : List MEv} {ret : MRet}
    (h : m.step P op = .ok m' evs ret) (ho : ∀ a b c, op ≠ .otherOpen a b c) :
    m'.incarnation = m.incarnation ∧
    (if MOp.isOpen op then Mgr.bumpStatics m.incarnation (MOp.isMulticast op) (MOp.isP2P op) m.statics = some m'.statics
      else m'.statics = m.statics) := by
  have hs := step_statics P m m' op evs ret h
  refine ⟨hs.1, ?_⟩
  cases op with
  | forwardOpen host p large e =>
    obtain ⟨_, _, _, _, h3, _⟩ := open_request P host p large e m m' evs ret h
    exact h3
  | otherOpen a b c => exact absurd rfl (ho a b c)
  | _ => exact hs.2

theorem incs_set (ms : List Mgr) (i : Nat) (m m' : Mgr) (hm : ms[i]? = some m) (he : m'.incarnation = m.incarnation) :
    (ms.set i m').map Mgr.incarnation = ms.map Mgr.incarnation := by
  apply List.ext_getElem?
  intro k
  by_cases hk : i = k
  · subst hk
    have hlt := (List.getElem?_eq_some_iff.mp hm).1
    rw [List.getElem?_map, List.getElem?_map, List.getElem?_set_self hlt, hm]
    simp [he]
  · simp [List.getElem?_set_ne hk]

/-- What a closing of a foreign connection changes. -/
theorem closeOf_shape {P : Plat} {p p' : Proc} {i j id : Nat} {reply : Outcome MessageRouterResponse} {evs : List MEv}
    {ret : MRet} (h : p.step P (.closeOf i j id reply) = .ok p' evs ret) :
    p'.statics = p.statics ∧ p'.gone = p.gone ∧ p'.mgrs.map Mgr.incarnation = p.mgrs.map Mgr.incarnation ∧
      ∀ k, k ≠ i → p'.mgrs[k]? = p.mgrs[k]? := by
  simp only [Proc.step, Proc.closeOf] at h
  split at h
  · rename_i mi mj hi hj
    split at h
    · cases h
    · split at h
      · split at h
        · cases h; exact ⟨rfl, rfl, rfl, fun _ _ => rfl⟩
        · split at h
          · cases h
          · cases h; exact ⟨rfl, rfl, rfl, fun _ _ => rfl⟩
          · split at h
            · cases h
              exact ⟨rfl, rfl, incs_set _ _ _ _ hi rfl, fun k hk => List.getElem?_set_ne (Ne.symm hk)⟩
            · split at h
              · cases h; exact ⟨rfl, rfl, rfl, fun _ _ => rfl⟩
              · cases h
      · cases h; exact ⟨rfl, rfl, rfl, fun _ _ => rfl⟩
  · cases h

theorem destroy_shape {P : Plat} {p p' : Proc} {i : Nat} {evs : List MEv} {ret : MRet}
    (h : p.step P (.destroy i) = .ok p' evs ret) :
    ∃ m, p.mgrs[i]? = some m ∧ evs = [] ∧ ret = .unit ∧
      p' = { p with mgrs := p.mgrs.set i { m with table := [], sockets := [] }, gone := i :: p.gone } := by
  simp only [Proc.step, Proc.destroy] at h
  split at h
  · cases h
  · rename_i m hm
    split at h
    · cases h
    · cases h; exact ⟨m, hm, rfl, rfl, rfl⟩

/-! ## Every manager has a history of its own -/

theorem gone_mono (P : Plat) (p p' : Proc) (ops : List POp) (tr : PTrace) (h : p.run P ops = some (p', tr)) :
    ∀ i ∈ p.gone, i ∈ p'.gone := by
  induction ops generalizing p tr with
  | nil =>
    simp only [Proc.run, Option.some.injEq, Prod.mk.injEq] at h
    rw [h.1]; exact fun _ h => h
  | cons op ops ih =>
    obtain ⟨p1, evs, ret, tr', h1, h2, rfl⟩ := prun_cons h
    intro i hi
    apply ih p1 tr' h2
    cases op with
    | create inc => simp only [Proc.step] at h1; cases h1; exact hi
    | call j op => obtain ⟨_, _, _, _, rfl, _⟩ := call_shape h1; exact hi
    | closeOf a b c d => rw [(closeOf_shape h1).2.1]; exact hi
    | destroy j => obtain ⟨_, _, _, _, rfl⟩ := destroy_shape h1; exact List.mem_cons_of_mem _ hi

theorem view_run (P : Plat) (p p' : Proc) (ops : List POp) (tr : PTrace) (h : p.run P ops = some (p', tr)) (i : Nat)
    (m : Mgr) (hm : p.mgrs[i]? = some m) (hg : i ∉ p'.gone) (hf : NoForeignClose i tr) :
    ∃ m', p'.mgrs[i]? = some m' ∧
      ({ m with statics := p.statics } : Mgr).run P ((viewOf i (p.mgrs.map Mgr.incarnation) tr).map Prod.fst) =
        some ({ m' with statics := p'.statics }, viewOf i (p.mgrs.map Mgr.incarnation) tr) := by
  induction ops generalizing p m tr with
  | nil =>
    simp only [Proc.run, Option.some.injEq, Prod.mk.injEq] at h
    obtain ⟨rfl, rfl⟩ := h
    exact ⟨m, hm, by simp [viewOf, Mgr.run]⟩
  | cons op ops ih =>
    obtain ⟨p1, evs, ret, tr', h1, h2, rfl⟩ := prun_cons h
    have hf' : NoForeignClose i tr' := fun e he => hf e (List.mem_cons_of_mem _ he)
    have hlt := (List.getElem?_eq_some_iff.mp hm).1
    cases op with
    | create inc =>
      simp only [Proc.step] at h1
      cases h1
      obtain ⟨m', g1, g2⟩ := ih _ tr' h2 m (by simp only; rw [List.getElem?_append_left hlt]; exact hm) hf'
      refine ⟨m', g1, ?_⟩
      simp only [List.map_append, List.map_cons, List.map_nil, Mgr.new] at g2
      simp only [viewOf]
      exact g2
    | call j op =>
      obtain ⟨mj, mj', hj, hs, rfl, ho⟩ := call_shape h1
      obtain ⟨hinc, hst⟩ := call_statics hs ho
      have hincs : (p.mgrs.set j mj').map Mgr.incarnation = p.mgrs.map Mgr.incarnation := incs_set _ _ _ _ hj hinc
      by_cases hij : j = i
      · subst hij
        rw [hm] at hj
        injection hj with hj
        subst hj
        obtain ⟨m', g1, g2⟩ := ih _ tr' h2 mj' (by simp [hlt]) hf'
        refine ⟨m', g1, ?_⟩
        simp only [hincs] at g2
        simp only [viewOf, if_true, List.map_cons, Mgr.run, hs]
        simp only [g2]
      · obtain ⟨m', g1, g2⟩ := ih _ tr' h2 m (by simp only; rw [List.getElem?_set_ne hij]; exact hm) hf'
        refine ⟨m', g1, ?_⟩
        simp only [hincs] at g2
        by_cases hop : MOp.isOpen op = true
        · rw [if_pos hop] at hst
          have hget : (p.mgrs.map Mgr.incarnation)[j]?.getD 0 = mj.incarnation := by simp [hj]
          simp only [viewOf, if_neg hij, if_pos hop, List.map_cons, Mgr.run, Mgr.step, hget]
          rw [hst]
          simp only [g2]
        · rw [if_neg hop] at hst
          simp only [viewOf, if_neg hij, if_neg hop]
          rw [hst] at g2
          exact g2
    | closeOf a b c d =>
      have hai : a ≠ i := by
        intro hai
        subst hai
        exact hf _ List.mem_cons_self _ _ _ rfl
      obtain ⟨s1, _, s3, s4⟩ := closeOf_shape h1
      obtain ⟨m', g1, g2⟩ := ih _ tr' h2 m (by rw [s4 i (Ne.symm hai)]; exact hm) hf'
      refine ⟨m', g1, ?_⟩
      rw [s1, s3] at g2
      simp only [viewOf]
      exact g2
    | destroy j =>
      obtain ⟨mj, hj, _, _, rfl⟩ := destroy_shape h1
      have hji : j ≠ i := by
        intro hji
        subst hji
        exact hg (gone_mono P _ p' ops tr' h2 _ List.mem_cons_self)
      obtain ⟨m', g1, g2⟩ := ih _ tr' h2 m (by simp only; rw [List.getElem?_set_ne hji]; exact hm) hf'
      refine ⟨m', g1, ?_⟩
      simp only [incs_set p.mgrs j mj { mj with table := [], sockets := [] } hj rfl] at g2
      simp only [viewOf]
      exact g2

theorem incs_append (a b : PTrace) : incarnations (a ++ b) = incarnations a ++ incarnations b := by
  induction a with
  | nil => rfl
  | cons e a ih =>
    obtain ⟨op, r⟩ := e
    cases op <;> simp [incarnations, ih]

theorem openCalls_append (a b : PTrace) : openCalls (a ++ b) = openCalls a ++ openCalls b := by
  induction a with
  | nil => rfl
  | cons e a ih =>
    obtain ⟨op, r⟩ := e
    cases op with
    | call i op => simp only [List.cons_append, openCalls, ih]; split <;> simp
    | _ => simp [openCalls, ih]

theorem run_incs (P : Plat) (p p' : Proc) (ops : List POp) (tr : PTrace) (h : p.run P ops = some (p', tr)) :
    p'.mgrs.map Mgr.incarnation = p.mgrs.map Mgr.incarnation ++ incarnations tr := by
  induction ops generalizing p tr with
  | nil =>
    simp only [Proc.run, Option.some.injEq, Prod.mk.injEq] at h
    obtain ⟨rfl, rfl⟩ := h
    simp [incarnations]
  | cons op ops ih =>
    obtain ⟨p1, evs, ret, tr', h1, h2, rfl⟩ := prun_cons h
    rw [ih p1 tr' h2]
    cases op with
    | create inc => simp only [Proc.step] at h1; cases h1; simp [incarnations, Mgr.new]
    | call j op =>
      obtain ⟨mj, mj', hj, hs, rfl, ho⟩ := call_shape h1
      simp only [incs_set _ _ _ _ hj (call_statics hs ho).1, incarnations]
    | closeOf a b c d => rw [(closeOf_shape h1).2.2.1]; rfl
    | destroy j =>
      obtain ⟨mj, hj, _, _, rfl⟩ := destroy_shape h1
      simp only [incs_set p.mgrs j mj { mj with table := [], sockets := [] } hj rfl, incarnations]

/-- The history up to the creation of the manager with number `i`. -/
theorem created_at (P : Plat) (p p' : Proc) (ops : List POp) (tr : PTrace) (h : p.run P ops = some (p', tr)) (i : Nat)
    (hi : p.mgrs.length ≤ i) (hi' : i < p'.mgrs.length) :
    ∃ pre inc post opsPre opsPost q, tr = pre ++ (.create inc, [], .unit) :: post ∧ p.run P opsPre = some (q, pre) ∧
      q.mgrs.length = i ∧
      ({ q with mgrs := q.mgrs ++ [Mgr.new inc {}] } : Proc).run P opsPost = some (p', post) := by
  induction ops generalizing p tr with
  | nil =>
    simp only [Proc.run, Option.some.injEq, Prod.mk.injEq] at h
    obtain ⟨rfl, rfl⟩ := h
    omega
  | cons op ops ih =>
    obtain ⟨p1, evs, ret, tr', h1, h2, rfl⟩ := prun_cons h
    have key : p1.mgrs.length ≤ i → ∃ pre inc post opsPre opsPost q,
        (op, evs, ret) :: tr' = pre ++ (.create inc, [], .unit) :: post ∧ p.run P opsPre = some (q, pre) ∧
        q.mgrs.length = i ∧
        ({ q with mgrs := q.mgrs ++ [Mgr.new inc {}] } : Proc).run P opsPost = some (p', post) := by
      intro hle
      obtain ⟨pre, inc, post, o1, o2, q, rfl, g1, g2, g3⟩ := ih p1 tr' h2 hle
      exact ⟨(op, evs, ret) :: pre, inc, post, op :: o1, o2, q, rfl, by simp [Proc.run, h1, g1], g2, g3⟩
    cases op with
    | create inc =>
      simp only [Proc.step] at h1
      cases h1
      by_cases hlen : p.mgrs.length = i
      · exact ⟨[], inc, tr', [], ops, p, rfl, rfl, hlen, h2⟩
      · exact key (by simp; omega)
    | call j op =>
      obtain ⟨mj, mj', hj, hs, rfl, ho⟩ := call_shape h1
      exact key (by simpa using hi)
    | closeOf a b c d =>
      have := congrArg List.length (closeOf_shape h1).2.2.1
      simp only [List.length_map] at this
      exact key (by omega)
    | destroy j =>
      obtain ⟨mj, hj, _, _, rfl⟩ := destroy_shape h1
      exact key (by simpa using hi)

/-- C98. Take any history of a process in which managers are made, called and destroyed in any order, and a manager
that still exists and through which no connection of another manager was closed.  From its construction on, its own
calls and the others' opens are a history of that manager alone, with the same events and results and ending in the
same state.  So whatever is proved of all histories of one manager holds of it. -/
theorem C98_refines (P : Plat) (ops : List POp) (p : Proc) (tr : PTrace) (h : ({} : Proc).run P ops = some (p, tr))
    (i : Nat) (m : Mgr) (hm : p.mgrs[i]? = some m) (hg : i ∉ p.gone) (hf : NoForeignClose i tr) :
    ∃ pre inc post st, tr = pre ++ (.create inc, [], .unit) :: post ∧ (incarnations pre).length = i ∧
      (Mgr.new inc st).run P ((viewOf i (incarnations pre ++ [inc]) post).map Prod.fst) =
        some ({ m with statics := p.statics }, viewOf i (incarnations pre ++ [inc]) post) := by
  have hlt := (List.getElem?_eq_some_iff.mp hm).1
  obtain ⟨pre, inc, post, o1, o2, q, rfl, g1, g2, g3⟩ := created_at P {} p ops tr h i (Nat.zero_le _) hlt
  have hq := run_incs P {} q o1 pre g1
  simp only [List.map_nil, List.nil_append] at hq
  have hf' : NoForeignClose i post := fun e he => hf e (by simp [he])
  obtain ⟨m', k1, k2⟩ := view_run P _ p o2 post g3 i (Mgr.new inc {})
    (by simp only; rw [List.getElem?_append_right (by omega), g2]; simp) hg hf'
  rw [hm] at k1
  injection k1 with k1
  subst k1
  simp only [List.map_append, hq, List.map_cons, List.map_nil, Mgr.new] at k2
  refine ⟨pre, inc, post, q.statics, rfl, by rw [← hq, List.length_map, g2], ?_⟩
  exact k2

/-- C98. Managers do not touch each other: a call of one manager, the destruction of one, the creation of one and the
closing of a connection through one leave all other managers as they are. -/
theorem C98_others (P : Plat) (p p' : Proc) (op : POp) (evs : List MEv) (ret : MRet) (h : p.step P op = .ok p' evs ret)
    (k : Nat) (hk : k < p.mgrs.length) :
    p'.mgrs[k]? = p.mgrs[k]? ∨ (∃ o, op = .call k o) ∨ (∃ j id r, op = .closeOf k j id r) ∨ op = .destroy k := by
  cases op with
  | create inc => simp only [Proc.step] at h; cases h; exact .inl (by simp [List.getElem?_append_left hk])
  | call j o =>
    obtain ⟨mj, mj', hj, hs, rfl, ho⟩ := call_shape h
    by_cases hjk : j = k
    · subst hjk; exact .inr (.inl ⟨o, rfl⟩)
    · exact .inl (by simp only; rw [List.getElem?_set_ne hjk])
  | closeOf a b c d =>
    by_cases hak : a = k
    · subst hak; exact .inr (.inr (.inl ⟨b, c, d, rfl⟩))
    · exact .inl ((closeOf_shape h).2.2.2 k (Ne.symm hak))
  | destroy j =>
    obtain ⟨mj, hj, _, _, rfl⟩ := destroy_shape h
    by_cases hjk : j = k
    · subst hjk; exact .inr (.inr (.inr rfl))
    · exact .inl (by simp only; rw [List.getElem?_set_ne hjk])

end Verif.Props
