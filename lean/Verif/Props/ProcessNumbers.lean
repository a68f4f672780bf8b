import Verif.Props.Process

/-!
# C98: the numbers of the connections of a process, and the closing of foreign connections
-/

namespace Verif.Props

open Verif Verif.Spec

/-- What the counters are after a history. -/
structure Counted (p : Proc) (tr : PTrace) : Prop where
  incs : p.mgrs.map Mgr.incarnation = incarnations tr
  idx : ∀ c ∈ openCalls tr, c.1 < (incarnations tr).length
  serial : p.statics.serial = (openCalls tr).length
  t2o : p.statics.t2oId = (firstP2P tr).map fun inc : BitVec 16 =>
    ((inc.setWidth 32 : BitVec 32) <<< 16) + BitVec.ofNat 32 (countCalls MOp.isP2P tr)
  o2t : p.statics.o2tId = if countCalls MOp.isMulticast tr = 0 then none
    else some (BitVec.ofNat 16 (countCalls MOp.isMulticast tr))

theorem countCalls_append (f : MOp → Bool) (a b : PTrace) : countCalls f (a ++ b) = countCalls f a + countCalls f b := by
  simp [countCalls, openCalls_append]

theorem first_append (tr : PTrace) (e : PTrace) (hidx : ∀ c ∈ openCalls tr, c.1 < (incarnations tr).length)
    (he : openCalls e = [] ∨ (openCalls tr).any (fun c => MOp.isP2P c.2) = true) : firstP2P (tr ++ e) = firstP2P tr := by
  unfold firstP2P
  rw [openCalls_append, incs_append, List.find?_append]
  cases hf : (openCalls tr).find? fun c => MOp.isP2P c.2 with
  | some c =>
    have hm := List.mem_of_find?_eq_some hf
    simp only [Option.some_or, Option.bind_some]
    rw [List.getElem?_append_left (hidx c hm)]
  | none =>
    rcases he with he | he
    · simp [he]
    · rw [List.any_eq_true] at he
      obtain ⟨c, hc, hp⟩ := he
      exact absurd hp (by simpa using List.find?_eq_none.mp hf c hc)

/-- Operations that open nothing. -/
theorem counted_other {p p' : Proc} {tr : PTrace} {e : POp × List MEv × MRet} (hc : Counted p tr)
    (ho : openCalls [e] = []) (hs : p'.statics = p.statics)
    (hi : p'.mgrs.map Mgr.incarnation = p.mgrs.map Mgr.incarnation ++ incarnations [e]) : Counted p' (tr ++ [e]) := by
  have hz : ∀ f, countCalls f (tr ++ [e]) = countCalls f tr := fun f => by
    rw [countCalls_append]; simp [countCalls, ho]
  refine ⟨by rw [hi, hc.incs, incs_append], ?_, ?_, ?_, ?_⟩
  · rw [openCalls_append, ho, List.append_nil, incs_append, List.length_append]
    intro c h
    have := hc.idx c h
    omega
  · rw [hs, hc.serial, openCalls_append, ho, List.append_nil]
  · rw [hs, hc.t2o, first_append tr [e] hc.idx (.inl ho), hz]
  · rw [hs, hc.o2t, hz]

theorem counted_open {P : Plat} {p p' : Proc} {tr : PTrace} {i : Nat} {op : MOp} {evs : List MEv} {ret : MRet}
    (hc : Counted p tr) (h : p.step P (.call i op) = .ok p' evs ret) : Counted p' (tr ++ [(.call i op, evs, ret)]) := by
  have hrun := run_incs P p p' [.call i op] [(.call i op, evs, ret)] (by simp [Proc.run, h])
  obtain ⟨m, m', hm, hs, rfl, ho⟩ := call_shape h
  obtain ⟨hinc, hst⟩ := call_statics hs ho
  have hlt := (List.getElem?_eq_some_iff.mp hm).1
  by_cases hop : MOp.isOpen op = true
  · rw [if_pos hop] at hst
    obtain ⟨b1, b2, b3⟩ := bump_parts hst
    have hone : openCalls [(.call i op, evs, ret)] = [(i, op)] := by simp [openCalls, hop]
    have hincs : incarnations [((.call i op : POp), evs, ret)] = [] := rfl
    have hlen : (incarnations tr).length = p.mgrs.length := by rw [← hc.incs, List.length_map]
    refine ⟨by rw [hrun, hc.incs, incs_append], ?_, ?_, ?_, ?_⟩
    · rw [openCalls_append, hone, incs_append, hincs, List.append_nil]
      intro c h
      rw [List.mem_append, List.mem_singleton] at h
      rcases h with h | rfl
      · exact hc.idx c h
      · rw [hlen]; exact hlt
    · simp only
      rw [b1, openCalls_append, hone, List.length_append]
      simp only [hc.serial]
      rfl
    · simp only
      rw [b3, countCalls_append]
      have hcount : countCalls MOp.isP2P [(.call i op, evs, ret)] = if MOp.isP2P op then 1 else 0 := by
        simp [countCalls, hone, List.countP_cons]
      rw [hcount]
      simp only [hc.t2o]
      cases hp : MOp.isP2P op with
      | false =>
        have : firstP2P (tr ++ [(.call i op, evs, ret)]) = firstP2P tr := by
          cases hany : (openCalls tr).any (fun c => MOp.isP2P c.2) with
          | true => exact first_append tr _ hc.idx (.inr hany)
          | false =>
            have hnone : (openCalls tr).find? (fun c => MOp.isP2P c.2) = none := by
              rw [List.find?_eq_none]; intro c hc'; simpa using List.any_eq_false.mp hany c hc'
            unfold firstP2P
            rw [openCalls_append, hone, List.find?_append, hnone]
            simp [hp]
        rw [this]
        simp
      | true =>
        simp only [if_true]
        cases hany : (openCalls tr).any (fun c => MOp.isP2P c.2) with
        | true =>
          rw [first_append tr _ hc.idx (.inr hany)]
          have hsome : ∃ inc, firstP2P tr = some inc := by
            unfold firstP2P
            rw [List.any_eq_true] at hany
            cases hf : (openCalls tr).find? fun c => MOp.isP2P c.2 with
            | none =>
              obtain ⟨c, hc', hp'⟩ := hany
              exact absurd hp' (by simpa using List.find?_eq_none.mp hf c hc')
            | some c => exact ⟨_, List.getElem?_eq_getElem (hc.idx c (List.mem_of_find?_eq_some hf))⟩
          obtain ⟨inc, hsome⟩ := hsome
          rw [hsome]
          simp only [Option.map_some, Mgr.nextT2O, Option.getD_some, Option.some.injEq]
          rw [BitVec.ofNat_add, BitVec.add_assoc]
          rfl
        | false =>
          have hnone : (openCalls tr).find? (fun c => MOp.isP2P c.2) = none := by
            rw [List.find?_eq_none]; intro c hc'; simpa using List.any_eq_false.mp hany c hc'
          have hz : countCalls MOp.isP2P tr = 0 := by
            unfold countCalls; rw [List.countP_eq_zero]; intro c hc'; simpa using List.any_eq_false.mp hany c hc'
          have h1 : firstP2P tr = none := by unfold firstP2P; rw [hnone]; rfl
          have h2 : firstP2P (tr ++ [(.call i op, evs, ret)]) = some m.incarnation := by
            unfold firstP2P
            rw [openCalls_append, hone, List.find?_append, hnone, incs_append, hincs, List.append_nil]
            simp only [Option.none_or, List.find?_cons, hp, Option.bind_some]
            rw [← hc.incs, List.getElem?_map, hm]
            rfl
          rw [h1, h2, hz]
          simp [Mgr.nextT2O]
    · simp only
      rw [b2, countCalls_append]
      have hcount : countCalls MOp.isMulticast [(.call i op, evs, ret)] = if MOp.isMulticast op then 1 else 0 := by
        simp [countCalls, hone, List.countP_cons]
      rw [hcount]
      simp only [hc.o2t]
      cases hp : MOp.isMulticast op with
      | false => simp
      | true =>
        simp only [if_true, Nat.add_one_ne_zero, if_false, Mgr.nextO2T, Option.some.injEq]
        by_cases hz : countCalls MOp.isMulticast tr = 0
        · rw [if_pos hz, hz]
          apply BitVec.eq_of_toNat_eq
          simp only [Option.getD_none, BitVec.toNat_add, BitVec.toNat_setWidth, BitVec.toNat_shiftLeft, Nat.shiftLeft_eq]
          simp
        · rw [if_neg hz, Option.getD_some, BitVec.ofNat_add]
          rfl
  · rw [if_neg hop] at hst
    exact counted_other hc (by simp [openCalls, hop]) hst hrun

theorem counted_run (P : Plat) (p p' : Proc) (ops : List POp) (tr0 tr : PTrace) (hc : Counted p tr0)
    (h : p.run P ops = some (p', tr)) : Counted p' (tr0 ++ tr) := by
  induction ops generalizing p tr0 tr with
  | nil =>
    simp only [Proc.run, Option.some.injEq, Prod.mk.injEq] at h
    obtain ⟨rfl, rfl⟩ := h
    simpa using hc
  | cons op ops ih =>
    obtain ⟨p1, evs, ret, tr', h1, h2, rfl⟩ := prun_cons h
    have hrun := run_incs P p p1 [op] [(op, evs, ret)] (by simp [Proc.run, h1])
    have : Counted p1 (tr0 ++ [(op, evs, ret)]) := by
      cases op with
      | create inc =>
        exact counted_other hc rfl (by simp only [Proc.step] at h1; cases h1; rfl) hrun
      | call i op => exact counted_open hc h1
      | closeOf a b c d => exact counted_other hc rfl (closeOf_shape h1).1 hrun
      | destroy j => exact counted_other hc rfl (by obtain ⟨_, _, _, _, rfl⟩ := destroy_shape h1; rfl) hrun
    have := ih p1 _ tr' this h2
    simpa using this

theorem counted_new : Counted {} [] := ⟨rfl, by simp [openCalls], rfl, rfl, rfl⟩

/-- C98. The numbers of every forward open of a process, whichever manager makes it, after any history `pre`: the
serial number counts the opens of all managers; a point-to-point T→O identifier counts such opens of all managers,
above the random number of the manager that made the first of them; a multicast O→T identifier counts such opens
modulo 65536 only; other identifiers are the user's. -/
theorem C98_numbers (P : Plat) (ops : List POp) (p : Proc) (pre post : PTrace) (i : Nat) (host : String)
    (cp : ConnectionParameters) (large : Bool) (e : OpenEnv) (evs : List MEv) (ret : MRet)
    (h : ({} : Proc).run P ops = some (p, pre ++ (.call i (.forwardOpen host cp large e), evs, ret) :: post)) :
    ∃ v q d rest, evs = .request v q d :: rest ∧
      field d 10 2 = ((openCalls pre).length + 1) % 65536 ∧
      (if MOp.isP2P (.forwardOpen host cp large e) then
        ∃ inc, firstP2P (pre ++ [(.call i (.forwardOpen host cp large e), evs, ret)]) = some inc ∧
          field d 6 4 = (inc.toNat * 65536 + countCalls MOp.isP2P pre + 1) % 2 ^ 32
      else field d 6 4 = cp.t2oNetworkConnectionId.toNat) ∧
      (if MOp.isMulticast (.forwardOpen host cp large e) then field d 2 4 = (countCalls MOp.isMulticast pre + 1) % 65536
      else field d 2 4 = cp.o2tNetworkConnectionId.toNat) := by
  obtain ⟨o1, o2, p1, p2, rfl, h1, h2, _⟩ := prun_split P {} p ops pre post _ h
  simp only at h2
  have hc := counted_run P {} p1 o1 [] pre counted_new h1
  rw [List.nil_append] at hc
  have hc2 := counted_open hc h2
  obtain ⟨m, m', hm, hs, rfl, ho⟩ := call_shape h2
  obtain ⟨d, x, y, _, z, w⟩ := open_request P host cp large e _ m' evs ret hs
  obtain ⟨v, q, d', rest', y', _, _, f3, f4⟩ := C31_first P _ m' host cp large e evs ret hs
  rw [y] at y'
  injection y' with y' _
  injection y' with _ _ y'
  subst y'
  have hone : ∀ f, countCalls f (pre ++ [(.call i (.forwardOpen host cp large e), evs, ret)]) =
      countCalls f pre + if f (.forwardOpen host cp large e) then 1 else 0 := by
    intro f
    rw [countCalls_append]
    simp only [countCalls, openCalls, MOp.isOpen, if_true, List.countP_cons, List.countP_nil, Nat.zero_add]
  refine ⟨_, _, d, x, y, ?_, ?_, ?_⟩
  · rw [w.2.2.2.2.1]
    simp only [Mgr.sentParams, BitVec.toNat_ofNat]
    have := hc2.serial
    simp only [openCalls_append, List.length_append] at this
    rw [this]
    rfl
  · cases hp : MOp.isP2P (.forwardOpen host cp large e) with
    | false => simp only [Bool.false_eq_true, if_false]; exact f3 hp
    | true =>
      simp only [if_true]
      obtain ⟨_, _, d', _, k, y', z', w', _⟩ := p2p_sent hs hp
      rw [y] at y'
      injection y' with y' _
      injection y' with _ _ y'
      subst y'
      have ht := hc2.t2o
      simp only [z'] at ht
      cases hf : firstP2P (pre ++ [(.call i (.forwardOpen host cp large e), evs, ret)]) with
      | none => rw [hf] at ht; cases ht
      | some inc =>
        refine ⟨inc, rfl, ?_⟩
        rw [hf, hone, hp] at ht
        simp only [Option.map_some, Option.some.injEq] at ht
        rw [w', ht]
        have := inc.isLt
        simp only [BitVec.toNat_add, BitVec.toNat_shiftLeft, BitVec.toNat_setWidth, BitVec.toNat_ofNat, Nat.shiftLeft_eq, if_true]
        omega
  · cases hp : MOp.isMulticast (.forwardOpen host cp large e) with
    | false => simp only [Bool.false_eq_true, if_false]; exact f4 hp
    | true =>
      simp only [if_true]
      obtain ⟨_, _, d', _, k, y', z', w', _⟩ := multicast_sent hs hp
      rw [y] at y'
      injection y' with y' _
      injection y' with _ _ y'
      subst y'
      have ht := hc2.o2t
      rw [hone, hp] at ht
      simp only [z', if_true, Nat.add_one_ne_zero, if_false, Option.some.injEq] at ht
      rw [w', ht, BitVec.toNat_ofNat]

/-- C98. Two opens of one process, by the same or by different managers: fewer than 65536 opens apart their serial
numbers differ, and point-to-point T→O identifiers differ if fewer than 2^32 such opens apart. -/
theorem C98_distinct (P : Plat) (ops : List POp) (p : Proc) (pre mid post : PTrace) (i j : Nat) (h1 h2 : String)
    (p1 p2 : ConnectionParameters) (l1 l2 : Bool) (e1 e2 : OpenEnv) (evs1 evs2 : List MEv) (r1 r2 : MRet)
    (h : ({} : Proc).run P ops = some (p, pre ++ (.call i (.forwardOpen h1 p1 l1 e1), evs1, r1) ::
      (mid ++ (.call j (.forwardOpen h2 p2 l2 e2), evs2, r2) :: post))) :
    ∃ v1 q1 d1 rest1 v2 q2 d2 rest2, evs1 = .request v1 q1 d1 :: rest1 ∧ evs2 = .request v2 q2 d2 :: rest2 ∧
      ((openCalls mid).length + 1 < 65536 → field d1 10 2 ≠ field d2 10 2) ∧
      (MOp.isP2P (.forwardOpen h1 p1 l1 e1) = true → MOp.isP2P (.forwardOpen h2 p2 l2 e2) = true →
        countCalls MOp.isP2P mid + 1 < 2 ^ 32 → field d1 6 4 ≠ field d2 6 4) := by
  obtain ⟨v1, q1, d1, x1, y1, s1, t1, _⟩ := C98_numbers P ops p pre _ i h1 p1 l1 e1 evs1 r1 h
  obtain ⟨v2, q2, d2, x2, y2, s2, t2, _⟩ := C98_numbers P ops p
    (pre ++ (.call i (.forwardOpen h1 p1 l1 e1), evs1, r1) :: mid) post j h2 p2 l2 e2 evs2 r2 (by simpa using h)
  refine ⟨v1, q1, d1, x1, v2, q2, d2, x2, y1, y2, fun hl => ?_, fun hp1 hp2 hl => ?_⟩
  · rw [openCalls_append] at s2
    simp only [openCalls, MOp.isOpen, if_true, List.length_append, List.length_cons] at s2
    omega
  · rw [if_pos hp1] at t1
    rw [if_pos hp2] at t2
    obtain ⟨a, ha, ha'⟩ := t1
    obtain ⟨b, hb, hb'⟩ := t2
    obtain ⟨o1, o2, q, q', rfl, g1, g2, _⟩ := prun_split P {} p ops pre _ _ h
    have hc0 := counted_run P {} q o1 [] pre counted_new g1
    rw [List.nil_append] at hc0
    have hc := counted_open hc0 g2
    have hab : a = b := by
      have : firstP2P ((pre ++ [(.call i (.forwardOpen h1 p1 l1 e1), evs1, r1)]) ++
          (mid ++ [(.call j (.forwardOpen h2 p2 l2 e2), evs2, r2)])) = some a := by
        rw [first_append _ _ hc.idx, ha]
        right
        rw [openCalls_append, List.any_append]
        simp [openCalls, MOp.isOpen, hp1]
      simp only [List.append_assoc, List.cons_append, List.nil_append] at this hb
      rw [this] at hb
      injection hb
    subst hab
    have hcnt : countCalls MOp.isP2P (pre ++ (.call i (.forwardOpen h1 p1 l1 e1), evs1, r1) :: mid) =
        countCalls MOp.isP2P pre + 1 + countCalls MOp.isP2P mid := by
      rw [countCalls_append]
      simp only [countCalls, openCalls, MOp.isOpen, if_true, List.countP_cons, hp1]
      omega
    rw [hcnt] at hb'
    have := a.isLt
    omega

/-- C98. Destroying a manager sends nothing and changes no counter; the program can reach only those of its
connections that it keeps. -/
theorem C98_destroy (P : Plat) (p p' : Proc) (i : Nat) (evs : List MEv) (ret : MRet)
    (h : p.step P (.destroy i) = .ok p' evs ret) :
    evs = [] ∧ ret = .unit ∧ p'.statics = p.statics ∧
      ∃ m m', p.mgrs[i]? = some m ∧ p'.mgrs[i]? = some m' ∧ m'.heap = m.heap ∧
        ∀ id, m'.alive id = true ↔ id ∈ m.held := by
  obtain ⟨m, hm, rfl, rfl, rfl⟩ := destroy_shape h
  have hlt := (List.getElem?_eq_some_iff.mp hm).1
  refine ⟨rfl, rfl, rfl, m, _, hm, List.getElem?_set_self hlt, rfl, fun id => ?_⟩
  simp [Mgr.alive]

theorem gone_quiet {P : Plat} {p p' : Proc} {op : POp} {evs : List MEv} {ret : MRet} (h : p.step P op = .ok p' evs ret)
    {i : Nat} (hi : i ∈ p.gone) :
    (∀ o, op = .call i o → ∀ e ∈ evs, ∃ id data, e = .conn id (.setData data) []) ∧ (∀ j id reply, op ≠ .closeOf i j id reply) ∧ op ≠ .destroy i := by
  have hc : p.gone.contains i = true := by simpa using hi
  refine ⟨?_, ?_, ?_⟩
  · rintro o rfl
    simp only [Proc.step, Proc.call] at h
    split at h
    · cases h
    · rename_i m hm
      cases o
      case setData a b =>
        simp only [Proc.callable, Proc.onObject, Bool.true_or, if_true, Mgr.step] at h
        split at h
        · cases h
        · rename_i h1
          cases h
          split at h1
          · cases h1
            intro e he
            exact ⟨a, b, List.mem_singleton.mp he⟩
          · cases h1
            intro e he
            cases he
      case lock a =>
        simp only [Proc.callable, Proc.onObject, Bool.true_or, if_true, Mgr.step] at h
        split at h
        · cases h
        · rename_i h1
          cases h
          split at h1 <;> (cases h1; intro e he; cases he)
      case release a =>
        simp only [Proc.callable, Proc.onObject, Bool.true_or, if_true, Mgr.step] at h
        cases h
        intro e he
        cases he
      all_goals
        simp only [Proc.callable, Proc.onObject, hc, Bool.not_true, Bool.or_false, Bool.false_eq_true, if_false] at h
        cases h
  · rintro j id reply rfl
    simp only [Proc.step, Proc.closeOf, hc, if_true] at h
    split at h <;> cases h
  · rintro rfl
    simp only [Proc.step, Proc.destroy, hc, if_true] at h
    split at h <;> cases h

/-- C98. A destroyed manager never sends anything again: nothing can be called but the connections that the program
keeps, and all that does is to store output data. -/
theorem C98_silent (P : Plat) (p p' : Proc) (i : Nat) (evs : List MEv) (ret : MRet)
    (h : p.step P (.destroy i) = .ok p' evs ret) (ops : List POp) (q : Proc) (tr : PTrace)
    (hr : p'.run P ops = some (q, tr)) :
    (∀ op evs ret, (POp.call i op, evs, ret) ∈ tr → ∀ e ∈ evs, ∃ id data, e = .conn id (.setData data) []) ∧
    (∀ j id reply evs ret, (POp.closeOf i j id reply, evs, ret) ∉ tr) ∧
    (∀ evs ret, (POp.destroy i, evs, ret) ∉ tr) := by
  have hg : i ∈ p'.gone := by
    obtain ⟨_, _, _, _, rfl⟩ := destroy_shape h
    exact List.mem_cons_self
  have all : ∀ x ∈ tr, (∀ o, x.1 = .call i o → ∀ e ∈ x.2.1, ∃ id data, e = .conn id (.setData data) []) ∧ (∀ j id reply, x.1 ≠ .closeOf i j id reply) ∧
      x.1 ≠ .destroy i := by
    clear h
    induction ops generalizing p' tr with
    | nil =>
      simp only [Proc.run, Option.some.injEq, Prod.mk.injEq] at hr
      obtain ⟨_, rfl⟩ := hr
      intro x hx
      cases hx
    | cons op ops ih =>
      obtain ⟨p1, evs, ret, tr', h1, h2, rfl⟩ := prun_cons hr
      intro x hx
      obtain rfl | hx := List.mem_cons.mp hx
      · exact gone_quiet h1 hg
      · refine ih p1 tr' h2 (gone_mono P p' p1 [op] [(op, evs, ret)] ?_ i hg) x hx
        simp only [Proc.run, h1]
  exact ⟨fun op evs ret hx => (all _ hx).1 op rfl, fun j id reply evs ret hx => (all _ hx).2.1 j id reply rfl,
    fun evs ret hx => (all _ hx).2.2 rfl⟩

/-- C98. Closing a connection through its own manager is the `forwardClose` of that manager. -/
theorem C98_own_close (P : Plat) (p : Proc) (i id : Nat) (reply : Outcome MessageRouterResponse) (m : Mgr)
    (hm : p.mgrs[i]? = some m) (hg : i ∉ p.gone) (hst : m.statics = p.statics) :
    p.step P (.closeOf i i id reply) = p.step P (.call i (.forwardClose (some id) reply)) := by
  have hset : p.mgrs.set i m = p.mgrs := by
    have hlt := (List.getElem?_eq_some_iff.mp hm).1
    rw [← (List.getElem?_eq_some_iff.mp hm).2]
    exact List.set_getElem_self hlt
  have hm' : ({ m with statics := p.statics } : Mgr) = m := by rw [← hst]
  simp only [Proc.step, Proc.closeOf, Proc.call, hm, Proc.callable, Proc.onObject, hm', Mgr.step, Mgr.forwardClose]
  have hgone : p.gone.contains i = false := by simpa using hg
  simp only [hgone, Bool.false_eq_true, if_false, Bool.not_false, Bool.or_true, if_true]
  have hp : p = { p with statics := m.statics, mgrs := p.mgrs.set i m } := by rw [hset, hst]
  by_cases ha : m.alive id = true
  · simp only [ha, if_true]
    cases m.heap[id]? with
    | none => simp only; rw [← hp]
    | some c =>
      cases reply with
      | ub => rfl
      | throw x => simp only; rw [← hp]
      | ok r =>
        simp only
        cases tblFind (c.t2oNetworkConnectionId.setWidth 16) m.table with
        | some _ => simp only; rw [hst]
        | none =>
          simp only
          by_cases hn : P.ndebug = true
          · simp only [hn, if_true]; rw [← hp]
          · simp only [hn]
            rfl
  · simp only [ha]
    simp only [Bool.false_eq_true, if_false]
    rw [← hp]

/-- C98 violated for foreign connections: a connection closed through another manager.  The target is asked to close
it, but its own manager keeps it open.  If the manager called has a connection with the same low 16 bits of the
identifier, that one is removed; otherwise the process is aborted, or, without assertions, nothing happens. -/
theorem C98_foreign (P : Plat) (p : Proc) (i j id : Nat) (mi mj : Mgr) (c : Conn) (r : MessageRouterResponse)
    (hi : p.mgrs[i]? = some mi) (hj : p.mgrs[j]? = some mj) (hij : i ≠ j) (hg : i ∉ p.gone)
    (ha : mj.alive id = true) (hc : mj.heap[id]? = some c) :
    ∃ data, field data 2 2 = c.serialNumber.toNat % 65536 ∧ ((∃ e ∈ mi.table, e.1.toNat = c.t2oNetworkConnectionId.toNat % 65536) ∧
        (∃ p' mi', p.step P (.closeOf i j id (.ok r)) = .ok p' [.request 0x4E#8 (EPath.mk2 6 1) data] .unit ∧
          p'.mgrs[j]? = some mj ∧ p'.mgrs[i]? = some mi' ∧
          ∀ e, e ∈ mi'.table ↔ e ∈ mi.table ∧ e.1.toNat ≠ c.t2oNetworkConnectionId.toNat % 65536) ∨
      (∀ e ∈ mi.table, e.1.toNat ≠ c.t2oNetworkConnectionId.toNat % 65536) ∧
        p.step P (.closeOf i j id (.ok r)) = if P.ndebug then .ok p [.request 0x4E#8 (EPath.mk2 6 1) data] .unit
          else .stop [.request 0x4E#8 (EPath.mk2 6 1) data] .aborted) := by
  refine ⟨(Mgr.closeRequest c).pack, ?_, ?_⟩
  · rw [(C19_forwardClose (Mgr.closeRequest c)).2.2.1]
    simp [Mgr.closeRequest]
  have hgone : p.gone.contains i = false := by simpa using hg
  have hlt := (List.getElem?_eq_some_iff.mp hi).1
  simp only [Proc.step, Proc.closeOf, hi, hj, hgone, Bool.false_eq_true, if_false, ha, if_true, hc]
  have hkey : ∀ k : BitVec 16, k.toNat = c.t2oNetworkConnectionId.toNat % 65536 ↔ k = c.t2oNetworkConnectionId.setWidth 16 := by
    intro k
    rw [← BitVec.toNat_inj, BitVec.toNat_setWidth]
  cases hf : tblFind (c.t2oNetworkConnectionId.setWidth 16) mi.table with
  | some x =>
    left
    refine ⟨⟨_, tblFind_mem hf, (hkey _).mpr rfl⟩, _, _, rfl, ?_, List.getElem?_set_self hlt, fun e => ?_⟩
    · simp only; rw [List.getElem?_set_ne hij]; exact hj
    · simp only [tblErase, List.mem_filter, bne_iff_ne, ne_eq, hkey]
  | none =>
    right
    exact ⟨fun e he h => tblFind_none hf e he ((hkey _).mp h), rfl⟩

end Verif.Props
