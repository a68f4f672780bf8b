import Verif.Props.Descriptors
import Verif.Props.ManagerSample

/-!
# C85: how many descriptors and whose, C86: descriptors that do not fit an `fd_set`
-/

namespace Verif.Props

open Verif Verif.Spec

/-! ## C85: how many -/

theorem dsock_run (P : Plat) (alloc : Alloc) (hf : ∀ l, alloc l ∉ l) {l0 : List Nat} (hl0 : l0.Nodup) {s s' : DMgr} (hi : DInv l0 s)
    (hs : ∃ n, SockInv s.mgr n) (ops : List DOp) (tr : List (DOp × List MEv × MRet)) (h : s.run P alloc ops = some (s', tr)) :
    ∃ n, SockInv s'.mgr n := by
  induction ops generalizing s tr with
  | nil => simp [DMgr.run] at h; rw [← h.1]; exact hs
  | cons op ops ih =>
    obtain ⟨s1, evs, ret, tr', h1, h2, _⟩ := drun_cons h
    obtain ⟨g1, g2⟩ := dstep_spec P alloc hf hl0 hi op evs ret h1
    refine ih g1 ?_ tr' h2
    obtain ⟨n, hn⟩ := hs
    by_cases hd : op = .destroy
    · subst hd
      simp only [DMgr.step] at h1
      split at h1
      · cases h1
      · cases h1
        exact ⟨0, rfl, by omega, by simp [DMgr.destroy, DMgr.collect]⟩
    · have g2 := g2 hd
      split at g2
      · exact ⟨_, (sock_step P _ _ _ _ _ n hn g2).1⟩
      · rw [g2.1]; exact ⟨n, hn⟩

/-- C85. Besides those of the rest of the process there are at most as many descriptors as connections that a pointer
reaches, and one. -/
theorem C85_count (P : Plat) (alloc : Alloc) (hf : ∀ l, alloc l ∉ l) (inc : BitVec 16) (st : Statics) (l0 : List Nat)
    (hl0 : l0.Nodup) (s : DMgr) (ops : List DOp) (tr : List (DOp × List MEv × MRet))
    (h : (DMgr.new inc st l0).run P alloc ops = some (s, tr)) :
    s.fds.opened.length ≤ (othersAfter l0 s.fds.calls).length + 1 + (reachable s.mgr).length := by
  have hi := dinv_run P alloc hf hl0 (dinv_new inc st l0 hl0) ops tr h
  obtain ⟨n, hn⟩ := dsock_run P alloc hf hl0 (dinv_new inc st l0 hl0) ⟨0, rfl, by omega, by simp [DMgr.new, Mgr.new]⟩ ops tr h
  have h1 := hi.perm.length_eq
  have h2 : s.bound.length ≤ 1 := by
    have := hn.len
    rw [hi.socks, List.length_map] at this
    have := hn.one
    omega
  rw [← hi.others]
  simp only [owned, List.length_append, List.length_map] at h1
  omega

/-! ## C86 -/

/-- C86. `handleConnections` is undefined when the descriptor of an implicit socket does not fit an `fd_set`; otherwise
it does what it does without descriptors. -/
theorem C86_defined (P : Plat) (alloc : Alloc) (s : DMgr) (hg : s.gone = false) (start : Nat) (t : Int) (rounds : List Round)
    (ticks : Nat → TickEnv) :
    ((∃ e ∈ s.bound, 1024 ≤ e.2) → s.step P alloc (.call (.handle start t rounds ticks)) = .stop [] .ub) ∧
    ((∀ e ∈ s.bound, e.2 < 1024) →
      DRes.plain (s.step P alloc (.call (.handle start t rounds ticks))) = s.mgr.step P (.handle start t rounds ticks)) := by
  constructor
  · rintro ⟨e, he, hl⟩
    simp only [DMgr.step, hg, DMgr.handle, Bool.false_eq_true, if_false]
    rw [if_pos]
    · rw [List.any_eq_true]
      exact ⟨e, he, decide_eq_true hl⟩
  · intro h
    have hn : ¬ (s.bound.any fun e => decide (fdSetSize ≤ e.2)) = true := by
      rw [List.any_eq_true]
      rintro ⟨e, he, hl⟩
      have := h e he
      have hl : 1024 ≤ e.2 := of_decide_eq_true hl
      omega
    simp only [DMgr.step, hg, DMgr.handle, if_neg hn, Bool.false_eq_true, if_false, Mgr.step]
    split
    · rename_i hs; rw [hs]; rfl
    · rename_i hs; rw [hs]; rfl

/-- C86. Every other operation on a manager that exists does what it does without descriptors. -/
theorem C86_other_operations (P : Plat) (alloc : Alloc) (hf : ∀ l, alloc l ∉ l) (inc : BitVec 16) (st : Statics) (l0 : List Nat)
    (hl0 : l0.Nodup) (s : DMgr) (ops : List DOp) (tr : List (DOp × List MEv × MRet))
    (h : (DMgr.new inc st l0).run P alloc ops = some (s, tr)) (hg : s.gone = false) (op : DOp) (mop : MOp)
    (hp : DOp.plain op = some mop) (hh : isHandle mop = false) :
    DRes.plain (s.step P alloc op) = s.mgr.step P mop := by
  have hi := dinv_run P alloc hf hl0 (dinv_new inc st l0 hl0) ops tr h
  have hcall : ∀ m : MOp, DRes.plain (s.call P m) = s.mgr.step P m := by
    intro m
    unfold DMgr.call
    split
    · rename_i hs; rw [hs]; rfl
    · rename_i hs; rw [hs]; rfl
  cases op with
  | forwardOpen host p large e =>
    injection hp with hp
    rw [← hp]
    simp only [DMgr.step, hg]
    exact (dopen_spec P alloc hf host p large e l0 hl0 s hi hg).1
  | call m =>
    injection hp with hp
    subst hp
    cases m with
    | forwardOpen host p large e =>
      simp only [DMgr.step, hg]
      exact (dopen_spec P alloc hf host p large ⟨e.reply, e.udpErr, { bindErr := e.bindErr }, e.now⟩ l0 hl0 s hi hg).1
    | handle => cases hh
    | otherOpen => simp only [DMgr.step, hg, Bool.false_and, Bool.false_eq_true, if_false]; exact hcall _
    | forwardClose => simp only [DMgr.step, hg, Bool.false_and, Bool.false_eq_true, if_false]; exact hcall _
    | hasOpen => simp only [DMgr.step, hg, Bool.false_and, Bool.false_eq_true, if_false]; exact hcall _
    | setData => simp only [DMgr.step, hg, Bool.false_and, Bool.false_eq_true, if_false]; exact hcall _
    | lock => simp only [DMgr.step, hg, Bool.false_and, Bool.false_eq_true, if_false]; exact hcall _
    | release => simp only [DMgr.step, hg, Bool.false_and, Bool.false_eq_true, if_false]; exact hcall _
  | otherOpens => cases hp
  | otherCloses => cases hp
  | destroy => cases hp

/-- C85. A destroyed manager may not be used at all, while a connection that the user still holds and the pointers to
it go on working as before. -/
theorem C85_destroyed (P : Plat) (alloc : Alloc) (s : DMgr) (hg : s.gone = true) (op : DOp) (mop : MOp)
    (hp : DOp.plain op = some mop) :
    (match (generalizing := false) mop with
      | .setData _ _ | .lock _ | .release _ | .otherOpen _ _ _ => DRes.plain (s.step P alloc op) = s.mgr.step P mop
      | .forwardOpen _ _ _ _ | .forwardClose _ _ | .handle _ _ _ _ | .hasOpen => s.step P alloc op = .stop [] .ub) ∧
    s.step P alloc .destroy = .stop [] .ub := by
  have hcall : ∀ m : MOp, DRes.plain (s.call P m) = s.mgr.step P m := by
    intro m
    unfold DMgr.call
    split
    · rename_i hs; rw [hs]; rfl
    · rename_i hs; rw [hs]; rfl
  refine ⟨?_, by simp only [DMgr.step, hg, if_true]⟩
  cases op with
  | forwardOpen host p large e =>
    have he := Option.some.inj hp
    subst he
    simp only [DMgr.step, hg, if_true]
  | call m =>
    have he := Option.some.inj hp
    subst he
    cases m <;> simp [DMgr.step, hg, DMgr.usesManager, hcall]
  | otherOpens => cases hp
  | otherCloses => cases hp
  | destroy => cases hp

theorem drop_calls (send ids : List Nat) (f : Fds) :
    ∃ rest, (DMgr.drop send ids f).calls = f.calls ++ rest ∧ ∀ c ∈ rest, ∃ fd, c = .shutdown fd ∨ c = .close fd := by
  unfold DMgr.drop
  induction ids generalizing f with
  | nil => exact ⟨[], by simp⟩
  | cons id ids ih =>
    simp only [List.foldl_cons]
    cases h : send[id]? with
    | none => exact ih f
    | some fd =>
      obtain ⟨rest, h1, h2⟩ := ih (udpClose fd f)
      refine ⟨.shutdown fd :: .close fd :: rest, ?_, ?_⟩
      · rw [h1]; simp [udpClose, Fds.note, Fds.remove]
      · intro c hc
        simp only [List.mem_cons] at hc
        rcases hc with rfl | rfl | hc
        · exact ⟨fd, .inl rfl⟩
        · exact ⟨fd, .inr rfl⟩
        · exact h2 c hc

def isSelect : FdCall → Bool
  | .select _ _ => true
  | _ => false

theorem callsOf_selects (s : DMgr) (m : Nat) (hm : maxFd (s.bound.map (·.2)) = some m) (evs : List MEv)
    : (evs.flatMap s.callsOf).countP isSelect = evs.countP MEv.isWait := by
  induction evs with
  | nil => rfl
  | cons e es ih =>
    rw [List.flatMap_cons, List.countP_append, ih, List.countP_cons]
    have : (s.callsOf e).countP isSelect = if MEv.isWait e = true then 1 else 0 := by
      cases e with
      | waited tv => simp [DMgr.callsOf, hm, isSelect, MEv.isWait]
      | conn id op evs =>
        simp only [MEv.isWait, Bool.false_eq_true, if_false]
        rw [List.countP_eq_zero]
        intro c hc
        simp only [DMgr.callsOf, List.mem_filterMap] at hc
        obtain ⟨ev, _, hc⟩ := hc
        split at hc
        · injection hc with hc; rw [← hc]; simp [isSelect]
        · cases hc
      | _ => simp [DMgr.callsOf, MEv.isWait]
    omega

/-- C86. Each wait watches exactly the implicit sockets of the manager, all of them below the limit given to the system,
which is at most the size of an `fd_set`. -/
theorem C86_watched (P : Plat) (alloc : Alloc) (hf : ∀ l, alloc l ∉ l) (inc : BitVec 16) (st : Statics) (l0 : List Nat)
    (hl0 : l0.Nodup) (s s' : DMgr) (ops : List DOp) (tr : List (DOp × List MEv × MRet))
    (hrun : (DMgr.new inc st l0).run P alloc ops = some (s, tr)) (start : Nat) (t : Int) (rounds : List Round) (ticks : Nat → TickEnv)
    (evs : List MEv) (ret : MRet) (h : s.step P alloc (.call (.handle start t rounds ticks)) = .ok s' evs ret) :
    ∃ calls rest, s'.fds.calls = s.fds.calls ++ calls ++ rest ∧ calls.countP isSelect = evs.countP MEv.isWait ∧
      (∀ nfds fds, FdCall.select nfds fds ∈ calls → fds = s.bound.map (·.2) ∧ fds ≠ [] ∧ (∀ fd ∈ fds, fd < nfds) ∧ nfds ≤ 1024) ∧
      ∀ c ∈ rest, ∃ fd, c = .shutdown fd ∨ c = .close fd := by
  have hi := dinv_run P alloc hf hl0 (dinv_new inc st l0 hl0) ops tr hrun
  simp only [DMgr.step] at h
  split at h
  · cases h
  · unfold DMgr.handle at h
    split at h
    · cases h
    · rename_i hb
      split at h
      · cases h
      · rename_i m evs1 ret1 hm
        cases h
        have hsock : s.bound.map (·.2) ≠ [] := by
          intro he
          have hb0 : s.bound = [] := by simpa using he
          have : s.mgr.sockets = [] := by rw [hi.socks, hb0]; rfl
          unfold Mgr.handle at hm; rw [this] at hm; cases hm
        obtain ⟨mx, hmx⟩ : ∃ mx, maxFd (s.bound.map (·.2)) = some mx := by
          cases hl : s.bound.map (·.2) with
          | nil => exact absurd hl hsock
          | cons a l => exact ⟨_, rfl⟩
        obtain ⟨rest, h1, h2⟩ := drop_calls s.send (DMgr.died s.mgr m) (s.fds.note (evs.flatMap s.callsOf))
        refine ⟨evs.flatMap s.callsOf, rest, h1, callsOf_selects s mx hmx evs, ?_, h2⟩
        intro nfds fds hc
        rw [List.mem_flatMap] at hc
        obtain ⟨e, _, hc⟩ := hc
        obtain ⟨q1, q2⟩ := maxFd_spec hmx
        cases e with
        | waited tv =>
          simp only [DMgr.callsOf, hmx, Option.toList_some, List.map_cons, List.map_nil, List.mem_singleton] at hc
          injection hc with e1 e2
          subst e1 e2
          refine ⟨rfl, hsock, fun fd hfd => Nat.lt_succ_of_le (q2 fd hfd), ?_⟩
          rw [List.mem_map] at q1
          obtain ⟨x, hx, rfl⟩ := q1
          have : ¬ fdSetSize ≤ x.2 := fun hle => hb (by rw [List.any_eq_true]; exact ⟨x, hx, by simpa using hle⟩)
          simp only [fdSetSize] at this
          omega
        | conn id op io =>
          simp only [DMgr.callsOf, List.mem_filterMap] at hc
          obtain ⟨ev, _, hc⟩ := hc
          split at hc
          · injection hc with hc; cases hc
          · cases hc
        | _ => simp [DMgr.callsOf] at hc

/-! ### Lowest descriptors -/

theorem lowest_le {alloc : Alloc} (h : Lowest alloc) {l : List Nat} : alloc l ≤ l.length := by
  have hsub : ∀ n, n ≤ alloc l → (List.range n) ⊆ l := by
    intro n hn x hx
    rw [List.mem_range] at hx
    exact (h l).2 x (by omega)
  have := List.Nodup.length_le_of_subset List.nodup_range (hsub _ (Nat.le_refl _))
  simpa using this

theorem put_mem {ep : EndPoint} {fd : Nat} {b : List (EndPoint × Nat)} {x : EndPoint × Nat} (h : x ∈ DMgr.put ep fd b) :
    x = (ep, fd) ∨ x ∈ b := by
  induction b with
  | nil => simpa [DMgr.put] using h
  | cons e es ih =>
    simp only [DMgr.put] at h
    split at h
    · rw [List.mem_cons] at h
      rcases h with rfl | h
      · exact .inr List.mem_cons_self
      · rcases ih h with h | h
        · exact .inl h
        · exact .inr (List.mem_cons_of_mem _ h)
    · rw [List.mem_cons] at h
      exact h

theorem mem_put {ep : EndPoint} {fd : Nat} {b : List (EndPoint × Nat)} {x : EndPoint × Nat} (h : x = (ep, fd) ∨ x ∈ b) :
    x ∈ DMgr.put ep fd b := by
  induction b with
  | nil => simpa [DMgr.put] using h
  | cons e es ih =>
    simp only [DMgr.put]
    split
    · rcases h with h | h
      · exact List.mem_cons_of_mem _ (ih (.inl h))
      · rw [List.mem_cons] at h
        rcases h with rfl | h
        · exact List.mem_cons_self
        · exact List.mem_cons_of_mem _ (ih (.inr h))
    · rw [List.mem_cons]
      exact h

theorem findOrCreate_bound {alloc : Alloc} {ep : EndPoint} {e : BoundEnv} {b b' : List (EndPoint × Nat)} {f f' : Fds} {evs : List MEv}
    (h : DMgr.findOrCreate alloc ep e b f = .ok f' (b', evs)) :
    (b' = b ∧ evs = []) ∨ (b' = DMgr.put ep (alloc f.opened) b ∧ evs = [.bound ep]) := by
  unfold DMgr.findOrCreate at h
  split at h
  · cases h; exact .inl ⟨rfl, rfl⟩
  · split at h
    · cases h
    · cases h
    · rename_i f1 fd hb
      cases h
      refine .inr ⟨?_, rfl⟩
      unfold udpBoundOpen udpOpen at hb
      cases h1 : e.sockErr with
      | some x => rw [h1] at hb; cases hb
      | none =>
        cases h2 : e.reuseErr with
        | some x => rw [h1, h2] at hb; cases hb
        | none =>
          cases h3 : e.bindErr with
          | some x => rw [h1, h2, h3] at hb; cases hb
          | none => rw [h1, h2, h3] at hb; cases hb; rfl

/-- The descriptor of an implicit socket that a forward open makes is the second one it asks the system for. -/
theorem dopen_bound (P : Plat) (alloc : Alloc) (host : String) (p : ConnectionParameters) (large : Bool) (e : DOpenEnv)
    (s s' : DMgr) (evs : List MEv) (ret : MRet) (h : s.forwardOpen P alloc host p large e = .ok s' evs ret) :
    (s'.bound = s.bound ∧ ∀ ep, MEv.bound ep ∉ evs) ∨
    ∀ x, x ∈ s'.bound ↔ x = (EndPoint.ofHost P.aton host 2222, alloc (alloc s.fds.opened :: s.fds.opened)) ∨ x ∈ s.bound := by
  unfold DMgr.forwardOpen at h
  split at h
  · cases h
  dsimp only at h
  split at h
  · cases h
  · cases h
  split at h
  · cases h
  · cases h; exact .inl ⟨rfl, by simp⟩
  split at h
  case isFalse => cases h; exact .inl ⟨rfl, by simp⟩
  unfold DMgr.accept at h
  split at h
  · cases h
  · cases h; exact .inl ⟨rfl, by simp⟩
  split at h
  · cases h
  · cases h; exact .inl ⟨rfl, by simp⟩
  split at h
  · cases h
  · cases h; exact .inl ⟨rfl, by simp⟩
  split at h
  · cases h
  · cases h; exact .inl ⟨rfl, by simp⟩
  rename_i f fd hu
  have hfo : f.opened = alloc s.fds.opened :: s.fds.opened := by
    unfold udpOpen at hu
    split at hu
    · cases hu
    · cases hu; rfl
  split at h
  · cases h
  · cases h; exact .inl ⟨rfl, by simp⟩
  · rename_i f' b' evs' hfc
    cases h
    rcases findOrCreate_bound hfc with ⟨rfl, rfl⟩ | ⟨rfl, rfl⟩
    · exact .inl ⟨rfl, by simp⟩
    · right
      rw [hfo]
      exact fun x => ⟨put_mem, mem_put⟩

theorem dstep_bound (P : Plat) (alloc : Alloc) (s s' : DMgr) (op : DOp) (evs : List MEv) (ret : MRet)
    (h : s.step P alloc op = .ok s' evs ret) :
    (∀ x ∈ s'.bound, x.2 = alloc (alloc s.fds.opened :: s.fds.opened) ∨ x ∈ s.bound) ∧
    (op ≠ .destroy → ∀ x ∈ s.bound, x ∈ s'.bound) := by
  have hopen : ∀ host p large e, s.forwardOpen P alloc host p large e = .ok s' evs ret →
      (∀ x ∈ s'.bound, x.2 = alloc (alloc s.fds.opened :: s.fds.opened) ∨ x ∈ s.bound) ∧ ∀ x ∈ s.bound, x ∈ s'.bound := by
    intro host p large e h
    rcases dopen_bound P alloc host p large e s s' evs ret h with ⟨h, _⟩ | h
    · rw [h]; exact ⟨fun x hx => .inr hx, fun x hx => hx⟩
    · refine ⟨fun x hx => ?_, fun x hx => (h x).2 (.inr hx)⟩
      rcases (h x).1 hx with h | h
      · exact .inl (by rw [h])
      · exact .inr h
  have hsame : s'.bound = s.bound → (∀ x ∈ s'.bound, x.2 = alloc (alloc s.fds.opened :: s.fds.opened) ∨ x ∈ s.bound) ∧
      (op ≠ .destroy → ∀ x ∈ s.bound, x ∈ s'.bound) := by
    intro h; rw [h]; exact ⟨fun x hx => .inr hx, fun _ x hx => hx⟩
  have hcall : ∀ m, s.call P m = .ok s' evs ret → s'.bound = s.bound := by
    intro m h
    unfold DMgr.call at h
    split at h
    · cases h
    · cases h; rfl
  have hhandle : ∀ a b c d, s.handle P a b c d = .ok s' evs ret → s'.bound = s.bound := by
    intro a b c d h
    unfold DMgr.handle at h
    split at h
    · cases h
    · split at h
      · cases h
      · cases h; rfl
  cases op with
  | forwardOpen host p large e =>
    simp only [DMgr.step] at h
    split at h
    · cases h
    · have := hopen _ _ _ _ h; exact ⟨this.1, fun _ => this.2⟩
  | call m =>
    simp only [DMgr.step] at h
    cases m with
    | forwardOpen host p large e =>
      simp only at h
      split at h
      · cases h
      · have := hopen _ _ _ _ h; exact ⟨this.1, fun _ => this.2⟩
    | handle a b c d =>
      simp only at h
      split at h
      · cases h
      · exact hsame (hhandle _ _ _ _ h)
    | _ =>
      simp only at h
      split at h
      · cases h
      · exact hsame (hcall _ h)
  | otherOpens => simp only [DMgr.step] at h; cases h; exact hsame rfl
  | otherCloses fd =>
    simp only [DMgr.step] at h
    split at h <;> cases h <;> exact hsame rfl
  | destroy =>
    simp only [DMgr.step] at h
    split at h
    · cases h
    · cases h
      exact ⟨fun x hx => absurd hx (by simp [DMgr.destroy, DMgr.collect]), fun h => absurd rfl h⟩

theorem drun_snoc {P : Plat} {alloc : Alloc} {s s1 s2 : DMgr} {ops : List DOp} {tr : List (DOp × List MEv × MRet)} {op : DOp}
    {evs : List MEv} {ret : MRet} (h : s.run P alloc ops = some (s1, tr)) (h2 : s1.step P alloc op = .ok s2 evs ret) :
    s.run P alloc (ops ++ [op]) = some (s2, tr ++ [(op, evs, ret)]) := by
  induction ops generalizing s tr with
  | nil => simp [DMgr.run] at h; obtain ⟨rfl, rfl⟩ := h; simp [DMgr.run, h2]
  | cons o os ih =>
    obtain ⟨a, ev, r, tr', h3, h4, rfl⟩ := drun_cons h
    simp only [List.cons_append, DMgr.run, h3, ih h4]

/-- C86. If the system gives the lowest free descriptor, as POSIX says, and the process never has more than 1022 open
between two operations, then the descriptor of every implicit socket fits, so `handleConnections` is defined as far as
descriptors are concerned. -/
theorem C86_posix (P : Plat) (alloc : Alloc) (hlow : Lowest alloc) (inc : BitVec 16) (st : Statics) (l0 : List Nat)
    (s : DMgr) (ops : List DOp) (tr : List (DOp × List MEv × MRet))
    (h : (DMgr.new inc st l0).run P alloc ops = some (s, tr)) (hn : NeverMore P alloc (DMgr.new inc st l0) 1022 ops) :
    ∀ e ∈ s.bound, e.2 < 1024 := by
  have key : ∀ (ops : List DOp) (a s : DMgr) (tr : List (DOp × List MEv × MRet)), (∀ e ∈ a.bound, e.2 < 1024) →
      a.run P alloc ops = some (s, tr) → NeverMore P alloc a 1022 ops → ∀ e ∈ s.bound, e.2 < 1024 := by
    intro ops
    induction ops with
    | nil => intro a s tr ha h _; simp [DMgr.run] at h; rw [← h.1]; exact ha
    | cons op ops ih =>
      intro a s tr ha h hn
      obtain ⟨s1, evs, ret, tr', h1, h2, rfl⟩ := drun_cons h
      refine ih s1 s tr' (fun e he => ?_) h2 (hn.2 _ _ _ h1)
      rcases (dstep_bound P alloc a s1 op evs ret h1).1 e he with h | h
      · have := lowest_le hlow (l := alloc a.fds.opened :: a.fds.opened)
        have := hn.1
        simp only [List.length_cons] at *
        omega
      · exact ha e h
  exact key ops _ s tr (by simp [DMgr.new]) h hn

theorem drun_keeps (P : Plat) (alloc : Alloc) (s s' : DMgr) (ops : List DOp) (tr : List (DOp × List MEv × MRet))
    (h : s.run P alloc ops = some (s', tr)) (hd : DOp.destroy ∉ ops) : ∀ x ∈ s.bound, x ∈ s'.bound := by
  induction ops generalizing s tr with
  | nil => simp [DMgr.run] at h; rw [← h.1]; exact fun x hx => hx
  | cons op ops ih =>
    obtain ⟨s1, evs, ret, tr', h1, h2, rfl⟩ := drun_cons h
    intro x hx
    exact ih s1 tr' h2 (fun h => hd (List.mem_cons_of_mem _ h)) x
      ((dstep_bound P alloc s s1 op evs ret h1).2 (fun h => hd (by rw [h]; exact List.mem_cons_self)) x hx)

/-- C86. A forward open that makes the implicit socket while the descriptors 0 to 1022 are open succeeds, and from then
on every call of `handleConnections` is undefined, even when all other descriptors have been closed. -/
theorem C86_full_violated (P : Plat) (alloc : Alloc) (hlow : Lowest alloc) (s s1 s2 : DMgr) (host : String) (p : ConnectionParameters)
    (large : Bool) (e : DOpenEnv) (evs : List MEv) (ret : MRet) (ep : EndPoint)
    (hs : s.step P alloc (.forwardOpen host p large e) = .ok s1 evs ret) (hb : MEv.bound ep ∈ evs)
    (hfull : ∀ n < 1023, n ∈ s.fds.opened) (ops : List DOp) (tr : List (DOp × List MEv × MRet))
    (h : s1.run P alloc ops = some (s2, tr)) (hd : DOp.destroy ∉ ops)
    (start : Nat) (t : Int) (rounds : List Round) (ticks : Nat → TickEnv) :
    s2.step P alloc (.call (.handle start t rounds ticks)) = .stop [] .ub := by
  simp only [DMgr.step] at hs
  split at hs
  · cases hs
  rcases dopen_bound P alloc host p large e s s1 evs ret hs with ⟨_, hn⟩ | hx
  · exact absurd hb (hn ep)
  · have hm := (hx _).2 (.inl rfl)
    have hm2 := drun_keeps P alloc s1 s2 ops tr h hd _ hm
    have hlarge : 1024 ≤ alloc (alloc s.fds.opened :: s.fds.opened) := by
      have hge : ∀ l : List Nat, ∀ k, (∀ n < k, n ∈ l) → k ≤ alloc l := by
        intro l k hk
        rcases Nat.lt_or_ge (alloc l) k with hlt | hge
        · exact absurd (hk _ hlt) (hlow l).1
        · exact hge
      have h1 := hge s.fds.opened 1023 hfull
      refine hge _ 1024 fun n hn => ?_
      rw [List.mem_cons]
      by_cases h3 : n < 1023
      · exact .inr (hfull n h3)
      · by_cases h4 : alloc s.fds.opened = n
        · exact .inl h4.symm
        · right
          exact (hlow s.fds.opened).2 n (by omega)
    simp only [DMgr.step, DMgr.handle]
    split
    · rfl
    · rw [if_pos]
      rw [List.any_eq_true]
      exact ⟨_, hm2, decide_eq_true hlarge⟩

/-- The lowest number that is not in the list, searching upwards. -/
def lowestFrom (l : List Nat) : Nat → Nat → Nat
  | 0, n => n
  | fuel + 1, n => if n ∈ l then lowestFrom l fuel (n + 1) else n

/-- An allocator as POSIX wants it. -/
def posixAlloc : Alloc := fun l => lowestFrom l (l.length + 1) 0

theorem lowestFrom_spec (l : List Nat) (fuel n : Nat) (hn : ∀ m < n, m ∈ l) (hf : l.length < n + fuel) :
    lowestFrom l fuel n ∉ l ∧ ∀ m < lowestFrom l fuel n, m ∈ l := by
  induction fuel generalizing n with
  | zero =>
    exfalso
    have hsub : List.range n ⊆ l := fun x hx => hn x (List.mem_range.1 hx)
    have := List.Nodup.length_le_of_subset List.nodup_range hsub
    simp at this
    omega
  | succ fuel ih =>
    simp only [lowestFrom]
    split
    · rename_i hm
      refine ih (n + 1) (fun m h => ?_) (by omega)
      rcases Nat.lt_or_eq_of_le (Nat.le_of_lt_succ h) with h | rfl
      · exact hn m h
      · exact hm
    · rename_i hm
      exact ⟨hm, hn⟩

theorem posixAlloc_lowest : Lowest posixAlloc := fun l => lowestFrom_spec l _ 0 (by simp) (by omega)

/-! ## C85: the address of the implicit sockets -/

/-- `0.0.0.0`, port 2222: in memory the port is the bytes 0x08, 0xAE. -/
def anyHost2222 : SockAddr := { family := 2, port := 0xAE08, addr := 0 }

theorem udpClose_mem {fd : Nat} {f : Fds} {c : FdCall} (h : c ∈ (udpClose fd f).calls) :
    c ∈ f.calls ∨ c = .shutdown fd ∨ c = .close fd := by
  simp only [udpClose, Fds.note, Fds.remove, List.mem_append, List.mem_singleton, or_assoc] at h
  exact h

theorem closeAll_mem {fds : List Nat} {f : Fds} {c : FdCall} (h : c ∈ (fds.foldl (fun f fd => udpClose fd f) f).calls) :
    c ∈ f.calls ∨ ∃ fd, c = .shutdown fd ∨ c = .close fd := by
  induction fds generalizing f with
  | nil => exact .inl h
  | cons fd fds ih =>
    rcases ih h with h | h
    · rcases udpClose_mem h with h | h
      · exact .inl h
      · exact .inr ⟨fd, h⟩
    · exact .inr h

theorem collect_mem {s : DMgr} {m : Mgr} {c : FdCall} (h : c ∈ (s.collect m).fds.calls) :
    c ∈ s.fds.calls ∨ ∃ fd, c = .shutdown fd ∨ c = .close fd := by
  obtain ⟨rest, h1, h2⟩ := drop_calls s.send (DMgr.died s.mgr m) s.fds
  simp only [DMgr.collect, h1, List.mem_append] at h
  rcases h with h | h
  · exact .inl h
  · exact .inr (h2 c h)

theorem boundOpen_bind {alloc : Alloc} {e : BoundEnv} {ep : EndPoint} {f : Fds} {fd : Nat} {a : SockAddr} :
    (∀ f' x, udpBoundOpen alloc e ep f = .throw f' x → .bind fd a ∈ f'.calls → .bind fd a ∈ f.calls ∨ a = { ep.addr with addr := 0 }) ∧
    (∀ f' x, udpBoundOpen alloc e ep f = .ok f' x → .bind fd a ∈ f'.calls → .bind fd a ∈ f.calls ∨ a = { ep.addr with addr := 0 }) := by
  obtain ⟨e1, e2, e3⟩ := e
  constructor
  all_goals
    intro f' x h hm
    simp only [udpBoundOpen, udpOpen] at h
    cases e1 <;> cases e2 <;> cases e3 <;> simp only at h <;> first
      | (cases h; done)
      | (cases h; simpa [udpClose, Fds.note, Fds.add, Fds.remove] using hm)
      | (cases h
         simp [udpClose, Fds.note, Fds.add, Fds.remove] at hm
         rcases hm with hm | hm
         · exact .inl hm
         · exact .inr hm.2)
      | (cases h
         exact .inl (by simpa [udpClose, Fds.note, Fds.add, Fds.remove] using hm))

theorem dopen_bind (P : Plat) (alloc : Alloc) (host : String) (p : ConnectionParameters) (large : Bool) (e : DOpenEnv)
    (s s' : DMgr) (evs : List MEv) (ret : MRet) (h : s.forwardOpen P alloc host p large e = .ok s' evs ret) (fd : Nat) (a : SockAddr)
    (hm : .bind fd a ∈ s'.fds.calls) : .bind fd a ∈ s.fds.calls ∨ a = anyHost2222 := by
  unfold DMgr.forwardOpen at h
  split at h
  · cases h
  dsimp only at h
  split at h
  · cases h
  · cases h
  split at h
  · cases h
  · cases h; exact .inl hm
  split at h
  case isFalse => cases h; exact .inl hm
  unfold DMgr.accept at h
  split at h
  · cases h
  · cases h; exact .inl hm
  split at h
  · cases h
  · cases h; exact .inl hm
  split at h
  · cases h
  · cases h; exact .inl hm
  have hopen : ∀ f : Fds, (∃ x, udpOpen alloc e.sockErr s.fds = .ok f x ∨ ∃ y, udpOpen alloc e.sockErr s.fds = .throw f y ∧ x = 0) →
      .bind fd a ∈ f.calls → FdCall.bind fd a ∈ s.fds.calls := by
    rintro f ⟨x, h⟩ hm
    unfold udpOpen at h
    split at h
    · rcases h with h | ⟨y, h, _⟩
      · cases h
      · cases h; simpa [Fds.note] using hm
    · rcases h with h | ⟨y, h, _⟩
      · cases h; simpa [Fds.add] using hm
      · cases h
  have hfind : ∀ (f f' : Fds) , ((∃ x, DMgr.findOrCreate alloc (EndPoint.ofHost P.aton host Mgr.implicitPort) e.bound s.bound f = .ok f' x) ∨
      ∃ x, DMgr.findOrCreate alloc (EndPoint.ofHost P.aton host Mgr.implicitPort) e.bound s.bound f = .throw f' x) →
      .bind fd a ∈ f'.calls → FdCall.bind fd a ∈ f.calls ∨ a = anyHost2222 := by
    intro f f' h hm
    have hw : ({ (EndPoint.ofHost P.aton host Mgr.implicitPort).addr with addr := 0 } : SockAddr) = anyHost2222 := by
      simp only [EndPoint.ofHost, anyHost2222]
      decide
    rw [← hw]
    unfold DMgr.findOrCreate at h
    split at h
    · rcases h with ⟨x, h⟩ | ⟨x, h⟩
      · cases h; exact .inl hm
      · cases h
    · split at h
      · rcases h with ⟨x, h⟩ | ⟨x, h⟩ <;> cases h
      · rename_i h1
        rcases h with ⟨x, h⟩ | ⟨x, h⟩
        · cases h
        · cases h; exact boundOpen_bind.1 _ _ h1 hm
      · rename_i h1
        rcases h with ⟨x, h⟩ | ⟨x, h⟩
        · cases h; exact boundOpen_bind.2 _ _ h1 hm
        · cases h
  split at h
  · cases h
  · rename_i f x hu
    cases h
    exact .inl (hopen f ⟨0, .inr ⟨x, hu, rfl⟩⟩ hm)
  rename_i f fd' hu
  split at h
  · cases h
  · rename_i f' x hfc
    cases h
    rcases udpClose_mem hm with hm | hm
    · rcases hfind f f' (.inr ⟨x, hfc⟩) hm with hm | hm
      · exact .inl (hopen f ⟨fd', .inl hu⟩ hm)
      · exact .inr hm
    · simp at hm
  · rename_i f' b' evs' hfc
    cases h
    have hm' : FdCall.bind fd a ∈ f'.calls := by
      simp only [DMgr.keep] at hm
      split at hm
      · exact hm
      · rcases udpClose_mem hm with hm | hm
        · exact hm
        · simp at hm
    rcases hfind f f' (.inl ⟨_, hfc⟩) hm' with hm | hm
    · exact .inl (hopen f ⟨fd', .inl hu⟩ hm)
    · exact .inr hm

/-- C85. Every socket that is bound is bound to port 2222 of all addresses of the host, whatever the address of the target. -/
theorem C85_bind (P : Plat) (alloc : Alloc) (inc : BitVec 16) (st : Statics) (l0 : List Nat)
    (s : DMgr) (ops : List DOp) (tr : List (DOp × List MEv × MRet))
    (h : (DMgr.new inc st l0).run P alloc ops = some (s, tr)) (fd : Nat) (a : SockAddr) (hm : .bind fd a ∈ s.fds.calls) :
    a = anyHost2222 := by
  have hstep : ∀ (s s' : DMgr) op evs ret, s.step P alloc op = .ok s' evs ret → .bind fd a ∈ s'.fds.calls →
      .bind fd a ∈ s.fds.calls ∨ a = anyHost2222 := by
    intro s s' op evs ret h hm
    have hcollect : ∀ (t : DMgr) (m : Mgr), FdCall.bind fd a ∈ (t.collect m).fds.calls → .bind fd a ∈ t.fds.calls := by
      intro t m h
      rcases collect_mem h with h | ⟨x, h⟩
      · exact h
      · simp at h
    have hcall : ∀ m, s.call P m = .ok s' evs ret → FdCall.bind fd a ∈ s.fds.calls := by
      intro m h
      unfold DMgr.call at h
      split at h
      · cases h
      · cases h; exact hcollect _ _ hm
    cases op with
    | forwardOpen host p large e =>
      simp only [DMgr.step] at h
      split at h
      · cases h
      · exact dopen_bind P alloc host p large e s s' evs ret h fd a hm
    | call m =>
      simp only [DMgr.step] at h
      cases m with
      | forwardOpen host p large e =>
        simp only at h
        split at h
        · cases h
        · exact dopen_bind P alloc host p large _ s s' evs ret h fd a hm
      | handle start t rounds ticks =>
        simp only at h
        split at h
        · cases h
        · unfold DMgr.handle at h
          split at h
          · cases h
          · split at h
            · cases h
            · cases h
              have := hcollect _ _ hm
              simp only [Fds.note, List.mem_append, List.mem_flatMap] at this
              rcases this with h | ⟨e, _, h⟩
              · exact .inl h
              · exfalso
                cases e with
                | waited tv => simp [DMgr.callsOf] at h
                | conn id op io =>
                  simp only [DMgr.callsOf, List.mem_filterMap] at h
                  obtain ⟨ev, _, h⟩ := h
                  split at h
                  · injection h with h; cases h
                  · cases h
                | _ => simp [DMgr.callsOf] at h
      | _ =>
        simp only at h
        split at h
        · cases h
        · exact .inl (hcall _ h)
    | otherOpens => simp only [DMgr.step] at h; cases h; simpa [Fds.add] using Or.inl hm
    | otherCloses x =>
      simp only [DMgr.step] at h
      split at h
      · cases h; left; simpa [Fds.remove] using hm
      · cases h; exact .inl hm
    | destroy =>
      simp only [DMgr.step] at h
      split at h
      · cases h
      · cases h
        simp only [DMgr.destroy] at hm
        have := hcollect _ _ hm
        rcases closeAll_mem this with h | ⟨x, h⟩
        · exact .inl h
        · simp at h
  have key : ∀ (ops : List DOp) (t : DMgr) (tr : List (DOp × List MEv × MRet)), t.run P alloc ops = some (s, tr) →
      .bind fd a ∈ t.fds.calls ∨ a = anyHost2222 := by
    intro ops
    induction ops with
    | nil => intro t tr h; simp [DMgr.run] at h; rw [h.1]; exact .inl hm
    | cons op ops ih =>
      intro t tr h
      obtain ⟨s1, evs, ret, tr', h1, h2, _⟩ := drun_cons h
      rcases ih s1 tr' h2 with h | h
      · exact hstep t s1 op evs ret h1 h
      · exact .inr h
  rcases key ops _ tr h with h | h
  · simp [DMgr.new] at h
  · exact h

/-! ## C85: each connection has its own socket -/

def isSendto : FdCall → Bool
  | .sendto _ _ _ => true
  | _ => false

/-- The datagrams that a list of events sends, each on the descriptor of its connection. -/
def sendsWith (own : Nat → Nat) (evs : List MEv) : List FdCall :=
  evs.flatMap fun e =>
    match e with
    | .conn id _ io => io.filterMap fun x =>
        match x with
        | .sent (some ep) bytes => some (.sendto (own id) ep.addr bytes)
        | _ => none
    | _ => []

/-- C85. `handleConnections` sends the datagrams of each connection on the descriptor of that connection, in order, and
sends nothing else. -/
theorem C85_sends (P : Plat) (alloc : Alloc) (hf : ∀ l, alloc l ∉ l) (inc : BitVec 16) (st : Statics) (l0 : List Nat)
    (hl0 : l0.Nodup) (s s' : DMgr) (ops : List DOp) (tr : List (DOp × List MEv × MRet))
    (hrun : (DMgr.new inc st l0).run P alloc ops = some (s, tr)) (start : Nat) (t : Int) (rounds : List Round) (ticks : Nat → TickEnv)
    (evs : List MEv) (ret : MRet) (h : s.step P alloc (.call (.handle start t rounds ticks)) = .ok s' evs ret) :
    s'.fds.calls.filter isSendto = s.fds.calls.filter isSendto ++ sendsWith (fun id => s.send.getD id 0) evs := by
  have hi := dinv_run P alloc hf hl0 (dinv_new inc st l0 hl0) ops tr hrun
  simp only [DMgr.step] at h
  split at h
  · cases h
  unfold DMgr.handle at h
  split at h
  · cases h
  split at h
  · cases h
  rename_i m evs1 ret1 hm
  cases h
  obtain ⟨_, _, _, _, h5⟩ := handle_fewer P start t rounds ticks s.mgr m _ _ hm
  obtain ⟨rest, h1, h2⟩ := drop_calls s.send (DMgr.died s.mgr m) (s.fds.note (evs.flatMap s.callsOf))
  show (DMgr.drop s.send (DMgr.died s.mgr m) (s.fds.note (evs.flatMap s.callsOf))).calls.filter isSendto = _
  have h3 : rest.filter isSendto = [] := by
    rw [List.filter_eq_nil_iff]
    intro c hc
    obtain ⟨fd, hc | hc⟩ := h2 c hc <;> rw [hc] <;> simp [isSendto]
  rw [h1, List.filter_append, h3, List.append_nil]
  simp only [Fds.note]
  rw [List.filter_append]
  congr 1
  unfold sendsWith
  have key : ∀ evs : List MEv, (∀ e ∈ evs, (∃ tv, e = .waited tv) ∨ ∃ id op io, e = .conn id op io ∧ ∃ k, (k, id) ∈ s.mgr.table) →
      (evs.flatMap s.callsOf).filter isSendto = sendsWith (fun id => s.send.getD id 0) evs := by
    intro evs
    induction evs with
    | nil => intro _; rfl
    | cons e es ih =>
      intro h5
      have h6 := ih fun x hx => h5 x (List.mem_cons_of_mem _ hx)
      unfold sendsWith at h6 ⊢
      rw [List.flatMap_cons, List.flatMap_cons, List.filter_append, h6]
      congr 1
      rcases h5 e List.mem_cons_self with ⟨tv, rfl⟩ | ⟨id, op, io, rfl, k, hk⟩
      · simp only [DMgr.callsOf]
        cases maxFd (s.bound.map (·.2)) <;> simp [isSendto]
      · have hlt : id < s.send.length := by
          rw [hi.len]
          exact alive_lt hi.inv ((alive_iff s.mgr id).2 (.inl ⟨k, hk⟩))
        have hg : s.send[id]? = some (s.send.getD id 0) := by
          rw [List.getD_eq_getElem?_getD, List.getElem?_eq_getElem hlt]
          rfl
        simp only [DMgr.callsOf, hg]
        clear h5 h6 ih
        induction io with
        | nil => rfl
        | cons x xs ihx =>
          rw [List.filterMap_cons, List.filterMap_cons]
          cases x with
          | sent ep b =>
            cases ep with
            | none => exact ihx
            | some ep => simp only [List.filter_cons, isSendto, if_true]; rw [ihx]
          | _ => exact ihx
  exact key evs h5

theorem eq_of_map_nodup {f : Nat → Nat} {l : List Nat} (h : (l.map f).Nodup) {i j : Nat} (hi : i ∈ l) (hj : j ∈ l) (he : f i = f j) :
    i = j := by
  induction l with
  | nil => cases hi
  | cons x xs ih =>
    rw [List.map_cons, List.nodup_cons] at h
    rw [List.mem_cons] at hi hj
    rcases hi with rfl | hi <;> rcases hj with rfl | hj
    · rfl
    · exact absurd (List.mem_map.2 ⟨j, hj, he.symm⟩) h.1
    · exact absurd (List.mem_map.2 ⟨i, hi, he⟩) h.1
    · exact ih h.2 hi hj

/-- The result is a pointer to a connection. -/
def gotConnection : MRet → Bool
  | .ptr (some _) => true
  | _ => false

theorem dopen_send (P : Plat) (alloc : Alloc) (host : String) (p : ConnectionParameters) (large : Bool) (e : DOpenEnv)
    (s s' : DMgr) (evs : List MEv) (ret : MRet) (h : s.forwardOpen P alloc host p large e = .ok s' evs ret) :
    s'.send = s.send ++ (if gotConnection ret then [alloc s.fds.opened] else []) := by
  unfold DMgr.forwardOpen at h
  split at h
  · cases h
  dsimp only at h
  split at h
  · cases h
  · cases h
  split at h
  · cases h
  · cases h; simp [gotConnection]
  split at h
  case isFalse => cases h; simp [gotConnection]
  unfold DMgr.accept at h
  split at h
  · cases h
  · cases h; simp [gotConnection]
  split at h
  · cases h
  · cases h; simp [gotConnection]
  split at h
  · cases h
  · cases h; simp [gotConnection]
  split at h
  · cases h
  · cases h; simp [gotConnection]
  rename_i f fd hu
  have hfd : fd = alloc s.fds.opened := by
    unfold udpOpen at hu
    split at hu
    · cases hu
    · cases hu; rfl
  split at h
  · cases h
  · cases h; simp [gotConnection]
  · cases h
    subst hfd
    rfl

/-- C85. The descriptor of a connection is the one that its forward open got first; it never changes, and while both
connections can be reached no two of them have the same. -/
theorem C85_own (P : Plat) (alloc : Alloc) (hf : ∀ l, alloc l ∉ l) (inc : BitVec 16) (st : Statics) (l0 : List Nat)
    (hl0 : l0.Nodup) (s s' : DMgr) (ops : List DOp) (tr : List (DOp × List MEv × MRet))
    (hrun : (DMgr.new inc st l0).run P alloc ops = some (s, tr)) (op : DOp) (evs : List MEv) (ret : MRet)
    (h : s.step P alloc op = .ok s' evs ret) :
    (∀ i j, s.mgr.alive i = true → s.mgr.alive j = true → s.send.getD i 0 = s.send.getD j 0 → i = j) ∧
    s'.send = s.send ++ (if (DOp.plain op).any isForwardOpen && gotConnection ret then [alloc s.fds.opened] else []) := by
  have hi := dinv_run P alloc hf hl0 (dinv_new inc st l0 hl0) ops tr hrun
  constructor
  · intro i j ha hb hij
    have hnd : ((reachable s.mgr).map fun id => s.send.getD id 0).Nodup :=
      ((hi.perm.nodup_iff.1 hi.nodup).sublist (List.sublist_append_right _ _))
    have hm : ∀ i, s.mgr.alive i = true → i ∈ reachable s.mgr := by
      intro i h
      simp only [reachable, List.mem_filter, List.mem_range]
      exact ⟨alive_lt hi.inv h, h⟩
    exact eq_of_map_nodup hnd (hm i ha) (hm j hb) hij
  · have hopen := fun host p large e => dopen_send P alloc host p large e s s' evs ret
    have hcall : ∀ m, s.call P m = .ok s' evs ret → s'.send = s.send := by
      intro m h
      unfold DMgr.call at h
      split at h
      · cases h
      · cases h; rfl
    cases op with
    | forwardOpen host p large e =>
      simp only [DMgr.step] at h
      split at h
      · cases h
      · rw [hopen _ _ _ _ h]
        simp only [DOp.plain, Option.any_some, isForwardOpen, Bool.true_and]
    | call m =>
      simp only [DMgr.step] at h
      cases m with
      | forwardOpen host p large e =>
        simp only at h
        split at h
        · cases h
        · rw [hopen _ _ _ _ h]
          simp only [DOp.plain, Option.any_some, isForwardOpen, Bool.true_and]
      | handle a b c d =>
        simp only at h
        split at h
        · cases h
        · unfold DMgr.handle at h
          split at h
          · cases h
          · split at h
            · cases h
            · cases h; simp [DOp.plain, isForwardOpen, DMgr.collect]
      | _ =>
        simp only at h
        split at h
        · cases h
        · rw [hcall _ h]; simp [DOp.plain, isForwardOpen]
    | otherOpens => simp only [DMgr.step] at h; cases h; simp [DOp.plain]
    | otherCloses x =>
      simp only [DMgr.step] at h
      split at h <;> cases h <;> simp [DOp.plain]
    | destroy =>
      simp only [DMgr.step] at h
      split at h
      · cases h
      · cases h; simp [DOp.plain, DMgr.destroy, DMgr.collect]

end Verif.Props
