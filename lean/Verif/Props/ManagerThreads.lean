import Verif.Spec.ManagerThreads

/-!
# C129: threads that share a connection manager
-/

namespace Verif.Props

open Verif.Spec Verif.ManagerThreads

/-! ## Tables -/

theorem mthr_filter {t : Table} {n : Nat} (h : ValidTable t n) (p : BitVec 32 × Nat → Bool) : ValidTable (t.filter p) n :=
  ⟨h.1.filter p, h.2.1.filter p, fun e he => h.2.2 e (List.mem_filter.mp he).1⟩

/-- Entries of a valid table are told apart by key and by object. -/
theorem mthr_inj {t : Table} {n : Nat} (h : ValidTable t n) : ∀ a ∈ t, ∀ b ∈ t, (a.1 = b.1 ∨ a.2 = b.2) → a = b := by
  obtain ⟨h1, h2, h3⟩ := h
  clear h3
  induction t with
  | nil => intro a ha; cases ha
  | cons x t ih =>
    obtain ⟨hx1, h1⟩ := List.pairwise_cons.mp h1
    obtain ⟨hx2, h2⟩ := List.pairwise_cons.mp h2
    intro a ha b hb hab
    rcases List.mem_cons.mp ha with e1 | ha' <;> rcases List.mem_cons.mp hb with e2 | hb'
    · rw [e1, e2]
    · rw [e1] at hab
      rcases hab with e | e
      · have := hx1 b hb'; rw [e] at this; omega
      · exact absurd e (hx2 b hb')
    · rw [e2] at hab
      rcases hab with e | e
      · have := hx1 a ha'; rw [e] at this; omega
      · exact absurd e.symm (hx2 a ha')
    · exact ih h1 h2 a ha' b hb' hab

theorem mthr_insert_old (k : BitVec 32) (o : Nat) (t : Table) (hs : t.Pairwise (fun a b => a.1.toNat < b.1.toNat)) (h : k ∈ t.map (·.1)) :
    add k o t = t := by
  induction t with
  | nil => cases h
  | cons e t ih =>
    obtain ⟨hx, hs⟩ := List.pairwise_cons.mp hs
    unfold add
    rcases List.mem_cons.mp h with h | h
    · rw [show k = e.1 from h, if_neg (by omega), if_pos rfl]
    · obtain ⟨b, hb, hk⟩ := List.mem_map.mp h
      have hlt := hx b hb
      rw [hk] at hlt
      rw [if_neg (by omega), if_neg (fun e' => by rw [e'] at hlt; omega), ih hs h]

theorem mthr_insert_new (k : BitVec 32) (o : Nat) (t : Table) (hs : t.Pairwise (fun a b => a.1.toNat < b.1.toNat)) (h : k ∉ t.map (·.1)) :
    add k o t = t.filter (fun e => decide (e.1.toNat < k.toNat)) ++ (k, o) :: t.filter (fun e => decide (k.toNat < e.1.toNat)) := by
  induction t with
  | nil => rfl
  | cons e t ih =>
    obtain ⟨hx, hs⟩ := List.pairwise_cons.mp hs
    have hne : k ≠ e.1 := fun e' => h (e' ▸ List.mem_cons_self)
    have hni : k ∉ t.map (·.1) := fun h' => h (List.mem_cons_of_mem _ h')
    unfold add
    by_cases hlt : k.toNat < e.1.toNat
    · rw [if_pos hlt, List.filter_cons_of_neg (by simp; omega), List.filter_cons_of_pos (by simpa using hlt)]
      rw [List.filter_eq_nil_iff.mpr (fun b hb => by have := hx b hb; simp; omega),
        List.filter_eq_self.mpr (fun b hb => by have := hx b hb; simp; omega)]
      rfl
    · have hgt : e.1.toNat < k.toNat := by
        have : k.toNat ≠ e.1.toNat := fun e' => hne (BitVec.toNat_inj.mp e')
        omega
      rw [if_neg hlt, if_neg hne, List.filter_cons_of_pos (by simpa using hgt), List.filter_cons_of_neg (by simp; omega), ih hs hni]
      rfl

theorem mthr_insert_valid (k : BitVec 32) (t : Table) (n : Nat) (h : ValidTable t n) : ValidTable (add k n t) (n + 1) := by
  by_cases hk : k ∈ t.map (·.1)
  · rw [mthr_insert_old k n t h.1 hk]
    exact ⟨h.1, h.2.1, fun e he => Nat.lt_succ_of_lt (h.2.2 e he)⟩
  · rw [mthr_insert_new k n t h.1 hk]
    refine ⟨?_, ?_, ?_⟩
    · rw [List.pairwise_append, List.pairwise_cons]
      refine ⟨h.1.filter _, ⟨fun b hb => by have := (List.mem_filter.mp hb).2; simpa using this, h.1.filter _⟩, fun a ha b hb => ?_⟩
      have h1 := (List.mem_filter.mp ha).2
      simp only [decide_eq_true_eq] at h1
      rcases List.mem_cons.mp hb with rfl | hb
      · exact h1
      · have h2 := (List.mem_filter.mp hb).2
        simp only [decide_eq_true_eq] at h2
        omega
    · rw [List.pairwise_append, List.pairwise_cons]
      refine ⟨h.2.1.filter _, ⟨fun b hb => ?_, h.2.1.filter _⟩, fun a ha b hb => ?_⟩
      · have := h.2.2 b (List.mem_filter.mp hb).1; dsimp only; omega
      · obtain ⟨ha, hak⟩ := List.mem_filter.mp ha
        simp only [decide_eq_true_eq] at hak
        rcases List.mem_cons.mp hb with rfl | hb
        · have := h.2.2 a ha; dsimp only; omega
        · obtain ⟨hb, hbk⟩ := List.mem_filter.mp hb
          simp only [decide_eq_true_eq] at hbk
          intro e
          have := mthr_inj h a ha b hb (.inr e)
          subst this
          omega
    · intro e he
      rcases List.mem_append.mp he with he | he
      · have := h.2.2 e (List.mem_filter.mp he).1; omega
      · rcases List.mem_cons.mp he with rfl | he
        · dsimp only; omega
        · have := h.2.2 e (List.mem_filter.mp he).1; omega

theorem mthr_erase_object (t : Table) (n : Nat) (h : ValidTable t n) (k : BitVec 32) (o : Nat) (hk : (k, o) ∈ t) :
    erase k t = t.filter fun e => decide (e.2 ≠ o) := by
  unfold erase
  apply List.filter_congr
  intro e he
  rw [decide_eq_decide]
  constructor
  · intro hne e'; exact hne (congrArg Prod.fst (mthr_inj h e he (k, o) hk (.inr e')))
  · intro hne e'; exact hne (congrArg Prod.snd (mthr_inj h e he (k, o) hk (.inl e')))

theorem mthr_next (pre : Table) (e : BitVec 32 × Nat) (post : Table) (hs : (pre ++ e :: post).Pairwise (fun a b => a.1.toNat < b.1.toNat)) :
    next e.1 (pre ++ e :: post) = post.head? := by
  obtain ⟨_, h2, h3⟩ := List.pairwise_append.mp hs
  obtain ⟨h4, _⟩ := List.pairwise_cons.mp h2
  unfold next
  rw [List.find?_append, List.find?_eq_none.mpr (fun a ha => by have := h3 a ha e List.mem_cons_self; simp; omega), Option.none_or,
    List.find?_cons_of_neg (by simp)]
  cases post with
  | nil => rfl
  | cons x xs => exact List.find?_cons_of_pos (by have := h4 x List.mem_cons_self; simpa using this)

theorem soleCalls_snoc (cs : List Call) (c : Call) : ∀ t n, soleCalls t n (cs ++ [c]) =
    ((soleCall (soleCalls t n cs).1.1 (soleCalls t n cs).1.2 c).1,
      (soleCalls t n cs).2 ++ [(soleCall (soleCalls t n cs).1.1 (soleCalls t n cs).1.2 c).2]) := by
  induction cs with
  | nil => intro t n; rfl
  | cons x cs ih =>
    intro t n
    show ((soleCalls _ _ (cs ++ [c])).1, _ :: (soleCalls _ _ (cs ++ [c])).2) = _
    rw [ih]
    rfl

/-! ## With a lock -/

/-- In the middle of call `c`, which began with table `t` and number `n`. -/
def MidCall (t : Table) (n : Nat) (s : State) : Call → Pc → Prop
  | .handle ex, .ticking it tk cl => s.table = t ∧ s.fresh = n ∧
      ∃ pre post, t = pre ++ post ∧ it = post.head? ∧ tk = pre.map (·.1) ∧ cl = (pre.filter fun e => ex e.2).map (·.1)
  | .handle ex, .erasing tk cl => s.fresh = n ∧ tk = t.map (·.1) ∧
      (s.table.filter fun e => decide (e.1 ∉ cl)) = t.filter fun e => !ex e.2
  | .fopen (some k'), .inserting k => s.table = t ∧ s.fresh = n ∧ k = k'
  | .fclose o, .closing k => s.table = t ∧ s.fresh = n ∧ (k, o) ∈ t
  | _, _ => False

structure TableInv (s₀ s : State) : Prop where
  valid : ValidTable s.table s.fresh
  rets : (soleCalls s₀.table s₀.fresh (s.done.map (·.2.1))).2 = s.done.map (·.2.2)
  progs : ∀ i, (s.done.filter fun d => d.1 = i).map (·.2.1) ++ (s.thr i).todo = (s₀.thr i).todo
  validr : ValidTable (soleCalls s₀.table s₀.fresh (s.done.map (·.2.1))).1.1 (soleCalls s₀.table s₀.fresh (s.done.map (·.2.1))).1.2
  mid : ((∀ i, (s.thr i).pc = .idle) ∧ (s.table, s.fresh) = (soleCalls s₀.table s₀.fresh (s.done.map (·.2.1))).1) ∨
    ∃ i c rest, (∀ j, j ≠ i → (s.thr j).pc = .idle) ∧ (s.thr i).todo = c :: rest ∧
      MidCall (soleCalls s₀.table s₀.fresh (s.done.map (·.2.1))).1.1 (soleCalls s₀.table s₀.fresh (s.done.map (·.2.1))).1.2 s c (s.thr i).pc

/-- A call goes on. -/
theorem TableInv.goto {s₀ s : State} (h : TableInv s₀ s) (i : Nat) (c : Call) (rest : List Call) (hi : ∀ j, j ≠ i → (s.thr j).pc = .idle)
    (ht : (s.thr i).todo = c :: rest) (pc : Pc) (t' : Table) (hv : ValidTable t' s.fresh)
    (hm : MidCall (soleCalls s₀.table s₀.fresh (s.done.map (·.2.1))).1.1 (soleCalls s₀.table s₀.fresh (s.done.map (·.2.1))).1.2
      ({ s with table := t' }.goto i pc) c pc) :
    TableInv s₀ ({ s with table := t' }.goto i pc) where
  valid := hv
  rets := h.rets
  progs j := by
    by_cases e : j = i
    · subst e
      show _ ++ (if j = j then _ else _ : Thr).todo = _
      rw [if_pos rfl]
      exact h.progs j
    · show _ ++ (if j = i then _ else _ : Thr).todo = _
      rw [if_neg e]
      exact h.progs j
  validr := h.validr
  mid := .inr ⟨i, c, rest, fun j hj => by
      show (if j = i then _ else _ : Thr).pc = _
      rw [if_neg hj]
      exact hi j hj,
    by
      show (if i = i then _ else _ : Thr).todo = _
      rw [if_pos rfl]
      exact ht,
    by
      show MidCall _ _ _ c (if i = i then _ else _ : Thr).pc
      rw [if_pos rfl]
      exact hm⟩

/-- A call ends. -/
theorem TableInv.finish {s₀ s : State} (h : TableInv s₀ s) (i : Nat) (c : Call) (r : Ret) (rest : List Call) (hi : ∀ j, j ≠ i → (s.thr j).pc = .idle)
    (ht : (s.thr i).todo = c :: rest) (t' : Table) (n' : Nat) (hv : ValidTable t' n')
    (hm : soleCall (soleCalls s₀.table s₀.fresh (s.done.map (·.2.1))).1.1 (soleCalls s₀.table s₀.fresh (s.done.map (·.2.1))).1.2 c = ((t', n'), r)) :
    TableInv s₀ ({ s with
      table := t'
      fresh := n' }.finish i c r rest) := by
  have he : soleCalls s₀.table s₀.fresh ((s.done ++ [(i, c, r)]).map (·.2.1)) = ((t', n'), s.done.map (·.2.2) ++ [r]) := by
    rw [List.map_append]
    show soleCalls _ _ (_ ++ [c]) = _
    rw [soleCalls_snoc, hm, h.rets]
  refine ⟨hv, ?_, fun j => ?_, ?_, .inl ⟨fun j => ?_, ?_⟩⟩
  · show (soleCalls _ _ ((s.done ++ [(i, c, r)]).map (·.2.1))).2 = _
    rw [he]
    show _ = (s.done ++ [(i, c, r)]).map (·.2.2)
    rw [List.map_append]
    rfl
  · have hp := h.progs j
    show ((s.done ++ [(i, c, r)]).filter fun d => d.1 = j).map (·.2.1) ++ (if j = i then _ else _ : Thr).todo = _
    rw [List.filter_append, List.map_append]
    by_cases e : j = i
    · subst e
      rw [if_pos rfl, List.filter_cons_of_pos (by simp), ← hp, ht, List.append_assoc]
      rfl
    · rw [if_neg e, List.filter_cons_of_neg (by simpa using fun e' => e e'.symm), ← hp]
      simp
  · show ValidTable (soleCalls _ _ ((s.done ++ [(i, c, r)]).map (·.2.1))).1.1 (soleCalls _ _ ((s.done ++ [(i, c, r)]).map (·.2.1))).1.2
    rw [he]
    exact hv
  · show (if j = i then _ else _ : Thr).pc = _
    by_cases e : j = i
    · rw [if_pos e]
    · rw [if_neg e]; exact hi j e
  · show (t', n') = (soleCalls _ _ ((s.done ++ [(i, c, r)]).map (·.2.1))).1
    rw [he]

theorem tableInv_step {s₀ s : State} (h : TableInv s₀ s) (i : Nat) (hl : MayStep true s i) (o : Out) (hs : step s i = some o) :
    ∃ s', o = .ok s' ∧ TableInv s₀ s' := by
  have hi := hl rfl
  have hmid := h.mid
  generalize hr : (soleCalls s₀.table s₀.fresh (s.done.map (·.2.1))).1 = r at hmid
  obtain ⟨t, n⟩ := r
  have hg := fun c rest (ht : (s.thr i).todo = c :: rest) => h.goto i c rest hi ht
  have hf := fun c r rest (ht : (s.thr i).todo = c :: rest) => h.finish i c r rest hi ht
  have hvr := h.validr
  rw [hr] at hg hf hvr
  dsimp only at hg hf hvr hmid
  unfold step at hs
  cases htd : (s.thr i).todo with
  | nil => rw [htd] at hs; cases hs
  | cons c rest =>
    rw [htd] at hs
    have hg := hg c rest htd
    have hf := fun r => hf c r rest htd
    -- where the thread is
    have hcase : ((s.thr i).pc = .idle ∧ s.table = t ∧ s.fresh = n) ∨ MidCall t n s c (s.thr i).pc := by
      rcases hmid with ⟨h1, h2⟩ | ⟨j, c', rest', h1, h2, h3⟩
      · exact .inl ⟨h1 i, (Prod.mk.inj h2).1, (Prod.mk.inj h2).2⟩
      · by_cases e : j = i
        · subst e
          rw [htd] at h2
          cases h2
          exact .inr h3
        · exfalso
          have := hi j e
          rw [this] at h3
          cases c' with
          | handle _ => exact h3
          | fopen g => cases g <;> exact h3
          | fclose _ => exact h3
    rcases hcase with ⟨hpc, ht, hn⟩ | hm
    · subst ht hn
      rw [hpc] at hs
      cases c with
      | handle ex =>
        cases hs
        exact ⟨_, rfl, hg _ s.table h.valid ⟨rfl, rfl, [], s.table, rfl, rfl, rfl, rfl⟩⟩
      | fopen g =>
        cases g with
        | none => cases hs; exact ⟨_, rfl, hf _ s.table s.fresh h.valid rfl⟩
        | some k => cases hs; exact ⟨_, rfl, hg _ s.table h.valid ⟨rfl, rfl, rfl⟩⟩
      | fclose o =>
        dsimp only at hs
        cases hfd : s.table.find? fun e => decide (e.2 = o) with
        | none =>
          rw [hfd] at hs
          cases hs
          have hno : ∀ e ∈ s.table, e.2 ≠ o := fun e he => by
            have := List.find?_eq_none.mp hfd e he; simpa using this
          refine ⟨_, rfl, hf _ s.table s.fresh h.valid ?_⟩
          show ((s.table.filter _, s.fresh), Ret.closed _) = _
          rw [List.filter_eq_self.mpr fun e he => decide_eq_true (hno e he),
            decide_eq_false fun hm => by obtain ⟨e, he, ho⟩ := List.mem_map.mp hm; exact hno e he ho]
        | some e =>
          rw [hfd] at hs
          cases hs
          have he := List.mem_of_find?_eq_some hfd
          have ho : e.2 = o := by have := List.find?_some hfd; simpa using this
          exact ⟨_, rfl, hg _ s.table h.valid ⟨rfl, rfl, by rw [← ho]; exact he⟩⟩
    · cases hpc : (s.thr i).pc with
      | idle =>
        rw [hpc] at hm
        exfalso
        cases c with
        | handle _ => exact hm
        | fopen g => cases g <;> exact hm
        | fclose _ => exact hm
      | ticking it tk cl =>
        rw [hpc] at hm hs
        cases c with
        | fopen g => exfalso; cases g <;> exact hm
        | fclose _ => exact hm.elim
        | handle ex =>
          obtain ⟨h1, h2, pre, post, h3, h4, h5, h6⟩ := hm
          subst h1 h2
          cases post with
          | nil =>
            subst h4
            cases hs
            refine ⟨_, rfl, hg _ s.table h.valid ⟨rfl, by rw [h3, List.append_nil]; exact h5, ?_⟩⟩
            show (s.table.filter _) = s.table.filter _
            rw [List.append_nil] at h3
            apply List.filter_congr
            intro e he
            rw [h6]
            cases hx : ex e.2 with
            | true =>
              refine decide_eq_false fun hno => hno ?_
              exact List.mem_map.mpr ⟨e, List.mem_filter.mpr ⟨h3 ▸ he, hx⟩, rfl⟩
            | false =>
              refine decide_eq_true fun hin => ?_
              obtain ⟨e', he', hk⟩ := List.mem_map.mp hin
              obtain ⟨he', hx'⟩ := List.mem_filter.mp he'
              have := mthr_inj h.valid e' (h3 ▸ he') e he (.inl hk)
              subst this
              rw [hx] at hx'
              cases hx'
          | cons e post =>
            subst h4
            have hin : e ∈ s.table := by rw [h3]; exact List.mem_append_right _ List.mem_cons_self
            dsimp only [List.head?] at hs
            rw [if_pos hin] at hs
            cases hs
            refine ⟨_, rfl, hg _ s.table h.valid ⟨rfl, rfl, pre ++ [e], post, by rw [h3, List.append_assoc]; rfl, ?_, ?_, ?_⟩⟩
            · have := h.valid.1
              rw [h3] at this ⊢
              exact mthr_next pre e post this
            · rw [h5, List.map_append]; rfl
            · rw [h6, List.filter_append, List.map_append]
              cases hx : ex e.2 with
              | true => simp [hx]
              | false => simp [hx]
      | erasing tk cl =>
        rw [hpc] at hm hs
        cases c with
        | fopen g => exfalso; cases g <;> exact hm
        | fclose _ => exact hm.elim
        | handle ex =>
          obtain ⟨h1, h2, h3⟩ := hm
          subst h1
          cases cl with
          | nil =>
            cases hs
            refine ⟨_, rfl, hf _ s.table s.fresh h.valid ?_⟩
            show ((t.filter _, s.fresh), Ret.handled _) = _
            rw [← h3, h2, List.filter_eq_self.mpr fun e _ => decide_eq_true (by simp)]
          | cons k ks =>
            cases hs
            refine ⟨_, rfl, hg _ (erase k s.table) (mthr_filter h.valid _) ⟨rfl, h2, ?_⟩⟩
            rw [← h3]
            show (erase k s.table).filter _ = s.table.filter _
            unfold erase
            rw [List.filter_filter]
            apply List.filter_congr
            intro e _
            by_cases hk : e.1 = k <;> simp [hk]
      | inserting k =>
        rw [hpc] at hm hs
        cases c with
        | handle _ => exact hm.elim
        | fclose _ => exact hm.elim
        | fopen g =>
          cases g with
          | none => exact hm.elim
          | some k' =>
            obtain ⟨h1, h2, h3⟩ := hm
            subst h1 h2 h3
            cases hs
            refine ⟨_, rfl, hf _ (add k s.fresh s.table) (s.fresh + 1) (mthr_insert_valid k s.table s.fresh h.valid) ?_⟩
            unfold soleCall
            dsimp only
            by_cases hk : k ∈ s.table.map (·.1)
            · rw [if_pos hk, mthr_insert_old k _ _ h.valid.1 hk, if_pos]
              obtain ⟨e, he, hek⟩ := List.mem_map.mp hk
              exact List.any_eq_true.mpr ⟨e, he, by simpa using hek⟩
            · rw [if_neg hk, mthr_insert_new k _ _ h.valid.1 hk, if_neg]
              intro ha
              obtain ⟨e, he, hek⟩ := List.any_eq_true.mp ha
              exact hk (List.mem_map.mpr ⟨e, he, by simpa using hek⟩)
      | closing k =>
        rw [hpc] at hm hs
        cases c with
        | handle _ => exact hm.elim
        | fopen g => exfalso; cases g <;> exact hm
        | fclose o =>
          obtain ⟨h1, h2, h3⟩ := hm
          subst h1 h2
          dsimp only at hs
          rw [if_pos (List.any_eq_true.mpr ⟨(k, o), h3, by simp⟩)] at hs
          cases hs
          refine ⟨_, rfl, hf _ (erase k s.table) s.fresh (mthr_filter h.valid _) ?_⟩
          rw [mthr_erase_object s.table s.fresh h.valid k o h3]
          show ((s.table.filter _, s.fresh), Ret.closed _) = _
          rw [decide_eq_true (List.mem_map.mpr ⟨(k, o), h3, rfl⟩)]

theorem tableInv_reach {s₀ : State} (h : MStart s₀) {o : Out} (hr : MReach true s₀ o) : ∃ s, o = .ok s ∧ TableInv s₀ s := by
  induction hr with
  | refl =>
    refine ⟨s₀, rfl, h.1, by rw [h.2.2]; rfl, fun i => by rw [h.2.2]; rfl, by rw [h.2.2]; exact h.1, .inl ⟨h.2.1, by rw [h.2.2]; rfl⟩⟩
  | step _ hl hs ih =>
    obtain ⟨s, e, hi⟩ := ih
    cases e
    exact tableInv_step hi _ hl _ hs

/-- C129. With a lock around each call: whatever the schedule, there is neither undefined behaviour nor a failed assertion; the calls that have
ended gave what they would have given one after the other in the order in which they ended; while no call is running the table is the one that
they leave then; and each thread makes its calls in its order, and loses none. -/
theorem C129_locked (s₀ : State) (h : MStart s₀) (o : Out) (hr : MReach true s₀ o) :
    ∃ s, o = .ok s ∧ ValidTable s.table s.fresh ∧
      (soleCalls s₀.table s₀.fresh (s.done.map (·.2.1))).2 = s.done.map (·.2.2) ∧
      ((∀ i, (s.thr i).pc = .idle) → (s.table, s.fresh) = (soleCalls s₀.table s₀.fresh (s.done.map (·.2.1))).1) ∧
      ∀ i, (s.done.filter fun d => d.1 = i).map (·.2.1) ++ (s.thr i).todo = (s₀.thr i).todo := by
  obtain ⟨s, e, hi⟩ := tableInv_reach h hr
  refine ⟨s, e, hi.valid, hi.rets, fun hidle => ?_, hi.progs⟩
  rcases hi.mid with hm | ⟨i, c, rest, _, _, hm⟩
  · exact hm.2
  · exfalso
    rw [hidle i] at hm
    cases c with
    | handle _ => exact hm
    | fopen g => cases g <;> exact hm
    | fclose _ => exact hm

/-- C129. With a lock around each call there is no data race on the table or on a connection. -/
theorem C129_norace (s : State) : ¬ MapRace true s := by
  rintro ⟨i, j, hij, hi, hj, hc⟩
  have h1 : (s.thr i).pc = .idle := hj rfl i hij
  have h2 : (s.thr j).pc = .idle := hi rfl j (Ne.symm hij)
  have ha : ∀ x, (s.thr x).pc = .idle → access s x = .none ∨ access s x = .read := by
    intro x hx
    unfold access
    rw [hx]
    cases (s.thr x).todo with
    | nil => exact .inl rfl
    | cons c _ => cases c with
      | handle _ => exact .inr rfl
      | fopen _ => exact .inl rfl
      | fclose _ => exact .inl rfl
  rcases ha i h1 with e1 | e1 <;> rcases ha j h2 with e2 | e2 <;> rw [e1, e2] at hc <;> exact hc

/-! ## Without a lock -/

theorem mayStep_free (s : State) (i : Nat) : MayStep false s i := fun h => by cases h

theorem goto_thr (s : State) (i : Nat) (pc : Pc) : (s.goto i pc).thr i = { todo := (s.thr i).todo, pc := pc } := if_pos rfl

theorem goto_other (s : State) (i j : Nat) (pc : Pc) (h : j ≠ i) : (s.goto i pc).thr j = s.thr j := if_neg h

theorem finish_thr (s : State) (i : Nat) (c : Call) (r : Ret) (rest : List Call) : (s.finish i c r rest).thr i = { todo := rest, pc := .idle } := if_pos rfl

theorem finish_other (s : State) (i j : Nat) (c : Call) (r : Ret) (rest : List Call) (h : j ≠ i) : (s.finish i c r rest).thr j = s.thr j := if_neg h

theorem step_handle (s : State) (i : Nat) (ex : Nat → Bool) (rest : List Call) (ht : (s.thr i).todo = .handle ex :: rest) (hp : (s.thr i).pc = .idle) :
    step s i = some (.ok (s.goto i (.ticking s.table.head? [] []))) := by
  unfold step; rw [ht, hp]

theorem step_open (s : State) (i : Nat) (k : BitVec 32) (rest : List Call) (ht : (s.thr i).todo = .fopen (some k) :: rest) (hp : (s.thr i).pc = .idle) :
    step s i = some (.ok (s.goto i (.inserting k))) := by
  unfold step; rw [ht, hp]

theorem step_insert (s : State) (i : Nat) (g : Option (BitVec 32)) (k : BitVec 32) (rest : List Call) (ht : (s.thr i).todo = .fopen g :: rest)
    (hp : (s.thr i).pc = .inserting k) :
    step s i = some (.ok ({ s with
      table := add k s.fresh s.table
      fresh := s.fresh + 1 }.finish i (.fopen g) (.opened (if s.table.any fun e => e.1 = k then none else some s.fresh)) rest)) := by
  unfold step; rw [ht, hp]

theorem step_close (s : State) (i : Nat) (n : Nat) (hv : ValidTable s.table n) (k : BitVec 32) (o : Nat) (ho : (k, o) ∈ s.table) (rest : List Call)
    (ht : (s.thr i).todo = .fclose o :: rest) (hp : (s.thr i).pc = .idle) :
    step s i = some (.ok (s.goto i (.closing k))) := by
  unfold step
  rw [ht, hp]
  dsimp only
  cases hf : s.table.find? fun e => decide (e.2 = o) with
  | none => exact absurd (decide_eq_true (p := o = o) rfl) (List.find?_eq_none.mp hf (k, o) ho)
  | some e =>
    have h1 := List.mem_of_find?_eq_some hf
    have h2 : e.2 = o := by have := List.find?_some hf; simpa using this
    rw [mthr_inj hv e h1 (k, o) ho (.inr h2)]

theorem step_erase (s : State) (i : Nat) (k : BitVec 32) (o o' : Nat) (ho : (k, o') ∈ s.table) (rest : List Call)
    (ht : (s.thr i).todo = .fclose o :: rest) (hp : (s.thr i).pc = .closing k) :
    step s i = some (.ok ({ s with table := erase k s.table }.finish i (.fclose o) (.closed true) rest)) := by
  unfold step
  rw [ht, hp]
  exact if_pos (List.any_eq_true.mpr ⟨(k, o'), ho, by simp⟩)

theorem step_erase_abort (s : State) (i : Nat) (k : BitVec 32) (o : Nat) (ho : k ∉ s.table.map (·.1)) (rest : List Call)
    (ht : (s.thr i).todo = .fclose o :: rest) (hp : (s.thr i).pc = .closing k) : step s i = some .abort := by
  unfold step
  rw [ht, hp]
  refine if_neg fun h => ?_
  obtain ⟨e, he, hk⟩ := List.any_eq_true.mp h
  exact ho (List.mem_map.mpr ⟨e, he, by simpa using hk⟩)

theorem not_mem_erase (k : BitVec 32) (t : Table) : k ∉ (erase k t).map (·.1) := by
  intro h
  obtain ⟨e, he, hk⟩ := List.mem_map.mp h
  have := (List.mem_filter.mp he).2
  simp only [ne_eq, decide_not, Bool.not_eq_eq_eq_not, Bool.not_true, decide_eq_false_iff_not] at this
  exact this hk

theorem mem_add_new (k : BitVec 32) (o : Nat) (t : Table) (hs : t.Pairwise (fun a b => a.1.toNat < b.1.toNat)) (h : k ∉ t.map (·.1)) :
    (k, o) ∈ add k o t := by
  rw [mthr_insert_new k o t hs h]
  exact List.mem_append_right _ List.mem_cons_self

/-- C129 violated: a data race. Whenever one thread has connections to handle, and another has one to open that the target grants, some schedule
has a race on the table. -/
theorem C129_race_violated (s : State) (h : MStart s) (i j : Nat) (hij : i ≠ j) (ex : Nat → Bool) (k : BitVec 32) (ri rj : List Call)
    (hi : (s.thr i).todo = .handle ex :: ri) (hj : (s.thr j).todo = .fopen (some k) :: rj) :
    ∃ s', MReach false s (.ok s') ∧ MapRace false s' := by
  refine ⟨s.goto j (.inserting k), .step .refl (mayStep_free _ _) (step_open s j k rj hj (h.2.1 j)),
    i, j, hij, mayStep_free _ _, mayStep_free _ _, ?_⟩
  unfold access
  rw [goto_thr, goto_other s j i _ hij, hi, hj, h.2.1 i]
  exact trivial

/-- C129 violated: an iterator that leads nowhere. Whenever one thread has connections to handle, and another is going to close the first of
them, some schedule has undefined behaviour, even if single accesses of the table were atomic. -/
theorem C129_dangling_violated (s : State) (h : MStart s) (i j : Nat) (hij : i ≠ j) (ex : Nat → Bool) (k : BitVec 32) (o : Nat) (t : Table)
    (ht : s.table = (k, o) :: t) (ri rj : List Call) (hi : (s.thr i).todo = .handle ex :: ri) (hj : (s.thr j).todo = .fclose o :: rj) :
    MReach false s .ub := by
  have hin : (k, o) ∈ s.table := by rw [ht]; exact List.mem_cons_self
  have hji : j ≠ i := Ne.symm hij
  let s1 := s.goto i (.ticking s.table.head? [] [])
  let s2 := s1.goto j (.closing k)
  let s3 := { s2 with table := erase k s.table }.finish j (.fclose o) (.closed true) rj
  have e1 : step s i = some (.ok s1) := step_handle s i ex ri hi (h.2.1 i)
  have t1 : s1.thr j = s.thr j := goto_other s i j _ hji
  have e2 : step s1 j = some (.ok s2) := step_close s1 j s.fresh h.1 k o hin rj (by rw [t1, hj]) (by rw [t1, h.2.1 j])
  have t2 : s2.thr j = ⟨.fclose o :: rj, .closing k⟩ := by rw [goto_thr, t1, hj]
  have e3 : step s2 j = some (.ok s3) := step_erase s2 j k o o hin rj (by rw [t2]) (by rw [t2])
  have t3 : s3.thr i = ⟨.handle ex :: ri, .ticking (some (k, o)) [] []⟩ := by
    rw [finish_other _ j i _ _ _ hij]
    show s2.thr i = _
    rw [goto_other s1 j i _ hij, goto_thr, hi, ht]
    rfl
  have e4 : step s3 i = some .ub := by
    unfold step
    rw [t3]
    refine if_neg fun hm => ?_
    exact not_mem_erase k s.table (List.mem_map.mpr ⟨(k, o), hm, rfl⟩)
  exact .step (.step (.step (.step .refl (mayStep_free _ _) e1) (mayStep_free _ _) e2) (mayStep_free _ _) e3) (mayStep_free _ _) e4

/-- Two threads have a pointer to one object, and one of them has closed the connection. -/
theorem twoClosers (s : State) (h : MStart s) (i j : Nat) (hij : i ≠ j) (k : BitVec 32) (o : Nat) (hin : (k, o) ∈ s.table) (ri rj : List Call)
    (hi : (s.thr i).todo = .fclose o :: ri) (hj : (s.thr j).todo = .fclose o :: rj) :
    ∃ s', MReach false s (.ok s') ∧ s'.table = erase k s.table ∧ s'.fresh = s.fresh ∧ s'.thr i = ⟨.fclose o :: ri, .closing k⟩ ∧
      s'.thr j = ⟨rj, .idle⟩ ∧ s'.done = [(j, .fclose o, .closed true)] := by
  have hji : j ≠ i := Ne.symm hij
  let s1 := s.goto i (.closing k)
  let s2 := s1.goto j (.closing k)
  have e1 : step s i = some (.ok s1) := step_close s i s.fresh h.1 k o hin ri hi (h.2.1 i)
  have t1 : s1.thr j = s.thr j := goto_other s i j _ hji
  have e2 : step s1 j = some (.ok s2) := step_close s1 j s.fresh h.1 k o hin rj (by rw [t1, hj]) (by rw [t1, h.2.1 j])
  have t2 : s2.thr j = ⟨.fclose o :: rj, .closing k⟩ := by rw [goto_thr, t1, hj]
  have e3 := step_erase s2 j k o o hin rj (by rw [t2]) (by rw [t2])
  refine ⟨_, .step (.step (.step .refl (mayStep_free _ _) e1) (mayStep_free _ _) e2) (mayStep_free _ _) e3, rfl, rfl, ?_, finish_thr _ _ _ _ _, ?_⟩
  · rw [finish_other _ j i _ _ _ hij]
    show s2.thr i = _
    rw [goto_other s1 j i _ hij, goto_thr, hi]
  · show s.done ++ _ = _
    rw [h.2.2]
    rfl

/-- C129 violated: whenever two threads are going to close one connection, the assertion in `forwardClose` fails in some schedule. -/
theorem C129_abort_violated (s : State) (h : MStart s) (i j : Nat) (hij : i ≠ j) (k : BitVec 32) (o : Nat) (hin : (k, o) ∈ s.table) (ri rj : List Call)
    (hi : (s.thr i).todo = .fclose o :: ri) (hj : (s.thr j).todo = .fclose o :: rj) : MReach false s .abort := by
  obtain ⟨s', hr, ht, _, h1, _, _⟩ := twoClosers s h i j hij k o hin ri rj hi hj
  exact .step hr (mayStep_free _ _) (step_erase_abort s' i k o (by rw [ht]; exact not_mem_erase k _) ri (by rw [h1]) (by rw [h1]))

/-- C129 violated: the wrong connection is closed. If moreover one of them opens a connection then, and the target grants the same identifier, some
schedule ends with that connection removed, although no call was told to close it; calls one after the other leave it open. -/
theorem C129_wrong_violated (s : State) (h : MStart s) (i j : Nat) (hij : i ≠ j) (k : BitVec 32) (o : Nat) (hin : (k, o) ∈ s.table)
    (hi : (s.thr i).todo = [.fclose o]) (hj : (s.thr j).todo = [.fclose o, .fopen (some k)]) :
    ∃ s', MReach false s (.ok s') ∧
      s'.done = [(j, .fclose o, .closed true), (j, .fopen (some k), .opened (some s.fresh)), (i, .fclose o, .closed true)] ∧
      s.fresh ∉ s'.table.map (·.2) ∧
      s.fresh ∈ (soleCalls s.table s.fresh (s'.done.map (·.2.1))).1.1.map (·.2) := by
  obtain ⟨s', hr, ht, hn, h1, h2, h3⟩ := twoClosers s h i j hij k o hin [] [.fopen (some k)] hi hj
  have hv' : ValidTable (erase k s.table) s.fresh := mthr_filter h.1 _
  have hnot := not_mem_erase k s.table
  have hany : ((erase k s.table).any fun e => decide (e.1 = k)) = false := by
    refine Bool.eq_false_iff.mpr fun ha => ?_
    obtain ⟨e, he, hk⟩ := List.any_eq_true.mp ha
    exact hnot (List.mem_map.mpr ⟨e, he, by simpa using hk⟩)
  let s4 := s'.goto j (.inserting k)
  have e4 : step s' j = some (.ok s4) := step_open s' j k [] (by rw [h2]) (by rw [h2])
  have t4 : s4.thr j = ⟨[.fopen (some k)], .inserting k⟩ := by rw [goto_thr, h2]
  have e5 := step_insert s4 j (some k) k [] (by rw [t4]) (by rw [t4])
  generalize hs5 : ({ s4 with
      table := add k s4.fresh s4.table
      fresh := s4.fresh + 1 }.finish j (.fopen (some k)) (.opened (if s4.table.any fun e => e.1 = k then none else some s4.fresh)) []) = s5 at e5
  have tb5 : s5.table = add k s.fresh (erase k s.table) := by
    rw [← hs5]; show add k s'.fresh s'.table = _; rw [hn, ht]
  have f5 : s5.fresh = s.fresh + 1 := by rw [← hs5]; show s'.fresh + 1 = _; rw [hn]
  have d5 : s5.done = [(j, .fclose o, .closed true), (j, .fopen (some k), .opened (some s.fresh))] := by
    rw [← hs5]
    show s'.done ++ [(j, .fopen (some k), .opened (if s'.table.any fun e => decide (e.1 = k) then none else some s'.fresh))] = _
    rw [h3, ht, hn, hany]
    rfl
  have t5 : s5.thr i = ⟨[.fclose o], .closing k⟩ := by
    rw [← hs5, finish_other _ j i _ _ _ hij]
    show s4.thr i = _
    rw [goto_other s' j i _ hij, h1]
  have e6 := step_erase s5 i k o s.fresh (by rw [tb5]; exact mem_add_new k _ _ hv'.1 hnot) [] (by rw [t5]) (by rw [t5])
  refine ⟨_, .step (.step (.step hr (mayStep_free _ _) e4) (mayStep_free _ _) e5) (mayStep_free _ _) e6, ?_, ?_, ?_⟩
  · show s5.done ++ _ = _
    rw [d5]; rfl
  · show s.fresh ∉ (erase k s5.table).map (·.2)
    intro hm
    obtain ⟨e, he, hk⟩ := List.mem_map.mp hm
    have hv5 := mthr_insert_valid k _ _ hv'
    have hmem := (List.mem_filter.mp he).1
    rw [tb5] at hmem
    have := mthr_inj hv5 e hmem (k, s.fresh) (mem_add_new k _ _ hv'.1 hnot) (.inr hk)
    exact not_mem_erase k s5.table (List.mem_map.mpr ⟨e, he, by rw [this]⟩)
  · show s.fresh ∈ (soleCalls s.table s.fresh ((s5.done ++ [(i, Call.fclose o, Ret.closed true)]).map (·.2.1))).1.1.map (·.2)
    rw [d5]
    show s.fresh ∈ ((soleCall (soleCall (s.table.filter fun e => decide (e.2 ≠ o)) s.fresh (.fopen (some k))).1.1 _ (.fclose o)).1.1).map (·.2)
    rw [← mthr_erase_object s.table s.fresh h.1 k o hin]
    unfold soleCall
    dsimp only
    rw [if_neg hnot]
    refine List.mem_map.mpr ⟨(k, s.fresh), List.mem_filter.mpr ⟨List.mem_append_right _ List.mem_cons_self, ?_⟩, rfl⟩
    have := h.1.2.2 _ hin
    exact decide_eq_true (by dsimp only at this ⊢; omega)

/-- States that meet the hypotheses. -/
def mthrExample : State :=
  { table := [(3#32, 0), (7#32, 1)]
    fresh := 2
    thr := fun i => if i = 0 then ⟨[.handle fun o => o = 1, .handle fun _ => false], .idle⟩ else if i = 1 then ⟨[.fopen (some 5#32), .fclose 0], .idle⟩ else ⟨[], .idle⟩
    done := [] }

theorem mthrExample_start : MStart mthrExample := by
  refine ⟨⟨by decide, by decide, by decide⟩, fun i => ?_, rfl⟩
  show (if i = 0 then _ else if i = 1 then _ else _ : Thr).pc = .idle
  split
  · rfl
  · split <;> rfl

example : ∃ s, MReach true mthrExample (.ok s) ∧ s.done ≠ [] ∧ s.table = [(3#32, 0), (5#32, 2), (7#32, 1)] := by
  refine ⟨_, .step (.step .refl (fun _ j _ => mthrExample_start.2.1 j) (step_open mthrExample 1 5#32 [.fclose 0] rfl rfl)) (fun _ j hj => ?_)
    (step_insert _ 1 (some 5#32) 5#32 [.fclose 0] rfl rfl), List.cons_ne_nil _ _, rfl⟩
  rw [goto_other _ _ _ _ hj]
  exact mthrExample_start.2.1 j

example : ∃ s : State, MStart s ∧ (3#32, 0) ∈ s.table ∧ (s.thr 0).todo = [.fclose 0] ∧ (s.thr 1).todo = [.fclose 0, .fopen (some 3#32)] := by
  refine ⟨{ mthrExample with
    thr := fun i => if i = 0 then ⟨[.fclose 0], .idle⟩ else if i = 1 then ⟨[.fclose 0, .fopen (some 3#32)], .idle⟩ else ⟨[], .idle⟩ },
    ⟨mthrExample_start.1, fun i => ?_, rfl⟩, by decide, rfl, rfl⟩
  show (if i = 0 then _ else if i = 1 then _ else _ : Thr).pc = .idle
  split
  · rfl
  · split <;> rfl

end Verif.Props
