import Verif.Spec.DataThreads

/-!
# C127: threads that use one connection
-/

namespace Verif.Props

open Verif.Spec Verif.DataThreads

theorem dthr_self (thr : Nat → Thread) (i : Nat) (t : Thread) : DataThreads.set thr i t i = t := by simp [DataThreads.set]

theorem dthr_other (thr : Nat → Thread) (i j : Nat) (t : Thread) (h : j ≠ i) : DataThreads.set thr i t j = thr j := by
  simp [DataThreads.set, h]

theorem dtick_data (now : Nat) (count : Int) (c : Conn) : (c.notifyTick now {} count).1.outputData = c.outputData := by
  unfold Conn.notifyTick
  dsimp only
  split
  · rfl
  · split
    · unfold Conn.produce
      dsimp only
      split <;> rfl
    · rfl

theorem drecv_data (m : Mem) (data : List Byte) (c c' : Conn) (evs : List IoEv) (h : c.notifyReceiveData m data = .ok (c', evs)) :
    c'.outputData = c.outputData ∧ ∀ d, IoEv.asked d ∉ evs := by
  unfold Conn.notifyReceiveData at h
  cases hr : c.recvHead m (Buffer.ofData data) with
  | ub => rw [hr] at h; cases h
  | throw e => rw [hr] at h; cases h
  | ok x =>
    obtain ⟨⟨hd, sq⟩, b⟩ := x
    rw [hr] at h
    dsimp only at h
    by_cases h1 : data.length < b.pos
    · rw [if_pos h1] at h; cases h
    · rw [if_neg h1] at h
      by_cases h2 : (c.t2oFixedSize && (data.drop b.pos).length != c.t2oDataSize) = true
      · rw [if_pos h2] at h; cases h; exact ⟨rfl, fun d hd => by simp at hd⟩
      · rw [if_neg h2] at h; cases h; exact ⟨rfl, fun d hd => by simp at hd⟩

theorem conn_snoc (m : Mem) (op : ConnOp) (evs : List IoEv) (c' c'' : Conn) : ∀ (ops : List ConnOp) (c : Conn) (tr : List (ConnOp × List IoEv)),
    c.run m ops = some (c', tr) → c'.step m op = some (c'', evs) → c.run m (ops ++ [op]) = some (c'', tr ++ [(op, evs)]) := by
  intro ops
  induction ops with
  | nil =>
    intro c tr h h'
    simp only [Conn.run, Option.some.injEq, Prod.mk.injEq] at h
    obtain ⟨rfl, rfl⟩ := h
    simp [Conn.run, h']
  | cons o ops ih =>
    intro c tr h h'
    simp only [Conn.run] at h
    cases hs : c.step m o with
    | none => rw [hs] at h; cases h
    | some x =>
      obtain ⟨c1, e1⟩ := x
      rw [hs] at h
      dsimp only at h
      cases hr : c1.run m ops with
      | none => rw [hr] at h; cases h
      | some y =>
        obtain ⟨c2, t2⟩ := y
        rw [hr] at h
        simp only [Option.some.injEq, Prod.mk.injEq] at h
        obtain ⟨rfl, rfl⟩ := h
        simp only [List.cons_append, Conn.run, hs, ih c1 t2 hr h']

/-- The calls that have ended, as operations of a connection that one thread uses. -/
def opsOf (done : List (Nat × Op × List IoEv)) : List ConnOp := done.map fun e => e.2.1.plain

/-- What they did. -/
def eventsOf (done : List (Nat × Op × List IoEv)) : List (ConnOp × List IoEv) := done.map fun e => (e.2.1.plain, e.2.2)

/-- What the object is while a thread is inside a call. -/
def PhaseFits (c' conn : Conn) (gen : Nat) : Phase → Prop
  | .idle => conn = c'
  | .writing d g k => g = gen ∧ k ≤ d.length ∧ d.length = c'.outputData.length ∧
    conn = { c' with outputData := d.take k ++ c'.outputData.drop k }
  | .moving _ => conn = c'
  | .reading now _ g got => g = gen ∧ conn = c' ∧ due now c' = true ∧ got.length ≤ c'.outputData.length ∧ got = c'.outputData.take got.length

/-- What holds if calls do not overlap. -/
def DataInv (m : Mem) (c : Conn) (s : Sys) : Prop :=
  ∃ i c', (∀ j, j ≠ i → (s.thr j).phase = .idle) ∧ c.run m (opsOf s.done) = some (c', eventsOf s.done) ∧
    PhaseFits c' s.conn s.gen (s.thr i).phase

theorem set_part (d o : List Byte) (k : Nat) (b : Byte) (hl : d.length = o.length) (hk : d[k]? = some b) :
    (d.take k ++ o.drop k).set k b = d.take (k + 1) ++ o.drop (k + 1) := by
  have hlt := (List.getElem?_eq_some_iff.mp hk).1
  rw [List.set_append_right _ _ (by rw [List.length_take]; omega), List.length_take, Nat.min_eq_left (by omega), Nat.sub_self]
  rw [List.drop_eq_getElem_cons (by omega : k < o.length), List.set_cons_zero, List.take_add_one, hk]
  simp

theorem dataInv_step (m : Mem) (c : Conn) (s s' : Sys) (i : Nat) (hi : DataInv m c s) (h : step m s i = some s')
    (hl : (s.thr i).phase = .idle → ∀ j, (s.thr j).phase = .idle) : DataInv m c s' := by
  obtain ⟨i0, c', hoth, hrun, hfit⟩ := hi
  cases hp : (s.thr i).phase with
  | idle =>
    have hall := hl hp
    have hoth' : ∀ t j, j ≠ i → (DataThreads.set s.thr i t j).phase = .idle := fun t j hj => by rw [dthr_other _ _ _ _ hj]; exact hall j
    rw [hall i0] at hfit
    have hfit : s.conn = c' := hfit
    cases ht : (s.thr i).todo with
    | nil => simp only [step, hp, ht] at h; cases h
    | cons o rest =>
      cases o with
      | set d =>
        simp only [step, hp, ht] at h
        by_cases hlen : d.length = s.conn.outputData.length
        · rw [if_pos hlen] at h
          cases h
          refine ⟨i, c', hoth' _, hrun, ?_⟩
          simp only [dthr_self]
          refine ⟨rfl, Nat.zero_le _, by rw [← hfit]; exact hlen, ?_⟩
          rw [hfit]
          simp
        · rw [if_neg hlen] at h
          cases h
          refine ⟨i, c', hoth' _, hrun, ?_⟩
          simp only [dthr_self]
          exact hfit
      | tick now count =>
        simp only [step, hp, ht] at h
        cases hd : due now s.conn with
        | true =>
          rw [if_pos hd] at h
          cases h
          refine ⟨i, c', hoth' _, hrun, ?_⟩
          simp only [dthr_self]
          exact ⟨rfl, hfit, by rw [← hfit]; exact hd, Nat.zero_le _, rfl⟩
        | false =>
          rw [if_neg (by rw [hd]; exact Bool.false_ne_true)] at h
          cases h
          refine ⟨i, (s.conn.notifyTick now {} count).1, hoth' _, ?_, ?_⟩
          · simp only [opsOf, eventsOf, List.map_append, List.map_cons, List.map_nil]
            exact conn_snoc m _ _ c' _ _ _ _ hrun (by rw [hfit]; rfl)
          · simp only [dthr_self]; rfl
      | recv data =>
        simp only [step, hp, ht] at h
        cases hr : s.conn.notifyReceiveData m data with
        | ub => rw [hr] at h; cases h
        | throw e => rw [hr] at h; cases h
        | ok x =>
          rw [hr] at h
          cases h
          refine ⟨i, x.1, hoth' _, ?_, ?_⟩
          · simp only [opsOf, eventsOf, List.map_append, List.map_cons, List.map_nil]
            refine conn_snoc m _ _ c' _ _ _ _ hrun ?_
            rw [← hfit]
            simp only [Op.plain, Conn.step, hr]
          · simp only [dthr_self]; rfl
  | writing d g k =>
    have hii : i = i0 := Decidable.byContradiction fun hne => by rw [hoth i hne] at hp; cases hp
    subst hii
    have hoth' : ∀ t j, j ≠ i → (DataThreads.set s.thr i t j).phase = .idle := fun t j hj => by rw [dthr_other _ _ _ _ hj]; exact hoth j hj
    rw [hp] at hfit
    obtain ⟨rfl, f1, f2, f3⟩ := hfit
    simp only [step, hp] at h
    cases hk : d[k]? with
    | some b =>
      rw [hk] at h
      dsimp only at h
      rw [if_pos trivial] at h
      cases h
      refine ⟨i, c', hoth' _, hrun, ?_⟩
      simp only [dthr_self]
      refine ⟨rfl, (List.getElem?_eq_some_iff.mp hk).1, f2, ?_⟩
      rw [f3]
      dsimp only
      rw [set_part d c'.outputData k b f2 hk]
    | none =>
      rw [hk] at h
      cases h
      have hkd : k = d.length := by
        have := List.getElem?_eq_none_iff.mp hk
        omega
      refine ⟨i, c'.setDataToSend d, hoth' _, ?_, ?_⟩
      · simp only [opsOf, eventsOf, List.map_append, List.map_cons, List.map_nil]
        exact conn_snoc m _ _ c' _ _ _ _ hrun rfl
      · simp only [dthr_self]
        show s.conn = c'.setDataToSend d
        rw [f3, hkd, List.take_length, f2, List.drop_length, List.append_nil]
        rfl
  | moving d =>
    have hii : i = i0 := Decidable.byContradiction fun hne => by rw [hoth i hne] at hp; cases hp
    subst hii
    rw [hp] at hfit
    have hfit : s.conn = c' := hfit
    simp only [step, hp, Option.some.injEq] at h
    subst h
    refine ⟨i, c'.setDataToSend d, fun j hj => by dsimp only; rw [dthr_other _ _ _ _ hj]; exact hoth j hj, ?_, ?_⟩
    · simp only [opsOf, eventsOf, List.map_append, List.map_cons, List.map_nil]
      exact conn_snoc m _ _ c' _ _ _ _ hrun rfl
    · simp only [dthr_self]
      show ({ s.conn with outputData := d } : Conn) = c'.setDataToSend d
      rw [hfit]
      rfl
  | reading now count g got =>
    have hii : i = i0 := Decidable.byContradiction fun hne => by rw [hoth i hne] at hp; cases hp
    subst hii
    have hoth' : ∀ t j, j ≠ i → (DataThreads.set s.thr i t j).phase = .idle := fun t j hj => by rw [dthr_other _ _ _ _ hj]; exact hoth j hj
    rw [hp] at hfit
    obtain ⟨rfl, f1, f2, f3, f4⟩ := hfit
    simp only [step, hp] at h
    rw [if_pos trivial] at h
    cases hk : s.conn.outputData[got.length]? with
    | some b =>
      rw [hk] at h
      cases h
      refine ⟨i, c', hoth' _, hrun, ?_⟩
      simp only [dthr_self]
      rw [f1] at hk
      have hlt := (List.getElem?_eq_some_iff.mp hk).1
      refine ⟨rfl, f1, f2, by rw [List.length_append]; exact hlt, ?_⟩
      rw [List.length_append, List.length_singleton, List.take_add_one, hk, ← f4]
      rfl
    | none =>
      rw [hk] at h
      rw [f1] at hk h
      cases h
      have hg : got = c'.outputData := by
        have := List.getElem?_eq_none_iff.mp hk
        rw [List.take_of_length_le this] at f4
        exact f4
      subst hg
      refine ⟨i, (c'.notifyTick now {} count).1, hoth' _, ?_, ?_⟩
      · simp only [opsOf, eventsOf, List.map_append, List.map_cons, List.map_nil]
        exact conn_snoc m _ _ c' _ _ _ _ hrun rfl
      · simp only [dthr_self]
        have e := dtick_data now count c'
        show ({ (c'.notifyTick now {} count).1 with outputData := c'.outputData } : Conn) = (c'.notifyTick now {} count).1
        rw [← e]

theorem dataRun_cons {m : Mem} {s t : Sys} {i : Nat} {is : List Nat} (h : run m s (i :: is) = some t) :
    ∃ s', step m s i = some s' ∧ run m s' is = some t := by
  unfold run at h
  split at h
  · cases h
  · rename_i s' hs; exact ⟨s', hs, h⟩

theorem dataInv_run (m : Mem) (c : Conn) (is : List Nat) : ∀ s t, DataInv m c s → run m s is = some t → CallsLocked m s is → DataInv m c t := by
  induction is with
  | nil => intro s t hi h _; cases h; exact hi
  | cons i is ih =>
    intro s t hi h hl
    obtain ⟨s', h1, h2⟩ := dataRun_cons h
    exact ih s' t (dataInv_step m c s s' i hi h1 hl.1) h2 (hl.2 s' h1)

/-- C127. If only one thread at a time is inside a call, the calls do what they would do if one thread made them in the order in which they
ended, in every schedule. -/
theorem C127_locked (m : Mem) (c : Conn) (todo : Nat → List Op) (is : List Nat) (s : Sys)
    (h : run m (start c todo) is = some s) (hl : CallsLocked m (start c todo) is) :
    ∃ c', c.run m (s.done.map fun e => e.2.1.plain) = some (c', s.done.map fun e => (e.2.1.plain, e.2.2)) ∧
      ((∀ j, (s.thr j).phase = .idle) → s.conn = c') := by
  obtain ⟨i, c', _, h1, h2⟩ := dataInv_run m c is (start c todo) s ⟨0, c, fun _ _ => rfl, rfl, rfl⟩ h hl
  exact ⟨c', h1, fun hall => by rw [hall i] at h2; exact h2⟩

/-- C127. Under the lock there is no data race, no thread uses bytes that have moved, and a thread that is inside a call goes on. -/
theorem C127_norace (m : Mem) (c : Conn) (todo : Nat → List Op) (is : List Nat) (s : Sys)
    (h : run m (start c todo) is = some s) (hl : CallsLocked m (start c todo) is) :
    ¬ ByteRace s ∧ ¬ Dangling s ∧ ∀ i, (s.thr i).phase ≠ .idle → ∃ s', step m s i = some s' := by
  obtain ⟨i, c', hidle, _, hfit⟩ := dataInv_run m c is (start c todo) s ⟨0, c, fun _ _ => rfl, rfl, rfl⟩ h hl
  have hself : ∀ j, (s.thr j).phase ≠ .idle → j = i := fun j hj => Decidable.byContradiction fun hne => hj (hidle j hne)
  refine ⟨?_, ?_, ?_⟩
  · rintro ⟨a, b, k, wa, wb, hab, ha, hb, _⟩
    refine hab ((hself a fun e => ?_).trans (hself b fun e => ?_).symm)
    · unfold access at ha; rw [e] at ha; cases ha
    · unfold access at hb; rw [e] at hb; cases hb
  · rintro ⟨a, ha⟩
    have e := hself a fun e => by unfold dangling at ha; rw [e] at ha; cases ha
    subst e
    unfold dangling at ha
    cases hp : (s.thr a).phase with
    | idle => rw [hp] at ha; cases ha
    | moving d => rw [hp] at ha; cases ha
    | writing d g k => rw [hp] at ha hfit; rw [hfit.1] at ha; simp at ha
    | reading now count g got => rw [hp] at ha hfit; rw [hfit.1] at ha; simp at ha
  · intro a ha
    have e := hself a ha
    subst e
    unfold step
    cases hp : (s.thr a).phase with
    | idle => exact absurd hp ha
    | moving d => exact ⟨_, rfl⟩
    | writing d g k =>
      rw [hp] at hfit
      dsimp only
      cases d[k]? with
      | none => exact ⟨_, rfl⟩
      | some b => exact ⟨_, if_pos hfit.1⟩
    | reading now count g got =>
      rw [hp] at hfit
      dsimp only
      rw [if_pos hfit.1]
      cases s.conn.outputData[got.length]? <;> exact ⟨_, rfl⟩

theorem asked_data (now : Nat) (count : Int) (c : Conn) (d : List Byte) (h : IoEv.asked d ∈ (c.notifyTick now {} count).2.1) :
    d = c.outputData := by
  unfold Conn.notifyTick at h
  dsimp only at h
  split at h
  · simp at h
  · split at h
    · unfold Conn.produce at h
      dsimp only [Option.getD] at h
      split at h <;> simpa using h
    · simp at h

theorem run_asked (m : Mem) (pre : List (Nat × Op × List IoEv)) : ∀ (c c' : Conn) (e : Nat × Op × List IoEv) (post : List (Nat × Op × List IoEv))
    (d : List Byte), c.run m ((pre ++ e :: post).map fun e => e.2.1.plain) = some (c', (pre ++ e :: post).map fun e => (e.2.1.plain, e.2.2)) →
    IoEv.asked d ∈ e.2.2 → d = lastData c.outputData (pre.map fun e => e.2.1) := by
  induction pre with
  | nil =>
    intro c c' e post d h hm
    simp only [List.nil_append, List.map_cons, Conn.run] at h
    cases hs : c.step m e.2.1.plain with
    | none => rw [hs] at h; cases h
    | some x =>
      obtain ⟨c1, e1⟩ := x
      rw [hs] at h
      dsimp only at h
      split at h
      · cases h
      · rename_i c2 tr hr
        simp only [Option.some.injEq, Prod.mk.injEq, List.cons.injEq, true_and] at h
        rw [← h.2.1] at hm
        cases ho : e.2.1 with
        | set x => rw [ho] at hs; cases hs; cases hm
        | tick now count => rw [ho] at hs; cases hs; exact asked_data now count c d hm
        | recv x =>
          rw [ho] at hs
          simp only [Op.plain, Conn.step] at hs
          split at hs
          · rename_i r hr'
            cases hs
            exact absurd hm ((drecv_data m x c c1 e1 hr').2 d)
          · cases hs
  | cons p pre ih =>
    intro c c' e post d h hm
    simp only [List.cons_append, List.map_cons, Conn.run] at h
    cases hs : c.step m p.2.1.plain with
    | none => rw [hs] at h; cases h
    | some x =>
      obtain ⟨c1, e1⟩ := x
      rw [hs] at h
      dsimp only at h
      split at h
      · cases h
      · rename_i c2 tr hr
        simp only [Option.some.injEq, Prod.mk.injEq, List.cons.injEq, true_and] at h
        have := ih c1 c2 e post d (by rw [hr, ← h.2.2]) hm
        rw [this]
        cases ho : p.2.1 with
        | set x => rw [ho] at hs; cases hs; simp only [List.map_cons, ho, lastData]; rfl
        | tick now count =>
          rw [ho] at hs; cases hs
          simp only [List.map_cons, ho, lastData, dtick_data]
        | recv x =>
          rw [ho] at hs
          simp only [Op.plain, Conn.step] at hs
          split at hs
          · rename_i r hr'
            cases hs
            simp only [List.map_cons, ho, lastData]
            rw [(drecv_data m x c c1 e1 hr').1]
          · cases hs

/-- C127. Then the data that are sent are the ones set last, whole. -/
theorem C127_whole (m : Mem) (c : Conn) (todo : Nat → List Op) (is : List Nat) (s : Sys)
    (h : run m (start c todo) is = some s) (hl : CallsLocked m (start c todo) is) (pre post : List (Nat × Op × List IoEv)) (i : Nat) (op : Op)
    (evs : List IoEv) (d : List Byte) (hd : s.done = pre ++ (i, op, evs) :: post) (he : IoEv.asked d ∈ evs) :
    d = lastData c.outputData (pre.map fun e => e.2.1) := by
  obtain ⟨c', h1, _⟩ := C127_locked m c todo is s h hl
  rw [hd] at h1
  exact run_asked m pre c c' (i, op, evs) post d h1 he

/-! ## Without a lock -/

/-- The byte at this place of some data. -/
def ByteOf (c : Conn) (todo : Nat → List Op) (k : Nat) (b : Byte) : Prop :=
  c.outputData[k]? = some b ∨ ∃ i d, Op.set d ∈ todo i ∧ d[k]? = some b

/-- What holds in any schedule. -/
structure BytesInv (c : Conn) (todo : Nat → List Op) (s : Sys) : Prop where
  sub : ∀ i o, o ∈ (s.thr i).todo → o ∈ todo i
  size : s.conn.outputData.length = c.outputData.length
  data : ∀ k b, s.conn.outputData[k]? = some b → ByteOf c todo k b
  inside : ∀ i, match (s.thr i).phase with
    | .idle => True
    | .writing d _ _ => Op.set d ∈ todo i
    | .moving _ => False
    | .reading _ _ _ got => got.length ≤ c.outputData.length ∧ ∀ k b, got[k]? = some b → ByteOf c todo k b
  ended : ∀ e ∈ s.done, ∀ d, IoEv.asked d ∈ e.2.2 → d.length = c.outputData.length ∧ ∀ k b, d[k]? = some b → ByteOf c todo k b

theorem bytesInv_step (m : Mem) (c : Conn) (todo : Nat → List Op) (hs : SizesAre c.outputData.length todo) (s s' : Sys) (i : Nat) (hi : BytesInv c todo s)
    (h : step m s i = some s') : BytesInv c todo s' := by
  obtain ⟨hsub, hsize, hdata, hin, hend⟩ := hi
  have hsub' : ∀ (rest : List Op) (ph : Phase), (∀ o ∈ rest, o ∈ (s.thr i).todo) →
      ∀ j o, o ∈ (DataThreads.set s.thr i ⟨rest, ph⟩ j).todo → o ∈ todo j := by
    intro rest ph hr j o hm
    by_cases hj : j = i
    · subst hj; rw [dthr_self] at hm; exact hsub j o (hr o hm)
    · rw [dthr_other _ _ _ _ hj] at hm; exact hsub j o hm
  have hin' : ∀ (t : Thread), (match t.phase with
      | .idle => True
      | .writing d _ _ => Op.set d ∈ todo i
      | .moving _ => False
      | .reading _ _ _ got => got.length ≤ c.outputData.length ∧ ∀ k b, got[k]? = some b → ByteOf c todo k b) → ∀ j, match (DataThreads.set s.thr i t j).phase with
      | .idle => True
      | .writing d _ _ => Op.set d ∈ todo j
      | .moving _ => False
      | .reading _ _ _ got => got.length ≤ c.outputData.length ∧ ∀ k b, got[k]? = some b → ByteOf c todo k b := by
    intro t ht j
    by_cases hj : j = i
    · subst hj; rw [dthr_self]; exact ht
    · rw [dthr_other _ _ _ _ hj]; exact hin j
  have hend' : ∀ (op : Op) (evs : List IoEv), (∀ d, IoEv.asked d ∈ evs → d.length = c.outputData.length ∧ ∀ k b, d[k]? = some b → ByteOf c todo k b) →
      ∀ e ∈ s.done ++ [(i, op, evs)], ∀ d, IoEv.asked d ∈ e.2.2 → d.length = c.outputData.length ∧ ∀ k b, d[k]? = some b → ByteOf c todo k b := by
    intro op evs he e hm
    rcases List.mem_append.mp hm with hm | hm
    · exact hend e hm
    · rw [List.mem_singleton.mp hm]; exact he
  cases hp : (s.thr i).phase with
  | idle =>
    cases ht : (s.thr i).todo with
    | nil => simp only [step, hp, ht] at h; cases h
    | cons o rest =>
      have hr : ∀ x ∈ rest, x ∈ (s.thr i).todo := fun x hx => by rw [ht]; exact List.mem_cons_of_mem _ hx
      cases o with
      | set d =>
        have hmem := hsub i (.set d) (by rw [ht]; exact List.mem_cons_self)
        simp only [step, hp, ht] at h
        rw [if_pos ((hs i d hmem).trans hsize.symm)] at h
        cases h
        exact ⟨hsub' rest _ hr, hsize, hdata, hin' ⟨rest, .writing d s.gen 0⟩ hmem, hend⟩
      | tick now count =>
        simp only [step, hp, ht] at h
        cases hd : due now s.conn with
        | true =>
          rw [if_pos hd] at h
          cases h
          exact ⟨hsub' rest _ hr, hsize, hdata, hin' ⟨rest, .reading now count s.gen []⟩ ⟨Nat.zero_le _, fun k b hk => by simp at hk⟩, hend⟩
        | false =>
          rw [if_neg (by rw [hd]; exact Bool.false_ne_true)] at h
          cases h
          refine ⟨hsub' rest _ hr, ?_, ?_, hin' ⟨rest, .idle⟩ trivial, hend' _ _ fun d hm => ?_⟩
          · dsimp only; rw [dtick_data]; exact hsize
          · dsimp only; rw [dtick_data]; exact hdata
          · rw [asked_data now count _ d hm]; exact ⟨hsize, hdata⟩
      | recv data =>
        simp only [step, hp, ht] at h
        cases hr' : s.conn.notifyReceiveData m data with
        | ub => rw [hr'] at h; cases h
        | throw e => rw [hr'] at h; cases h
        | ok x =>
          rw [hr'] at h
          cases h
          obtain ⟨g1, g2⟩ := drecv_data m data _ x.1 x.2 hr'
          refine ⟨hsub' rest _ hr, ?_, ?_, hin' ⟨rest, .idle⟩ trivial, hend' _ _ fun d hm => absurd hm (g2 d)⟩
          · dsimp only; rw [g1]; exact hsize
          · dsimp only; rw [g1]; exact hdata
  | moving d =>
    have hno := hin i
    rw [hp] at hno
    exact hno.elim
  | writing d g k =>
    have hset := hin i
    rw [hp] at hset
    dsimp only at hset
    simp only [step, hp] at h
    cases hk : d[k]? with
    | some b =>
      rw [hk] at h
      dsimp only at h
      split at h
      case isFalse => cases h
      cases h
      refine ⟨hsub' _ _ (fun _ hx => hx), (List.length_set ..).trans hsize, fun k' b' hk' => ?_, hin' ⟨_, .writing d g (k + 1)⟩ hset, hend⟩
      dsimp only at hk'
      by_cases he : k = k'
      · subst he
        rw [List.getElem?_set_self'] at hk'
        obtain ⟨_, _, rfl⟩ := Option.map_eq_some_iff.mp hk'
        exact .inr ⟨i, d, hset, hk⟩
      · rw [List.getElem?_set_ne he] at hk'; exact hdata k' b' hk'
    | none =>
      rw [hk] at h
      cases h
      exact ⟨hsub' _ _ (fun _ hx => hx), hsize, hdata, hin' ⟨_, .idle⟩ trivial, hend' _ _ fun d hm => by simp at hm⟩
  | reading now count g got =>
    have hgot := hin i
    rw [hp] at hgot
    dsimp only at hgot
    simp only [step, hp] at h
    split at h
    case isFalse => cases h
    cases hk : s.conn.outputData[got.length]? with
    | some b =>
      rw [hk] at h
      cases h
      have hlt : got.length < c.outputData.length := by rw [← hsize]; exact (List.getElem?_eq_some_iff.mp hk).1
      refine ⟨hsub' _ _ (fun _ hx => hx), hsize, hdata,
        hin' ⟨_, .reading now count g (got ++ [b])⟩ ⟨by rw [List.length_append]; exact hlt, fun k' b' hk' => ?_⟩, hend⟩
      by_cases hlt : k' < got.length
      · rw [List.getElem?_append_left hlt] at hk'; exact hgot.2 k' b' hk'
      · rw [List.getElem?_append_right (by omega)] at hk'
        have hlt' := (List.getElem?_eq_some_iff.mp hk').1
        simp only [List.length_singleton] at hlt'
        have he : k' = got.length := by omega
        subst he
        simp only [Nat.sub_self, List.getElem?_cons_zero, Option.some.injEq] at hk'
        subst hk'
        exact hdata _ _ hk
    | none =>
      rw [hk] at h
      cases h
      refine ⟨hsub' _ _ (fun _ hx => hx), hsize, hdata, hin' ⟨_, .idle⟩ trivial, hend' _ _ fun d hm => ?_⟩
      rw [asked_data now count _ d hm]
      have hge := List.getElem?_eq_none_iff.mp hk
      exact ⟨Nat.le_antisymm hgot.1 (by rw [← hsize]; exact hge), hgot.2⟩

/-- C127. In any schedule, if bytes are read and written as wholes, the data that are sent have their size, and each byte is one that stood
at its place in the first data or in some data of a call. -/
theorem C127_bytes (m : Mem) (c : Conn) (todo : Nat → List Op) (hs : SizesAre c.outputData.length todo) (is : List Nat) (s : Sys)
    (h : run m (start c todo) is = some s) (e : Nat × Op × List IoEv) (he : e ∈ s.done) (d : List Byte) (hd : IoEv.asked d ∈ e.2.2) :
    d.length = c.outputData.length ∧
      ∀ (k : Nat) (b : Byte), d[k]? = some b → c.outputData[k]? = some b ∨ ∃ i d', Op.set d' ∈ todo i ∧ d'[k]? = some b := by
  have key : ∀ (is : List Nat) (s t : Sys), BytesInv c todo s → run m s is = some t → BytesInv c todo t := by
    intro is
    induction is with
    | nil => intro s t hi h; cases h; exact hi
    | cons i is ih =>
      intro s t hi h
      obtain ⟨s', h1, h2⟩ := dataRun_cons h
      exact ih s' t (bytesInv_step m c todo hs s s' i hi h1) h2
  exact (key is (start c todo) s ⟨fun _ _ hx => hx, rfl, fun _ _ hx => .inl hx, fun _ => trivial,
    fun _ hx => by cases hx⟩ h).ended e he d hd

/-- C127 violated: a thread that sets data while another ticks the connection. Whenever data are about to be sent there is a schedule with
a data race. -/
theorem C127_race_violated (m : Mem) (c : Conn) (todo : Nat → List Op) (hs : SizesAre c.outputData.length todo) (i j : Nat) (hij : i ≠ j) (now : Nat) (count : Int) (d : List Byte)
    (ti tj : List Op) (hi : todo i = .tick now count :: ti) (hj : todo j = .set d :: tj) (hdue : due now c = true) (hc : c.outputData ≠ [])
    (hd : d ≠ []) : ∃ is s, run m (start c todo) is = some s ∧ ByteRace s := by
  have h1 : step m (start c todo) i = some { start c todo with thr := DataThreads.set (start c todo).thr i ⟨ti, .reading now count 0 []⟩ } := by
    unfold step
    show (match Phase.idle, todo i with
      | .idle, [] => _
      | .idle, .set data :: rest => _
      | .idle, .tick now count :: rest => _
      | .idle, .recv data :: rest => _
      | .writing data gen k, todo => _
      | .moving data, todo => _
      | .reading now count gen got, todo => _) = _
    rw [hi]
    exact if_pos hdue
  refine ⟨[i, j], { start c todo with
    thr := DataThreads.set (DataThreads.set (start c todo).thr i ⟨ti, .reading now count 0 []⟩) j ⟨tj, .writing d 0 0⟩ }, ?_, ?_⟩
  · unfold run
    rw [h1]
    dsimp only
    have ht : DataThreads.set (start c todo).thr i ⟨ti, .reading now count 0 []⟩ j = ⟨.set d :: tj, .idle⟩ := by
      rw [dthr_other _ _ _ _ (Ne.symm hij)]
      show ({ todo := todo j } : Thread) = _
      rw [hj]
    unfold run step
    dsimp only
    rw [ht]
    dsimp only
    rw [if_pos (show d.length = (start c todo).conn.outputData.length from hs j d (by rw [hj]; exact List.mem_cons_self))]
    rfl
  · refine ⟨i, j, 0, false, true, hij, ?_, ?_, .inr rfl⟩
    · dsimp only
      rw [dthr_other _ _ _ _ hij, dthr_self]
      exact if_pos (List.length_pos_iff.mpr hc)
    · dsimp only
      rw [dthr_self]
      exact if_pos (List.length_pos_iff.mpr hd)

/-- Thread 0 ticks the connection, thread 1 sets data. -/
def tickAndSet (now : Nat) (count : Int) (d : List Byte) : Nat → List Op
  | 0 => [.tick now count]
  | 1 => [.set d]
  | _ => []

/-- Both are inside their calls. -/
def bothInside (c : Conn) (now : Nat) (count : Int) (d : List Byte) (w : Nat) (got : List Byte) : Sys :=
  { conn := { c with outputData := d.take w ++ c.outputData.drop w },
    thr := fun
      | 0 => ⟨[], .reading now count 0 got⟩
      | 1 => ⟨[], .writing d 0 w⟩
      | _ => ⟨[], .idle⟩ }

theorem run_more (m : Mem) (is js : List Nat) : ∀ s s' t, run m s is = some s' → run m s' js = some t → run m s (is ++ js) = some t := by
  induction is with
  | nil => intro s s' t h h'; cases h; exact h'
  | cons i is ih =>
    intro s s' t h h'
    obtain ⟨s1, h1, h2⟩ := dataRun_cons h
    rw [List.cons_append, run, h1]
    exact ih s1 s' t h2 h'

theorem writer_step (m : Mem) (c : Conn) (now : Nat) (count : Int) (d : List Byte) (hl : d.length = c.outputData.length) (w : Nat)
    (hw : w < d.length) (got : List Byte) : step m (bothInside c now count d w got) 1 = some (bothInside c now count d (w + 1) got) := by
  have hk : d[w]? = some d[w] := List.getElem?_eq_getElem hw
  have h1 : step m (bothInside c now count d w got) 1 = (match d[w]? with
    | some b => some { bothInside c now count d w got with
        conn := { c with outputData := (d.take w ++ c.outputData.drop w).set w b },
        thr := DataThreads.set (bothInside c now count d w got).thr 1 ⟨[], .writing d 0 (w + 1)⟩ }
    | none => some { bothInside c now count d w got with
        thr := DataThreads.set (bothInside c now count d w got).thr 1 ⟨[], .idle⟩,
        done := [(1, .set d, [])] }) := rfl
  rw [h1, hk]
  dsimp only
  rw [set_part d c.outputData w _ hl hk]
  unfold bothInside
  congr 2
  funext j
  match j with
  | 0 => rfl
  | 1 => rfl
  | j + 2 => rfl

theorem writer_steps (m : Mem) (c : Conn) (now : Nat) (count : Int) (d : List Byte) (hl : d.length = c.outputData.length) (got : List Byte) :
    ∀ (n w : Nat), w + n ≤ d.length →
    run m (bothInside c now count d w got) (List.replicate n 1) = some (bothInside c now count d (w + n) got) := by
  intro n
  induction n with
  | zero => intro w _; rfl
  | succ n ih =>
    intro w hw
    rw [List.replicate_succ, run, writer_step m c now count d hl w (by omega) got]
    dsimp only
    rw [ih (w + 1) (by omega), show w + 1 + n = w + (n + 1) by omega]

theorem reader_step (m : Mem) (c : Conn) (now : Nat) (count : Int) (d : List Byte) (w : Nat) (got : List Byte) (b : Byte)
    (hb : (d.take w ++ c.outputData.drop w)[got.length]? = some b) :
    step m (bothInside c now count d w got) 0 = some (bothInside c now count d w (got ++ [b])) := by
  have h1 : step m (bothInside c now count d w got) 0 = (match (d.take w ++ c.outputData.drop w)[got.length]? with
    | some b => some { bothInside c now count d w got with
        thr := DataThreads.set (bothInside c now count d w got).thr 0 ⟨[], .reading now count 0 (got ++ [b])⟩ }
    | none =>
      let r := ({ c with outputData := got } : Conn).notifyTick now {} count
      some { bothInside c now count d w got with
        conn := { r.1 with outputData := d.take w ++ c.outputData.drop w },
        thr := DataThreads.set (bothInside c now count d w got).thr 0 ⟨[], .idle⟩,
        done := [(0, .tick now count, r.2.1)] }) := rfl
  rw [h1, hb]
  dsimp only
  unfold bothInside
  congr 2
  funext j
  match j with
  | 0 => rfl
  | 1 => rfl
  | j + 2 => rfl

/-- What the reader has read after this many bytes. -/
theorem torn_part (m : Mem) (c : Conn) (now : Nat) (count : Int) (d : List Byte) (hl : d.length = c.outputData.length) (mask : List Bool)
    (hm : mask.length = d.length) : ∀ j, j ≤ d.length → ∃ is w, w ≤ j ∧
    run m (bothInside c now count d 0 []) is = some (bothInside c now count d w ((mixture mask c.outputData d).take j)) := by
  have hml : ∀ (mask : List Bool) (x y : List Byte), mask.length = y.length → y.length = x.length →
      (mixture mask x y).length = y.length ∧ ∀ (j : Nat) (a b : Byte) (t : Bool), mask[j]? = some t → x[j]? = some a → y[j]? = some b →
        (mixture mask x y)[j]? = some (if t then b else a) := by
    intro mask
    induction mask with
    | nil => intro x y h1 h2; exact ⟨h1, fun j a b t h => by simp at h⟩
    | cons t mask ih =>
      intro x y h1 h2
      cases y with
      | nil => cases h1
      | cons y ys =>
        cases x with
        | nil => cases h2
        | cons x xs =>
          obtain ⟨g1, g2⟩ := ih xs ys (Nat.succ.inj h1) (Nat.succ.inj h2)
          refine ⟨congrArg (· + 1) g1, fun j a b t' ht ha hb => ?_⟩
          cases j with
          | zero => cases ht; cases ha; cases hb; rfl
          | succ j => exact g2 j a b t' ht ha hb
  obtain ⟨hlen, hget⟩ := hml mask c.outputData d hm hl
  intro j
  induction j with
  | zero => intro _; exact ⟨[], 0, Nat.le_refl _, rfl⟩
  | succ j ih =>
    intro hj
    obtain ⟨is, w, hw, hrun⟩ := ih (by omega)
    have hj1 : j < mask.length := by omega
    have hj2 : j < c.outputData.length := by omega
    have hj3 : j < d.length := by omega
    have hmix := hget j _ _ _ (List.getElem?_eq_getElem hj1) (List.getElem?_eq_getElem hj2) (List.getElem?_eq_getElem hj3)
    have htake : (mixture mask c.outputData d).take (j + 1) = (mixture mask c.outputData d).take j ++ [if mask[j] then d[j] else c.outputData[j]] := by
      rw [List.take_add_one, hmix]; rfl
    have hgl : ((mixture mask c.outputData d).take j).length = j := by rw [List.length_take]; omega
    cases hb : mask[j] with
    | true =>
      refine ⟨is ++ (List.replicate (j + 1 - w) 1 ++ [0]), j + 1, Nat.le_refl _, ?_⟩
      refine run_more m _ _ _ _ _ hrun (run_more m _ _ _ _ _ (writer_steps m c now count d hl _ _ w (by omega)) ?_)
      rw [show w + (j + 1 - w) = j + 1 by omega, run, reader_step m c now count d (j + 1) _ d[j], htake, hb]
      · rfl
      · rw [hgl, List.getElem?_append_left (by rw [List.length_take]; omega), List.getElem?_take_of_lt (by omega)]
        exact List.getElem?_eq_getElem hj3
    | false =>
      refine ⟨is ++ [0], w, by omega, ?_⟩
      refine run_more m _ _ _ _ _ hrun ?_
      rw [run, reader_step m c now count d w _ c.outputData[j], htake, hb]
      · rfl
      · rw [hgl, List.getElem?_append_right (by rw [List.length_take]; omega), List.getElem?_drop, List.length_take,
          show w + (j - min w d.length) = j by omega]
        exact List.getElem?_eq_getElem hj2

/-- C127 violated: torn data. When data are about to be sent, a thread ticks the connection and another one sets data, then each mixture of
old and new bytes is what some schedule sends. -/
theorem C127_torn_violated (m : Mem) (c : Conn) (now : Nat) (count : Int) (d : List Byte) (hl : d.length = c.outputData.length)
    (hdue : due now c = true) (mask : List Bool) (hm : mask.length = d.length) :
    ∃ is s evs, run m (start c (tickAndSet now count d)) is = some s ∧ s.done = [(0, .tick now count, evs)] ∧
      evs = (({ c with outputData := mixture mask c.outputData d } : Conn).notifyTick now {} count).2.1 ∧
      IoEv.asked (mixture mask c.outputData d) ∈ evs := by
  obtain ⟨is, w, hw, hrun⟩ := torn_part m c now count d hl mask hm d.length (Nat.le_refl _)
  have hlen : (mixture mask c.outputData d).length = d.length := by
    have : ∀ (mask : List Bool) (x y : List Byte), mask.length = y.length → y.length = x.length → (mixture mask x y).length = y.length := by
      intro mask
      induction mask with
      | nil => intro x y h1 _; exact h1
      | cons t mask ih =>
        intro x y h1 h2
        cases y with
        | nil => cases h1
        | cons y ys =>
          cases x with
          | nil => cases h2
          | cons x xs => exact congrArg (· + 1) (ih xs ys (Nat.succ.inj h1) (Nat.succ.inj h2))
    exact this mask _ _ hm hl
  rw [List.take_of_length_le (by omega)] at hrun
  generalize mixture mask c.outputData d = mix at hrun hlen
  have h0 : run m (start c (tickAndSet now count d)) [0, 1] = some (bothInside c now count d 0 []) := by
    have h1 : step m (start c (tickAndSet now count d)) 0 = some { start c (tickAndSet now count d) with
        thr := DataThreads.set (start c (tickAndSet now count d)).thr 0 ⟨[], .reading now count 0 []⟩ } := if_pos hdue
    have h3 : step m { start c (tickAndSet now count d) with
        thr := DataThreads.set (start c (tickAndSet now count d)).thr 0 ⟨[], .reading now count 0 []⟩ } 1 =
        some (bothInside c now count d 0 []) := by
      refine (if_pos hl).trans ?_
      unfold bothInside start
      congr 2
      funext j
      match j with
      | 0 => rfl
      | 1 => rfl
      | j + 2 => rfl
    rw [run, h1]
    dsimp only
    rw [run, h3]
    rfl
  have hnone : (d.take w ++ c.outputData.drop w)[mix.length]? = none := by
    rw [List.getElem?_eq_none_iff, List.length_append, List.length_take, List.length_drop]; omega
  have h2 : step m (bothInside c now count d w mix) 0 = some { bothInside c now count d w mix with
      conn := { (({ c with outputData := mix } : Conn).notifyTick now {} count).1 with outputData := d.take w ++ c.outputData.drop w },
      thr := DataThreads.set (bothInside c now count d w mix).thr 0 ⟨[], .idle⟩,
      done := [(0, .tick now count, (({ c with outputData := mix } : Conn).notifyTick now {} count).2.1)] } := by
    have h1 : step m (bothInside c now count d w mix) 0 = (match (d.take w ++ c.outputData.drop w)[mix.length]? with
      | some b => some { bothInside c now count d w mix with
          thr := DataThreads.set (bothInside c now count d w mix).thr 0 ⟨[], .reading now count 0 (mix ++ [b])⟩ }
      | none =>
        let r := ({ c with outputData := mix } : Conn).notifyTick now {} count
        some { bothInside c now count d w mix with
          conn := { r.1 with outputData := d.take w ++ c.outputData.drop w },
          thr := DataThreads.set (bothInside c now count d w mix).thr 0 ⟨[], .idle⟩,
          done := [(0, .tick now count, r.2.1)] }) := rfl
    rw [h1, hnone]
  refine ⟨[0, 1] ++ (is ++ [0]), _, _, run_more m _ _ _ _ _ h0 (run_more m _ _ _ _ _ hrun (by rw [run, h2]; rfl)), rfl, rfl, ?_⟩
  unfold due at hdue
  rw [Bool.and_eq_true, Bool.not_eq_true', decide_eq_false_iff_not, decide_eq_true_eq] at hdue
  unfold Conn.notifyTick
  dsimp only
  rw [if_neg hdue.1, if_pos hdue.2]
  unfold Conn.produce
  dsimp only [Option.getD]
  split <;> simp

/-- C127 violated: moved data. When data are about to be sent, a thread ticks the connection and another one sets data of another size, then
in some schedule the tick goes on with bytes that have moved. -/
theorem C127_moved_violated (m : Mem) (c : Conn) (now : Nat) (count : Int) (d : List Byte) (hl : d.length ≠ c.outputData.length)
    (hdue : due now c = true) : ∃ is s, run m (start c (tickAndSet now count d)) is = some s ∧ Dangling s ∧ step m s 0 = none := by
  have h1 : step m (start c (tickAndSet now count d)) 0 = some { start c (tickAndSet now count d) with
      thr := DataThreads.set (start c (tickAndSet now count d)).thr 0 ⟨[], .reading now count 0 []⟩ } := if_pos hdue
  have h2 : step m { start c (tickAndSet now count d) with
      thr := DataThreads.set (start c (tickAndSet now count d)).thr 0 ⟨[], .reading now count 0 []⟩ } 1 =
      some { start c (tickAndSet now count d) with
        thr := DataThreads.set (DataThreads.set (start c (tickAndSet now count d)).thr 0 ⟨[], .reading now count 0 []⟩) 1 ⟨[], .moving d⟩ } :=
    if_neg hl
  refine ⟨[0, 1, 1], {
      conn := { c with outputData := d }
      gen := 1
      thr := DataThreads.set (DataThreads.set (DataThreads.set (start c (tickAndSet now count d)).thr 0 ⟨[], .reading now count 0 []⟩) 1
        ⟨[], .moving d⟩) 1 ⟨[], .idle⟩
      done := [(1, .set d, [])] }, ?_, ⟨0, rfl⟩, rfl⟩
  rw [run, h1]
  dsimp only
  rw [run, h2]
  rfl

/-! ## The hypotheses can be met -/

/-- A connection of which data will be sent when a millisecond has passed. -/
def dataConn : Conn :=
  { connectionTimeoutMultiplier := 4
    o2tAPI := 1000#32
    t2oAPI := 1000#32
    outputData := [1#8, 2#8] }

/-- Set, tick, receive, by turns. -/
def dataCalls : Nat → List Op
  | 0 => [.tick 1000000 100, .tick 2000000 100]
  | 1 => [.set [3#8, 4#8], .set [5#8, 6#8]]
  | _ => []

/-- A test of `CallsLocked` if only the first threads take steps. -/
def lockCheck (m : Mem) (n : Nat) : Sys → List Nat → Bool
  | _, [] => true
  | s, i :: is => decide (i < n) && (decide ((s.thr i).phase ≠ .idle) || (List.range n).all fun j => decide ((s.thr j).phase = .idle)) &&
      match step m s i with
      | none => true
      | some s' => lockCheck m n s' is

theorem step_others (m : Mem) (s s' : Sys) (i j : Nat) (h : step m s i = some s') (hj : j ≠ i) : s'.thr j = s.thr j := by
  unfold step at h
  repeat' split at h
  all_goals cases h <;> exact dthr_other _ _ _ _ hj

theorem lockCheck_ok (m : Mem) (n : Nat) : ∀ (is : List Nat) (s : Sys), (∀ j, n ≤ j → (s.thr j).phase = .idle) → lockCheck m n s is = true →
    CallsLocked m s is := by
  intro is
  induction is with
  | nil => intro s _ _; trivial
  | cons i is ih =>
    intro s hn h
    unfold lockCheck at h
    rw [Bool.and_eq_true, Bool.and_eq_true, decide_eq_true_eq, Bool.or_eq_true, decide_eq_true_eq, List.all_eq_true] at h
    obtain ⟨⟨hi, h1⟩, h2⟩ := h
    refine ⟨fun hidle j => ?_, fun s' hs => ?_⟩
    · by_cases hj : j < n
      · exact of_decide_eq_true ((h1.resolve_left fun hne => hne hidle) j (List.mem_range.mpr hj))
      · exact hn j (Nat.le_of_not_lt hj)
    · rw [hs] at h2
      exact ih s' (fun j hj => by rw [step_others m s s' i j hs (by omega)]; exact hn j hj) h2

/-- Data of another size under the lock. -/
example : CallsLocked (fun _ => 0#8) (start dataConn (tickAndSet 1000000 100 [7#8])) [1, 1, 0, 0, 0] ∧
    (run (fun _ => 0#8) (start dataConn (tickAndSet 1000000 100 [7#8])) [1, 1, 0, 0, 0]).map (fun s => (s.gen, s.done.map fun e => e.2.2)) =
      some (1, [[], [.asked [7#8]]]) :=
  ⟨lockCheck_ok _ 2 _ _ (fun _ _ => rfl) (by decide +kernel), by decide +kernel⟩

/-- Of C127_locked, C127_whole and C127_bytes: a locked schedule in which the second data set are those sent at the second tick. -/
example : SizesAre dataConn.outputData.length dataCalls ∧
    CallsLocked (fun _ => 0#8) (start dataConn dataCalls) [1, 1, 1, 1, 0, 0, 0, 0, 1, 1, 1, 1, 0, 0, 0, 0] ∧
    (run (fun _ => 0#8) (start dataConn dataCalls) [1, 1, 1, 1, 0, 0, 0, 0, 1, 1, 1, 1, 0, 0, 0, 0]).map (fun s => s.done.map fun e =>
      (e.1, e.2.2.filterMap fun
        | .asked d => some d
        | _ => none)) = some [(1, []), (0, [[3#8, 4#8]]), (1, []), (0, [[5#8, 6#8]])] := by
  refine ⟨?_, lockCheck_ok _ 2 _ _ (fun _ _ => rfl) (by decide +kernel), by decide +kernel⟩
  intro i d h
  match i with
  | 0 => simp [dataCalls] at h
  | 1 => simp [dataCalls] at h; rcases h with rfl | rfl <;> rfl
  | i + 2 => simp [dataCalls] at h

/-- Of C127_race_violated and C127_torn_violated: the connection is due, and half new data are a mixture. -/
example : due 1000000 dataConn = true ∧ mixture [true, false] dataConn.outputData [3#8, 4#8] = [3#8, 2#8] ∧
    dataCalls 0 = [.tick 1000000 100, .tick 2000000 100] ∧ dataCalls 1 = [.set [3#8, 4#8], .set [5#8, 6#8]] := by decide +kernel

end Verif.Props
