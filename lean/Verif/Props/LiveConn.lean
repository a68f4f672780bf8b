import Verif.Spec.LiveConn

/-!
# C113: listeners that are set and replaced
-/

namespace Verif.Props

open Verif Verif.Spec Verif.LiveConn

/-! ## Functions of the user -/

theorem beforeRaise_cons (a : LAct) (as : List LAct) : beforeRaise (a :: as) = match a with | .raise _ => [] | _ => a :: beforeRaise as := by
  cases a <;> rfl

theorem getLast_getD {α : Type} (a d : α) (l : List α) : ((a :: l).getLast?).getD d = (l.getLast?).getD a := by
  rw [List.getLast?_cons]; rfl

theorem lastListener_cons (o : Option (Slot × Listener)) (sl : Slot) (l d : Listener) :
    (o.map (·.2)).getD l = ((some (o.getD (sl, l))).map (·.2)).getD d := by
  cases o <;> rfl

theorem body_some (slot : Slot) (g : Nat) (acts : List LAct) (s s' : LiveConn) (x : Option Exn)
    (h : body slot g acts s = some (s', x)) :
    x = raised acts ∧ s'.conn = s.conn.setDataToSend (leaves (decide (slot = .send)) s.conn.outputData acts) ∧
    ∀ sl, s'.fn sl = (((setsOf acts).filter (·.1 = sl)).getLast?.map (·.2)).getD (s.fn sl) := by
  induction acts generalizing s with
  | nil => cases h; exact ⟨rfl, rfl, fun _ => rfl⟩
  | cons a as ih =>
    cases a with
    | look =>
      simp only [body] at h
      split at h
      · exact ih s h
      · cases h
    | assign d =>
      simp only [body] at h
      obtain ⟨h1, h2, h3⟩ := ih _ h
      by_cases hs : slot = .send
      · subst hs
        simp only [if_true] at h2 h3
        refine ⟨h1, ?_, h3⟩
        rw [h2]
        simp only [leaves, beforeRaise_cons, List.filterMap_cons, decide_true, if_true, getLast_getD]
        rfl
      · rw [if_neg hs] at h2 h3
        refine ⟨h1, ?_, h3⟩
        rw [h2]
        simp [leaves, beforeRaise_cons, hs]
    | setData d =>
      simp only [body] at h
      obtain ⟨h1, h2, h3⟩ := ih _ h
      refine ⟨h1, ?_, h3⟩
      rw [h2]
      simp only [leaves, beforeRaise_cons, List.filterMap_cons, getLast_getD]
      rfl
    | set sl l =>
      simp only [body] at h
      obtain ⟨h1, h2, h3⟩ := ih _ h
      refine ⟨h1, h2, fun sl' => ?_⟩
      rw [h3 sl']
      simp only [setsOf, beforeRaise_cons, List.filterMap_cons, setListener]
      by_cases he : sl' = sl
      · subst he
        rw [List.filter_cons_of_pos (by simp), List.getLast?_cons, if_pos rfl]
        exact lastListener_cons _ sl' l _
      · rw [List.filter_cons_of_neg (by simp; exact fun h => he h.symm), if_neg he]
    | raise e => cases h; exact ⟨rfl, rfl, fun _ => rfl⟩

theorem lookOk_nil (slot : Slot) : LookOk slot [] := by
  intro pre post h
  simp [beforeRaise] at h

theorem lookOk_cons (slot : Slot) (a : LAct) (as : List LAct) : LookOk slot (a :: as) ↔
    match a with
    | .raise _ => True
    | .set sl _ => if sl = slot then .look ∉ beforeRaise as else LookOk slot as
    | _ => LookOk slot as := by
  have keep : (∀ l, a ≠ .set slot l) → (∀ e, a ≠ .raise e) → (LookOk slot (a :: as) ↔ LookOk slot as) := by
    intro h1 h2
    have e : beforeRaise (a :: as) = a :: beforeRaise as := by
      rw [beforeRaise_cons]; split
      · exact absurd rfl (h2 _)
      · rfl
    constructor
    · intro h pre post hp l hl
      exact h (a :: pre) post (by rw [e, hp]; rfl) l (by simp [hl])
    · intro h pre post hp l hl
      rw [e] at hp
      cases pre with
      | nil => cases hl
      | cons b pre =>
        obtain ⟨e1, e2⟩ := List.cons.inj hp
        subst e1
        rcases List.mem_cons.mp hl with rfl | hl
        · exact h1 l rfl
        · exact h pre post e2 l hl
  cases a with
  | raise e => simp only [iff_true]; intro pre post h; simp [beforeRaise_cons] at h
  | set sl l =>
    dsimp only
    split
    · next hs =>
      subst hs
      constructor
      · intro h hm
        obtain ⟨pre, post, hp⟩ := List.append_of_mem hm
        exact h (.set sl l :: pre) post (by rw [beforeRaise_cons]; dsimp only; rw [hp]; rfl) l (by simp)
      · intro h pre post hp
        rw [beforeRaise_cons] at hp
        dsimp only at hp
        cases pre with
        | nil => cases hp
        | cons b pre =>
          exfalso
          apply h
          have := (List.cons.inj hp).2
          rw [this]; simp
    · next hs => exact keep (fun l' h => by cases h; exact hs rfl) (by simp)
  | look => exact keep (by simp) (by simp)
  | assign d => exact keep (by simp) (by simp)
  | setData d => exact keep (by simp) (by simp)

theorem body_late (slot : Slot) (g : Nat) (acts : List LAct) (s : LiveConn) (hg : g < s.gen slot) :
    body slot g acts s = none ↔ .look ∈ beforeRaise acts := by
  induction acts generalizing s with
  | nil => simp [body, beforeRaise]
  | cons a as ih =>
    cases a with
    | look => simp [body, beforeRaise_cons, show s.gen slot ≠ g by omega]
    | assign d =>
      simp only [body, beforeRaise_cons]
      rw [ih _ (by split <;> exact hg)]
      simp
    | setData d => simp only [body, beforeRaise_cons]; refine (ih ⟨s.conn.setDataToSend d, s.fn, s.gen⟩ hg).trans ?_; simp
    | set sl l =>
      simp only [body, beforeRaise_cons]
      rw [ih _ (by simp only [setListener]; split <;> omega)]
      simp
    | raise e => simp [body, beforeRaise_cons]

theorem body_none (slot : Slot) (acts : List LAct) (s : LiveConn) : body slot (s.gen slot) acts s = none ↔ ¬ LookOk slot acts := by
  suffices h : ∀ g (s : LiveConn), s.gen slot = g → (body slot g acts s = none ↔ ¬ LookOk slot acts) from h _ s rfl
  induction acts with
  | nil => intro g s _; simp [body, lookOk_nil]
  | cons a as ih =>
    intro g s hg
    rw [lookOk_cons]
    cases a with
    | look => simp only [body, hg, if_true]; exact ih g s hg
    | assign d => simp only [body]; exact ih g _ (by split <;> exact hg)
    | setData d => simp only [body]; exact ih g _ hg
    | set sl l =>
      simp only [body]
      by_cases hs : sl = slot
      · subst hs
        rw [if_pos rfl, body_late sl g as _ (by simp [setListener, hg])]
        simp
      · rw [if_neg hs]
        exact ih g _ (by simp only [setListener]; rw [if_neg (fun h => hs h.symm)]; exact hg)
    | raise e => simp [body]

/-! ## Calls -/

/-- The listeners that are set by the call of a listener. -/
def setsBy (l : Listener) (acts : List LAct) : List (Slot × Listener) :=
  match l with
  | .user _ => setsOf acts
  | _ => []

/-- What a call of a listener does to the object. -/
structure Called (slot : Slot) (acts : List LAct) (s s' : LiveConn) (x : Option Exn) : Prop where
  conn : s'.conn = s.conn.setDataToSend s'.conn.outputData
  fn : ∀ sl, s'.fn sl = (((setsBy (s.fn slot) acts).filter (·.1 = sl)).getLast?.map (·.2)).getD (s.fn sl)
  data : s'.conn.outputData = match s.fn slot with
    | .user _ => leaves (decide (slot = .send)) s.conn.outputData acts
    | _ => s.conn.outputData
  thrown : x = match s.fn slot with | .user _ => raised acts | .empty => some badCall | .initial => none

theorem called (slot : Slot) (acts : List LAct) (s s' : LiveConn) (x : Option Exn) (h : call slot acts s = some (s', x)) :
    Called slot acts s s' x := by
  unfold call at h
  cases hf : s.fn slot with
  | initial => rw [hf] at h; cases h; exact ⟨rfl, by simp [hf, setsBy], by simp [hf], by simp [hf]⟩
  | empty => rw [hf] at h; cases h; exact ⟨rfl, by simp [hf, setsBy], by simp [hf], by simp [hf]⟩
  | user n =>
    rw [hf] at h
    obtain ⟨h1, h2, h3⟩ := body_some _ _ _ _ _ _ h
    refine ⟨?_, ?_, ?_, ?_⟩
    · rw [h2]; rfl
    · simpa only [hf, setsBy] using h3
    · rw [h2, hf]; rfl
    · rw [hf]; exact h1

theorem call_none (slot : Slot) (acts : List LAct) (s : LiveConn) :
    call slot acts s = none ↔ (∃ n, s.fn slot = .user n) ∧ ¬ LookOk slot acts := by
  unfold call
  cases hf : s.fn slot with
  | initial => simp
  | empty => simp
  | user n => simp [body_none]

theorem call_careless (slot : Slot) (acts : List LAct) (c : Conn) (fn : Slot → Listener) (gen : Slot → Nat) (n : Nat)
    (hf : fn slot = .user n) (hc : ¬ LookOk slot acts) : call slot acts ⟨c, fn, gen⟩ = none :=
  (call_none slot acts ⟨c, fn, gen⟩).mpr ⟨⟨n, hf⟩, hc⟩

/-- C113: which calls are defined.  A step is undefined only if the function that is called uses captured variables
after it has replaced itself (or if what was received cannot be read, as in C36). -/
theorem C113_defined (m : Mem) (s : LiveConn) (op : LOp) (hc : LookOkOp op)
    (hr : ∀ data acts, op = .recv data acts → s.conn.notifyReceiveData m data ≠ .ub) : LiveConn.step m s op ≠ none := by
  have hcall : ∀ slot acts s, LookOk slot acts → call slot acts s ≠ none := fun slot acts s h hn => ((call_none slot acts s).mp hn).2 h
  cases op with
  | setData d => simp [LiveConn.step]
  | setListener sl l => simp [LiveConn.step]
  | recv data acts =>
    have hr := hr data acts rfl
    simp only [LiveConn.step, LiveConn.recv]
    unfold Conn.notifyReceiveData at hr
    generalize s.conn.recvHead m (Buffer.ofData data) = r at hr ⊢
    cases r with
    | ub => exact absurd rfl hr
    | throw e => simp
    | ok r =>
      obtain ⟨⟨header, seq⟩, b⟩ := r
      dsimp only at hr ⊢
      by_cases hl : data.length < b.pos
      · rw [if_pos hl] at hr; exact absurd rfl hr
      · rw [if_neg hl]
        split
        · simp
        · split
          · next hn => exact absurd hn (hcall _ _ _ hc)
          · simp
  | tick now sa ca count =>
    simp only [LiveConn.step, LiveConn.tick]
    split
    · split
      · next hn => exact absurd hn (hcall _ _ _ hc.2)
      · simp
    · split
      · simp only [LiveConn.produce]
        split
        · next hn => exact absurd hn (hcall _ _ _ hc.1)
        · simp
        · split <;> simp
      · simp

/-- C113 violated: a function of the user that sets the listener from which it is called, and then uses captured variables,
is undefined behaviour whenever it is called. -/
theorem C113_self_violated (m : Mem) (s : LiveConn) :
    (∀ now sa ca count d n, ¬ LookOk .close ca → s.fn .close = .user n →
      (s.conn.notifyTick now {} count).2.1 = [.closed] → d = LiveConn.step m s (.tick now sa ca count) → d = none) ∧
    (∀ now sa ca count d n, ¬ LookOk .send sa → s.fn .send = .user n →
      (∃ x, IoEv.asked x ∈ (s.conn.notifyTick now {} count).2.1) → d = LiveConn.step m s (.tick now sa ca count) → d = none) ∧
    (∀ data acts d n, ¬ LookOk .receive acts → s.fn .receive = .user n →
      (∃ c h q x, s.conn.notifyReceiveData m data = .ok (c, [.received h q x])) → d = LiveConn.step m s (.recv data acts) → d = none) := by
  refine ⟨?_, ?_, ?_⟩
  · rintro now sa ca count d n hc hf ht rfl
    simp only [LiveConn.step, LiveConn.tick]
    unfold Conn.notifyTick at ht
    dsimp only at ht ⊢
    split
    · rw [call_careless .close ca _ s.fn s.gen n hf hc]
    · next hcond =>
      rw [if_neg hcond] at ht
      exfalso
      split at ht
      · simp only [Conn.produce] at ht
        split at ht <;> simp at ht
      · simp at ht
  · rintro now sa ca count d n hc hf ⟨x, ht⟩ rfl
    simp only [LiveConn.step, LiveConn.tick]
    unfold Conn.notifyTick at ht
    dsimp only at ht ⊢
    split
    · next hcond => rw [if_pos hcond] at ht; simp at ht
    · next hcond =>
      rw [if_neg hcond] at ht
      split
      · simp only [LiveConn.produce]
        rw [call_careless .send sa _ s.fn s.gen n hf hc]
      · next hcond => rw [if_neg hcond] at ht; simp at ht
  · rintro data acts d n hc hf ⟨c, h, q, x, ht⟩ rfl
    simp only [LiveConn.step, LiveConn.recv]
    unfold Conn.notifyReceiveData at ht
    generalize s.conn.recvHead m (Buffer.ofData data) = r at ht ⊢
    cases r with
    | ub => rfl
    | throw e => cases ht
    | ok r =>
      obtain ⟨⟨header, seq⟩, b⟩ := r
      dsimp only at ht ⊢
      split
      · rfl
      · next hl =>
        rw [if_neg hl] at ht
        split
        · next hs => rw [if_pos hs] at ht; simp at ht
        · rw [call_careless .receive acts _ s.fn s.gen n hf hc]

/-! ## Refinement -/

theorem setData_setData (c : Conn) (x y : List Byte) : (c.setDataToSend x).setDataToSend y = c.setDataToSend y := rfl

theorem tick_refines (now : Nat) (sa ca : List LAct) (count : Int) (s : LiveConn) (d : Did) (h : LiveConn.tick now sa ca count s = some d) :
    ∃ hook, hook.left = some d.st.conn.outputData ∧
      d.evs = (s.conn.notifyTick now hook count).2.1 ∧ d.ret = (s.conn.notifyTick now hook count).2.2 ∧
      d.st.conn = (s.conn.notifyTick now hook count).1.setDataToSend d.st.conn.outputData := by
  simp only [LiveConn.tick] at h
  by_cases h1 : s.conn.connectionTimeoutCount + BitVec.ofNat 32 ((now - s.conn.lastHandleTime) / 1000000 * 1000) >
      s.conn.connectionTimeoutMultiplier.setWidth 32 * s.conn.t2oAPI
  · rw [if_pos h1] at h
    split at h
    · cases h
    · next s2 thrown hc =>
      cases h
      have hd := called _ _ _ _ _ hc
      refine ⟨⟨some s2.conn.outputData, thrown⟩, rfl, ?_⟩
      unfold Conn.notifyTick
      dsimp only
      rw [if_pos h1]
      refine ⟨rfl, ?_, hd.conn⟩
      cases thrown <;> rfl
  · rw [if_neg h1] at h
    by_cases h2 : s.conn.o2tTimer + BitVec.ofNat 32 ((now - s.conn.lastHandleTime) / 1000000 * 1000) ≥ s.conn.o2tAPI
    · rw [if_pos h2] at h
      simp only [LiveConn.produce] at h
      split at h
      · cases h
      · next s2 e hc =>
        cases h
        have hd := called _ _ _ _ _ hc
        refine ⟨⟨some s2.conn.outputData, some e⟩, rfl, ?_⟩
        unfold Conn.notifyTick
        dsimp only
        rw [if_neg h1, if_pos h2]
        exact ⟨rfl, rfl, hd.conn⟩
      · next s2 hc =>
        have hd := called _ _ _ _ _ hc
        have hcf := hd.conn
        have f1 : s2.conn.o2tFixedSize = s.conn.o2tFixedSize := by rw [hcf]; rfl
        have f2 : s2.conn.o2tDataSize = s.conn.o2tDataSize := by rw [hcf]; rfl
        have f3 : s2.conn.socket = s.conn.socket := by rw [hcf]; rfl
        rw [f1, f2, f3] at h
        refine ⟨⟨some s2.conn.outputData, none⟩, ?_⟩
        unfold Conn.notifyTick
        dsimp only
        rw [if_neg h1, if_pos h2]
        simp only [Conn.produce, Option.getD_some]
        split at h
        · next hs =>
          cases h
          rw [if_pos hs]
          exact ⟨rfl, rfl, rfl, hcf⟩
        · next hs =>
          cases h
          rw [if_neg hs]
          exact ⟨rfl, rfl, rfl, hcf⟩
    · rw [if_neg h2] at h
      cases h
      refine ⟨⟨some s.conn.outputData, none⟩, rfl, ?_⟩
      unfold Conn.notifyTick
      dsimp only
      rw [if_neg h1, if_neg h2]
      exact ⟨rfl, rfl, rfl⟩

theorem recv_refines (m : Mem) (data : List Byte) (acts : List LAct) (s : LiveConn) (d : Did) (h : LiveConn.recv m data acts s = some d) :
    (∃ e, s.conn.notifyReceiveData m data = .throw e ∧ d = { st := s, ret := .threw e }) ∨
    ∃ c, s.conn.notifyReceiveData m data = .ok (c, d.evs) ∧ d.st.conn = c.setDataToSend d.st.conn.outputData := by
  unfold LiveConn.recv at h
  unfold Conn.notifyReceiveData
  generalize s.conn.recvHead m (Buffer.ofData data) = r at h ⊢
  cases r with
  | ub => cases h
  | throw e => cases h; exact .inl ⟨e, rfl, rfl⟩
  | ok r =>
    obtain ⟨⟨header, seq⟩, b⟩ := r
    dsimp only at h ⊢
    split at h
    · cases h
    · next hl =>
      right
      rw [if_neg hl]
      split at h
      · next hs => cases h; rw [if_pos hs]; exact ⟨_, rfl, rfl⟩
      · next hs =>
        rw [if_neg hs]
        split at h
        · cases h
        · next hc =>
          cases h
          exact ⟨_, rfl, (called _ _ _ _ _ hc).conn⟩

theorem step_refines (m : Mem) (s : LiveConn) (op : LOp) (d : Did) (h : LiveConn.step m s op = some d) :
    ∃ ops tr, s.conn.run m ops = some (d.st.conn, tr) ∧ tr.flatMap (·.2) = d.evs := by
  cases op with
  | tick now sa ca count =>
    obtain ⟨hook, -, h1, -, h3⟩ := tick_refines now sa ca count s d h
    refine ⟨[.tick now hook count, .setData d.st.conn.outputData], ?_⟩
    refine ⟨[(.tick now hook count, d.evs), (.setData d.st.conn.outputData, [])], ?_, by simp⟩
    simp only [Conn.run, Conn.step]
    rw [← h3, ← h1]
  | recv data acts =>
    rcases recv_refines m data acts s d h with ⟨e, -, rfl⟩ | ⟨c, h1, h3⟩
    · exact ⟨[], [], rfl, rfl⟩
    · refine ⟨[.recv data, .setData d.st.conn.outputData], [(.recv data, d.evs), (.setData d.st.conn.outputData, [])], ?_, by simp⟩
      simp only [Conn.run, Conn.step, h1]
      rw [← h3]
  | setData x => cases h; exact ⟨[.setData x], [(.setData x, [])], rfl, rfl⟩
  | setListener sl l => cases h; exact ⟨[], [], rfl, rfl⟩

theorem connRun_append (m : Mem) (c c1 c2 : Conn) (o1 o2 : List ConnOp) (t1 t2 : List (ConnOp × List IoEv))
    (h1 : c.run m o1 = some (c1, t1)) (h2 : c1.run m o2 = some (c2, t2)) : c.run m (o1 ++ o2) = some (c2, t1 ++ t2) := by
  induction o1 generalizing c t1 with
  | nil => cases h1; exact h2
  | cons op o1 ih =>
    simp only [Conn.run] at h1
    simp only [List.cons_append, Conn.run]
    cases hs : c.step m op with
    | none => rw [hs] at h1; cases h1
    | some r =>
      obtain ⟨c', evs⟩ := r
      rw [hs] at h1
      dsimp only at h1 ⊢
      cases hr : c'.run m o1 with
      | none => rw [hr] at h1; cases h1
      | some r =>
        obtain ⟨c'', tr⟩ := r
        rw [hr] at h1
        cases h1
        rw [ih c' tr hr]
        rfl

/-- **C113 (refinement).**  Whatever listeners are set, replaced or called in a history, there is a history of
`Verif.Model.IoConn`, in which listeners are a fixed input, that does the same to the connection and has the same events:
what was shown of such histories is true with listeners that change. -/
theorem C113_refines (m : Mem) (s s' : LiveConn) (ops : List LOp) (tr : List (LOp × Did)) (h : s.run m ops = some (s', tr)) :
    ∃ ops' tr', s.conn.run m ops' = some (s'.conn, tr') ∧ tr'.flatMap (·.2) = tr.flatMap (·.2.evs) := by
  induction ops generalizing s tr with
  | nil => cases h; exact ⟨[], [], rfl, rfl⟩
  | cons op ops ih =>
    simp only [LiveConn.run] at h
    cases hs : LiveConn.step m s op with
    | none => rw [hs] at h; cases h
    | some d =>
      rw [hs] at h
      dsimp only at h
      cases hr : LiveConn.run m d.st ops with
      | none => rw [hr] at h; cases h
      | some r =>
        obtain ⟨s2, tr2⟩ := r
        rw [hr] at h
        cases h
        obtain ⟨o1, t1, h1, e1⟩ := step_refines m s op d hs
        obtain ⟨o2, t2, h2, e2⟩ := ih d.st tr2 hr
        exact ⟨o1 ++ o2, t1 ++ t2, connRun_append m _ _ _ o1 o2 t1 t2 h1 h2, by simp [e1, e2]⟩

/-! ## Which listener is called -/

/-- What a step does with listeners. -/
structure Stepped (s : LiveConn) (op : LOp) (d : Did) : Prop where
  fn : ∀ sl, d.st.fn sl = (((setIn op d.calls).filter (·.1 = sl)).getLast?.map (·.2)).getD (s.fn sl)
  calls : d.calls = (d.evs.filterMap slotOf).map fun sl => (sl, s.fn sl)

theorem stepped (m : Mem) (s : LiveConn) (op : LOp) (d : Did) (h : LiveConn.step m s op = some d) : Stepped s op d := by
  cases op with
  | setData x => cases h; exact ⟨fun _ => rfl, rfl⟩
  | setListener sl l =>
    cases h
    refine ⟨fun sl' => ?_, rfl⟩
    by_cases hs : sl' = sl
    · subst hs; simp [setIn, setListener]
    · have : ¬ sl = sl' := fun h => hs h.symm
      simp [setIn, setListener, hs, this]
  | recv data acts =>
    simp only [LiveConn.step, LiveConn.recv] at h
    split at h
    · cases h
    · cases h; exact ⟨fun _ => rfl, rfl⟩
    · split at h
      · cases h
      · split at h
        · cases h; exact ⟨fun _ => rfl, rfl⟩
        · split at h
          · cases h
          · next hc =>
            cases h
            have hd := called _ _ _ _ _ hc
            refine ⟨fun sl => ?_, rfl⟩
            refine (hd.fn sl).trans ?_
            dsimp only
            cases s.fn .receive <;> rfl
  | tick now sa ca count =>
    simp only [LiveConn.step, LiveConn.tick] at h
    split at h
    · split at h
      · cases h
      · next hc =>
        cases h
        have hd := called _ _ _ _ _ hc
        refine ⟨fun sl => ?_, rfl⟩
        refine (hd.fn sl).trans ?_
        dsimp only
        cases s.fn .close <;> rfl
    · split at h
      · simp only [LiveConn.produce] at h
        split at h
        · cases h
        · next hc =>
          cases h
          have hd := called _ _ _ _ _ hc
          refine ⟨fun sl => ?_, rfl⟩
          refine (hd.fn sl).trans ?_
          dsimp only
          cases s.fn .send <;> rfl
        · next hc =>
          have hd := called _ _ _ _ _ hc
          have hf : ∀ sl, _ := hd.fn
          split at h
          all_goals
            cases h
            refine ⟨fun sl => ?_, rfl⟩
            refine (hf sl).trans ?_
            dsimp only
            cases s.fn .send <;> rfl
      · cases h; exact ⟨fun _ => rfl, rfl⟩

theorem last_sets (a b : List (Slot × Listener)) (sl : Slot) (l : Listener) :
    ((b.filter (·.1 = sl)).getLast?.map (·.2)).getD (((a.filter (·.1 = sl)).getLast?.map (·.2)).getD l)
      = (((a ++ b).filter (·.1 = sl)).getLast?.map (·.2)).getD l := by
  rw [List.filter_append, List.getLast?_append]
  cases (b.filter (·.1 = sl)).getLast? <;> rfl

theorem calls_latest (m : Mem) (s s' : LiveConn) (ops : List LOp) (tr pre post : List (LOp × Did)) (op : LOp) (d : Did)
    (h : s.run m ops = some (s', tr)) (ht : tr = pre ++ (op, d) :: post) :
    d.calls = (d.evs.filterMap slotOf).map fun sl =>
      (sl, (((pre.flatMap fun x => setIn x.1 x.2.calls).filter (·.1 = sl)).getLast?.map (·.2)).getD (s.fn sl)) := by
  induction ops generalizing s tr pre with
  | nil => cases h; simp at ht
  | cons op0 ops ih =>
    simp only [LiveConn.run] at h
    cases hs : LiveConn.step m s op0 with
    | none => rw [hs] at h; cases h
    | some d0 =>
      rw [hs] at h
      dsimp only at h
      cases hr : LiveConn.run m d0.st ops with
      | none => rw [hr] at h; cases h
      | some r =>
        obtain ⟨s2, tr2⟩ := r
        rw [hr] at h
        cases h
        have hst := stepped m s op0 d0 hs
        cases pre with
        | nil =>
          simp only [List.nil_append, List.cons.injEq, Prod.mk.injEq] at ht
          obtain ⟨⟨rfl, rfl⟩, -⟩ := ht
          exact hst.calls
        | cons p0 pre =>
          simp only [List.cons_append, List.cons.injEq] at ht
          obtain ⟨rfl, ht⟩ := ht
          rw [ih d0.st tr2 pre hr ht]
          refine List.map_congr_left fun sl _ => ?_
          rw [hst.fn sl, last_sets, List.flatMap_cons]

/-- **C113 (the latest).**  In every history of a new connection, each event by which a listener is called calls the one
that was set last for it, by the program or by a listener, and one that was never set does nothing; no other listener is
called. -/
theorem C113_latest (m : Mem) (c : Conn) (s' : LiveConn) (ops : List LOp) (tr pre post : List (LOp × Did)) (op : LOp) (d : Did)
    (h : (LiveConn.new c).run m ops = some (s', tr)) (ht : tr = pre ++ (op, d) :: post) :
    d.calls = (d.evs.filterMap slotOf).map fun sl => (sl, listenerAfter sl pre) :=
  calls_latest m _ s' ops tr pre post op d h ht

/-! ## Which data -/

theorem putBytes_bytes (b : Buffer) (x : List Byte) : (b.putBytes x).bytes = b.bytes ++ x := rfl

theorem frame_tail (a : CommonPacketItem) (b : Buffer) (x : List Byte) (ha : a.pack.length ≤ 12) (hb : b.bytes.length ≤ 6)
    (hx : x.length + 6 < 65536) :
    ∃ hdr, hdr.length ≤ 24 ∧
      CommonPacket.pack [a, CommonPacketItemFactory.connectedData (b.putBytes x).bytes] = hdr ++ x := by
  have hp : ∃ h2, h2.length ≤ 10 ∧ (CommonPacketItemFactory.connectedData (b.putBytes x).bytes).pack = h2 ++ x := by
    unfold CommonPacketItemFactory.connectedData CommonPacketItem.pack CommonPacketItem.mk'
    dsimp only
    by_cases hz : BitVec.ofNat 16 (b.putBytes x).bytes.length > 0#16
    · rw [if_pos hz]
      refine ⟨((Buffer.empty.putU16 ItemId.connectedTransportPacket).putU16 (BitVec.ofNat 16 (b.putBytes x).bytes.length)).bytes
        ++ b.bytes, ?_, ?_⟩
      · rw [List.length_append]
        have : ((Buffer.empty.putU16 ItemId.connectedTransportPacket).putU16
          (BitVec.ofNat 16 (b.putBytes x).bytes.length)).bytes.length = 4 := rfl
        omega
      · rw [putBytes_bytes, putBytes_bytes, List.append_assoc]
    · rw [if_neg hz]
      have h0 : (b.putBytes x).bytes.length = 0 := by
        have h1 : (b.putBytes x).bytes.length = b.bytes.length + x.length := by rw [putBytes_bytes, List.length_append]
        simp only [gt_iff_lt, BitVec.lt_def, BitVec.toNat_ofNat] at hz
        omega
      have hx0 : x = [] := by
        rw [putBytes_bytes] at h0
        exact List.eq_nil_of_length_eq_zero (by rw [List.length_append] at h0; omega)
      subst hx0
      exact ⟨_, by show 4 ≤ 10; decide, (List.append_nil _).symm⟩
  obtain ⟨h2, hl, hp⟩ := hp
  refine ⟨((Buffer.empty.putU16 (BitVec.ofNat 16 2)).putBytes a.pack).bytes ++ h2, ?_, ?_⟩
  · rw [List.length_append, putBytes_bytes, List.length_append]
    have : (Buffer.empty.putU16 (BitVec.ofNat 16 2)).bytes.length = 2 := rfl
    omega
  · simp only [CommonPacket.pack, CommonPacket.packItems, List.length_cons, List.length_nil]
    rw [putBytes_bytes, hp, List.append_assoc]

/-- **C113 (data).**  What the output data are after the send listener — its assignments to its argument and its calls of
`setDataToSend`, the last of them — is what is sent in this very frame, if it fits, and what stays for the next. -/
theorem C113_data (m : Mem) (s : LiveConn) (now : Nat) (sa ca : List LAct) (count : Int) (d : Did)
    (h : LiveConn.step m s (.tick now sa ca count) = some d) :
    (∀ x, .asked x ∈ d.evs → x = dataAfter true (s.fn .send) s.conn.outputData sa ∧ d.st.conn.outputData = x) ∧
    (∀ to bytes, .sent to bytes ∈ d.evs → d.st.conn.outputData.length + 6 < 65536 →
      .asked d.st.conn.outputData ∈ d.evs ∧ ∃ hdr, hdr.length ≤ 24 ∧ bytes = hdr ++ d.st.conn.outputData) := by
  simp only [LiveConn.step, LiveConn.tick] at h
  split at h
  · split at h
    · cases h
    · cases h; exact ⟨by simp, by simp⟩
  · split at h
    · simp only [LiveConn.produce] at h
      split at h
      · cases h
      · next hc =>
        cases h
        have hd := called _ _ _ _ _ hc
        refine ⟨fun x hx => ?_, by simp⟩
        simp only [List.mem_singleton, IoEv.asked.injEq] at hx
        subst hx
        exact ⟨hd.data, rfl⟩
      · next hc =>
        have hd := called _ _ _ _ _ hc
        have hdat := hd.data
        split at h
        · cases h
          refine ⟨fun x hx => ?_, by simp⟩
          simp only [List.mem_singleton, IoEv.asked.injEq] at hx
          subst hx
          exact ⟨hdat, rfl⟩
        · cases h
          refine ⟨fun x hx => ?_, fun to bytes hb hl => ?_⟩
          · simp only [List.mem_cons, IoEv.asked.injEq, reduceCtorEq, List.not_mem_nil, or_false] at hx
            subst hx
            exact ⟨hdat, rfl⟩
          · simp only [List.mem_cons, reduceCtorEq, IoEv.sent.injEq, List.not_mem_nil, or_false, false_or] at hb
            obtain ⟨-, rfl⟩ := hb
            refine ⟨List.mem_cons_self .., frame_tail _ _ _ (Nat.le_refl 12) ?_ hl⟩
            split <;> split <;> simp [Buffer.putU32, Buffer.putU16, Buffer.empty]
    · cases h; exact ⟨by simp, by simp⟩

/-! ## Empty functions -/

theorem empty_step (m : Mem) (s : LiveConn) (op : LOp) (d : Did) (h : LiveConn.step m s op = some d) (sl : Slot)
    (hf : s.fn sl = .empty) (hc : sl ∈ d.evs.filterMap slotOf) :
    d.ret = .threw badCall ∧ ∀ to bytes, IoEv.sent to bytes ∉ d.evs := by
  have key : ∀ slot acts s1 s2 x, call slot acts s1 = some (s2, x) → s1.fn slot = .empty → x = some badCall := by
    intro slot acts s1 s2 x h hf
    have := (called _ _ _ _ _ h).thrown
    rwa [hf] at this
  cases op with
  | setData x => cases h; simp at hc
  | setListener sl l => cases h; simp at hc
  | recv data acts =>
    simp only [LiveConn.step, LiveConn.recv] at h
    split at h
    · cases h
    · cases h; simp at hc
    · split at h
      · cases h
      · split at h
        · cases h; simp at hc
        · split at h
          · cases h
          · next hcall =>
            cases h
            simp only [List.filterMap_cons, slotOf, List.filterMap_nil, List.mem_singleton] at hc
            subst hc
            obtain rfl := key _ _ _ _ _ hcall hf
            exact ⟨rfl, by simp⟩
  | tick now sa ca count =>
    simp only [LiveConn.step, LiveConn.tick] at h
    split at h
    · split at h
      · cases h
      · next hcall =>
        cases h
        simp only [List.filterMap_cons, slotOf, List.filterMap_nil, List.mem_singleton] at hc
        subst hc
        obtain rfl := key _ _ _ _ _ hcall hf
        exact ⟨rfl, by simp⟩
    · split at h
      · simp only [LiveConn.produce] at h
        split at h
        · cases h
        · next hcall =>
          cases h
          simp only [List.filterMap_cons, slotOf, List.filterMap_nil, List.mem_singleton] at hc
          subst hc
          have hk := key _ _ _ _ _ hcall hf
          cases hk
          exact ⟨rfl, by simp⟩
        · next hcall =>
          have hcs : sl = .send := by
            split at h <;> (cases h; simpa [slotOf] using hc)
          subst hcs
          exact absurd (key _ _ _ _ _ hcall hf) (by simp)
      · cases h; simp at hc

theorem sent_asked (m : Mem) (s : LiveConn) (op : LOp) (d : Did) (h : LiveConn.step m s op = some d) (to : Option EndPoint)
    (bytes : List Byte) (hb : IoEv.sent to bytes ∈ d.evs) : Slot.send ∈ d.evs.filterMap slotOf := by
  cases op with
  | setData x => cases h; simp at hb
  | setListener sl l => cases h; simp at hb
  | recv data acts =>
    rcases recv_refines m data acts s d h with ⟨e, -, rfl⟩ | ⟨c, h1, -⟩
    · simp at hb
    · unfold Conn.notifyReceiveData at h1
      split at h1
      · cases h1
      · cases h1
      · split at h1
        · cases h1
        · dsimp only at h1
          split at h1
          all_goals
            simp only [Outcome.ok.injEq, Prod.mk.injEq] at h1
            rw [← h1.2] at hb
            simp at hb
  | tick now sa ca count =>
    simp only [LiveConn.step, LiveConn.tick] at h
    split at h
    · split at h
      · cases h
      · cases h; simp at hb
    · split at h
      · simp only [LiveConn.produce] at h
        split at h
        · cases h
        · cases h; simp at hb
        · split at h
          · cases h; simp at hb
          · cases h; simp [slotOf]
      · cases h; simp at hb

/-- C113 violated: after an empty `std::function` has been set as listener — `setSendDataListener(nullptr)`, say, in order to
have none — each event for it ends in `std::bad_function_call`, which the program gets from `handleConnections`; and until
another is set, nothing is sent. -/
theorem C113_empty_violated (m : Mem) (c : Conn) (s' : LiveConn) (ops : List LOp) (tr pre post : List (LOp × Did)) (op : LOp) (d : Did)
    (h : (LiveConn.new c).run m ops = some (s', tr)) (ht : tr = pre ++ (op, d) :: post) (sl : Slot)
    (he : listenerAfter sl pre = .empty) :
    (sl ∈ d.evs.filterMap slotOf → d.ret = .threw badCall) ∧
    (sl = .send → ∀ to bytes, IoEv.sent to bytes ∉ d.evs) := by
  obtain ⟨s, hs, hf⟩ : ∃ s, LiveConn.step m s op = some d ∧ s.fn sl = listenerAfter sl pre := by
    clear he
    suffices H : ∀ s0 : LiveConn, ∀ tr pre, s0.run m ops = some (s', tr) → tr = pre ++ (op, d) :: post →
        ∃ s, LiveConn.step m s op = some d ∧
          s.fn sl = (((pre.flatMap fun x => setIn x.1 x.2.calls).filter (·.1 = sl)).getLast?.map (·.2)).getD (s0.fn sl) from
      H _ tr pre h ht
    clear h ht
    induction ops with
    | nil => intro s0 tr pre h ht; cases h; simp at ht
    | cons op0 ops ih =>
      intro s0 tr pre h ht
      simp only [LiveConn.run] at h
      cases hs : LiveConn.step m s0 op0 with
      | none => rw [hs] at h; cases h
      | some d0 =>
        rw [hs] at h
        dsimp only at h
        cases hr : LiveConn.run m d0.st ops with
        | none => rw [hr] at h; cases h
        | some r =>
          obtain ⟨s2, tr2⟩ := r
          rw [hr] at h
          cases h
          cases pre with
          | nil =>
            simp only [List.nil_append, List.cons.injEq, Prod.mk.injEq] at ht
            obtain ⟨⟨rfl, rfl⟩, -⟩ := ht
            exact ⟨s0, hs, rfl⟩
          | cons p0 pre =>
            simp only [List.cons_append, List.cons.injEq] at ht
            obtain ⟨rfl, ht⟩ := ht
            obtain ⟨s, h1, h2⟩ := ih d0.st tr2 pre hr ht
            exact ⟨s, h1, by rw [h2, (stepped m s0 op0 d0 hs).fn sl, last_sets, List.flatMap_cons]⟩
  rw [he] at hf
  refine ⟨fun hc => (empty_step m s op d hs sl hf hc).1, ?_⟩
  rintro rfl to bytes hb
  exact (empty_step m s op d hs .send hf (sent_asked m s op d hs to bytes hb)).2 to bytes hb

/-! ## Cases -/

/-- A connection that sends two bytes every ten milliseconds and gives up after forty. -/
def liveExample : Conn :=
  { o2tAPI := 10000, t2oAPI := 10000, connectionTimeoutMultiplier := 4, o2tDataSize := 2, o2tNetworkConnectionId := 7,
    outputData := [1, 2] }

/-- The send listener replaces itself; the new one is called at the next frame, and its `setDataToSend` is in it. -/
example : ((LiveConn.new liveExample).run (fun _ => some 0)
      [.setListener .send (.user 1), .tick 10000000 [.look, .assign [3, 4], .set .send (.user 2)] [] 100,
       .tick 20000000 [.setData [5, 6]] [] 100]).map (fun r => r.2.map fun x => (x.2.calls, x.2.ret, x.2.st.conn.outputData))
    = some [([], .alive, [1, 2]), ([(.send, .user 1)], .alive, [3, 4]), ([(.send, .user 2)], .alive, [5, 6])] := by
  decide +kernel

example : LookOk .send [.look, .assign [3, 4], .set .send (.user 2)] := by
  intro pre post h l
  rcases pre with _ | ⟨a, _ | ⟨b, _ | ⟨c, pre⟩⟩⟩ <;> simp_all [beforeRaise]

/-- One that uses a captured variable after that is undefined. -/
example : (LiveConn.new liveExample).run (fun _ => some 0)
      [.setListener .send (.user 1), .tick 10000000 [.set .send (.user 2), .look] [] 100] = none := rfl

/-- An empty listener: nothing is sent, and each turn throws. -/
example : ((LiveConn.new liveExample).run (fun _ => some 0)
      [.setListener .send .empty, .tick 10000000 [] [] 100, .tick 20000000 [] [] 100]).map
        (fun r => r.2.map fun x => (x.2.evs, x.2.ret))
    = some [([], .alive), ([.asked [1, 2]], .threw badCall), ([.asked [1, 2]], .threw badCall)] := by
  decide +kernel

end Verif.Props
