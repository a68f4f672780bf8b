import Verif.Props.ManagerConn

/-!
# C81: a silent target is noticed, and a live one is kept

Liveness of `while (manager.hasOpenConnections()) manager.handleConnections(t)`.
-/

namespace Verif.Props

open Verif Verif.Spec

theorem tickAll_ticks (ticks : Nat → TickEnv) (t : List (BitVec 16 × Nat)) (heap : List Conn)
    (hn : (Mgr.tickAll ticks t heap).2.2.2 = none) (k : BitVec 16) (id : Nat) (hm : (k, id) ∈ t) (hl : id < heap.length) :
    ∃ io, MEv.conn id (.tick (ticks id).now (ticks id).hook (ticks id).count) io ∈ (Mgr.tickAll ticks t heap).2.1 := by
  induction t generalizing heap with
  | nil => cases hm
  | cons e t ih =>
    obtain ⟨k', i⟩ := e
    simp only [Mgr.tickAll] at hn ⊢
    rw [List.mem_cons] at hm
    cases hc : heap[i]? with
    | none =>
      simp only [hc] at hn ⊢
      rcases hm with hm | hm
      · injection hm with _ h2
        subst h2
        rw [List.getElem?_eq_none_iff] at hc
        omega
      · exact ih heap hn hm hl
    | some c =>
      simp only [hc] at hn ⊢
      split
      · rename_i e he
        rw [he] at hn
        cases hn
      all_goals
        rename_i he
        rw [he] at hn
        rcases hm with hm | hm
        · injection hm with _ h2
          subst h2
          exact ⟨_, List.mem_cons_self⟩
        · obtain ⟨io, h⟩ := ih _ hn hm (by simpa using hl)
          exact ⟨io, List.mem_cons_of_mem _ h⟩

/-- Ticks count whole milliseconds of silence. -/
theorem silence_ge (tr : IoTrace) (last ms : Nat)
    (hs : ∀ e ∈ tr, ∀ ev ∈ e.2, IoEv.isReceived ev = false)
    (hg : Steps (fun a b => a + 1000000 ≤ b) last (tickTimes (tr.map Prod.fst))) :
    ms + (tickTimes (tr.map Prod.fst)).length ≤ silence last ms tr := by
  induction tr generalizing last ms with
  | nil => simp [tickTimes, silence]
  | cons e tr ih =>
    obtain ⟨op, evs⟩ := e
    have hs' : ∀ e ∈ tr, ∀ ev ∈ e.2, IoEv.isReceived ev = false := fun e he => hs e (List.mem_cons_of_mem _ he)
    have hno : evs.any IoEv.isReceived = false := by
      rw [List.any_eq_false]
      intro ev hev
      rw [hs (op, evs) List.mem_cons_self ev hev]
      simp
    cases op with
    | tick now hook count =>
      simp only [List.map_cons, tickTimes, Steps, silence, List.length_cons] at hg ⊢
      have := ih now (ms + (now - last) / 1000000) hs' hg.2
      have h1 : 1 ≤ (now - last) / 1000000 := by
        rw [Nat.le_div_iff_mul_le (by decide)]
        omega
      omega
    | recv d =>
      simp only [List.map_cons, tickTimes, silence, hno] at hg ⊢
      exact ih last ms hs' hg
    | setData d =>
      simp only [List.map_cons, tickTimes, silence, hno] at hg ⊢
      exact ih last ms hs' hg

theorem silence_append (a b : IoTrace) (last ms : Nat) :
    silence last ms (a ++ b) = silence (lastTick last a) (silence last ms a) b := by
  induction a generalizing last ms with
  | nil => rfl
  | cons e a ih => obtain ⟨op, evs⟩ := e; cases op <;> simp [silence, lastTick, ih]

theorem tickTimes_append (xs ys : List ConnOp) : tickTimes (xs ++ ys) = tickTimes xs ++ tickTimes ys := by
  induction xs with
  | nil => rfl
  | cons x xs ih => cases x <;> simp [tickTimes, ih]

/-- One call: an open connection is ticked; it leaves the table exactly when it is closed. -/
theorem handle_entry (P : Plat) (s s' : Mgr) (hi : Inv s) (start : Nat) (t : Int) (rounds : List Round)
    (ticks : Nat → TickEnv) (evs : List MEv) (h : s.step P (.handle start t rounds ticks) = .ok s' evs .unit)
    (k : BitVec 16) (id : Nat) (hm : (k, id) ∈ s.table) :
    1 ≤ (tickTimes ((connTrace id evs).map Prod.fst)).length := by
  obtain ⟨s1, pre, hsel, rfl, hnone, rfl⟩ := handle_parts P start t rounds ticks s s' evs h
  have q := (selectLoop_quiet P _ rounds start s).1 _ _ hsel
  have hi1 := q.inv hi
  have hm1 : (k, id) ∈ s1.table := by rw [q.table]; exact hm
  obtain ⟨c, hc, _⟩ := hi1.obj k id hm1
  obtain ⟨io, hin⟩ := tickAll_ticks ticks s1.table s1.heap hnone k id hm1 (List.getElem?_eq_some_iff.mp hc).1
  have hmem := mem_connTrace.mpr (List.mem_append.mpr (.inr hin) : _ ∈ pre ++ (Mgr.tickAll ticks s1.table s1.heap).2.1)
  generalize connTrace id (pre ++ (Mgr.tickAll ticks s1.table s1.heap).2.1) = l at hmem
  induction l with
  | nil => cases hmem
  | cons e l ih =>
    rw [List.mem_cons] at hmem
    rcases hmem with rfl | hmem
    · simp [tickTimes]
    · have := ih hmem
      obtain ⟨op, ev⟩ := e
      cases op <;> simp [tickTimes] <;> omega

theorem handle_op {op : MOp} (h : isHandle op = true) : ∃ start t rounds ticks, op = .handle start t rounds ticks := by
  cases op <;> simp [isHandle] at h
  exact ⟨_, _, _, _, rfl⟩

theorem mrun_ops (P : Plat) (s s' : Mgr) (ops : List MOp) (tr : MTrace) (h : s.run P ops = some (s', tr)) :
    ops = tr.map Prod.fst := by
  induction ops generalizing s tr with
  | nil => simp [Mgr.run] at h; simp [← h.2]
  | cons op ops ih =>
    obtain ⟨s1, evs, ret, tr', _, h2, rfl⟩ := mrun_cons h
    simp [← ih s1 tr' h2]

theorem mrun_append (P : Plat) (s s1 s2 : Mgr) (ops ops' : List MOp) (tr tr' : MTrace)
    (h : s.run P ops = some (s1, tr)) (h' : s1.run P ops' = some (s2, tr')) :
    s.run P (ops ++ ops') = some (s2, tr ++ tr') := by
  induction ops generalizing s tr with
  | nil =>
    simp only [Mgr.run, Option.some.injEq, Prod.mk.injEq] at h
    obtain ⟨rfl, rfl⟩ := h
    exact h'
  | cons op ops ih =>
    obtain ⟨s0, evs, ret, t, g1, g2, rfl⟩ := mrun_cons h
    have := ih s0 t g2
    simp [Mgr.run, g1, this]

/-- A call that is not about sockets or the list of connections leaves the list as it is, and does nothing visible
to a connection. -/
theorem idle_step (P : Plat) (s s' : Mgr) (op : MOp) (evs : List MEv) (ret : MRet) (h : s.step P op = .ok s' evs ret)
    (ho : isIdle op = true) : s'.table = s.table ∧ ∀ id cop io, MEv.conn id cop io ∈ evs → io = [] := by
  cases op with
  | hasOpen => simp only [Mgr.step] at h; cases h; simp
  | setData id data => simp only [Mgr.step] at h; split at h <;> cases h <;> simp
  | lock id => simp only [Mgr.step] at h; split at h <;> cases h <;> simp
  | release id => simp only [Mgr.step] at h; cases h; simp
  | otherOpen a b c => simp only [Mgr.step] at h; split at h <;> cases h; simp
  | _ => simp [isIdle] at ho

/-- A call of `handleConnections` adds no entry, and idle calls neither. -/
theorem handles_shrink (P : Plat) (s s' : Mgr) (ops : List MOp) (tr : MTrace) (h : s.run P ops = some (s', tr))
    (hops : ∀ op ∈ ops, isHandle op = true ∨ isIdle op = true) : ∀ e ∈ s'.table, e ∈ s.table := by
  induction ops generalizing s tr with
  | nil => simp [Mgr.run] at h; rw [h.1]; exact fun _ h => h
  | cons op ops ih =>
    obtain ⟨s1, evs, ret, tr', h1, h2, rfl⟩ := mrun_cons h
    intro e he
    have := ih s1 tr' h2 (fun o ho => hops o (List.mem_cons_of_mem _ ho)) e he
    rcases hops op List.mem_cons_self with hh | hh
    · obtain ⟨start, t, rounds, ticks, rfl⟩ := handle_op hh
      cases handle_shape P start t rounds ticks s s1 evs ret h1 with
      | still _ _ ht =>
        rcases ht with ht | ⟨_, ht⟩
        · rwa [ht] at this
        · rw [ht] at this; exact (List.mem_filter.mp this).1
      | opened c _ hev _ =>
        obtain ⟨_, _, _, _, rfl, _⟩ := hev
        exact absurd (List.mem_append.mpr (.inr List.mem_cons_self)) (handle_no_created h1 _ _)
      | handled _ _ ht => obtain ⟨f, ht⟩ := ht; rw [ht] at this; exact (List.mem_filter.mp this).1
      | wrote _ _ _ _ ht => rwa [ht] at this
    · rwa [(idle_step P s s1 op evs ret h1 hh).1] at this

theorem serves_ops (P : Plat) (s s' : Mgr) (ops : List MOp) (tr : MTrace) (h : s.run P ops = some (s', tr))
    (hs : Serves tr) : ∀ op ∈ ops, isHandle op = true ∨ isIdle op = true := by
  intro o ho
  rw [mrun_ops P s s' ops tr h, List.mem_map] at ho
  obtain ⟨e, he, rfl⟩ := ho
  exact (hs e he).imp And.left id

/-- Calls that return normally: an entry that is never closed stays and is ticked by every
call; an entry that is closed is gone. -/
theorem handles_entry (P : Plat) (s s' : Mgr) (hi : Inv s) (ops : List MOp) (tr : MTrace)
    (h : s.run P ops = some (s', tr)) (hops : Serves tr)
    (k : BitVec 16) (id : Nat) (hm : (k, id) ∈ s.table) :
    (k, id) ∈ s'.table ∧ countOps isHandle tr ≤ (tickTimes ((connTrace id (allEvs tr)).map Prod.fst)).length ∧
        (∀ e ∈ connTrace id (allEvs tr), IoEv.closed ∉ e.2) ∨
    (k, id) ∉ s'.table ∧ ∃ e ∈ connTrace id (allEvs tr), IoEv.closed ∈ e.2 := by
  induction ops generalizing s tr with
  | nil =>
    simp only [Mgr.run, Option.some.injEq, Prod.mk.injEq] at h
    obtain ⟨rfl, rfl⟩ := h
    left
    simp [hm, allEvs, connTrace, countOps]
  | cons op ops ih =>
    obtain ⟨s1, evs, ret, tr', h1, h2, rfl⟩ := mrun_cons h
    have hops' : Serves tr' := fun e he => hops e (List.mem_cons_of_mem _ he)
    have hinv := inv_step P s s1 _ evs _ hi h1
    rw [allEvs_cons, connTrace_append, List.map_append, tickTimes_append, List.length_append, countOps_cons]
    rcases hops _ List.mem_cons_self with ⟨ho, hu⟩ | ho
    · simp only at ho hu
      subst hu
      rw [if_pos ho]
      obtain ⟨start, t, rounds, ticks, rfl⟩ := handle_op ho
      have hrm := handle_removes P s s1 hi start t rounds ticks evs h1 k id hm
      have htick := handle_entry P s s1 hi start t rounds ticks evs h1 k id hm
      by_cases hin : (k, id) ∈ s1.table
      · rcases ih s1 hinv tr' h2 hops' hin with ⟨a, b, c⟩ | ⟨a, e, b, c⟩
        · left
          refine ⟨a, by simp only; omega, fun e he => ?_⟩
          rw [List.mem_append] at he
          rcases he with he | he
          · obtain ⟨cop, io⟩ := e
            intro hcl
            exact (hrm.mpr ⟨cop, io, mem_connTrace.mp he, hcl⟩) hin
          · exact c e he
        · exact .inr ⟨a, e, List.mem_append.mpr (.inr b), c⟩
      · right
        obtain ⟨cop, io, hcm, hcl⟩ := hrm.mp hin
        refine ⟨fun hx => hin ?_, (cop, io), List.mem_append.mpr (.inl (mem_connTrace.mpr hcm)), hcl⟩
        exact handles_shrink P s1 s' ops tr' h2 (serves_ops P s1 s' ops tr' h2 hops') _ hx
    · simp only at ho
      obtain ⟨ht, hio⟩ := idle_step P s s1 op evs ret h1 ho
      have hno : isHandle op = false := by cases op <;> first | rfl | simp [isIdle] at ho
      rw [if_neg (by simp [hno])]
      rcases ih s1 hinv tr' h2 hops' (by rw [ht]; exact hm) with ⟨a, b, c⟩ | ⟨a, e, b, c⟩
      · left
        refine ⟨a, by simp only; omega, fun e he => ?_⟩
        rw [List.mem_append] at he
        rcases he with he | he
        · obtain ⟨cop, io⟩ := e
          rw [hio _ _ _ (mem_connTrace.mp he)]
          simp
        · exact c e he
      · exact .inr ⟨a, e, List.mem_append.mpr (.inr b), c⟩

/-! ## A silent target is noticed -/

/-- C81. A target that falls silent is noticed: whatever has happened before, if
`handleConnections` is called again and again, each call returns normally, and nothing
is accepted for a connection, then after any number of calls greater than its limit in
milliseconds it has been closed and is no longer open. -/
theorem C81_silent_closed (P : Plat) (inc : BitVec 16) (st : Statics) (s s' : Mgr) (ops ops' : List MOp)
    (tr tr' : MTrace) (h : (Mgr.new inc st).run P ops = some (s, tr)) (h' : s.run P ops' = some (s', tr'))
    (hcalls : Serves tr')
    (k : BitVec 16) (id : Nat) (c : Conn) (hk : (k, id) ∈ s.table) (hc : MEv.created id c ∈ allEvs tr)
    (hs : Silent id c tr tr') (hlen : timeoutMicros c < 1000 * countOps isHandle tr') :
    (k, id) ∉ s'.table ∧ ∃ e ∈ connTrace id (allEvs tr'), IoEv.closed ∈ e.2 := by
  have hi := inv_run P _ s ops tr (inv_new inc st) h
  rcases handles_entry P s s' hi ops' tr' h' hcalls k id hk with ⟨_, hn, hno⟩ | hdone
  · exfalso
    have hall := mrun_append P _ s s' ops ops' tr tr' h h'
    have hc' : MEv.created id c ∈ allEvs (tr ++ tr') := by rw [allEvs_append]; exact List.mem_append.mpr (.inl hc)
    obtain ⟨d, _, hr⟩ := C51_isolated P inc st s' _ _ hall id c hc'
    obtain ⟨_, _, _, h4, _⟩ := created_fresh P _ s' _ _ hall id c hc'
    obtain ⟨_, i2, _⟩ := silence_inv P.mem c d _ _ 0 hr
      (by
        rw [allEvs_append, connTrace_append]
        intro e he
        rw [List.mem_append] at he
        exact he.elim (hs.isOpen e) (hno e))
      hs.limit hs.gaps (by rw [h4]; simp) (Nat.zero_le _)
    rw [allEvs_append, connTrace_append, silence_append] at i2
    have := silence_ge (connTrace id (allEvs tr')) (lastTick c.lastHandleTime (connTrace id (allEvs tr)))
      (silence c.lastHandleTime 0 (connTrace id (allEvs tr))) hs.silent hs.spaced
    unfold limit at i2
    unfold timeoutMicros at hlen
    omega
  · exact hdone

/-- C81. So the loop `while (manager.hasOpenConnections()) manager.handleConnections(t)` ends
when all targets have fallen silent. -/
theorem C81_loop_ends (P : Plat) (inc : BitVec 16) (st : Statics) (s s' : Mgr) (ops ops' : List MOp)
    (tr tr' : MTrace) (h : (Mgr.new inc st).run P ops = some (s, tr)) (h' : s.run P ops' = some (s', tr'))
    (hcalls : Serves tr')
    (hs : ∀ k id, (k, id) ∈ s.table → ∃ c, MEv.created id c ∈ allEvs tr ∧ Silent id c tr tr' ∧
      timeoutMicros c < 1000 * countOps isHandle tr') :
    s'.table = [] ∧ s'.step P .hasOpen = .ok s' [] (.bool false) := by
  have hnil : s'.table = [] := by
    rw [List.eq_nil_iff_forall_not_mem]
    rintro ⟨k, id⟩ he
    have hops := serves_ops P s s' ops' tr' h' hcalls
    have hin := handles_shrink P s s' ops' tr' h' hops _ he
    obtain ⟨c, h1, h2, h3⟩ := hs k id hin
    exact (C81_silent_closed P inc st s s' ops ops' tr tr' h h' hcalls k id c hin h1 h2 h3).1 he
  exact ⟨hnil, by simp [Mgr.step, hnil]⟩

/-! ## A live target is kept -/

theorem count_step (a p heard last now : Nat) (h1 : a * 1000 + heard ≤ last) (h2 : p * 1000 ≤ now - last)
    (h3 : last ≤ now) : (a + p) * 1000 + heard ≤ now := by
  rw [Nat.add_mul]
  have h4 : p * 1000 + last ≤ now := (Nat.le_sub_iff_add_le h3).mp h2
  exact Nat.le_trans (by rw [Nat.add_right_comm, Nat.add_comm]; exact Nat.add_le_add_left h1 _) h4

/-- The counter never reaches the limit of a connection that is fed. -/
theorem fed_open (m : Mem) (c c' : Conn) (ops : List ConnOp) (tr : IoTrace) (heard : Nat)
    (lim : Nat) (hrun : c.run m ops = some (c', tr)) (hl : limit c = lim) (hlim : lim * 1000 < 2 ^ 32 * 1000)
    (hcount : c.connectionTimeoutCount.toNat * 1000 + heard ≤ c.lastHandleTime)
    (hfed : Fed (lim * 1000) heard c.lastHandleTime tr) : ∀ e ∈ tr, IoEv.closed ∉ e.2 := by
  induction ops generalizing c tr heard with
  | nil =>
    simp [Conn.run] at hrun
    simp [hrun.2]
  | cons op ops ih =>
    obtain ⟨d, evs, tr', h1, h2, rfl⟩ := run_cons hrun
    have hc := step_config m c d op evs h1
    have hlimd : limit d = limit c := by unfold limit; rw [hc.mult, hc.t2oAPI]
    cases op with
    | tick now hook count =>
      obtain ⟨ret, ht⟩ := tick_step h1
      obtain ⟨g1, g2, g3⟩ := closed_iff c d now hook count evs ret ht
      simp only [Fed] at hfed
      obtain ⟨f1, f2, f3⟩ := hfed
      have hper : period c now * 1000 ≤ now - c.lastHandleTime := by
        have hq := Nat.div_mul_le_self (now - c.lastHandleTime) 1000000
        unfold period
        rwa [Nat.mul_assoc, show 1000 * 1000 = 1000000 from rfl]
      generalize period c now = p at *
      have hsum : (c.connectionTimeoutCount + BitVec.ofNat 32 p).toNat =
          c.connectionTimeoutCount.toNat + p := by
        simp only [BitVec.toNat_add, BitVec.toNat_ofNat]
        rw [Nat.add_mod_mod, Nat.mod_eq_of_lt]
        omega
      have hnot : IoEv.closed ∉ evs := by
        rw [g1, BitVec.lt_def, limit_toNat c (by rw [hl]; omega), hsum]
        omega
      have gl := g3 hnot
      intro e he
      rw [List.mem_cons] at he
      rcases he with rfl | he
      · exact hnot
      · exact ih d tr' heard h2 (hlimd.trans hl) (by
            have h3 := (congrArg BitVec.toNat g2).trans hsum
            have := count_step _ p heard c.lastHandleTime now hcount hper f1
            rwa [← h3, ← gl] at this)
          (by rw [gl]; exact f3) e he
    | recv data =>
      simp only [Fed] at hfed
      intro e he
      rw [List.mem_cons] at he
      rcases recv_cases m c d data evs (recv_step h1) with ⟨rfl, rfl⟩ | ⟨rfl, _, _, _, rfl, _⟩
      · rcases he with rfl | he
        · simp
        · exact ih _ tr' heard h2 (hlimd.trans hl) hcount hfed e he
      · rcases he with rfl | he
        · simp
        · exact ih _ tr' c.lastHandleTime h2 (hlimd.trans hl) (by simp) (by simpa [IoEv.isReceived] using hfed) e he
    | setData data =>
      simp only [Fed] at hfed
      obtain ⟨rfl, rfl⟩ := setData_step h1
      intro e he
      rw [List.mem_cons] at he
      rcases he with rfl | he
      · simp
      · exact ih _ tr' heard h2 (hlimd.trans hl) hcount hfed e he

/-- C81. A connection whose target keeps sending stays open: if every tick comes at most the
limit after the last tick before the most recent accepted datagram, it is never closed, however
long the history. -/
theorem C81_fed_open (P : Plat) (inc : BitVec 16) (st : Statics) (s : Mgr) (ops : List MOp) (tr : MTrace)
    (h : (Mgr.new inc st).run P ops = some (s, tr)) (id : Nat) (c : Conn) (hc : MEv.created id c ∈ allEvs tr)
    (hlim : timeoutMicros c < 2 ^ 32)
    (hfed : Fed (timeoutMicros c * 1000) c.lastHandleTime c.lastHandleTime (connTrace id (allEvs tr))) :
    ∀ e ∈ connTrace id (allEvs tr), IoEv.closed ∉ e.2 := by
  obtain ⟨d, _, hr⟩ := C51_isolated P inc st s ops tr h id c hc
  obtain ⟨_, _, _, h4, _⟩ := created_fresh P _ s ops tr h id c hc
  exact fed_open P.mem c d _ _ c.lastHandleTime (timeoutMicros c) hr rfl (by omega) (by rw [h4]; simp) hfed

/-- C81. So `handleConnections` keeps exactly the open connections, if all are fed. -/
theorem C81_all_kept (P : Plat) (inc : BitVec 16) (st : Statics) (s s' : Mgr) (ops ops' : List MOp)
    (tr tr' : MTrace) (h : (Mgr.new inc st).run P ops = some (s, tr)) (h' : s.run P ops' = some (s', tr'))
    (hcalls : Serves tr')
    (hfed : ∀ k id, (k, id) ∈ s.table → ∃ c, MEv.created id c ∈ allEvs tr ∧ timeoutMicros c < 2 ^ 32 ∧
      Fed (timeoutMicros c * 1000) c.lastHandleTime c.lastHandleTime (connTrace id (allEvs (tr ++ tr')))) :
    ∀ e, e ∈ s'.table ↔ e ∈ s.table := by
  have hi := inv_run P _ s ops tr (inv_new inc st) h
  have hops := serves_ops P s s' ops' tr' h' hcalls
  rintro ⟨k, id⟩
  refine ⟨handles_shrink P s s' ops' tr' h' hops _, fun hm => ?_⟩
  obtain ⟨c, h1, h2, h3⟩ := hfed k id hm
  rcases handles_entry P s s' hi ops' tr' h' hcalls k id hm with ⟨g, _⟩ | ⟨_, e, he, hcl⟩
  · exact g
  · exfalso
    have hall := mrun_append P _ s s' ops ops' tr tr' h h'
    refine C81_fed_open P inc st s' _ _ hall id c (by rw [allEvs_append]; exact List.mem_append.mpr (.inl h1)) h2 h3 e ?_ hcl
    rw [allEvs_append, connTrace_append]
    exact List.mem_append.mpr (.inr he)

end Verif.Props
