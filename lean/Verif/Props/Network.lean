import Verif.Spec.Network
import Verif.Props.Process
import Verif.Props.ManagerRecv
import Verif.Props.ManagerSample

/-!
# C108: datagrams, their senders, and the managers that get them
-/

namespace Verif.Props

open Verif Verif.Spec

/-! ## The managers of a process keep their invariant -/

theorem inv_statics {m : Mgr} (h : Inv m) (st : Statics) : Inv { m with statics := st } := ⟨h.sorted, h.obj, h.held⟩

theorem inv_less {m : Mgr} (h : Inv m) (t : List (BitVec 16 × Nat)) (ht : t.Sublist m.table) : Inv { m with table := t } :=
  ⟨h.sorted.sublist ht, fun k id hm => h.obj k id (ht.subset hm), h.held⟩

theorem pinv_step (P : Plat) (p p' : Proc) (op : POp) (evs : List MEv) (ret : MRet) (hi : ∀ m ∈ p.mgrs, Inv m)
    (h : p.step P op = .ok p' evs ret) : ∀ m ∈ p'.mgrs, Inv m := by
  have hset : ∀ i (m : Mgr), Inv m → ∀ m' ∈ p.mgrs.set i m, Inv m' := fun i m hm m' hmem => by
    rcases List.mem_or_eq_of_mem_set hmem with h | rfl
    · exact hi m' h
    · exact hm
  cases op with
  | create inc =>
    cases h
    intro m hm
    rcases List.mem_append.mp hm with h | h
    · exact hi m h
    · rw [List.mem_singleton.mp h]; exact inv_new _ _
  | call i op =>
    obtain ⟨m, m', hm, hs, rfl, _⟩ := call_shape h
    exact hset i m' (inv_step P _ _ op evs ret (inv_statics (hi m (List.mem_of_getElem? hm)) _) hs)
  | closeOf i j id reply =>
    simp only [Proc.step, Proc.closeOf] at h
    split at h
    · rename_i mi mj hmi hmj
      have hI := hi mi (List.mem_of_getElem? hmi)
      split at h
      · cases h
      split at h
      · split at h
        · cases h; exact hi
        · split at h
          · cases h
          · cases h; exact hi
          · split at h
            · cases h
              exact hset i _ (inv_less hI _ List.filter_sublist)
            · split at h
              · cases h; exact hi
              · cases h
      · cases h; exact hi
    · cases h
  | destroy i =>
    obtain ⟨m, hm, _, _, rfl⟩ := destroy_shape h
    have hI := hi m (List.mem_of_getElem? hm)
    exact hset i _ ⟨List.Pairwise.nil, fun k id h => absurd h (by simp), hI.held⟩

theorem nrun_cons {P : Plat} {n n' : Net} {op : NetOp} {ops : List NetOp} {tr : List NetDone}
    (h : n.run P (op :: ops) = some (n', tr)) :
    ∃ n1 read evs ret tr', n.step P op = .ok n1 read evs ret ∧ n1.run P ops = some (n', tr') ∧ tr = ⟨op, read, evs, ret⟩ :: tr' := by
  simp only [Net.run] at h
  split at h
  · rename_i n1 read evs ret hs
    split at h
    · cases h
    · rename_i n2 tr' hr
      cases h
      exact ⟨n1, read, evs, ret, tr', hs, hr, rfl⟩
  · cases h

/-- Every operation is one of the process, or none. -/
theorem net_step_proc {P : Plat} {n n' : Net} {op : NetOp} {read : List Datagram} {evs : List MEv} {ret : MRet}
    (h : n.step P op = .ok n' read evs ret) :
    n'.proc = n.proc ∨ ∃ pop, n.proc.step P pop = .ok n'.proc evs ret := by
  cases op with
  | arrive i p =>
    simp only [Net.step, Net.arrive] at h
    split at h
    · cases h
    · split at h
      · cases h
      · cases h; exact .inl rfl
  | handle i start timeoutMs reads ticks =>
    simp only [Net.step, Net.handle] at h
    split at h
    · cases h
    · cases h
    · rename_i p evs' ret' hc
      cases h
      exact .inr ⟨.call i _, hc⟩
  | prog op =>
    simp only [Net.step, Net.prog] at h
    split at h
    · cases h
    · split at h
      · cases h
      · cases h
      · rename_i p evs' ret' hc
        cases h
        exact .inr ⟨op, hc⟩

theorem ninv_run (P : Plat) (n n' : Net) (ops : List NetOp) (tr : List NetDone) (hi : ∀ m ∈ n.proc.mgrs, Inv m)
    (h : n.run P ops = some (n', tr)) : ∀ m ∈ n'.proc.mgrs, Inv m := by
  induction ops generalizing n tr with
  | nil => cases h; exact hi
  | cons op ops ih =>
    obtain ⟨n1, read, evs, ret, tr', h1, h2, _⟩ := nrun_cons h
    refine ih n1 tr' ?_ h2
    rcases net_step_proc h1 with he | ⟨pop, hp⟩
    · rw [he]; exact hi
    · exact pinv_step P _ _ pop evs ret hi hp

/-! ## One call of handleConnections -/

theorem selects_append (a b : List MEv) : Net.selects (a ++ b) = Net.selects a + Net.selects b := by
  induction a with
  | nil => simp [Net.selects]
  | cons e a ih => cases e <;> simp only [List.cons_append, Net.selects, ih] <;> omega

theorem selects_none (evs : List MEv) (h : ∀ e ∈ evs, ∃ id op io, e = .conn id op io) : Net.selects evs = 0 := by
  induction evs with
  | nil => rfl
  | cons e evs ih =>
    obtain ⟨id, op, io, rfl⟩ := h e (by simp)
    exact ih fun x hx => h x (by simp [hx])

theorem deliver_selects {P : Plat} {r : Recv} {s s' : Mgr} {evs : List MEv} (h : s.deliver P r = .ok (s', evs)) :
    Net.selects evs = 0 := by
  obtain ⟨_, _, _, _, _, _, h7⟩ := deliver_replay P r s s' evs h
  rcases h7 with rfl | ⟨id, data, io, rfl, hk⟩ <;> rfl

theorem tickAll_selects (ticks : Nat → TickEnv) (t : List (BitVec 16 × Nat)) (heap : List Conn) :
    Net.selects (Mgr.tickAll ticks t heap).2.1 = 0 := by
  induction t generalizing heap with
  | nil => rfl
  | cons a t ih =>
    obtain ⟨k, id⟩ := a
    unfold Mgr.tickAll
    split
    · exact ih _
    · simp only
      split
      · rfl
      · exact ih _
      · exact ih _

/-- What waits, as the socket sees it. -/
def asRecv (q : List Datagram) : List Recv := q.map fun p => .dgram p.data

theorem loop_reads (P : Plat) (hP : P.mem = Mem.strict) (stop : Int) (reads : Nat → ReadEnv) (q : List Datagram) (k : Nat) (now : Int)
    (s : Mgr) (hi : Inv s) :
    (∀ s' evs, Mgr.selectLoop P stop now (Net.rounds reads k q) s = .go s' evs →
      Net.selects evs = q.length + 1 ∧ Routes s.table (asRecv q) (deliveries evs) ∧ s'.table = s.table) ∧
    (∀ s' evs e, Mgr.selectLoop P stop now (Net.rounds reads k q) s = .threw s' evs e → ∃ j, j < q.length ∧
      Net.selects evs = j + 1 ∧ (Routes s.table (asRecv (q.take j)) (deliveries evs) ∨
        (reads (k + j)).throws = some e ∧ Routes s.table (asRecv (q.take (j + 1))) (deliveries evs))) := by
  induction q generalizing k now s with
  | nil =>
    refine ⟨fun s' evs h => ?_, fun s' evs e h => ?_⟩
    · cases h; exact ⟨rfl, .nil, rfl⟩
    · cases h
  | cons p q ih =>
    refine ⟨fun s' evs h => ?_, fun s' evs e h => ?_⟩
    · simp only [Net.rounds, Mgr.selectLoop, Mgr.deliverAll] at h
      split at h
      · cases h
      · cases h
      · rename_i s1 evs1 hd
        split at hd
        · cases hd
        · cases hd
        · rename_i s1' evs1' hd'
          split at hd
          · cases hd
          · cases hd
            have hq := deliver_quiet P _ s _ _ hd'
            have hr := routes_one P hP s _ hi _ _ hd'
            split at h
            · cases h
            · cases h
            · rename_i s2 evs2 h2
              cases h
              obtain ⟨g1, g2, g3⟩ := (ih (k + 1) _ _ (hq.inv hi)).1 _ _ h2
              rw [hq.table] at g2 g3
              refine ⟨?_, ?_, g3⟩
              · simp only [List.cons_append, Net.selects, selects_append, deliver_selects hd', g1, List.length_cons]
                simp
              · simp only [List.cons_append, deliveries, List.append_nil, deliveries_append]
                exact hr.append g2
    · simp only [Net.rounds, Mgr.selectLoop, Mgr.deliverAll] at h
      split at h
      · cases h
      · rename_i s1 evs1 e1 hd
        cases h
        split at hd
        · cases hd
        · cases hd
          exact ⟨0, by simp, rfl, .inl .nil⟩
        · rename_i s1' evs1' hd'
          split at hd
          · rename_i e' hra
            cases hd
            refine ⟨0, by simp, ?_, .inr ⟨?_, ?_⟩⟩
            · simp only [Net.selects, deliver_selects hd']
            · unfold Mgr.raised at hra
              split at hra
              · exact hra
              · cases hra
            · simp only [deliveries]
              exact routes_one P hP s _ hi _ _ hd'
          · cases hd
      · rename_i s1 evs1 hd
        split at hd
        · cases hd
        · cases hd
        · rename_i s1' evs1' hd'
          split at hd
          · cases hd
          · cases hd
            have hq := deliver_quiet P _ s _ _ hd'
            have hr := routes_one P hP s _ hi _ _ hd'
            split at h
            · cases h
            · rename_i s2 evs2 e2 h2
              cases h
              obtain ⟨j, g0, g1, g2⟩ := (ih (k + 1) _ _ (hq.inv hi)).2 _ _ _ h2
              rw [hq.table] at g2
              refine ⟨j + 1, by simp only [List.length_cons]; omega, ?_, ?_⟩
              · simp only [List.cons_append, Net.selects, selects_append, deliver_selects hd', g1]
                simp
              · simp only [List.cons_append, deliveries, List.append_nil, deliveries_append]
                rcases g2 with g2 | ⟨g2, g3⟩
                · exact .inl (hr.append g2)
                · refine .inr ⟨?_, hr.append g3⟩
                  rw [← g2]
                  congr 2
                  omega
            · cases h

/-- C108. In every history of a process: a call of `handleConnections` that returns reads every datagram that waits in the
socket of its manager, and delivers them by the routing rule of C34, in order, and nothing else.  If the call throws, the
datagrams after the one that caused it stay in the socket and are read by a later call; those before it have been
delivered. -/
theorem C108_reads (P : Plat) (hP : P.mem = Mem.strict) (ops : List NetOp) (n n' : Net) (tr : List NetDone)
    (hrun : ({} : Net).run P ops = some (n, tr)) (i : Nat) (m : Mgr) (hm : n.proc.mgrs[i]? = some m)
    (start : Nat) (timeoutMs : Int) (reads : Nat → ReadEnv) (ticks : Nat → TickEnv) (read : List Datagram) (evs : List MEv) (ret : MRet)
    (h : n.step P (.handle i start timeoutMs reads ticks) = .ok n' read evs ret) :
    n.queues i = read ++ n'.queues i ∧ (∀ j, j ≠ i → n'.queues j = n.queues j) ∧
    (ret = .unit → n'.queues i = [] ∧ Routes m.table (asRecv read) (deliveries evs)) ∧
    (∀ e, ret = .threw e → n'.queues i = [] ∧ Routes m.table (asRecv read) (deliveries evs) ∨
      ∃ before last, read = before ++ [last] ∧ (Routes m.table (asRecv before) (deliveries evs) ∨
        (reads before.length).throws = some e ∧ Routes m.table (asRecv read) (deliveries evs))) := by
  have hI := ninv_run P {} n ops tr (fun m hm => absurd hm (by simp)) hrun m (List.mem_of_getElem? hm)
  simp only [Net.step, Net.handle] at h
  split at h
  · cases h
  · cases h
  rename_i p evs' ret' hc
  cases h
  refine ⟨by simp [Net.setQueue], fun j hj => by simp [Net.setQueue, hj], ?_⟩
  obtain ⟨m0, m', hm0, hs, rfl, _⟩ := call_shape (P := P) (p := n.proc) (i := i) (by exact hc)
  rw [hm] at hm0
  cases hm0
  have hl := loop_reads P hP (start + timeoutMs * 1000000) reads (n.queues i) 0 start { m with statics := n.proc.statics } (inv_statics hI _)
  have hqi : ∀ l, n.setQueue i l i = l := fun l => by simp [Net.setQueue]
  simp only [hqi]
  simp only [Mgr.step, Mgr.handle] at hs
  split at hs
  · cases hs
  · split at hs
    · cases hs
    · rename_i s1 evs1 e1 hsel
      cases hs
      obtain ⟨j, hj, g1, g2⟩ := hl.2 _ _ _ hsel
      refine ⟨nofun, fun e he => .inr ?_⟩
      injection he with he
      subst he
      rw [g1]
      refine ⟨(n.queues i).take j, (n.queues i)[j], by rw [List.take_succ_eq_append_getElem hj], ?_⟩
      rw [List.length_take, Nat.min_eq_left (by omega)]
      rw [Nat.zero_add] at g2
      exact g2
    · rename_i s1 evs1 hsel
      obtain ⟨g1, g2, _⟩ := hl.1 _ _ hsel
      have hd := tickAll_deliveries ticks s1.table s1.heap
      have ht := tickAll_selects ticks s1.table s1.heap
      have hall : Net.selects (evs1 ++ (Mgr.tickAll ticks s1.table s1.heap).2.1) = (n.queues i).length + 1 := by
        rw [selects_append, ht, g1]
      have hdel : deliveries (evs1 ++ (Mgr.tickAll ticks s1.table s1.heap).2.1) = deliveries evs1 := by
        rw [deliveries_append, hd, List.append_nil]
      have key : (n.queues i).drop ((n.queues i).length + 1) = [] ∧
          Routes m.table (asRecv ((n.queues i).take ((n.queues i).length + 1))) (deliveries evs1) := by
        refine ⟨by simp, ?_⟩
        rw [List.take_of_length_le (by omega)]
        exact g2
      split at hs
      · rename_i heap evs2 keys he
        cases hs
        rw [he] at hall hdel
        rw [hall, hdel]
        exact ⟨fun _ => key, fun e h => by cases h⟩
      · rename_i heap evs2 keys ex he
        cases hs
        rw [he] at hall hdel
        rw [hall, hdel]
        exact ⟨nofun, fun e h => .inl key⟩

/-! ## Histories -/

theorem pgone_step {P : Plat} {p p' : Proc} {op : POp} {evs : List MEv} {ret : MRet} (h : p.step P op = .ok p' evs ret) (i : Nat)
    (hi : i ∈ p.gone) : i ∈ p'.gone :=
  gone_mono P p p' [op] [(op, evs, ret)] (by simp [Proc.run, h]) i hi

theorem ngone_run (P : Plat) (n n' : Net) (ops : List NetOp) (tr : List NetDone) (h : n.run P ops = some (n', tr)) (i : Nat)
    (hi : i ∈ n.proc.gone) : i ∈ n'.proc.gone := by
  induction ops generalizing n tr with
  | nil => cases h; exact hi
  | cons op ops ih =>
    obtain ⟨n1, read, evs, ret, tr', h1, h2, _⟩ := nrun_cons h
    refine ih n1 tr' h2 ?_
    rcases net_step_proc h1 with he | ⟨pop, hp⟩
    · rw [he]; exact hi
    · exact pgone_step hp i hi

theorem queue_run (P : Plat) (n n' : Net) (ops : List NetOp) (tr : List NetDone) (h : n.run P ops = some (n', tr)) (i : Nat)
    (hg : i ∉ n'.proc.gone) : n.queues i ++ given i ops = readBy i tr ++ n'.queues i := by
  induction ops generalizing n tr with
  | nil => cases h; simp [given, readBy]
  | cons op ops ih =>
    obtain ⟨n1, read, evs, ret, tr', h1, h2, rfl⟩ := nrun_cons h
    have hi := ih n1 tr' h2
    cases op with
    | arrive j p =>
      simp only [Net.step, Net.arrive] at h1
      split at h1
      · cases h1
      split at h1
      · cases h1
      cases h1
      simp only [given, readBy]
      rw [← hi]
      by_cases hj : j = i
      · subst hj; simp [Net.setQueue]
      · have hj' : ¬ i = j := fun h => hj h.symm
        simp [Net.setQueue, hj, hj']
    | handle j start timeoutMs reads ticks =>
      simp only [Net.step, Net.handle] at h1
      split at h1
      · cases h1
      · cases h1
      cases h1
      simp only [given, readBy]
      by_cases hj : j = i
      · subst hj
        rw [if_pos rfl, List.append_assoc, ← hi]
        simp only [Net.setQueue, if_true]
        rw [← List.append_assoc, List.take_append_drop]
      · have hj' : ¬ i = j := fun h => hj h.symm
        rw [if_neg hj, ← hi]
        simp [Net.setQueue, hj']
    | prog op =>
      simp only [Net.step, Net.prog] at h1
      split at h1
      · cases h1
      split at h1
      · cases h1
      · cases h1
      rename_i p evs' ret' hs
      cases h1
      simp only [given, readBy]
      rw [← hi]
      cases op with
      | destroy j =>
        by_cases hj : i = j
        · subst hj
          refine absurd (ngone_run P _ _ ops tr' h2 i ?_) hg
          obtain ⟨m, _, _, _, hp⟩ := destroy_shape hs
          show i ∈ p.gone
          rw [hp]
          simp
        · simp [Net.setQueue, hj]
      | create _ => rfl
      | call _ _ => rfl
      | closeOf _ _ _ _ => rfl

/-- C108. Over any history, of all managers of a process, in which manager `i` is not destroyed: the datagrams that the
system gave to its socket are those it has read and those that still wait, in the order in which they came.  None is
lost, none is read twice, and none is read by another manager. -/
theorem C108_none_lost (P : Plat) (ops : List NetOp) (n : Net) (tr : List NetDone) (h : ({} : Net).run P ops = some (n, tr)) (i : Nat)
    (hg : i ∉ n.proc.gone) : given i ops = readBy i tr ++ n.queues i := by
  have := queue_run P {} n ops tr h i hg
  simpa using this

/-! ## The sender does not matter -/

/-- The same state, with datagrams from others. -/
def netSentBy (f : Datagram → SockAddr) (n : Net) : Net := { n with queues := fun i => (n.queues i).map (Datagram.sentBy f) }

/-- The same record, with datagrams from others. -/
def doneSentBy (f : Datagram → SockAddr) (d : NetDone) : NetDone :=
  { d with op := NetOp.sentBy f d.op, read := d.read.map (Datagram.sentBy f) }

theorem rounds_sentBy (f : Datagram → SockAddr) (reads : Nat → ReadEnv) (k : Nat) (q : List Datagram) :
    Net.rounds reads k (q.map (Datagram.sentBy f)) = Net.rounds reads k q := by
  induction q generalizing k with
  | nil => rfl
  | cons p q ih => simp only [List.map_cons, Net.rounds, ih]; rfl

theorem setQueue_sentBy (f : Datagram → SockAddr) (n : Net) (i : Nat) (q : List Datagram) :
    (netSentBy f n).setQueue i (q.map (Datagram.sentBy f)) = fun j => (n.setQueue i q j).map (Datagram.sentBy f) := by
  funext j
  simp only [Net.setQueue, netSentBy]
  split <;> rfl

theorem step_sentBy (P : Plat) (f : Datagram → SockAddr) (n n' : Net) (op : NetOp) (read : List Datagram) (evs : List MEv) (ret : MRet)
    (h : n.step P op = .ok n' read evs ret) :
    (netSentBy f n).step P (NetOp.sentBy f op) = .ok (netSentBy f n') (read.map (Datagram.sentBy f)) evs ret := by
  cases op with
  | arrive i p =>
    simp only [Net.step, Net.arrive] at h
    simp only [NetOp.sentBy, Net.step, Net.arrive]
    split at h
    · cases h
    rename_i m hm
    split at h
    · cases h
    rename_i hs
    cases h
    have hm' : (netSentBy f n).proc.mgrs[i]? = some m := hm
    rw [hm']
    simp only
    rw [if_neg hs]
    simp only [List.map_nil]
    congr 1
    have := setQueue_sentBy f n i (n.queues i ++ [p])
    rw [List.map_append] at this
    simp only [netSentBy] at this ⊢
    congr 1
  | handle i start timeoutMs reads ticks =>
    simp only [Net.step, Net.handle] at h
    simp only [NetOp.sentBy, Net.step, Net.handle]
    have hq : (netSentBy f n).queues i = (n.queues i).map (Datagram.sentBy f) := rfl
    have hp : (netSentBy f n).proc = n.proc := rfl
    rw [hq, hp, rounds_sentBy]
    split at h
    · cases h
    · cases h
    rename_i p evs' ret' hc
    cases h
    rw [← List.map_drop, ← List.map_take, setQueue_sentBy]
    rfl
  | prog op =>
    simp only [Net.step, Net.prog] at h
    simp only [NetOp.sentBy, Net.step, Net.prog]
    have hp : (netSentBy f n).proc = n.proc := rfl
    rw [hp]
    split at h
    · cases h
    rename_i hh
    rw [if_neg hh]
    split at h
    · cases h
    · cases h
    rename_i p evs' ret' hs
    cases h
    simp only [List.map_nil]
    congr 1
    cases op with
    | destroy j =>
      have := setQueue_sentBy f n j []
      simp only [netSentBy] at this ⊢
      congr 1
    | create _ => rfl
    | call _ _ => rfl
    | closeOf _ _ _ _ => rfl

theorem run_sentBy (P : Plat) (f : Datagram → SockAddr) (ops : List NetOp) (n n' : Net) (tr : List NetDone)
    (h : n.run P ops = some (n', tr)) :
    (netSentBy f n).run P (ops.map (NetOp.sentBy f)) = some (netSentBy f n', tr.map (doneSentBy f)) := by
  induction ops generalizing n tr with
  | nil => cases h; rfl
  | cons op ops ih =>
    obtain ⟨n1, read, evs, ret, tr', h1, h2, rfl⟩ := nrun_cons h
    simp only [List.map_cons, Net.run]
    rw [step_sentBy P f n n1 op read evs ret h1]
    simp only
    rw [ih n1 tr' h2]
    rfl

/-- C108. Who sent a datagram makes no difference: if the datagrams of a history come from other hosts, whichever these are,
everything else is the same, all states of all managers and all that listeners and the network see. -/
theorem C108_sender (P : Plat) (f : Datagram → SockAddr) (ops : List NetOp) (n : Net) (tr : List NetDone)
    (h : ({} : Net).run P ops = some (n, tr)) :
    ∃ n' tr', ({} : Net).run P (ops.map (NetOp.sentBy f)) = some (n', tr') ∧ n'.proc = n.proc ∧
      tr'.map (fun d => (d.evs, d.ret)) = tr.map (fun d => (d.evs, d.ret)) := by
  refine ⟨netSentBy f n, tr.map (doneSentBy f), run_sentBy P f ops {} n tr h, rfl, ?_⟩
  rw [List.map_map]
  rfl

/-! ## What follows for a user -/

/-- The target of the sample connections, and a host that has nothing to do with them. -/
def targetAddr : SockAddr := ⟨2, 0xAE08, 0x0A01A8C0⟩
def strangerAddr : SockAddr := ⟨2, 0x3930, 0x4206060A⟩

/-- What is compared: tables, deliveries by manager 0 and by all, notifications that a connection is closed, return values. -/
structure NetSummary where
  tables : List (List (BitVec 16 × Nat))
  delivered : List (Nat × List Byte)
  closed : Nat
  rets : List MRet
deriving DecidableEq

def netSummary (r : Option (Net × List NetDone)) : Option NetSummary :=
  r.map fun r => ⟨r.1.proc.mgrs.map Mgr.table, deliveries (r.2.flatMap NetDone.evs),
    closings 0 (r.2.filterMap fun d => match d.op with | .handle .. => some (.hasOpen, d.evs, d.ret) | _ => none),
    (r.2.filter fun d => match d.op with | .handle .. => true | _ => false).map NetDone.ret⟩

/-- Manager `i` waits without further ado and ticks at this time. -/
def netHandle (i now : Nat) : NetOp := .handle i now 5 (fun _ => {}) fun _ => ⟨now, { left := some [1, 2] }, 22⟩

/-- C108 violated: a datagram of a stranger is delivered as the data of the target, and a connection whose target is silent
is not closed as long as the stranger sends.  (The limit is 40 ms; the target never sends anything.) -/
theorem C108_stranger_violated :
    netSummary (({} : Net).run samplePlat [.prog (.create 1), .prog (.call 0 (sampleOpen 0xA 0x10001 1)),
      .arrive 0 ⟨strangerAddr, sampleDgram 0x10001 [6, 6]⟩, netHandle 0 30000000,
      .arrive 0 ⟨strangerAddr, sampleDgram 0x10001 [6, 7]⟩, netHandle 0 60000000,
      .arrive 0 ⟨strangerAddr, sampleDgram 0x10001 [6, 8]⟩, netHandle 0 90000000]) =
    some ⟨[[(1, 0)]], [(0, [1, 0, 6, 6]), (0, [1, 0, 6, 7]), (0, [1, 0, 6, 8])], 0, [.unit, .unit, .unit]⟩ ∧
    netSummary (({} : Net).run samplePlat [.prog (.create 1), .prog (.call 0 (sampleOpen 0xA 0x10001 1)),
      netHandle 0 30000000, netHandle 0 60000000]) = some ⟨[[]], [], 1, [.unit, .unit]⟩ := by
  decide +kernel

/-- C108 violated: two managers in a process, one connection each.  All datagrams of both targets are given to the socket of
the second manager, as a system does that prefers the socket bound last.  The connection of the first manager receives
nothing and is closed for want of data, although its target has sent in time. -/
theorem C108_shared_port_violated :
    netSummary (({} : Net).run samplePlat [.prog (.create 1), .prog (.create 2), .prog (.call 0 (sampleOpen 0xA 0x10001 1)),
      .prog (.call 1 (sampleOpen 0xB 0x10002 2)),
      .arrive 1 ⟨targetAddr, sampleDgram 0x10001 [6, 6]⟩, .arrive 1 ⟨targetAddr, sampleDgram 0x10002 [7, 7]⟩,
      netHandle 0 30000000, netHandle 1 30000000,
      .arrive 1 ⟨targetAddr, sampleDgram 0x10001 [6, 6]⟩, .arrive 1 ⟨targetAddr, sampleDgram 0x10002 [7, 7]⟩,
      netHandle 0 60000000, netHandle 1 60000000]) =
    some ⟨[[], [(2, 0)]], [(0, [1, 0, 7, 7]), (0, [1, 0, 7, 7])], 1, [.unit, .unit, .unit, .unit]⟩ := by
  decide +kernel

/-- Non-vacuity of `C108_reads`, `C108_none_lost` and `C108_sender`: three datagrams wait, the listener throws at the second,
and the third is delivered by the next call. -/
example :
    netSummary (({} : Net).run samplePlat [.prog (.create 1), .prog (.call 0 (sampleOpen 0xA 0x10001 1)),
      .arrive 0 ⟨targetAddr, sampleDgram 0x10001 [1, 1]⟩, .arrive 0 ⟨targetAddr, sampleDgram 0x10001 [2, 2]⟩,
      .arrive 0 ⟨strangerAddr, sampleDgram 0x10001 [3, 3]⟩,
      .handle 0 0 5 (fun k => if k = 1 then { throws := some (.runtime "x") } else {}) (fun _ => ⟨0, {}, 22⟩),
      netHandle 0 1000000]) =
    some ⟨[[(1, 0)]], [(0, [1, 0, 1, 1]), (0, [1, 0, 2, 2]), (0, [1, 0, 3, 3])], 0, [.threw (.runtime "x"), .unit]⟩ := by
  decide +kernel

/-- A datagram that comes when all connections are closed waits as well, and the next call reads it and drops it. -/
example :
    netSummary (({} : Net).run samplePlat [.prog (.create 1), .prog (.call 0 (sampleOpen 0xA 0x10001 1)),
      .prog (.call 0 (.forwardClose (some 0) (.ok (sampleReply 0 0 0)))), .arrive 0 ⟨targetAddr, sampleDgram 0x10001 [1, 1]⟩,
      netHandle 0 1000000]) = some ⟨[[]], [], 0, [.unit]⟩ := by
  decide +kernel

end Verif.Props
