import Verif.Props.ManagerConn
import Verif.Props.ManagerRecv

/-!
# C84: listeners that throw; C37: what is asked for is sent
-/

namespace Verif.Props

open Verif Verif.Spec

/-! ## One connection -/

/-- C37, the converse of `C37_C50_transmission`: when the send listener was called and returned,
and the data it left have the size of a fixed-size connection, a datagram with these data is
handed to the operating system. -/
theorem C37_sends (m : Mem) (c c' : Conn) (ops : List ConnOp) (pre post : IoTrace) (now : Nat) (hook : Hook)
    (count : Int) (evs : List IoEv) (data : List Byte)
    (hrun : c.run m ops = some (c', pre ++ (.tick now hook count, evs) :: post))
    (hask : IoEv.asked data ∈ evs) (hth : hook.throws = none)
    (hfit : c.o2tFixedSize = true → data.length = c.o2tDataSize) :
    data = hook.left.getD (lastWritten c.outputData pre) ∧ ∃ bytes, evs = [.asked data, .sent c.socket bytes] := by
  obtain ⟨o1, o2, d, d', rfl, h1, h2, h3⟩ := run_split m c c' ops pre post (_, evs) hrun
  have hc := run_config m c d o1 pre h1
  obtain ⟨_, _, k3⟩ := run_counters m c d o1 pre h1
  obtain ⟨ret, ht⟩ := tick_step h2
  cases ht with
  | dead => simp at hask
  | idle => simp at hask
  | prod _ _ _ _ hev =>
    rcases hev with ⟨rfl, hf, hl, _⟩ | ⟨_, rfl, he, _⟩ | ⟨b, rfl, _⟩
    · simp only [List.mem_singleton, IoEv.asked.injEq] at hask
      rw [hc.o2tSize] at hl
      rw [hc.o2tFixed] at hf
      rw [hask] at hfit
      exact absurd (hfit hf) hl
    · rw [hth] at he; cases he
    · simp at hask
      subst hask
      rw [k3]
      exact ⟨rfl, b, by rw [hc.socket]⟩

/-- C84. A tick whose listener throws sends nothing; if it was the send listener the number it
would have used is used up all the same (`C37_C50_transmission` counts the calls of the listener,
not the datagrams). -/
theorem C84_nothing_sent (m : Mem) (c c' : Conn) (ops : List ConnOp) (tr : IoTrace) (hrun : c.run m ops = some (c', tr))
    (now : Nat) (hook : Hook) (count : Int) (evs : List IoEv) (hm : (ConnOp.tick now hook count, evs) ∈ tr)
    (hth : hook.throws ≠ none) : evs = [] ∨ evs = [.closed] ∨ ∃ data, evs = [.asked data] := by
  obtain ⟨pre, post, rfl⟩ := List.append_of_mem hm
  obtain ⟨o1, o2, d, d', rfl, h1, h2, h3⟩ := run_split m c c' ops pre post (_, evs) hrun
  obtain ⟨ret, ht⟩ := tick_step h2
  cases ht with
  | dead => exact .inr (.inl rfl)
  | idle => exact .inl rfl
  | prod _ _ _ _ hev =>
    rcases hev with ⟨rfl, _⟩ | ⟨_, rfl, _⟩ | ⟨b, _, _, _, he, _⟩
    · exact .inr (.inr ⟨_, rfl⟩)
    · exact .inr (.inr ⟨_, rfl⟩)
    · exact absurd he hth

/-! ## What leaves `handleConnections` -/

/-- The outcome of a tick that throws. -/
theorem tick_threw {c d : Conn} {now : Nat} {hook : Hook} {count : Int} {evs : List IoEv} {e : Exn}
    (h : TickCase c now hook count d evs (.threw e)) :
    (hook.throws = some e ∧ (evs = [.closed] ∨ ∃ data, evs = [.asked data])) ∨
    (hook.throws = none ∧ e = .system 0 ∧ ∃ data to bytes, evs = [.asked data, .sent to bytes] ∧
      udpSendThrows bytes count = true) := by
  generalize hr : TickRet.threw e = ret at h
  cases h with
  | dead h =>
    unfold Conn.closeRet at hr
    split at hr
    · rename_i x hx
      injection hr with hr
      exact .inl ⟨by rw [hx, hr], .inl rfl⟩
    · cases hr
  | idle => cases hr
  | prod _ _ _ _ hev =>
    rcases hev with ⟨_, _, _, _, h⟩ | ⟨x, rfl, hx, h⟩ | ⟨b, rfl, _, _, hx, h⟩
    · rw [h] at hr; cases hr
    · rw [h] at hr
      injection hr with hr
      exact .inl ⟨by rw [hx, hr], .inr ⟨_, rfl⟩⟩
    · rw [h] at hr
      split at hr
      · rename_i hu
        injection hr with hr
        exact .inr ⟨hx, hr, _, _, _, rfl, hu⟩
      · cases hr

/-- A tick that runs a listener that throws ends with its exception. -/
theorem tick_throws {c d : Conn} {now : Nat} {hook : Hook} {count : Int} {evs : List IoEv} {ret : TickRet} {e : Exn}
    (h : TickCase c now hook count d evs ret) (hne : evs ≠ []) (hth : hook.throws = some e) : ret = .threw e := by
  cases h with
  | dead h => simp only [Conn.closeRet, hth]
  | idle => simp at hne
  | prod _ _ _ _ hev =>
    rcases hev with ⟨_, _, _, hx, _⟩ | ⟨x, _, hx, h⟩ | ⟨b, _, _, _, hx, _⟩
    · rw [hth] at hx; cases hx
    · rw [hth] at hx; injection hx with hx; rw [h, hx]
    · rw [hth] at hx; cases hx

/-- The loop of ticks ended by an exception: the last tick threw it, and only the connections
before it were ticked. -/
theorem tickAll_threw (ticks : Nat → TickEnv) (t : List (BitVec 16 × Nat)) (heap : List Conn) (e : Exn)
    (h : (Mgr.tickAll ticks t heap).2.2.2 = some e) :
    ∃ pre k id post evs io, t = pre ++ (k, id) :: post ∧
      (Mgr.tickAll ticks t heap).2.1 = evs ++ [.conn id (.tick (ticks id).now (ticks id).hook (ticks id).count) io] ∧
      (∀ i op io', MEv.conn i op io' ∈ evs → (∃ k', (k', i) ∈ pre) ∧
        ∀ n hk ct, op = .tick n hk ct → io' ≠ [] → hk.throws = none) ∧
      ((∃ c d : Conn, TickCase c (ticks id).now (ticks id).hook (ticks id).count d io (.threw e))) := by
  induction t generalizing heap with
  | nil => simp [Mgr.tickAll] at h
  | cons a t ih =>
    obtain ⟨k, i⟩ := a
    simp only [Mgr.tickAll] at h ⊢
    cases hc : heap[i]? with
    | none =>
      simp only [hc] at h
      obtain ⟨pre, k', id, post, evs, io, rfl, h2, h3, h4⟩ := ih heap h
      exact ⟨(k, i) :: pre, k', id, post, evs, io, rfl, h2, fun j op io' hm =>
        ⟨(h3 j op io' hm).1.imp fun _ hx => List.mem_cons_of_mem _ hx, (h3 j op io' hm).2⟩, h4⟩
    | some c =>
      simp only [hc] at h ⊢
      have tc := tick_cases c (ticks i).now (ticks i).hook (ticks i).count
      have step : (∀ x, (c.notifyTick (ticks i).now (ticks i).hook (ticks i).count).2.2 ≠ .threw x) →
          ∀ hp, (Mgr.tickAll ticks t hp).2.2.2 = some e →
          ∃ pre k' id post evs io, (k, i) :: t = pre ++ (k', id) :: post ∧
            MEv.conn i (.tick (ticks i).now (ticks i).hook (ticks i).count)
                (c.notifyTick (ticks i).now (ticks i).hook (ticks i).count).2.1 :: (Mgr.tickAll ticks t hp).2.1 =
              evs ++ [.conn id (.tick (ticks id).now (ticks id).hook (ticks id).count) io] ∧
            (∀ i op io', MEv.conn i op io' ∈ evs → (∃ k', (k', i) ∈ pre) ∧
              ∀ n hk ct, op = .tick n hk ct → io' ≠ [] → hk.throws = none) ∧
            (∃ c d : Conn, TickCase c (ticks id).now (ticks id).hook (ticks id).count d io (.threw e)) := by
        intro hnt hp hx
        obtain ⟨pre, k', id, post, evs, io, rfl, h2, h3, h4⟩ := ih hp hx
        refine ⟨(k, i) :: pre, k', id, post, _ :: evs, io, rfl, by rw [h2]; rfl, ?_, h4⟩
        intro j op io' hm
        rw [List.mem_cons] at hm
        rcases hm with hm | hm
        · injection hm with h1 h2 h3
          refine ⟨⟨k, by rw [h1]; exact List.mem_cons_self⟩, fun n hk ct ho hne => ?_⟩
          rw [ho] at h2
          injection h2 with _ h2 _
          subst h3
          cases hx : hk.throws with
          | none => rfl
          | some x => exact absurd (tick_throws tc hne (by rw [← h2]; exact hx)) (hnt x)
        · exact ⟨(h3 j op io' hm).1.imp fun _ hx => List.mem_cons_of_mem _ hx, (h3 j op io' hm).2⟩
      cases hret : (c.notifyTick (ticks i).now (ticks i).hook (ticks i).count).2.2 with
      | threw x =>
        rw [hret] at h tc
        simp only [Option.some.injEq] at h
        subst h
        exact ⟨[], k, i, t, [], _, rfl, rfl, by simp, c, _, tc⟩
      | alive => rw [hret] at h step; exact step (by simp) _ h
      | dead => rw [hret] at h step; exact step (by simp) _ h

/-- In the loop of ticks a listener that throws ends the loop with its exception. -/
theorem tickAll_throws (ticks : Nat → TickEnv) (t : List (BitVec 16 × Nat)) (heap : List Conn) (id : Nat) (now : Nat)
    (hook : Hook) (count : Int) (io : List IoEv) (e : Exn)
    (hm : MEv.conn id (.tick now hook count) io ∈ (Mgr.tickAll ticks t heap).2.1) (hne : io ≠ [])
    (hth : hook.throws = some e) : (Mgr.tickAll ticks t heap).2.2.2 = some e := by
  induction t generalizing heap with
  | nil => simp [Mgr.tickAll] at hm
  | cons a t ih =>
    obtain ⟨k, i⟩ := a
    simp only [Mgr.tickAll] at hm ⊢
    cases hc : heap[i]? with
    | none => simp only [hc] at hm; exact ih heap hm
    | some c =>
      simp only [hc] at hm ⊢
      have tc := tick_cases c (ticks i).now (ticks i).hook (ticks i).count
      have here : MEv.conn id (.tick now hook count) io = MEv.conn i (.tick (ticks i).now (ticks i).hook (ticks i).count)
          (c.notifyTick (ticks i).now (ticks i).hook (ticks i).count).2.1 →
          (c.notifyTick (ticks i).now (ticks i).hook (ticks i).count).2.2 = .threw e := by
        intro hh
        injection hh with _ h2 h3
        injection h2 with _ h4 _
        subst h3 h4
        exact tick_throws tc hne hth
      cases hret : (c.notifyTick (ticks i).now (ticks i).hook (ticks i).count).2.2 with
      | threw x =>
        rw [hret] at hm here
        simp only [List.mem_singleton] at hm
        have := here hm
        injection this with this
        rw [this]
      | alive =>
        rw [hret] at hm here
        simp only [List.mem_cons] at hm
        rcases hm with hm | hm
        · cases here hm
        · exact ih _ hm
      | dead =>
        rw [hret] at hm here
        simp only [List.mem_cons] at hm
        rcases hm with hm | hm
        · cases here hm
        · exact ih _ hm

/-- How the handlers of one round throw. -/
theorem deliverAll_threw (P : Plat) (rs : List Arrival) (s s' : Mgr) (evs : List MEv) (e : Exn)
    (h : Mgr.deliverAll P rs s = .threw s' evs e) :
    (∃ r ∈ rs, ∃ s1 : Mgr, s1.deliver P r.recv = .throw e) ∨
    (∃ r ∈ rs, r.throws = some e ∧ ∃ pre id payload header seq data,
      evs = pre ++ [.conn id (.recv payload) [.received header seq data]]) := by
  induction rs generalizing s evs with
  | nil => cases h
  | cons r rs ih =>
    simp only [Mgr.deliverAll] at h
    split at h
    · cases h
    · rename_i x hd
      cases h
      exact .inl ⟨r, List.mem_cons_self, _, hd⟩
    · rename_i s1 evs1 hd
      split at h
      · rename_i x hx
        cases h
        unfold Mgr.raised at hx
        split at hx
        · rename_i i hr
          have hdr := (deliver_replay P r.recv _ _ _ hd).2.2.2.2.2.2
          unfold Mgr.ranReceive at hr
          split at hr
          · rename_i i' op a b d
            rcases hdr with h0 | ⟨id, data, io, h0, _⟩
            · cases h0
            · simp only [List.cons.injEq, MEv.conn.injEq, and_true] at h0
              obtain ⟨rfl, rfl, rfl⟩ := h0
              exact .inr ⟨r, List.mem_cons_self, hx, [], i', data, a, b, d, rfl⟩
          · cases hr
        · cases hx
      · split at h
        · cases h
        · rename_i s2 evs2 e2 h2
          cases h
          rcases ih s1 evs2 h2 with ⟨r', hr', h'⟩ | ⟨r', hr', h3, pre, id, p, a, b, d, h4⟩
          · exact .inl ⟨r', List.mem_cons_of_mem _ hr', h'⟩
          · exact .inr ⟨r', List.mem_cons_of_mem _ hr', h3, evs1 ++ pre, id, p, a, b, d, by rw [h4, List.append_assoc]⟩
        · cases h

theorem selectLoop_threw (P : Plat) (stop : Int) (rounds : List Round) (now : Int) (s s' : Mgr) (evs : List MEv) (e : Exn)
    (h : Mgr.selectLoop P stop now rounds s = .threw s' evs e) :
    (∃ code, e = .system code ∧ Round.fail code ∈ rounds) ∨
    (∃ r ∈ receivedIn rounds, ∃ s1 : Mgr, s1.deliver P r.recv = .throw e) ∨
    (∃ r ∈ receivedIn rounds, r.throws = some e ∧ ∃ pre id payload header seq data,
      evs = pre ++ [.conn id (.recv payload) [.received header seq data]]) := by
  induction rounds generalizing now s evs with
  | nil => simp only [Mgr.selectLoop] at h; cases h
  | cons r rounds ih =>
    cases r with
    | fail code =>
      simp only [Mgr.selectLoop] at h
      cases h
      exact .inl ⟨code, rfl, List.mem_cons_self⟩
    | ready r rs now' =>
      simp only [Mgr.selectLoop] at h
      split at h
      · cases h
      · rename_i s1 evs1 e1 hd
        cases h
        rcases deliverAll_threw P (r :: rs) s _ _ _ hd with ⟨r', hr', h'⟩ | ⟨r', hr', h3, pre, id, p, a, b, d, h4⟩
        · exact .inr (.inl ⟨r', List.mem_append.mpr (.inl hr'), h'⟩)
        · exact .inr (.inr ⟨r', List.mem_append.mpr (.inl hr'), h3, _ :: pre, id, p, a, b, d, by rw [h4]; rfl⟩)
      · rename_i s1 evs1 hd
        split at h
        · cases h
        · rename_i s2 evs2 e2 h2
          cases h
          rcases ih now' s1 evs2 h2 with ⟨code, h3, h4⟩ | ⟨r', hr', h'⟩ | ⟨r', hr', h3, pre, id, p, a, b, d, h4⟩
          · exact .inl ⟨code, h3, List.mem_cons_of_mem _ h4⟩
          · exact .inr (.inl ⟨r', List.mem_append.mpr (.inr hr'), h'⟩)
          · exact .inr (.inr ⟨r', List.mem_append.mpr (.inr hr'), h3,
              .waited (makePortableInterval (Mgr.remainingMs stop now)) :: evs1 ++ pre, id, p, a, b, d, by rw [h4]; simp⟩)
        · cases h

/-- What the handler of a socket throws on its own account. -/
theorem deliver_throw_kind (P : Plat) (hP : P.mem = Mem.strict) (r : Recv) (s : Mgr) (e : Exn)
    (h : s.deliver P r = .throw e) : e = .outOfRange ∨ ∃ code, e = .system code ∧ r = .err code := by
  unfold Mgr.deliver at h
  cases r with
  | err code =>
    simp only [udpReceive] at h
    cases h
    exact .inr ⟨code, rfl, rfl⟩
  | dgram d =>
    left
    rw [udpReceive_eq, hP] at h
    simp only at h
    split at h
    · cases h
    · rename_i x hx
      exact absurd hx (C09_never_throws_strict _ _)
    · rename_i items hx
      split at h
      · cases h; rfl
      · rename_i address _
        split at h
        · cases h
        · rename_i x hu
          by_cases hl : 4 ≤ address.data.length
          · obtain ⟨v, b, h1, _⟩ := u32_head Mem.strict address.data hl
            rw [h1] at hu; cases hu
          · rw [Sized.u32.short _ (by simp [Buffer.ofData]) (by simp [Buffer.ofData]; omega)] at hu
            cases hu
        · split at h
          · cases h
          · split at h
            · cases h; rfl
            · cases h
            · rename_i item c _ _
              split at h
              · cases h
              · rename_i x hn
                by_cases hs : headLen c ≤ item.data.length
                · obtain ⟨_, _, _, _, hk⟩ := notify_long Mem.strict c item.data hs
                  rw [hk] at hn
                  split at hn <;> cases hn
                · rw [C36_short c item.data (by unfold headLen at hs; omega)] at hn
                  cases hn
              · cases h

/-- The parts of a call that ends with an exception. -/
theorem handle_threw_parts (P : Plat) (start : Nat) (t : Int) (rounds : List Round) (ticks : Nat → TickEnv) (s s' : Mgr)
    (evs : List MEv) (e : Exn) (h : s.step P (.handle start t rounds ticks) = .ok s' evs (.threw e)) :
    Mgr.selectLoop P (start + t * 1000000) start rounds s = .threw s' evs e ∨
    ∃ s1 pre, Mgr.selectLoop P (start + t * 1000000) start rounds s = .go s1 pre ∧
      evs = pre ++ (Mgr.tickAll ticks s1.table s1.heap).2.1 ∧ (Mgr.tickAll ticks s1.table s1.heap).2.2.2 = some e ∧
      s' = { s1 with heap := (Mgr.tickAll ticks s1.table s1.heap).1 } := by
  simp only [Mgr.step, Mgr.handle] at h
  split at h
  · cases h
  · split at h
    · cases h
    · cases h; left; assumption
    · rename_i s1 pre hsel
      right
      refine ⟨s1, pre, hsel, ?_⟩
      split at h
      · cases h
      · rename_i hp ev ks ex hta
        cases h
        rw [hta]
        exact ⟨rfl, rfl, rfl⟩

/-- C84. What can leave `handleConnections` as an exception, in any state: an error of `select` or
of a receive call; `out_of_range` for a packet without the items it must have; the exception of a
receive, send or close listener, which was then the last thing that happened; or a short send.  In
every case no connection has been added or removed, also if the call found connections dead
before. -/
theorem C84_exception (P : Plat) (hP : P.mem = Mem.strict) (s s' : Mgr) (start : Nat) (timeoutMs : Int) (rounds : List Round)
    (ticks : Nat → TickEnv) (evs : List MEv) (e : Exn)
    (h : s.step P (.handle start timeoutMs rounds ticks) = .ok s' evs (.threw e)) :
    (s'.table = s.table ∧ s'.sockets = s.sockets ∧ s'.statics = s.statics ∧ s'.held = s.held) ∧
    ((∃ code, e = .system code ∧ (Round.fail code ∈ rounds ∨ Recv.err code ∈ arrivals rounds)) ∨
     e = .outOfRange ∧ arrivals rounds ≠ [] ∨
     (∃ r ∈ receivedIn rounds, r.throws = some e ∧ ∃ pre id payload header seq data,
       evs = pre ++ [.conn id (.recv payload) [.received header seq data]]) ∨
     (∃ pre id now hook count io, evs = pre ++ [.conn id (.tick now hook count) io] ∧
       ((hook.throws = some e ∧ (io = [.closed] ∨ ∃ data, io = [.asked data])) ∨
        (hook.throws = none ∧ e = .system 0 ∧ ∃ data to bytes, io = [.asked data, .sent to bytes] ∧
          udpSendThrows bytes count = true)))) := by
  have hrecv : ∀ (rounds : List Round), (receivedIn rounds).map (·.recv) = arrivals rounds := by
    intro rounds
    induction rounds with
    | nil => rfl
    | cons r rounds ih => cases r <;> simp [receivedIn, arrivals, ih]
  rcases handle_threw_parts P start timeoutMs rounds ticks s s' evs e h with hs | ⟨s1, pre, hs, rfl, h2, rfl⟩
  · have q := (selectLoop_quiet P _ rounds start s).2 _ _ _ hs
    refine ⟨⟨q.table, q.sockets, q.statics, q.held⟩, ?_⟩
    rcases selectLoop_threw P _ rounds start s s' evs e hs with ⟨code, h1, h2⟩ | ⟨r, hr, s1, hd⟩ | hl
    · exact .inl ⟨code, h1, .inl h2⟩
    · have hin : r.recv ∈ arrivals rounds := by rw [← hrecv]; exact List.mem_map_of_mem hr
      rcases deliver_throw_kind P hP r.recv s1 e hd with h1 | ⟨code, h1, h2⟩
      · exact .inr (.inl ⟨h1, fun hx => by rw [hx] at hin; simp at hin⟩)
      · exact .inl ⟨code, h1, .inr (by rw [← h2]; exact hin)⟩
    · exact .inr (.inr (.inl hl))
  · have q := (selectLoop_quiet P _ rounds start s).1 _ _ hs
    refine ⟨⟨q.table, q.sockets, q.statics, q.held⟩, .inr (.inr (.inr ?_))⟩
    obtain ⟨p, k, id, post, es, io, _, h4, _, c, d, tc⟩ := tickAll_threw ticks s1.table s1.heap e h2
    exact ⟨pre ++ es, id, _, _, _, io, by rw [h4, List.append_assoc], tick_threw tc⟩

theorem listener_ends_call (P : Plat) (s s' : Mgr) (hi : Inv s) (start : Nat) (timeoutMs : Int) (rounds : List Round)
    (ticks : Nat → TickEnv) (evs : List MEv) (ret : MRet)
    (h : s.step P (.handle start timeoutMs rounds ticks) = .ok s' evs ret) (id : Nat) (now : Nat) (hook : Hook)
    (count : Int) (io : List IoEv) (e : Exn) (hm : MEv.conn id (.tick now hook count) io ∈ evs) (hne : io ≠ [])
    (hth : hook.throws = some e) :
    ret = .threw e ∧ s'.table = s.table ∧
    (∃ pre, evs = pre ++ [.conn id (.tick now hook count) io]) ∧
    ∃ k, (k, id) ∈ s.table ∧ ∀ k' id' now' hook' count' io', (k', id') ∈ s.table →
      MEv.conn id' (.tick now' hook' count') io' ∈ evs → id' = id ∨ k' < k := by
  have hthrew : ret = .threw e ∧ ∃ s1 pre, Mgr.selectLoop P (start + timeoutMs * 1000000) start rounds s = .go s1 pre ∧
      evs = pre ++ (Mgr.tickAll ticks s1.table s1.heap).2.1 ∧ (Mgr.tickAll ticks s1.table s1.heap).2.2.2 = some e ∧
      s' = { s1 with heap := (Mgr.tickAll ticks s1.table s1.heap).1 } := by
    have notick : ∀ (s1 : Mgr) (es : List MEv), Quiet P s s1 es → MEv.conn id (.tick now hook count) io ∉ es := by
      intro s1 es q hx
      rcases q.only _ hx with ⟨_, h0⟩ | ⟨_, _, _, h0, _⟩ <;> cases h0
    cases ret with
    | threw x =>
      rcases handle_threw_parts P start timeoutMs rounds ticks s s' evs x h with hs | ⟨s1, pre, hs, rfl, h2, rfl⟩
      · exact absurd hm (notick _ _ ((selectLoop_quiet P _ rounds start s).2 _ _ _ hs))
      · rw [List.mem_append] at hm
        rcases hm with hm | hm
        · exact absurd hm (notick _ _ ((selectLoop_quiet P _ rounds start s).1 _ _ hs))
        · have := tickAll_throws ticks _ _ id now hook count io e hm hne hth
          rw [h2] at this
          injection this with this
          subst this
          exact ⟨rfl, s1, pre, hs, rfl, h2, rfl⟩
    | unit =>
      obtain ⟨s1, pre, hs, rfl, h2, _⟩ := handle_parts P start timeoutMs rounds ticks s s' evs h
      rw [List.mem_append] at hm
      rcases hm with hm | hm
      · exact absurd hm (notick _ _ ((selectLoop_quiet P _ rounds start s).1 _ _ hs))
      · have := tickAll_throws ticks _ _ id now hook count io e hm hne hth
        rw [h2] at this
        cases this
    | _ =>
      simp only [Mgr.step, Mgr.handle] at h
      repeat' split at h
      all_goals cases h
  obtain ⟨rfl, s1, pre, hs, rfl, h2, rfl⟩ := hthrew
  have q := (selectLoop_quiet P _ rounds start s).1 _ _ hs
  obtain ⟨p, k, i, post, es, io', ht, h4, h5, c, d, tc⟩ := tickAll_threw ticks s1.table s1.heap e h2
  have notick : ∀ i' n hk ct io2, MEv.conn i' (.tick n hk ct) io2 ∉ pre := by
    intro i' n hk ct io2 hx
    rcases q.only _ hx with ⟨_, h0⟩ | ⟨_, _, _, h0, _⟩ <;> cases h0
  -- the listener that threw is that of the last tick
  have hlast : MEv.conn id (.tick now hook count) io =
      .conn i (.tick (ticks i).now (ticks i).hook (ticks i).count) io' := by
    rw [List.mem_append] at hm
    rcases hm with hm | hm
    · exact absurd hm (notick _ _ _ _ _)
    · rw [h4, List.mem_append, List.mem_singleton] at hm
      rcases hm with hm | hm
      · have := (h5 _ _ _ hm).2 now hook count rfl hne
        rw [hth] at this
        cases this
      · exact hm
  have hid : id = i := by injection hlast
  subst hid
  refine ⟨rfl, q.table, ⟨pre ++ es, by rw [h4, hlast, List.append_assoc]⟩, k, ?_, ?_⟩
  · rw [← q.table, ht]; simp
  · intro k' id' n hk ct io2 hm' hev
    rw [List.mem_append] at hev
    rcases hev with hev | hev
    · exact absurd hev (notick _ _ _ _ _)
    · rw [h4, List.mem_append, List.mem_singleton] at hev
      rcases hev with hev | hev
      · right
        obtain ⟨⟨k2, hk2⟩, _⟩ := h5 _ _ _ hev
        have hsort := hi.sorted
        rw [← q.table, ht] at hm' hsort
        have : k' = k2 := by
          have hu : ∀ a b, (a, id') ∈ s.table → (b, id') ∈ s.table → a = b := fun a b ha hb => hi.unique ha hb
          rw [← q.table, ht] at hu
          exact hu _ _ hm' (List.mem_append.mpr (.inl hk2))
        rw [this]
        rw [List.pairwise_append] at hsort
        exact hsort.2.2 _ hk2 _ List.mem_cons_self
      · left
        injection hev

/-- C84. A send or close listener that throws ends the call with its exception; it was the last
thing that happened, no connection has been added or removed, and of the connections only those
with smaller keys have been ticked before. -/
theorem C84_listener_ends_call (P : Plat) (inc : BitVec 16) (st : Statics) (s s' : Mgr) (ops : List MOp) (tr : MTrace)
    (hrun : (Mgr.new inc st).run P ops = some (s, tr)) (start : Nat) (timeoutMs : Int) (rounds : List Round)
    (ticks : Nat → TickEnv) (evs : List MEv) (ret : MRet)
    (h : s.step P (.handle start timeoutMs rounds ticks) = .ok s' evs ret) (id : Nat) (now : Nat) (hook : Hook)
    (count : Int) (io : List IoEv) (e : Exn) (hm : MEv.conn id (.tick now hook count) io ∈ evs) (hne : io ≠ [])
    (hth : hook.throws = some e) :
    ret = .threw e ∧ s'.table = s.table ∧
    (∃ pre, evs = pre ++ [.conn id (.tick now hook count) io]) ∧
    ∃ k, (k, id) ∈ s.table ∧ ∀ k' id' now' hook' count' io', (k', id') ∈ s.table →
      MEv.conn id' (.tick now' hook' count') io' ∈ evs → id' = id ∨ k' < k := 
  listener_ends_call P s s' (inv_run P _ s ops tr (inv_new inc st) hrun) start timeoutMs rounds ticks evs ret h id now hook
    count io e hm hne hth

/-- C84. If in every call of a sequence of calls of `handleConnections` a listener of the same
connection throws, no connection with a greater key is served in any of them: it is not ticked, so
it neither sends nor notices a timeout; and no connection is removed. -/
theorem C84_starves (P : Plat) (inc : BitVec 16) (st : Statics) (s s' : Mgr) (ops ops' : List MOp) (tr tr' : MTrace)
    (hrun : (Mgr.new inc st).run P ops = some (s, tr)) (hrun' : s.run P ops' = some (s', tr'))
    (hh : ∀ op ∈ ops', isHandle op = true) (k : BitVec 16) (id : Nat) (hk : (k, id) ∈ s.table)
    (hth : ∀ e ∈ tr', ∃ now hook count io x, MEv.conn id (.tick now hook count) io ∈ e.2.1 ∧ io ≠ [] ∧
      hook.throws = some x) :
    s'.table = s.table ∧ ∀ k' id', (k', id') ∈ s.table → k < k' →
      ∀ now hook count io, MEv.conn id' (.tick now hook count) io ∉ allEvs tr' := by
  have hi := inv_run P _ s ops tr (inv_new inc st) hrun
  clear hrun
  induction ops' generalizing s tr' with
  | nil =>
    simp only [Mgr.run, Option.some.injEq, Prod.mk.injEq] at hrun'
    obtain ⟨rfl, rfl⟩ := hrun'
    exact ⟨rfl, by simp [allEvs]⟩
  | cons op ops' ih =>
    obtain ⟨s1, evs, ret, tr1, h1, h2, rfl⟩ := mrun_cons hrun'
    have hop := hh op List.mem_cons_self
    cases op with
    | handle start t rounds ticks =>
      obtain ⟨now, hook, count, io, x, hm, hne, hx⟩ := hth _ List.mem_cons_self
      obtain ⟨_, htab, _, k0, hk0, hord⟩ := listener_ends_call P s s1 hi start t rounds ticks evs ret h1 id now hook count io
        x hm hne hx
      have hkk : k0 = k := hi.unique hk0 hk
      obtain ⟨g1, g2⟩ := ih s1 tr1 h2 (fun o ho => hh o (List.mem_cons_of_mem _ ho)) (by rw [htab]; exact hk)
        (fun e he => hth e (List.mem_cons_of_mem _ he)) (inv_step P s s1 _ evs ret hi h1)
      refine ⟨by rw [g1, htab], fun k' id' hm' hlt n hk' ct io' hmem => ?_⟩
      rw [allEvs_cons, List.mem_append] at hmem
      rcases hmem with hmem | hmem
      · rcases hord k' id' n hk' ct io' hm' hmem with rfl | h0
        · rw [hi.unique hm' hk] at hlt
          exact absurd hlt (BitVec.lt_irrefl _)
        · rw [hkk] at h0
          exact absurd (BitVec.lt_trans h0 hlt) (BitVec.lt_irrefl _)
      · exact g2 k' id' (by rw [htab]; exact hm') hlt n hk' ct io' hmem
    | _ => simp [isHandle] at hop

/-- C84. The hypothesis of `C84_starves` persists: a connection that has been found dead and is
ticked again, with nothing received in between, is found dead again, as long as its counter does
not overflow. -/
theorem C84_dead_again (c : Conn) (now now' : Nat) (hook hook' : Hook) (count count' : Int) (data : List Byte)
    (h : IoEv.closed ∈ (c.notifyTick now hook count).2.1)
    (hov : (c.notifyTick now hook count).1.connectionTimeoutCount.toNat + (now' - c.lastHandleTime) / 1000 < 2 ^ 32) :
    IoEv.closed ∈ ((c.notifyTick now hook count).1.notifyTick now' hook' count').2.1 ∧
    IoEv.closed ∈ (((c.notifyTick now hook count).1.setDataToSend data).notifyTick now' hook' count').2.1 := by
  have key : ∀ d : Conn, d.connectionTimeoutMultiplier = c.connectionTimeoutMultiplier → d.t2oAPI = c.t2oAPI →
      d.lastHandleTime = c.lastHandleTime → c.connectionTimeoutMultiplier.setWidth 32 * c.t2oAPI < d.connectionTimeoutCount →
      d.connectionTimeoutCount.toNat + (now' - c.lastHandleTime) / 1000 < 2 ^ 32 →
      IoEv.closed ∈ (d.notifyTick now' hook' count').2.1 := by
    intro d h1 h2 h3 h4 h5
    have hp : period d now' ≤ (now' - c.lastHandleTime) / 1000 := by
      unfold period; rw [h3]; omega
    unfold Conn.notifyTick
    simp only
    rw [if_pos]
    · simp
    · show _ < _
      rw [h1, h2]
      rw [BitVec.lt_def] at h4 ⊢
      have e1 : (now' - d.lastHandleTime) / 1000000 * 1000 = period d now' := rfl
      rw [e1, BitVec.toNat_add, BitVec.toNat_ofNat, Nat.mod_eq_of_lt (a := period d now') (by omega),
        Nat.mod_eq_of_lt (by omega)]
      omega
  have tc := tick_cases c now hook count
  generalize (c.notifyTick now hook count) = q at *
  obtain ⟨d, evs, ret⟩ := q
  simp only at *
  cases tc with
  | dead h0 => exact ⟨key _ rfl rfl rfl h0 hov, key _ rfl rfl rfl h0 hov⟩
  | idle => simp at h
  | prod _ _ _ _ hev =>
    rcases hev with ⟨rfl, _⟩ | ⟨_, rfl, _⟩ | ⟨_, rfl, _⟩ <;> simp at h

/-- C84. A receive listener that throws ends the call with its exception: the datagram has been
taken into account, what arrived with it or after it is not looked at, and no connection is
ticked. -/
theorem C84_receive (P : Plat) (s s1 : Mgr) (hs : s.sockets ≠ []) (r : Recv) (id : Nat) (payload : List Byte)
    (header : BitVec 32) (seq : BitVec 16) (data : List Byte) (e : Exn)
    (hr : s.deliver P r = .ok (s1, [.conn id (.recv payload) [.received header seq data]])) (start now : Nat)
    (timeoutMs : Int) (more : List Arrival) (rounds : List Round) (ticks : Nat → TickEnv) :
    ∃ tv, s.step P (.handle start timeoutMs (.ready ⟨r, some e⟩ more now :: rounds) ticks) =
      .ok s1 [.waited tv, .conn id (.recv payload) [.received header seq data]] (.threw e) := by
  refine ⟨makePortableInterval (Mgr.remainingMs (start + timeoutMs * 1000000) start), ?_⟩
  cases hsk : s.sockets with
  | nil => exact absurd hsk hs
  | cons a l =>
    simp only [Mgr.step, Mgr.handle, hsk, Mgr.selectLoop, Mgr.deliverAll, hr, Mgr.raised, Mgr.ranReceive]

/-! ## How often a close listener runs -/

/-- Did the call end with an exception? -/
def endedByException (e : MOp × List MEv × MRet) : Bool :=
  match e.2.2 with
  | .threw _ => true
  | _ => false

/-- C84. Over any history, whatever the listeners and the operating system do: the close listener
of a connection runs at most once more than there were calls that ended with an exception. -/
theorem C84_close_runs (P : Plat) (inc : BitVec 16) (st : Statics) (s' : Mgr) (ops : List MOp) (tr : MTrace)
    (h : (Mgr.new inc st).run P ops = some (s', tr)) (id : Nat) :
    (connTrace id (allEvs tr)).countP (fun d => decide (IoEv.closed ∈ d.2)) ≤ tr.countP endedByException + 1 := by
  have gen : ∀ (ops : List MOp) (s : Mgr) (tr : MTrace), Inv s → s.run P ops = some (s', tr) →
      (connTrace id (allEvs tr)).countP (fun d => decide (IoEv.closed ∈ d.2)) ≤ tr.countP endedByException + 1 := by
    intro ops
    induction ops with
    | nil =>
      intro s tr _ h
      simp only [Mgr.run, Option.some.injEq, Prod.mk.injEq] at h
      rw [← h.2]
      simp [allEvs, connTrace]
    | cons op ops ih =>
      intro s tr hi h
      obtain ⟨s1, evs, ret, tr', h1, h2, rfl⟩ := mrun_cons h
      rw [allEvs_cons, connTrace_append, List.countP_append, List.countP_cons]
      have hrest := ih s1 tr' (inv_step P s s1 op evs ret hi h1) h2
      by_cases hz : (connTrace id evs).countP (fun d => decide (IoEv.closed ∈ d.2)) = 0
      · simp only at hz ⊢
        omega
      · have hpos : 0 < (connTrace id evs).countP (fun d => decide (IoEv.closed ∈ d.2)) := by omega
        rw [List.countP_pos_iff] at hpos
        obtain ⟨⟨cop, io⟩, hd, hcl⟩ := hpos
        rw [mem_connTrace] at hd
        simp only [decide_eq_true_eq] at hcl
        obtain ⟨⟨start, t, rounds, ticks, rfl⟩, ⟨now, hook, count, rfl⟩, k, hk⟩ :=
          C41_only_handle P s s1 op evs ret h1 id cop io hd hcl
        have honce := handle_closed_once P s s1 hi start t rounds ticks evs ret h1 id
        by_cases hex : endedByException (MOp.handle start t rounds ticks, evs, ret) = true
        · rw [hex]
          simp only [if_true] at honce ⊢
          omega
        · have hret : ret = .unit := by
            simp only [Mgr.step, Mgr.handle] at h1
            repeat' split at h1
            all_goals first | cases h1 | skip
            all_goals first | rfl | exact absurd rfl hex
          subst hret
          have hgone : ∀ k', (k', id) ∉ s1.table := by
            intro k' hm
            have hi1 := inv_step P s s1 _ evs .unit hi h1
            have hk' := (handle_removes P s s1 hi start t rounds ticks evs h1 k id hk).mpr ⟨_, _, hd, hcl⟩
            have hsub : (k', id) ∈ s.table := by
              obtain ⟨sd, pre, hsel, _, _, rfl⟩ := handle_parts P start t rounds ticks s s1 evs h1
              have q := (selectLoop_quiet P _ rounds start s).1 _ _ hsel
              rw [← q.table]
              exact (List.mem_filter.mp hm).1
            rw [hi.unique hsub hk] at hm
            exact hk' hm
          have hlt : id < s1.heap.length := by
            obtain ⟨c, hc, _⟩ := hi.obj k id hk
            exact Nat.lt_of_lt_of_le (List.getElem?_eq_some_iff.mp hc).1
              (replay_length _ _ _ _ (step_replay P s s1 _ evs .unit h1))
          have hquiet := (gone_run P s1 s' ops tr' h2 id hlt hgone).2
          have hz' : (connTrace id (allEvs tr')).countP (fun d => decide (IoEv.closed ∈ d.2)) = 0 := by
            rw [List.countP_eq_zero]
            intro d hd
            obtain ⟨data, rfl⟩ := hquiet d hd
            simp
          rw [hz']
          simp only at honce ⊢
          omega
  exact gen ops _ tr (inv_new inc st) h

end Verif.Props
