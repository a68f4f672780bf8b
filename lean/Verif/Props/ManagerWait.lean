import Verif.Props.ManagerCore

/-!
# C43, C44, C45, C48, C49: sockets of the manager and waiting
-/

namespace Verif.Props

open Verif Verif.Spec

/-! ## C44 -/

theorem ep_lt_iff (a b : EndPoint) : a.lt b = true ↔ a.host < b.host ∧ a.port < b.port := by
  simp [EndPoint.lt]

/-- C44. `operator<` is a strict partial order. -/
theorem C44_partial_order (a b c : EndPoint) :
    a.lt a = false ∧ (a.lt b = true → b.lt a = false) ∧ (a.lt b = true → b.lt c = true → a.lt c = true) := by
  refine ⟨?_, fun h => ?_, fun h g => ?_⟩
  · rw [← Bool.not_eq_true, ep_lt_iff]
    rintro ⟨_, h⟩
    exact absurd h (Int.lt_irrefl _)
  · rw [ep_lt_iff] at h
    rw [← Bool.not_eq_true, ep_lt_iff]
    rintro ⟨_, g⟩
    exact absurd (Int.lt_trans h.2 g) (Int.lt_irrefl _)
  · rw [ep_lt_iff] at *
    exact ⟨String.lt_trans h.1 g.1, Int.lt_trans h.2 g.2⟩

/-- C44. Two end points are equivalent for ordered containers exactly when the two
components do not agree strictly on the order. -/
theorem C44_equivalent_iff (a b : EndPoint) :
    (a.lt b = false ∧ b.lt a = false) ↔
      ¬ (a.host < b.host ∧ a.port < b.port) ∧ ¬ (b.host < a.host ∧ b.port < a.port) := by
  rw [← Bool.not_eq_true, ← Bool.not_eq_true, ep_lt_iff, ep_lt_iff]

/-- An end point for the examples. -/
def epOf (h : String) (p : Int) : EndPoint := ⟨h, p, ⟨2, 0, 0⟩⟩

/-- C44 violated as a strict weak order: equivalence is not transitive. -/
theorem C44_not_weak_order_violated :
    ∃ a b c : EndPoint, (a.lt b = false ∧ b.lt a = false) ∧ (b.lt c = false ∧ c.lt b = false) ∧ a.lt c = true :=
  ⟨epOf "10.0.0.1" 1, epOf "10.0.0.0" 3, epOf "10.0.0.2" 2, by decide +kernel, by decide +kernel, by decide +kernel⟩

/-- C44 violated: different end points are equivalent, whatever their hosts are, as
soon as the ports are the same; so `std::map` keyed by end points merges all hosts. -/
theorem C44_inconsistent_with_eq_violated :
    (∀ a b : EndPoint, a.port = b.port → a.lt b = false ∧ b.lt a = false) ∧
    ∃ a b : EndPoint, a.port = b.port ∧ a.eq b = false := by
  refine ⟨fun a b h => ?_, epOf "10.0.0.1" 2222, epOf "10.0.0.2" 2222, rfl, by decide +kernel⟩
  rw [C44_equivalent_iff]
  omega

/-! ## C43 -/

theorem lt_same_port {a b : EndPoint} (h : a.port = b.port) : a.lt b = false := by
  rw [← Bool.not_eq_true, ep_lt_iff]
  omega

/-- What holds of the sockets after any history. -/
structure SockInv (s : Mgr) (n : Nat) : Prop where
  len : s.sockets.length = n
  one : n ≤ 1
  port : ∀ e ∈ s.sockets, e.port = 2222

theorem sock_step (P : Plat) (s s' : Mgr) (op : MOp) (evs : List MEv) (ret : MRet) (n : Nat) (hi : SockInv s n)
    (h : s.step P op = .ok s' evs ret) :
    SockInv s' (n + evs.countP MEv.isBound) ∧ (∀ ep, MEv.bound ep ∈ evs → ep.port = 2222 ∧ (sockaddrImage ep.addr).take 4 = le 2 2 ++ be 2 2222) ∧
    (s'.sockets ≠ [] ↔ s.sockets ≠ [] ∨ ∃ id, ret = .ptr (some id)) := by
  rcases step_sockets P s s' op evs ret h with ⟨hs, hb, hr⟩ | ⟨host, bs, b, hf, he, hr⟩
  · have h0 : evs.countP MEv.isBound = 0 := by
      rw [List.countP_eq_zero]; intro e he; rw [hb e he]; simp
    refine ⟨⟨by rw [hs, h0]; exact hi.len, by rw [h0]; exact hi.one, by rw [hs]; exact hi.port⟩, ?_, ?_⟩
    · intro ep hm; have := hb _ hm; simp [MEv.isBound] at this
    · rw [hs]
      constructor
      · exact .inl
      · rintro (h | ⟨id, h⟩)
        · exact h
        · exact absurd h (hr id)
  · have hc : evs.countP MEv.isBound = bs.length := by rw [List.countP_eq_length_filter, he]
    have hmem : ∀ ep, MEv.bound ep ∈ evs → MEv.bound ep ∈ bs := by
      intro ep hm
      rw [← he, List.mem_filter]
      exact ⟨hm, rfl⟩
    rw [hc]
    unfold Mgr.findOrCreateSocket at hf
    cases hss : s.sockets with
    | nil =>
      rw [hss] at hf
      simp only [sockFind] at hf
      split at hf
      · cases hf
      · injection hf with hf
        injection hf with h1 h2
        have hn : n = 0 := by have := hi.len; rw [hss] at this; exact this.symm
        refine ⟨⟨?_, ?_, ?_⟩, ?_, ?_⟩
        · rw [← h1, ← h2, hn]; rfl
        · rw [← h2, hn]; simp
        · rw [← h1]; simp [sockPut, EndPoint.ofHost]
        · intro ep hm
          have := hmem ep hm
          rw [← h2] at this
          simp at this
          rw [this]
          exact ⟨rfl, by simp [EndPoint.ofHost, sockaddrImage, afInet, htons, le, be]⟩
        · rw [← h1]; simp [sockPut, hr]
    | cons x xs =>
      have hp := hi.port x (by rw [hss]; exact List.mem_cons_self)
      have hfound : sockFind (EndPoint.ofHost P.aton host 2222) s.sockets = some x := by
        rw [hss]
        simp only [sockFind]
        rw [lt_same_port (a := x) (by rw [hp]; rfl), lt_same_port (b := x) (by rw [hp]; rfl)]
        rfl
      rw [hfound] at hf
      injection hf with hf
      injection hf with h1 h2
      rw [← h2]
      refine ⟨⟨by rw [← h1]; exact hi.len, hi.one, by rw [← h1]; exact hi.port⟩, ?_, ?_⟩
      · intro ep hm
        have := hmem ep hm
        rw [← h2] at this
        simp at this
      · rw [← h1, hss]; simp

theorem sock_run (P : Plat) (s s' : Mgr) (ops : List MOp) (tr : MTrace) (n : Nat) (hi : SockInv s n)
    (h : s.run P ops = some (s', tr)) :
    SockInv s' (n + (allEvs tr).countP MEv.isBound) ∧ (∀ ep, MEv.bound ep ∈ allEvs tr → ep.port = 2222 ∧ (sockaddrImage ep.addr).take 4 = le 2 2 ++ be 2 2222) ∧
    (s'.sockets ≠ [] ↔ s.sockets ≠ [] ∨ ∃ e ∈ tr, ∃ id, e.2.2 = .ptr (some id)) := by
  induction ops generalizing s tr n with
  | nil =>
    simp only [Mgr.run, Option.some.injEq, Prod.mk.injEq] at h
    obtain ⟨rfl, rfl⟩ := h
    exact ⟨by simpa [allEvs] using hi, by simp [allEvs], by simp⟩
  | cons op ops ih =>
    obtain ⟨s1, evs, ret, tr', h1, h2, rfl⟩ := mrun_cons h
    obtain ⟨g1, g2, g3⟩ := sock_step P s s1 op evs ret n hi h1
    obtain ⟨i1, i2, i3⟩ := ih s1 tr' _ g1 h2
    have e : allEvs ((op, evs, ret) :: tr') = evs ++ allEvs tr' := by simp [allEvs]
    refine ⟨?_, ?_, ?_⟩
    · rw [e, List.countP_append, ← Nat.add_assoc]; exact i1
    · rw [e]
      intro ep hm
      rw [List.mem_append] at hm
      rcases hm with hm | hm
      · exact g2 ep hm
      · exact i2 ep hm
    · rw [i3, g3]
      simp only [List.mem_cons, exists_eq_or_imp, or_assoc]

/-- C43. In any history of a manager at most one bound UDP socket is created, to
whatever hosts connections were opened, and it is bound to port 2222 of IPv4 (the address the
system is given has family 2 and the port in network order). -/
theorem C43_one_socket (P : Plat) (inc : BitVec 16) (st : Statics) (s' : Mgr) (ops : List MOp) (tr : MTrace)
    (h : (Mgr.new inc st).run P ops = some (s', tr)) :
    (allEvs tr).countP MEv.isBound ≤ 1 ∧ ∀ ep, MEv.bound ep ∈ allEvs tr →
      ep.port = 2222 ∧ (sockaddrImage ep.addr).take 4 = le 2 2 ++ be 2 2222 := by
  obtain ⟨h1, h2, _⟩ := sock_run P _ s' ops tr 0 ⟨rfl, by omega, by simp [Mgr.new]⟩ h
  exact ⟨by have := h1.one; omega, h2⟩

/-! ## C48 -/

/-- C48. The interval given to `::select` is never negative, its microseconds are
below one million, and it is the given number of milliseconds, or zero for a
negative number. -/
theorem C48_interval (ms : Int) :
    0 ≤ (makePortableInterval ms).1 ∧ 0 ≤ (makePortableInterval ms).2 ∧ (makePortableInterval ms).2 < 1000000 ∧
    (makePortableInterval ms).1 * 1000000 + (makePortableInterval ms).2 = (if 0 ≤ ms then ms else 0) * 1000 := by
  unfold makePortableInterval
  by_cases h : 0 ≤ ms
  · rw [Int.tdiv_eq_ediv_of_nonneg h, Int.tmod_eq_emod_of_nonneg h, if_pos h]
    omega
  · rw [if_neg h]
    have h1 : ms.tdiv 1000 ≤ 0 := by
      have e : ms = -(-ms) := by omega
      rw [e, Int.neg_tdiv]
      have := Int.tdiv_nonneg (a := -ms) (b := 1000) (by omega) (by omega)
      omega
    have h2 : ms.tmod 1000 ≤ 0 := by
      have e : ms = -(-ms) := by omega
      rw [e, Int.neg_tmod]
      have := Int.tmod_nonneg (a := -ms) 1000 (by omega)
      omega
    omega

example : makePortableInterval 1500 = (1, 500000) ∧ makePortableInterval (-1) = (0, 0) := by decide

/-- Every interval a wait of a loop uses comes from the conversion. -/
theorem selectLoop_waits (P : Plat) (stop : Int) (rounds : List Round) (now : Int) (s : Mgr) :
    (∀ s' evs, Mgr.selectLoop P stop now rounds s = .go s' evs →
      evs.countP MEv.isWait = rounds.length + 1 ∧ (∀ e ∈ evs, MEv.isTick e = false) ∧
      ∀ tv, MEv.waited tv ∈ evs → ∃ ms, tv = makePortableInterval ms) := by
  have hdel : ∀ (rs : List Arrival) (s s' : Mgr) (evs : List MEv), Mgr.deliverAll P rs s = .go s' evs →
      ∀ e ∈ evs, MEv.isWait e = false ∧ MEv.isTick e = false := by
    intro rs
    induction rs with
    | nil => intro s s' evs h; cases h; simp
    | cons r rs ih =>
      intro s s' evs h
      simp only [Mgr.deliverAll] at h
      split at h
      · cases h
      · cases h
      · rename_i s1 evs1 hd
        split at h
        · cases h
        split at h
        · rename_i s2 evs2 h2
          cases h
          intro e he
          rw [List.mem_append] at he
          rcases he with he | he
          · rcases (deliver_replay P r.recv s s1 evs1 hd).2.2.2.2.2.2 with rfl | ⟨id, d, io, rfl, _⟩
            · simp at he
            · simp at he; rw [he]; exact ⟨rfl, rfl⟩
          · exact ih _ _ _ h2 e he
        · cases h
        · cases h
  induction rounds generalizing s now with
  | nil =>
    intro s' evs h
    simp only [Mgr.selectLoop] at h
    cases h
    refine ⟨rfl, by simp [MEv.isTick], fun tv htv => ?_⟩
    simp at htv
    exact ⟨_, htv⟩
  | cons r rounds ih =>
    cases r with
    | fail code => intro s' evs h; simp only [Mgr.selectLoop] at h; cases h
    | ready r rs now' =>
      intro s' evs h
      simp only [Mgr.selectLoop] at h
      split at h
      · cases h
      · cases h
      · rename_i s1 evs1 hd
        split at h
        · cases h
        · cases h
        · rename_i s2 evs2 h2
          cases h
          obtain ⟨i1, i2, i3⟩ := ih now' s1 _ _ h2
          have hq := hdel _ _ _ _ hd
          have h0 : evs1.countP MEv.isWait = 0 := by
            rw [List.countP_eq_zero]; intro e he; rw [(hq e he).1]; simp
          refine ⟨?_, ?_, ?_⟩
          · simp only [List.cons_append, List.countP_cons, List.countP_append, h0, i1, MEv.isWait, List.length_cons]
            simp
          · intro e he
            simp only [List.cons_append, List.mem_cons, List.mem_append] at he
            rcases he with rfl | he | he
            · rfl
            · exact (hq e he).2
            · exact i2 e he
          · intro tv htv
            simp only [List.cons_append, List.mem_cons, List.mem_append] at htv
            rcases htv with htv | htv | htv
            · injection htv with htv; exact ⟨_, htv⟩
            · have := (hq _ htv).1; simp [MEv.isWait] at this
            · exact i3 tv htv

/-! ## C49 -/

theorem handle_parts (P : Plat) (start : Nat) (t : Int) (rounds : List Round) (ticks : Nat → TickEnv) (s s' : Mgr)
    (evs : List MEv) (h : s.handle P start t rounds ticks = .ok s' evs .unit) :
    ∃ s1 pre, Mgr.selectLoop P (start + t * 1000000) start rounds s = .go s1 pre ∧
      evs = pre ++ (Mgr.tickAll ticks s1.table s1.heap).2.1 ∧ (Mgr.tickAll ticks s1.table s1.heap).2.2.2 = none ∧
      s' = { s1 with heap := (Mgr.tickAll ticks s1.table s1.heap).1,
                     table := s1.table.filter fun e => !(Mgr.tickAll ticks s1.table s1.heap).2.2.1.contains e.1 } := by
  unfold Mgr.handle at h
  split at h
  · cases h
  · split at h
    · cases h
    · cases h
    · rename_i s1 pre hsel
      split at h
      · rename_i heap evs2 keys hta
        cases h
        exact ⟨s1, pre, hsel, by rw [hta], by rw [hta], by rw [hta]⟩
      · cases h

/-- C49. A call that returns waits once more than the number of rounds in which a
socket was ready - whatever the clock said and whatever the timeout was - and runs
no tick before the last wait. -/
theorem C49_waits (P : Plat) (start : Nat) (timeoutMs : Int) (rounds : List Round) (ticks : Nat → TickEnv)
    (s s' : Mgr) (evs : List MEv) (h : s.step P (.handle start timeoutMs rounds ticks) = .ok s' evs .unit) :
    ∃ pre post, evs = pre ++ post ∧ pre.countP MEv.isWait = rounds.length + 1 ∧
      (∀ e ∈ pre, MEv.isTick e = false) ∧ (∀ e ∈ post, MEv.isTick e = true) := by
  obtain ⟨s1, pre, hsel, rfl, _, _⟩ := handle_parts P start timeoutMs rounds ticks s s' evs h
  obtain ⟨h1, h2, _⟩ := selectLoop_waits P _ rounds start s _ _ hsel
  refine ⟨pre, _, rfl, h1, h2, fun e he => ?_⟩
  obtain ⟨_, _, _, _, _, rfl, _⟩ := (tickAll_spec P.mem ticks s1.table s1.heap).2 e he
  rfl

/-- C49. With no datagram at all the call waits once, for the given timeout, and
then ticks. -/
theorem C49_quiet (P : Plat) (start : Nat) (timeoutMs : Int) (ticks : Nat → TickEnv) (s s' : Mgr) (evs : List MEv)
    (h : s.step P (.handle start timeoutMs [] ticks) = .ok s' evs .unit) :
    ∃ post, evs = .waited (makePortableInterval timeoutMs) :: post ∧ ∀ e ∈ post, MEv.isTick e = true := by
  obtain ⟨s1, pre, hsel, rfl, _, _⟩ := handle_parts P start timeoutMs [] ticks s s' evs h
  simp only [Mgr.selectLoop, Mgr.Stage.go.injEq] at hsel
  obtain ⟨rfl, rfl⟩ := hsel
  refine ⟨(Mgr.tickAll ticks s.table s.heap).2.1, ?_, fun e he => ?_⟩
  · have : Mgr.remainingMs (start + timeoutMs * 1000000) start = timeoutMs := by
      unfold Mgr.remainingMs
      rw [show (start : Int) + timeoutMs * 1000000 - start = timeoutMs * 1000000 by omega]
      exact Int.mul_tdiv_cancel _ (by decide)
    rw [this]
    rfl
  · obtain ⟨_, _, _, _, _, rfl, _⟩ := (tickAll_spec P.mem ticks s.table s.heap).2 e he
    rfl

/-- C49 violated: the call does not return at its deadline.  Take any timeout, any
number `n` of datagrams that each are handled without a change of the manager
(such as datagrams for an unknown connection), and any clock readings after the
deadline.  Every one of the `n` datagrams is still handled, with one more wait each,
before the first tick. -/
theorem C49_late_violated (P : Plat) (start : Nat) (timeoutMs : Int) (r : Arrival) (n : Nat) (late : Nat)
    (ticks : Nat → TickEnv) (s : Mgr) (hs : s.sockets ≠ []) (hr : s.deliver P r.recv = .ok (s, []))
    (hlate : start + timeoutMs * 1000000 < late) :
    ∃ s' post ret, s.step P (.handle start timeoutMs (List.replicate n (.ready r [] late)) ticks) =
        .ok s' (.waited (makePortableInterval timeoutMs) :: (List.replicate n (.waited (0, 0)) ++ post)) ret ∧
      ∀ e ∈ post, MEv.isTick e = true := by
  have hneg : makePortableInterval (Mgr.remainingMs (start + timeoutMs * 1000000) late) = (0, 0) := by
    have h0 : Mgr.remainingMs (start + timeoutMs * 1000000) late ≤ 0 := by
      unfold Mgr.remainingMs
      generalize hd : (start : Int) + timeoutMs * 1000000 - late = d
      have hd' : d ≤ 0 := by omega
      have e : d = -(-d) := by omega
      rw [e, Int.neg_tdiv]
      have := Int.tdiv_nonneg (a := -d) (b := 1000000) (by omega) (by omega)
      omega
    obtain ⟨c1, c2, _, c4⟩ := C48_interval (Mgr.remainingMs (start + timeoutMs * 1000000) late)
    have : (if 0 ≤ Mgr.remainingMs (start + timeoutMs * 1000000) late
        then Mgr.remainingMs (start + timeoutMs * 1000000) late else 0) = 0 := by split <;> omega
    rw [this] at c4
    apply Prod.ext <;> simp only <;> omega
  have hfirst : Mgr.remainingMs (start + timeoutMs * 1000000) start = timeoutMs := by
    unfold Mgr.remainingMs
    rw [show (start : Int) + timeoutMs * 1000000 - start = timeoutMs * 1000000 by omega]
    exact Int.mul_tdiv_cancel _ (by decide)
  have hd : Mgr.deliverAll P [r] s = .go s [] := by simp [Mgr.deliverAll, hr, Mgr.raised, Mgr.ranReceive]
  have loop : ∀ n (now : Int), Mgr.selectLoop P (start + timeoutMs * 1000000) now (List.replicate n (.ready r [] late)) s =
      .go s (.waited (makePortableInterval (Mgr.remainingMs (start + timeoutMs * 1000000) now)) ::
        List.replicate n (.waited (0, 0))) := by
    intro n
    induction n with
    | zero => intro now; rfl
    | succ n ih =>
      intro now
      simp only [List.replicate_succ, Mgr.selectLoop, hd, ih, hneg]
      simp
  have tk := (tickAll_spec P.mem ticks s.table s.heap).2
  cases hss : s.sockets with
  | nil => exact absurd hss hs
  | cons x xs =>
    rcases hta : Mgr.tickAll ticks s.table s.heap with ⟨heap, evs2, keys, _ | e⟩
    · refine ⟨{ s with heap := heap, table := s.table.filter fun e => !keys.contains e.1 }, evs2, .unit, ?_, ?_⟩
      · simp only [Mgr.step, Mgr.handle, hss, loop, hfirst, hta, List.cons_append]
      · intro e he
        rw [hta] at tk
        obtain ⟨_, _, _, _, _, rfl, _⟩ := tk e he
        rfl
    · refine ⟨{ s with heap := heap }, evs2, .threw e, ?_, ?_⟩
      · simp only [Mgr.step, Mgr.handle, hss, loop, hfirst, hta, List.cons_append]
      · intro e he
        rw [hta] at tk
        obtain ⟨_, _, _, _, _, rfl, _⟩ := tk e he
        rfl

/-! ## C45 -/

/-- C45. After any history: if some `forwardOpen` returned a connection, the wait of
`handleConnections` is always reached (its first event is a wait); if none did,
`handleConnections` is undefined before any wait. -/
theorem C45_needs_socket (P : Plat) (inc : BitVec 16) (st : Statics) (s : Mgr) (ops : List MOp) (tr : MTrace)
    (h : (Mgr.new inc st).run P ops = some (s, tr)) (start : Nat) (timeoutMs : Int) (rounds : List Round)
    (ticks : Nat → TickEnv) :
    ((∃ e ∈ tr, ∃ id, e.2.2 = .ptr (some id)) →
      (∃ s' tv evs ret, s.step P (.handle start timeoutMs rounds ticks) = .ok s' (.waited tv :: evs) ret) ∨
      (∃ tv evs why, s.step P (.handle start timeoutMs rounds ticks) = .stop (.waited tv :: evs) why)) ∧
    ((¬ ∃ e ∈ tr, ∃ id, e.2.2 = .ptr (some id)) →
      s.step P (.handle start timeoutMs rounds ticks) = .stop [] .ub) := by
  obtain ⟨_, _, h3⟩ := sock_run P _ s ops tr 0 ⟨rfl, by omega, by simp [Mgr.new]⟩ h
  have h0 : (Mgr.new inc st).sockets = [] := rfl
  rw [h0] at h3
  simp only [ne_eq, not_true_eq_false, false_or] at h3
  constructor
  · intro he
    have hne := h3.mpr he
    have hloop : ∀ (stop now : Int), ∃ tv evs, Mgr.selectLoop P stop now rounds s = .ub (.waited tv :: evs) ∨
        (∃ s' e, Mgr.selectLoop P stop now rounds s = .threw s' (.waited tv :: evs) e) ∨
        ∃ s', Mgr.selectLoop P stop now rounds s = .go s' (.waited tv :: evs) := by
      intro stop now
      cases rounds with
      | nil => exact ⟨_, _, .inr (.inr ⟨_, rfl⟩)⟩
      | cons r rounds =>
        cases r with
        | fail code => exact ⟨_, _, .inr (.inl ⟨_, _, rfl⟩)⟩
        | ready r rs now' =>
          simp only [Mgr.selectLoop]
          split
          · exact ⟨_, _, .inl rfl⟩
          · exact ⟨_, _, .inr (.inl ⟨_, _, rfl⟩)⟩
          · split
            · exact ⟨_, _, .inl rfl⟩
            · exact ⟨_, _, .inr (.inl ⟨_, _, rfl⟩)⟩
            · exact ⟨_, _, .inr (.inr ⟨_, rfl⟩)⟩
    cases hss : s.sockets with
    | nil => exact absurd hss hne
    | cons x xs =>
      obtain ⟨tv, evs, hl⟩ := hloop (start + timeoutMs * 1000000) start
      rcases hl with hl | ⟨s', e, hl⟩ | ⟨s', hl⟩
      · right; exact ⟨tv, evs, .ub, by simp only [Mgr.step, Mgr.handle, hss, hl]⟩
      · left; exact ⟨s', tv, evs, .threw e, by simp only [Mgr.step, Mgr.handle, hss, hl]⟩
      · left
        rcases hta : Mgr.tickAll ticks s'.table s'.heap with ⟨heap, evs2, keys, _ | e⟩
        · exact ⟨_, tv, evs ++ evs2, .unit, by simp only [Mgr.step, Mgr.handle, hss, hl, hta, List.cons_append]; rfl⟩
        · exact ⟨_, tv, evs ++ evs2, .threw e, by simp only [Mgr.step, Mgr.handle, hss, hl, hta, List.cons_append]; rfl⟩
  · intro hn
    have : s.sockets = [] := by
      by_cases hne : s.sockets = []
      · exact hne
      · exact absurd (h3.mp hne) hn
    simp only [Mgr.step, Mgr.handle, this]

/-- C48. In any history every wait uses an interval made by the conversion, and is
therefore non-negative with less than a million microseconds. -/
theorem C48_all_waits (P : Plat) (s s' : Mgr) (start : Nat) (timeoutMs : Int) (rounds : List Round)
    (ticks : Nat → TickEnv) (evs : List MEv)
    (h : s.step P (.handle start timeoutMs rounds ticks) = .ok s' evs .unit) (tv : Int × Int)
    (hm : MEv.waited tv ∈ evs) : 0 ≤ tv.1 ∧ 0 ≤ tv.2 ∧ tv.2 < 1000000 := by
  obtain ⟨s1, pre, hsel, rfl, _, _⟩ := handle_parts P start timeoutMs rounds ticks s s' evs h
  obtain ⟨_, _, h3⟩ := selectLoop_waits P _ rounds start s _ _ hsel
  rw [List.mem_append] at hm
  rcases hm with hm | hm
  · obtain ⟨ms, rfl⟩ := h3 tv hm
    obtain ⟨c1, c2, c3, _⟩ := C48_interval ms
    exact ⟨c1, c2, c3⟩
  · obtain ⟨_, _, _, _, _, ht, _⟩ := (tickAll_spec P.mem ticks s1.table s1.heap).2 _ hm
    cases ht

end Verif.Props
