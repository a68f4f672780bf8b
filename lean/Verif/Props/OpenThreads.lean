import Verif.Spec.OpenThreads

/-!
# Property C107: threads that open connections
-/

namespace Verif.Props

open Verif Verif.Spec Verif.OpenThreads

/-! ## Calls one after the other -/

/-- The numbers of a call that leaves the counters like this. -/
def numbersOf (w : Want) (st : Statics) : Numbers :=
  ⟨BitVec.ofNat 16 st.serial, if w.multicast then st.o2tId else none, if w.p2p then st.t2oId else none⟩

/-- The calls have taken their numbers one after the other, as `forwardOpen` does alone. -/
def Sequential : Statics → List (Nat × Want × Numbers) → Statics → Prop
  | st, [], st' => st' = st
  | st, (_, w, n) :: rest, st' =>
    ∃ st1, Mgr.bumpStatics w.inc w.multicast w.p2p st = some st1 ∧ n = numbersOf w st1 ∧ Sequential st1 rest st'

theorem sequential_snoc {st st1 st2 : Statics} {l : List (Nat × Want × Numbers)} {i : Nat} {w : Want} {n : Numbers}
    (h : Sequential st l st1) (hb : Mgr.bumpStatics w.inc w.multicast w.p2p st1 = some st2) (hn : n = numbersOf w st2) :
    Sequential st (l ++ [(i, w, n)]) st2 := by
  induction l generalizing st with
  | nil => obtain rfl : st1 = st := h; exact ⟨st2, hb, hn, rfl⟩
  | cons x l ih =>
    obtain ⟨s, h1, h2, h3⟩ := h
    exact ⟨s, h1, h2, ih h3⟩

theorem nextSerial_some {n k : Nat} (h : Mgr.nextSerial n = some k) : k = n + 1 := by
  unfold Mgr.nextSerial at h
  split at h
  · cases h
  · injection h with h; exact h.symm

theorem first_o2t (inc : BitVec 16) : (inc.setWidth 32 <<< 16).setWidth 16 = (0 : BitVec 16) := by
  apply BitVec.eq_of_toNat_eq
  simp

theorem first_t2o (inc : BitVec 16) : (inc.setWidth 32 <<< 16).toNat = inc.toNat * 2 ^ 16 := by
  have := inc.isLt
  rw [BitVec.toNat_shiftLeft, BitVec.toNat_setWidth, Nat.mod_eq_of_lt (by omega), Nat.shiftLeft_eq, Nat.mod_eq_of_lt (by omega)]

theorem inTurn_of_sequential (l : List (Nat × Want × Numbers)) : ∀ st st', Sequential st l st' →
    InTurn st.serial (st.o2tId.map (·.toNat)) (st.t2oId.map (·.toNat)) l := by
  induction l with
  | nil => intro st st' _; trivial
  | cons x l ih =>
    obtain ⟨i, w, n⟩ := x
    rintro st st' ⟨st1, hb, rfl, hr⟩
    unfold Mgr.bumpStatics at hb
    match hs : Mgr.nextSerial st.serial, hb with
    | some k, hb =>
      obtain rfl := nextSerial_some hs
      injection hb with hb
      have ho : ((Mgr.nextO2T w.inc st.o2tId)).toNat = ((st.o2tId.map (·.toNat)).getD 0 + 1) % 2 ^ 16 := by
        unfold Mgr.nextO2T
        rw [first_o2t, BitVec.toNat_add]
        cases st.o2tId <;> rfl
      have ht : ((Mgr.nextT2O w.inc st.t2oId)).toNat = ((st.t2oId.map (·.toNat)).getD (w.inc.toNat * 2 ^ 16) + 1) % 2 ^ 32 := by
        unfold Mgr.nextT2O
        rw [BitVec.toNat_add]
        cases st.t2oId with
        | none => simp only [Option.getD_none, Option.map_none]; rw [first_t2o]; rfl
        | some v => rfl
      have e1 : st1.serial = st.serial + 1 := by rw [← hb]
      have e2 : st1.o2tId.map (·.toNat) = if w.multicast then some (((st.o2tId.map (·.toNat)).getD 0 + 1) % 2 ^ 16) else st.o2tId.map (·.toNat) := by
        rw [← hb]
        cases w.multicast with
        | true => simp only [if_true, Option.map_some, ho]
        | false => rfl
      have e3 : st1.t2oId.map (·.toNat) = if w.p2p then some (((st.t2oId.map (·.toNat)).getD (w.inc.toNat * 2 ^ 16) + 1) % 2 ^ 32) else st.t2oId.map (·.toNat) := by
        rw [← hb]
        cases w.p2p with
        | true => simp only [if_true, Option.map_some, ht]
        | false => rfl
      have hi := ih st1 st' hr
      rw [e1, e2, e3] at hi
      refine ⟨?_, ?_, ?_, hi⟩
      · show (BitVec.ofNat 16 st1.serial).toNat = _
        rw [e1, BitVec.toNat_ofNat]
      · show (if w.multicast then st1.o2tId else none).map (·.toNat) = _
        rw [← e2]
        cases w.multicast <;> rfl
      · show (if w.p2p then st1.t2oId else none).map (·.toNat) = _
        rw [← e3]
        cases w.p2p <;> rfl

/-! ## With a lock -/

/-- The counters where a thread is inside a call that began with `b`. -/
def Mid (b : Statics) (st : Statics) : Phase → Prop
  | .idle => st = b
  | .serialWrite _ n => st = b ∧ n = b.serial
  | .o2tRead w got => w.multicast = true ∧ Mgr.nextSerial b.serial = some st.serial ∧ st.o2tId = b.o2tId ∧ st.t2oId = b.t2oId ∧
      got = ⟨BitVec.ofNat 16 st.serial, none, none⟩
  | .o2tWrite w got v => w.multicast = true ∧ Mgr.nextSerial b.serial = some st.serial ∧ v + 1 = Mgr.nextO2T w.inc b.o2tId ∧ st.t2oId = b.t2oId ∧
      got = ⟨BitVec.ofNat 16 st.serial, none, none⟩
  | .t2oRead w got => w.p2p = true ∧ Mgr.nextSerial b.serial = some st.serial ∧
      st.o2tId = (if w.multicast then some (Mgr.nextO2T w.inc b.o2tId) else b.o2tId) ∧ st.t2oId = b.t2oId ∧
      got = ⟨BitVec.ofNat 16 st.serial, if w.multicast then st.o2tId else none, none⟩
  | .t2oWrite w got v => w.p2p = true ∧ Mgr.nextSerial b.serial = some st.serial ∧
      st.o2tId = (if w.multicast then some (Mgr.nextO2T w.inc b.o2tId) else b.o2tId) ∧ v + 1 = Mgr.nextT2O w.inc b.t2oId ∧
      got = ⟨BitVec.ofNat 16 st.serial, if w.multicast then st.o2tId else none, none⟩
  | .drawn w got => Mgr.bumpStatics w.inc w.multicast w.p2p b = some st ∧ got = numbersOf w st

theorem bump_of {b st : Statics} {w : Want} (h : Mgr.nextSerial b.serial = some st.serial)
    (ho : st.o2tId = (if w.multicast then some (Mgr.nextO2T w.inc b.o2tId) else b.o2tId))
    (ht : st.t2oId = (if w.p2p then some (Mgr.nextT2O w.inc b.t2oId) else b.t2oId)) :
    Mgr.bumpStatics w.inc w.multicast w.p2p b = some st := by
  unfold Mgr.bumpStatics
  rw [h]
  simp only
  rw [← ho, ← ht]

theorem mid_afterO2T {b st : Statics} {w : Want} {got : Numbers} (h : Mgr.nextSerial b.serial = some st.serial)
    (ho : st.o2tId = (if w.multicast then some (Mgr.nextO2T w.inc b.o2tId) else b.o2tId)) (ht : st.t2oId = b.t2oId)
    (hg : got = ⟨BitVec.ofNat 16 st.serial, if w.multicast then st.o2tId else none, none⟩) : Mid b st (afterO2T w got) := by
  unfold afterO2T
  by_cases hp : w.p2p = true
  · rw [if_pos hp]; exact ⟨hp, h, ho, ht, hg⟩
  · rw [if_neg hp]
    have hp' : w.p2p = false := by simpa using hp
    refine ⟨bump_of h ho (by rw [hp', ht]; rfl), ?_⟩
    rw [hg]; unfold numbersOf; rw [hp']; rfl

theorem mid_afterSerial {b st : Statics} {w : Want} {got : Numbers} (h : Mgr.nextSerial b.serial = some st.serial)
    (ho : st.o2tId = b.o2tId) (ht : st.t2oId = b.t2oId) (hg : got = ⟨BitVec.ofNat 16 st.serial, none, none⟩) :
    Mid b st (afterSerial w got) := by
  by_cases hm : w.multicast = true
  · unfold afterSerial; rw [if_pos hm]; exact ⟨hm, h, ho, ht, hg⟩
  · have hm' : w.multicast = false := by simpa using hm
    have e : afterSerial w got = afterO2T w got := by unfold afterSerial afterO2T; rw [if_neg hm]
    rw [e]
    exact mid_afterO2T h (by rw [hm', ho]; rfl) ht (by rw [hm', hg]; rfl)

/-- The calls so far are in order, and at most thread `o` is inside one. -/
def InOrder (st0 : Statics) (s : Sys) : Prop :=
  ∃ o b, Sequential st0 s.done b ∧ (∀ j, j ≠ o → (s.thr j).phase = .idle) ∧ Mid b s.st (s.thr o).phase

theorem openSet_self (thr : Nat → Thread) (i : Nat) (t : Thread) : OpenThreads.set thr i t i = t := by simp [OpenThreads.set]

theorem openSet_other (thr : Nat → Thread) (i j : Nat) (t : Thread) (h : j ≠ i) : OpenThreads.set thr i t j = thr j := by
  simp [OpenThreads.set, h]

theorem inOrder_step {st0 : Statics} {s s' : Sys} {i : Nat} (h : InOrder st0 s)
    (hl : (s.thr i).phase = .idle → ∀ j, (s.thr j).phase = .idle) (hs : step s i = some s') : InOrder st0 s' := by
  obtain ⟨o, b, hseq, hoth, hmid⟩ := h
  have others : ∀ t : Thread, (∀ j, j ≠ i → (s.thr j).phase = .idle) → ∀ j, j ≠ i → (OpenThreads.set s.thr i t j).phase = .idle :=
    fun t h j hj => by rw [openSet_other _ _ _ _ hj]; exact h j hj
  unfold step at hs
  by_cases hp : (s.thr i).phase = .idle
  · have hall := hl hp
    rw [hp] at hs
    simp only at hs
    match ht : (s.thr i).todo, hs with
    | w :: rest, hs =>
      cases hs
      refine ⟨i, b, hseq, others _ fun j _ => hall j, ?_⟩
      rw [hall o] at hmid
      obtain rfl : s.st = b := hmid
      show Mid s.st s.st (OpenThreads.set s.thr i _ i).phase
      rw [openSet_self]
      exact ⟨rfl, rfl⟩
  · obtain rfl : i = o := Classical.byContradiction fun hne => hp (hoth i hne)
    match hph : (s.thr i).phase, hs with
    | .idle, _ => exact absurd hph hp
    | .serialWrite w n, hs =>
      rw [hph] at hmid
      obtain ⟨hst, rfl⟩ := hmid
      simp only at hs
      match hn : Mgr.nextSerial b.serial, hs with
      | some k, hs =>
        cases hs
        refine ⟨i, b, hseq, others _ hoth, ?_⟩
        show Mid b _ (OpenThreads.set s.thr i _ i).phase
        rw [openSet_self]
        exact mid_afterSerial hn (by rw [hst]) (by rw [hst]) rfl
    | .o2tRead w got, hs =>
      rw [hph] at hmid
      obtain ⟨hm, h1, h2, h3, h4⟩ := hmid
      cases hs
      refine ⟨i, b, hseq, others _ hoth, ?_⟩
      show Mid b _ (OpenThreads.set s.thr i _ i).phase
      rw [openSet_self]
      exact ⟨hm, h1, by rw [h2]; rfl, h3, h4⟩
    | .o2tWrite w got v, hs =>
      rw [hph] at hmid
      obtain ⟨hm, h1, h2, h3, h4⟩ := hmid
      cases hs
      refine ⟨i, b, hseq, others _ hoth, ?_⟩
      show Mid b _ (OpenThreads.set s.thr i _ i).phase
      rw [openSet_self]
      exact mid_afterO2T h1 (by rw [hm, h2]; rfl) h3 (by rw [hm, h4]; rfl)
    | .t2oRead w got, hs =>
      rw [hph] at hmid
      obtain ⟨hm, h1, h2, h3, h4⟩ := hmid
      cases hs
      refine ⟨i, b, hseq, others _ hoth, ?_⟩
      show Mid b _ (OpenThreads.set s.thr i _ i).phase
      rw [openSet_self]
      exact ⟨hm, h1, h2, by rw [h3]; rfl, h4⟩
    | .t2oWrite w got v, hs =>
      rw [hph] at hmid
      obtain ⟨hm, h1, h2, h3, h4⟩ := hmid
      cases hs
      refine ⟨i, b, hseq, others _ hoth, ?_⟩
      show Mid b _ (OpenThreads.set s.thr i _ i).phase
      rw [openSet_self]
      refine ⟨bump_of h1 h2 (by rw [hm, h3]; rfl), ?_⟩
      rw [h4]; unfold numbersOf; rw [hm]; rfl
    | .drawn w got, hs =>
      rw [hph] at hmid
      obtain ⟨h1, h2⟩ := hmid
      cases hs
      refine ⟨i, s.st, sequential_snoc hseq h1 h2, others _ hoth, ?_⟩
      show Mid s.st s.st (OpenThreads.set s.thr i _ i).phase
      rw [openSet_self]
      rfl

theorem opens_cons {s t : Sys} {i : Nat} {is : List Nat} (h : run s (i :: is) = some t) :
    ∃ s', step s i = some s' ∧ run s' is = some t := by
  unfold run at h
  match hs : step s i, h with
  | some s', h => exact ⟨s', rfl, h⟩

theorem inOrder_run (st0 : Statics) (is : List Nat) : ∀ s t, InOrder st0 s → run s is = some t → OpensLocked s is → InOrder st0 t := by
  induction is with
  | nil => intro s t h hr _; cases hr; exact h
  | cons i is ih =>
    intro s t h hr hl
    obtain ⟨s', h1, h2⟩ := opens_cons hr
    exact ih s' t (inOrder_step h hl.1 h1) h2 (hl.2 s' h1)

/-- C107. If the program lets only one thread at a time call `forwardOpen`, whichever managers they use, then in every
schedule the numbers of the calls that have ended are those of calls made one after the other. -/
theorem C107_locked (st : Statics) (todo : Nat → List Want) (is : List Nat) (s : Sys)
    (h : run (start st todo) is = some s) (hl : OpensLocked (start st todo) is) :
    InTurn st.serial (st.o2tId.map (·.toNat)) (st.t2oId.map (·.toNat)) s.done := by
  obtain ⟨_, b, hseq, _⟩ := inOrder_run st is (start st todo) s
    ⟨0, st, (rfl : st = st), fun _ _ => rfl, (rfl : st = st)⟩ h hl
  exact inTurn_of_sequential _ _ _ hseq

/-! ## Different numbers -/

theorem inTurn_split (pre l : List (Nat × Want × Numbers)) : ∀ s o t, InTurn s o t (pre ++ l) →
    ∃ o' t', InTurn (s + pre.length) o' t' l ∧ ∀ b, t = some b → b < 2 ^ 32 →
      t' = some ((b + (pre.filter (·.2.1.p2p)).length) % 2 ^ 32) := by
  induction pre with
  | nil => intro s o t h; exact ⟨o, t, h, fun b hb hlt => by rw [hb]; simp [Nat.mod_eq_of_lt hlt]⟩
  | cons x pre ih =>
    obtain ⟨i, w, n⟩ := x
    intro s o t h
    obtain ⟨_, _, _, hr⟩ := h
    obtain ⟨o', t', h1, h2⟩ := ih _ _ _ hr
    refine ⟨o', t', ?_, ?_⟩
    · rw [List.length_cons, Nat.add_comm pre.length 1, ← Nat.add_assoc]
      exact h1
    · intro b hb hlt
      by_cases hp : w.p2p = true
      · rw [h2 ((b + 1) % 2 ^ 32) (by rw [if_pos hp, hb]; rfl) (Nat.mod_lt _ (by decide))]
        rw [List.filter_cons_of_pos (by exact hp), List.length_cons, Nat.mod_add_mod]
        congr 2
        omega
      · rw [h2 b (by rw [if_neg hp, hb]) hlt, List.filter_cons_of_neg (by exact hp)]

/-- C107. With the lock, calls that end within 65535 calls of each other have different serial numbers, and those that
ask for a point-to-point connection from the target within 2^32 - 1 such calls have different identifiers of it. -/
theorem C107_distinct (st : Statics) (todo : Nat → List Want) (is : List Nat) (s : Sys)
    (h : run (start st todo) is = some s) (hl : OpensLocked (start st todo) is)
    (pre mid post : List (Nat × Want × Numbers)) (i j : Nat) (w w' : Want) (n n' : Numbers)
    (hd : s.done = pre ++ (i, w, n) :: (mid ++ (j, w', n') :: post)) :
    (mid.length + 1 < 65536 → n.serial ≠ n'.serial) ∧
    (w.p2p = true → w'.p2p = true → (mid.filter (·.2.1.p2p)).length + 1 < 2 ^ 32 → n.t2o ≠ n'.t2o ∧ n.t2o.isSome) := by
  have ht := C107_locked st todo is s h hl
  rw [hd] at ht
  obtain ⟨o1, t1, h1, _⟩ := inTurn_split pre _ _ _ _ ht
  obtain ⟨hn1, _, hn2, hr⟩ := h1
  obtain ⟨o2, t2, h2, h3⟩ := inTurn_split mid _ _ _ _ hr
  obtain ⟨hn1', _, hn2', _⟩ := h2
  constructor
  · intro hlt he
    rw [he] at hn1
    omega
  · intro hp hp' hlt
    rw [if_pos hp, if_pos hp] at hn2
    rw [if_pos hp', if_pos hp'] at hn2'
    obtain ⟨v, hv, hvt⟩ := Option.map_eq_some_iff.mp hn2
    obtain ⟨v', hv', hvt'⟩ := Option.map_eq_some_iff.mp hn2'
    rw [if_pos hp] at h3
    rw [h3 _ rfl (Nat.mod_lt _ (by decide)), Option.getD_some, ← hvt] at hvt'
    refine ⟨fun he => ?_, by rw [hv]; rfl⟩
    rw [hv, hv'] at he
    injection he with he
    have := v.isLt
    rw [he] at hvt'
    rw [he] at this
    generalize hc : (mid.filter (·.2.1.p2p)).length = c at *
    have e : v'.toNat = (v'.toNat + c + 1) % 2 ^ 32 := by
      conv => lhs; rw [hvt']
      rw [Nat.mod_add_mod]
    omega

/-- C107. A process in which one thread opens all connections needs no lock. -/
theorem C107_one_thread (st : Statics) (todo : Nat → List Want) (i : Nat) (k : Nat) : OpensLocked (start st todo) (List.replicate k i) := by
  have key : ∀ k s, (∀ j, j ≠ i → (s.thr j).phase = .idle) → OpensLocked s (List.replicate k i) := by
    intro k
    induction k with
    | zero => intro s _; trivial
    | succ k ih =>
      intro s hs
      refine ⟨fun hi j => ?_, fun s' h => ih s' ?_⟩
      · by_cases hj : j = i
        · rw [hj]; exact hi
        · exact hs j hj
      · intro j hj
        have e : s'.thr j = s.thr j := by
          unfold step at h
          split at h
          · split at h
            · cases h
            · cases h; exact openSet_other _ _ _ _ hj
          · split at h
            · cases h
            · cases h; exact openSet_other _ _ _ _ hj
          all_goals (cases h; exact openSet_other _ _ _ _ hj)
        rw [e]; exact hs j hj
  exact key k _ fun _ _ => rfl

/-! ## Without a lock -/

/-- C107 violated: whenever two threads have connections to open, there is a schedule with a data race, which makes
the program undefined. -/
theorem C107_race_violated (st : Statics) (todo : Nat → List Want) (i j : Nat) (hij : i ≠ j) (hi : todo i ≠ []) (hj : todo j ≠ []) :
    ∃ is s, run (start st todo) is = some s ∧ Race s := by
  match hw : todo i with
  | [] => exact absurd hw hi
  | w :: rest =>
    refine ⟨[i], { start st todo with thr := OpenThreads.set (start st todo).thr i ⟨rest, .serialWrite w st.serial⟩ }, ?_, ?_⟩
    · have hs : step (start st todo) i =
          some { start st todo with thr := OpenThreads.set (start st todo).thr i ⟨rest, .serialWrite w st.serial⟩ } := by
        unfold step
        show (match todo i with | [] => none | w :: rest => _) = _
        rw [hw]
        rfl
      unfold run
      rw [hs]
      rfl
    · refine ⟨i, j, .serial, true, false, hij, ?_, ?_, .inl rfl⟩
      · show access (OpenThreads.set _ i _ i) = _
        rw [openSet_self]; rfl
      · show access (OpenThreads.set _ i _ j) = _
        rw [openSet_other _ _ _ _ (Ne.symm hij)]
        unfold access start
        simp only
        rw [if_neg hj]

/-- Two threads, each with its own manager, that open a point-to-point connection each. -/
def twoOpeners (a b : BitVec 16) : Nat → List Want := fun i => if i = 0 then [⟨a, false, true⟩] else if i = 1 then [⟨b, false, true⟩] else []

/-- C107 violated: even if the reads and writes of the counters are taken as atomic, two threads that each open
one connection can be given the same serial number and the same identifier. -/
theorem C107_same_numbers_violated (st : Statics) (hst : st.serial < 2 ^ 31 - 1) (a b : BitVec 16) :
    ∃ is s n, run (start st (twoOpeners a b)) is = some s ∧
      s.done = [(0, ⟨a, false, true⟩, n), (1, ⟨b, false, true⟩, n)] ∧ n.t2o.isSome := by
  have hn : Mgr.nextSerial st.serial = some (st.serial + 1) := by
    unfold Mgr.nextSerial; rw [if_neg (by omega)]
  refine ⟨[0, 1, 0, 1, 0, 1, 0, 1, 0, 1], ?_⟩
  simp [run, step, start, twoOpeners, OpenThreads.set, hn, afterSerial]

/-- Thread 1 opens three connections with one manager, thread 0 one with another. -/
def threeAndOne (a b : BitVec 16) : Nat → List Want := fun i =>
  if i = 0 then [⟨a, false, true⟩] else if i = 1 then [⟨b, false, true⟩, ⟨b, false, true⟩, ⟨b, false, true⟩] else []

/-- C107 violated: a thread that uses its own manager alone can be given the same identifier for two of its own connections,
because a thread with another manager writes the counter back. -/
theorem C107_repeated_violated (st : Statics) (hst : st.serial + 4 < 2 ^ 31) (a b : BitVec 16) :
    ∃ is s, run (start st (threeAndOne a b)) is = some s ∧
      ∃ n1 n2 n3 n4, s.done = [(1, ⟨b, false, true⟩, n1), (1, ⟨b, false, true⟩, n2), (0, ⟨a, false, true⟩, n3), (1, ⟨b, false, true⟩, n4)] ∧
        n2.t2o = n4.t2o ∧ n2.t2o.isSome := by
  have hn : ∀ k, k < 4 → Mgr.nextSerial (st.serial + k) = some (st.serial + k + 1) := by
    intro k hk; unfold Mgr.nextSerial; rw [if_neg (by omega)]
  have h0 := hn 0 (by omega)
  have h1 := hn 1 (by omega)
  have h2 := hn 2 (by omega)
  have h3 := hn 3 (by omega)
  simp only [Nat.add_zero, Nat.add_assoc] at h0 h1 h2 h3
  refine ⟨[0, 0, 0, 1, 1, 1, 1, 1, 1, 1, 1, 1, 1, 0, 0, 1, 1, 1, 1, 1], ?_⟩
  simp [run, step, start, threeAndOne, OpenThreads.set, h0, h1, h2, h3, afterSerial]
  exact ⟨_, _, _, _, ⟨rfl, rfl, rfl, rfl⟩, rfl, rfl⟩

/-! ## Examples -/

/-- A schedule of two threads with the lock, and the numbers. -/
example : ∃ s, run (start {} (twoOpeners 1 2)) [1, 1, 1, 1, 1, 0, 0, 0, 0, 0] = some s ∧
    s.done = [(1, ⟨2, false, true⟩, ⟨1, none, some 0x20001⟩), (0, ⟨1, false, true⟩, ⟨2, none, some 0x20002⟩)] ∧
    OpensLocked (start {} (twoOpeners 1 2)) [1, 1, 1, 1, 1, 0, 0, 0, 0, 0] := by
  refine ⟨_, rfl, by decide, ?_⟩
  have idle : ∀ (s : Sys) (a b : Thread), s.thr 0 = a → s.thr 1 = b → (∀ j, 1 < j → (s.thr j).phase = .idle) → a.phase = .idle →
      b.phase = .idle → ∀ j, (s.thr j).phase = .idle := by
    intro s a b ha hb hr h0 h1 j
    match j with
    | 0 => rw [ha]; exact h0
    | 1 => rw [hb]; exact h1
    | j + 2 => exact hr _ (by omega)
  refine ⟨fun _ _ => rfl, fun s h => ?_⟩; cases h
  refine ⟨fun h => (by cases h), fun s h => ?_⟩; cases h
  refine ⟨fun h => (by cases h), fun s h => ?_⟩; cases h
  refine ⟨fun h => (by cases h), fun s h => ?_⟩; cases h
  refine ⟨fun h => (by cases h), fun s h => ?_⟩; cases h
  refine ⟨fun _ => idle _ _ _ rfl rfl (fun j hj => ?_) rfl rfl, fun s h => ?_⟩
  · match j with
    | 0 => omega
    | 1 => omega
    | j + 2 => rfl
  cases h
  refine ⟨fun h => (by cases h), fun s h => ?_⟩; cases h
  refine ⟨fun h => (by cases h), fun s h => ?_⟩; cases h
  refine ⟨fun h => (by cases h), fun s h => ?_⟩; cases h
  refine ⟨fun h => (by cases h), fun s h => ?_⟩; cases h
  trivial

end Verif.Props
