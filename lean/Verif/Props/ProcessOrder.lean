import Verif.Spec.ProcessOrder
import Verif.Props.Process

/-!
# C101: the order of calls of different managers
-/

namespace Verif.Props

open Verif Verif.Spec

/-! ## Only an open uses the counters -/

/-- The same state with other counters. -/
def withStatics (st : Statics) (m : Mgr) : Mgr := { m with statics := st }

/-- The same result with other counters. -/
def StepRes.withStatics (st : Statics) : StepRes → StepRes
  | .ok m evs ret => .ok (Props.withStatics st m) evs ret
  | .stop evs why => .stop evs why

def Stage.withStatics (st : Statics) : Mgr.Stage → Mgr.Stage
  | .go m evs => .go (Props.withStatics st m) evs
  | .threw m evs e => .threw (Props.withStatics st m) evs e
  | .ub evs => .ub evs

def deliveredWith (st : Statics) : Outcome (Mgr × List MEv) → Outcome (Mgr × List MEv)
  | .ok (m, evs) => .ok (Props.withStatics st m, evs)
  | .throw e => .throw e
  | .ub => .ub

theorem deliver_withStatics (P : Plat) (st : Statics) (r : Recv) (m : Mgr) :
    Mgr.deliver P r (withStatics st m) = deliveredWith st (Mgr.deliver P r m) := by
  unfold Mgr.deliver
  cases udpReceive 8192 r with
  | ub => rfl
  | throw e => rfl
  | ok d =>
    dsimp only
    cases CommonPacket.expand P.mem d with
    | ub => rfl
    | throw e => rfl
    | ok items =>
      dsimp only
      cases items[0]? with
      | none => rfl
      | some a =>
        dsimp only
        cases Rd.u32 P.mem (Buffer.ofData a.data) with
        | ub => rfl
        | throw e => rfl
        | ok x =>
          dsimp only
          have ht : (withStatics st m).table = m.table := rfl
          have hh : (withStatics st m).heap = m.heap := rfl
          rw [ht, hh]
          cases tblFind (x.1.setWidth 16) m.table with
          | none => rfl
          | some id =>
            dsimp only
            cases items[1]? with
            | none => rfl
            | some it =>
              cases m.heap[id]? with
              | none => rfl
              | some c =>
                dsimp only
                cases c.notifyReceiveData P.mem it.data with
                | ub => rfl
                | throw e => rfl
                | ok y => rfl

theorem deliverAll_withStatics (P : Plat) (st : Statics) (rs : List Arrival) (m : Mgr) :
    Mgr.deliverAll P rs (withStatics st m) = Stage.withStatics st (Mgr.deliverAll P rs m) := by
  induction rs generalizing m with
  | nil => rfl
  | cons r rs ih =>
    simp only [Mgr.deliverAll, deliver_withStatics]
    cases Mgr.deliver P r.recv m with
    | ub => rfl
    | throw e => rfl
    | ok x =>
      obtain ⟨m', evs⟩ := x
      simp only [deliveredWith]
      cases Mgr.raised r.throws evs with
      | some e => rfl
      | none =>
        simp only [ih]
        cases Mgr.deliverAll P rs m' <;> rfl

theorem selectLoop_withStatics (P : Plat) (st : Statics) (stop : Int) (rs : List Round) (now : Int) (m : Mgr) :
    Mgr.selectLoop P stop now rs (withStatics st m) = Stage.withStatics st (Mgr.selectLoop P stop now rs m) := by
  induction rs generalizing now m with
  | nil => rfl
  | cons r rs ih =>
    cases r with
    | fail code => rfl
    | ready r1 rest now' =>
      simp only [Mgr.selectLoop, deliverAll_withStatics]
      cases Mgr.deliverAll P (r1 :: rest) m with
      | ub evs => rfl
      | threw m' evs e => rfl
      | go m' evs =>
        simp only [Stage.withStatics, ih]
        cases Mgr.selectLoop P stop now' rs m' <;> rfl

/-- A call that is not an open does the same whatever the counters are, and leaves them as they are. -/
theorem step_withStatics (P : Plat) (st : Statics) (m : Mgr) (op : MOp) (ho : MOp.isOpen op = false)
    (hn : ∀ a b c, op ≠ .otherOpen a b c) :
    (withStatics st m).step P op = StepRes.withStatics st (m.step P op) := by
  cases op with
  | forwardOpen host p large e => cases ho
  | otherOpen a b c => exact absurd rfl (hn a b c)
  | forwardClose ptr reply =>
    simp only [Mgr.step, Mgr.forwardClose]
    cases ptr with
    | none => rfl
    | some id =>
      dsimp only
      have ha : (withStatics st m).alive id = m.alive id := rfl
      have hh : (withStatics st m).heap = m.heap := rfl
      have ht : (withStatics st m).table = m.table := rfl
      rw [ha, hh, ht]
      cases m.alive id with
      | false => rfl
      | true =>
        simp only [if_true]
        cases m.heap[id]? with
        | none => rfl
        | some c =>
          dsimp only
          cases reply with
          | ub => rfl
          | throw e => rfl
          | ok r =>
            dsimp only
            cases tblFind (c.t2oNetworkConnectionId.setWidth 16) m.table with
            | some _ => rfl
            | none => dsimp only; cases P.ndebug <;> rfl
  | handle start timeoutMs rounds ticks =>
    simp only [Mgr.step, Mgr.handle]
    have hs : (withStatics st m).sockets = m.sockets := rfl
    rw [hs]
    cases m.sockets with
    | nil => rfl
    | cons s ss =>
      simp only [selectLoop_withStatics]
      cases Mgr.selectLoop P (start + timeoutMs * 1000000) start rounds m with
      | ub evs => rfl
      | threw m' evs e => rfl
      | go m' evs =>
        simp only [Stage.withStatics]
        have ht : (withStatics st m').table = m'.table := rfl
        have hh : (withStatics st m').heap = m'.heap := rfl
        rw [ht, hh]
        rcases Mgr.tickAll ticks m'.table m'.heap with ⟨heap, evs', keys, (_ | e)⟩ <;> rfl
  | hasOpen => rfl
  | setData id data =>
    simp only [Mgr.step]
    have ha : (withStatics st m).alive id = m.alive id := rfl
    have hh : (withStatics st m).heap = m.heap := rfl
    rw [ha, hh]
    cases m.alive id <;> cases m.heap[id]? <;> rfl
  | lock id =>
    simp only [Mgr.step]
    have ha : (withStatics st m).alive id = m.alive id := rfl
    rw [ha]
    cases m.alive id <;> rfl
  | release id => rfl

/-! ## States that differ in unused fields -/

theorem sameState_refl (p : Proc) : SameState p p := ⟨rfl, rfl, rfl⟩

theorem sameState_trans {p q r : Proc} (h : SameState p q) (h' : SameState q r) : SameState p r :=
  ⟨h.1.trans h'.1, h.2.1.trans h'.2.1, h.2.2.trans h'.2.2⟩

theorem strip_get {p q : Proc} (h : SameState p q) {i : Nat} {m : Mgr} (hm : p.mgrs[i]? = some m) :
    ∃ m', q.mgrs[i]? = some m' ∧ ∀ st, ({ m' with statics := st } : Mgr) = { m with statics := st } := by
  have h1 := congrArg (fun l => l[i]?) h.2.2
  simp only [List.getElem?_map, hm, Option.map_some] at h1
  cases hq : q.mgrs[i]? with
  | none => rw [hq] at h1; cases h1
  | some m' =>
    rw [hq] at h1
    simp only [Option.map_some, Option.some.injEq] at h1
    refine ⟨m', rfl, fun st => ?_⟩
    exact (congrArg (fun x : Mgr => ({ x with statics := st } : Mgr)) h1).symm

theorem sameState_set {p q : Proc} (h : SameState p q) (i : Nat) (m m' : Mgr)
    (hm : ({ m with statics := {} } : Mgr) = { m' with statics := {} }) (st : Statics) :
    SameState { p with statics := st, mgrs := p.mgrs.set i m } { q with statics := st, mgrs := q.mgrs.set i m' } := by
  refine ⟨rfl, h.2.1, ?_⟩
  simp only [List.map_set, h.2.2, hm]

theorem callable_same {p q : Proc} (h : p.gone = q.gone) (i : Nat) (op : MOp) : p.callable i op = q.callable i op := by
  cases op <;> simp only [Proc.callable, h]

/-- A call, put together. -/
theorem call_make {P : Plat} {p : Proc} {i : Nat} {op : MOp} {m m' : Mgr} {evs : List MEv} {ret : MRet}
    (hm : p.mgrs[i]? = some m) (hc : p.callable i op = true)
    (hs : ({ m with statics := p.statics } : Mgr).step P op = .ok m' evs ret) :
    p.step P (.call i op) = .ok { p with statics := m'.statics, mgrs := p.mgrs.set i m' } evs ret := by
  simp only [Proc.step, Proc.call, hm, hc, if_true, hs]

theorem call_callable {P : Plat} {p p' : Proc} {i : Nat} {op : MOp} {evs : List MEv} {ret : MRet}
    (h : p.step P (.call i op) = .ok p' evs ret) : p.callable i op = true := by
  simp only [Proc.step, Proc.call] at h
  split at h
  · cases h
  · split at h
    · assumption
    · cases h

theorem call_same {P : Plat} {p q p' : Proc} {i : Nat} {op : MOp} {evs : List MEv} {ret : MRet} (hpq : SameState p q)
    (h : p.step P (.call i op) = .ok p' evs ret) :
    ∃ q', q.step P (.call i op) = .ok q' evs ret ∧ SameState p' q' := by
  obtain ⟨m, m', hm, hs, rfl, _⟩ := call_shape h
  obtain ⟨k, hk, he⟩ := strip_get hpq hm
  refine ⟨_, call_make hk (by rw [← callable_same hpq.2.1]; exact call_callable h) (m' := m') ?_, ?_⟩
  · rw [he, ← hpq.1]; exact hs
  · exact sameState_set hpq i m' m' rfl _

theorem calls_same {P : Plat} {p q p' : Proc} {cs : Calls} {tr : PTrace} (hpq : SameState p q)
    (h : p.run P (cs.map fun c => .call c.1 c.2) = some (p', tr)) :
    ∃ q', q.run P (cs.map fun c => .call c.1 c.2) = some (q', tr) ∧ SameState p' q' := by
  induction cs generalizing p q tr with
  | nil =>
    simp only [List.map_nil, Proc.run, Option.some.injEq, Prod.mk.injEq] at h
    obtain ⟨rfl, rfl⟩ := h
    exact ⟨q, rfl, hpq⟩
  | cons c cs ih =>
    obtain ⟨p1, evs, ret, tr', h1, h2, rfl⟩ := prun_cons h
    obtain ⟨q1, g1, g2⟩ := call_same hpq h1
    obtain ⟨q', g3, g4⟩ := ih g2 h2
    exact ⟨q', by simp only [List.map_cons, Proc.run, g1, g3], g4⟩

/-! ## Two calls -/

/-- Two calls of different managers, one of them not an open, can be exchanged. -/
theorem call_swap {P : Plat} {p p1 p2 : Proc} {i j : Nat} {a b : MOp} {e e' : List MEv} {r r' : MRet} (hij : i ≠ j)
    (hab : MOp.isOpen a = false ∨ MOp.isOpen b = false) (ha : p.step P (.call i a) = .ok p1 e r)
    (hb : p1.step P (.call j b) = .ok p2 e' r') :
    ∃ q1 q2, p.step P (.call j b) = .ok q1 e' r' ∧ q1.step P (.call i a) = .ok q2 e r ∧ SameState p2 q2 := by
  obtain ⟨mi, mi', hmi, hsi, rfl, hna⟩ := call_shape ha
  obtain ⟨mj, mj', hmj, hsj, rfl, hnb⟩ := call_shape hb
  have hca := call_callable ha
  have hcb := call_callable hb
  rw [List.getElem?_set_ne hij] at hmj
  have hcb' : p.callable j b = true := by rw [← hcb]; exact callable_same rfl j b
  have hia := (call_statics hsi hna).2
  have hjb := (call_statics hsj hnb).2
  -- the exchange, given what the calls do in the other order
  have key : ∀ (ki kj : Mgr), ({ mj with statics := p.statics } : Mgr).step P b = .ok kj e' r' →
      ({ mi with statics := kj.statics } : Mgr).step P a = .ok ki e r → ki.statics = mj'.statics →
      ({ ki with statics := {} } : Mgr) = { mi' with statics := {} } →
      ({ kj with statics := {} } : Mgr) = { mj' with statics := {} } →
      ∃ q1 q2, p.step P (.call j b) = .ok q1 e' r' ∧ q1.step P (.call i a) = .ok q2 e r ∧
        SameState { p with statics := mj'.statics, mgrs := (p.mgrs.set i mi').set j mj' } q2 := by
    intro ki kj h1 h2 h3 h4 h5
    refine ⟨_, _, call_make hmj hcb' h1, call_make (m := mi) ?_ (by rw [← hca]; exact callable_same rfl i a) h2, ?_⟩
    · rw [List.getElem?_set_ne hij.symm]; exact hmi
    · refine ⟨h3.symm, rfl, ?_⟩
      simp only [List.map_set, h4, h5]
      exact List.set_comm _ _ hij
  rcases hab with hoa | hob
  · -- the first call leaves the counters, and does the same with others
    rw [hoa, if_neg (by decide)] at hia
    dsimp only at hia hsj
    have h2 := step_withStatics P mj'.statics { mi with statics := p.statics } a hoa hna
    rw [hsi] at h2
    refine key (withStatics mj'.statics mi') mj' ?_ h2 rfl rfl rfl
    rw [← hia]; exact hsj
  · rw [hob, if_neg (by decide)] at hjb
    dsimp only at hjb hsj
    have h2 := step_withStatics P p.statics { mj with statics := mi'.statics } b hob hnb
    rw [hsj] at h2
    refine key mi' (withStatics p.statics mj') h2 hsi hjb.symm rfl rfl

/-- A call that others of other managers precede can be made first. -/
theorem call_first {P : Plat} {p p' : Proc} {i : Nat} {a : MOp} {pre : Calls} {tr : PTrace}
    (hpre : ∀ c ∈ pre, c.1 ≠ i) (hopen : MOp.isOpen a = true → ∀ c ∈ pre, MOp.isOpen c.2 = false)
    (h : p.run P (((i, a) :: pre).map fun c => .call c.1 c.2) = some (p', tr)) :
    ∃ q trq e r, p.run P ((pre ++ [(i, a)]).map fun c => .call c.1 c.2) = some (q, trq ++ [(.call i a, e, r)]) ∧
      tr = (.call i a, e, r) :: trq ∧ SameState p' q := by
  induction pre generalizing p p' tr with
  | nil =>
    obtain ⟨p1, evs, ret, tr', h1, h2, rfl⟩ := prun_cons h
    refine ⟨p', [], evs, ret, ?_, ?_, sameState_refl _⟩
    · simp only [List.map_nil, Proc.run, Option.some.injEq, Prod.mk.injEq] at h2
      obtain ⟨rfl, rfl⟩ := h2
      simp only [List.nil_append, List.map_cons, List.map_nil, Proc.run, h1]
    · simp only [List.map_nil, Proc.run, Option.some.injEq, Prod.mk.injEq] at h2
      rw [h2.2]
  | cons c pre ih =>
    obtain ⟨p1, e, r, tr1, h1, h2, rfl⟩ := prun_cons h
    obtain ⟨p2, e', r', tr2, h3, h4, rfl⟩ := prun_cons h2
    have hab : MOp.isOpen a = false ∨ MOp.isOpen c.2 = false := by
      cases ha : MOp.isOpen a with
      | false => exact .inl rfl
      | true => exact .inr (hopen ha c (List.mem_cons_self ..))
    obtain ⟨q1, q2, g1, g2, g3⟩ := call_swap (hpre c (List.mem_cons_self ..)).symm hab h1 h3
    obtain ⟨q', g4, g5⟩ := calls_same g3 h4
    have hrun : q1.run P (((i, a) :: pre).map fun c => .call c.1 c.2) = some (q', (.call i a, e, r) :: tr2) := by
      simp only [List.map_cons, Proc.run, g2]
      rw [g4]
    obtain ⟨q, trq, e0, r0, k1, k2, k3⟩ := ih (fun x hx => hpre x (List.mem_cons_of_mem _ hx))
      (fun ha x hx => hopen ha x (List.mem_cons_of_mem _ hx)) hrun
    simp only [List.cons.injEq, Prod.mk.injEq] at k2
    obtain ⟨⟨_, rfl, rfl⟩, rfl⟩ := k2
    refine ⟨q, (.call c.1 c.2, e', r') :: tr2, e, r, ?_, rfl, sameState_trans g5 k3⟩
    simp only [List.cons_append, List.map_cons, Proc.run, g1, k1]

/-! ## Any order -/

theorem crun_append {P : Plat} {p p' : Proc} {ops ops' : List POp} {tr : PTrace}
    (h : p.run P (ops ++ ops') = some (p', tr)) :
    ∃ q t t', p.run P ops = some (q, t) ∧ q.run P ops' = some (p', t') ∧ tr = t ++ t' := by
  induction ops generalizing p tr with
  | nil => exact ⟨p, [], tr, rfl, h, rfl⟩
  | cons op ops ih =>
    obtain ⟨p1, e, r, tr1, h1, h2, rfl⟩ := prun_cons h
    obtain ⟨q, t, t', g1, g2, rfl⟩ := ih h2
    exact ⟨q, (op, e, r) :: t, t', by simp only [Proc.run, h1, g1], g2, rfl⟩

theorem crun_join {P : Plat} {p q p' : Proc} {ops ops' : List POp} {t t' : PTrace} (h : p.run P ops = some (q, t))
    (h' : q.run P ops' = some (p', t')) : p.run P (ops ++ ops') = some (p', t ++ t') := by
  induction ops generalizing p t with
  | nil =>
    simp only [Proc.run, Option.some.injEq, Prod.mk.injEq] at h
    obtain ⟨rfl, rfl⟩ := h
    exact h'
  | cons op ops ih =>
    obtain ⟨p1, e, r, tr1, h1, h2, rfl⟩ := prun_cons h
    simp only [List.cons_append, Proc.run, h1, ih h2]

/-- The first call of a manager in a sequence. -/
theorem callsOf_first {i : Nat} {a : MOp} {as : List MOp} {cs : Calls} (h : callsOf i cs = a :: as) :
    ∃ pre post, cs = pre ++ (i, a) :: post ∧ (∀ c ∈ pre, c.1 ≠ i) ∧ callsOf i post = as := by
  induction cs with
  | nil => cases h
  | cons c cs ih =>
    obtain ⟨j, b⟩ := c
    by_cases hj : j = i
    · subst hj
      simp only [callsOf, List.filterMap_cons, if_true] at h
      injection h with h1 h2
      subst h1
      exact ⟨[], cs, rfl, (fun _ h => (List.not_mem_nil h).elim), h2⟩
    · simp only [callsOf, List.filterMap_cons, if_neg hj] at h
      obtain ⟨pre, post, rfl, h1, h2⟩ := ih h
      refine ⟨(j, b) :: pre, post, rfl, fun c hc => ?_, h2⟩
      rcases List.mem_cons.mp hc with rfl | hc
      · exact hj
      · exact h1 c hc

theorem callsOf_nil {cs : Calls} (h : ∀ i, callsOf i cs = []) : cs = [] := by
  cases cs with
  | nil => rfl
  | cons c cs =>
    have := h c.1
    simp [callsOf] at this

theorem callsOf_append (i : Nat) (cs cs' : Calls) : callsOf i (cs ++ cs') = callsOf i cs ++ callsOf i cs' :=
  List.filterMap_append

theorem doneBy_append (i : Nat) (t t' : PTrace) : doneBy i (t ++ t') = doneBy i t ++ doneBy i t' :=
  List.filterMap_append

theorem crun_ops {P : Plat} {p p' : Proc} {ops : List POp} {tr : PTrace} (h : p.run P ops = some (p', tr)) :
    tr.map Prod.fst = ops := by
  induction ops generalizing p tr with
  | nil =>
    simp only [Proc.run, Option.some.injEq, Prod.mk.injEq] at h
    rw [← h.2]; rfl
  | cons op ops ih =>
    obtain ⟨p1, e, r, tr1, h1, h2, rfl⟩ := prun_cons h
    rw [List.map_cons, ih h2]

theorem doneBy_none {i : Nat} {t : PTrace} {pre : Calls} (h : t.map Prod.fst = pre.map fun c => POp.call c.1 c.2)
    (hpre : ∀ c ∈ pre, c.1 ≠ i) : doneBy i t = [] := by
  induction t generalizing pre with
  | nil => rfl
  | cons x t ih =>
    cases pre with
    | nil => cases h
    | cons c pre =>
      simp only [List.map_cons, List.cons.injEq] at h
      obtain ⟨op, e, r⟩ := x
      obtain ⟨rfl, h2⟩ := h
      simp only [doneBy, List.filterMap_cons, if_neg (hpre c (List.mem_cons_self ..))]
      exact ih h2 (fun x hx => hpre x (List.mem_cons_of_mem _ hx))

/-- C101: a process with several managers makes a sequence of calls.  In any other order in which every manager gets
its calls in the same order, and the forward opens come in the same order, the process does not stop either, every call
does and returns the same, and all managers end in the same state. -/
theorem C101_order {P : Plat} {p p' : Proc} {cs cs' : Calls} {tr : PTrace}
    (h : p.run P (cs.map fun c => .call c.1 c.2) = some (p', tr)) (hcs : Reordering cs cs') :
    ∃ q tr', p.run P (cs'.map fun c => .call c.1 c.2) = some (q, tr') ∧ (∀ i, doneBy i tr' = doneBy i tr) ∧
      SameState p' q := by
  induction cs generalizing p cs' tr with
  | nil =>
    have : cs' = [] := callsOf_nil fun i => by rw [← hcs.1 i]; rfl
    subst this
    exact ⟨p', tr, h, fun _ => rfl, sameState_refl _⟩
  | cons c cs ih =>
    obtain ⟨i, a⟩ := c
    obtain ⟨hc, ho⟩ := hcs
    have hi : callsOf i cs' = a :: callsOf i cs := by
      rw [← hc i]; simp only [callsOf, List.filterMap_cons, if_true]
    obtain ⟨pre, post, rfl, hpre, _⟩ := callsOf_first hi
    -- the calls before it in the other order are no opens if it is one
    have hopen : MOp.isOpen a = true → ∀ c ∈ pre, MOp.isOpen c.2 = false := by
      intro ha
      simp only [opensAmong, List.filter_cons, ha, if_true, List.filter_append] at ho
      have hf : pre.filter (fun c => MOp.isOpen c.2) = [] := by
        cases hp : pre.filter (fun c => MOp.isOpen c.2) with
        | nil => rfl
        | cons x xs =>
          rw [hp] at ho
          simp only [List.cons_append, List.cons.injEq] at ho
          have hx : x ∈ pre := (List.mem_filter.mp (by rw [hp]; exact List.mem_cons_self ..)).1
          exact absurd (by rw [← ho.1]) (hpre x hx)
      intro c hc
      cases hb : MOp.isOpen c.2 with
      | false => rfl
      | true =>
        have : c ∈ pre.filter (fun c => MOp.isOpen c.2) := List.mem_filter.mpr ⟨hc, hb⟩
        rw [hf] at this; cases this
    obtain ⟨p1, e, r, tr1, h1, h2, rfl⟩ := prun_cons h
    -- the rest, in the other order
    have hre : Reordering cs (pre ++ post) := by
      constructor
      · intro k
        have := hc k
        simp only [callsOf_append] at this ⊢
        by_cases hk : i = k
        · subst hk
          have hp : callsOf i pre = [] := by
            simp only [callsOf, List.filterMap_eq_nil_iff]
            intro c hc
            exact if_neg (hpre c hc)
          rw [hp] at this ⊢
          simpa [callsOf] using this
        · simpa [callsOf, hk] using this
      · cases ha : MOp.isOpen a with
        | false => simpa [opensAmong, ha] using ho
        | true =>
          have hp : pre.filter (fun c => MOp.isOpen c.2) = [] := by
            simp only [List.filter_eq_nil_iff]
            intro c hc; rw [hopen ha c hc]; decide
          simp only [opensAmong, List.filter_cons, ha, if_true, List.filter_append, hp, List.nil_append,
            List.cons.injEq, true_and] at ho ⊢
          exact ho
    obtain ⟨q1, t1, g1, g2, g3⟩ := ih h2 hre
    rw [List.map_append] at g1
    obtain ⟨q0, t0, t2, k1, k2, rfl⟩ := crun_append g1
    have hfirst : p.run P (((i, a) :: pre).map fun c => .call c.1 c.2) = some (q0, (.call i a, e, r) :: t0) := by
      simp only [List.map_cons, Proc.run, h1, k1]
    obtain ⟨q2, trq, e0, r0, m1, m2, m3⟩ := call_first hpre hopen hfirst
    simp only [List.cons.injEq, Prod.mk.injEq] at m2
    obtain ⟨⟨_, rfl, rfl⟩, rfl⟩ := m2
    obtain ⟨q3, n1, n2⟩ := calls_same m3 k2
    refine ⟨q3, (t0 ++ [(.call i a, e, r)]) ++ t2, ?_, ?_, sameState_trans g3 n2⟩
    · have := crun_join m1 n1
      rw [← List.map_append] at this
      simpa using this
    · intro k
      have hk := g2 k
      simp only [doneBy_append] at hk ⊢
      rw [List.append_assoc]
      by_cases hik : i = k
      · subst hik
        have h0 : doneBy i t0 = [] := doneBy_none (crun_ops k1) hpre
        rw [h0] at hk ⊢
        simp only [List.nil_append] at hk ⊢
        rw [hk]
        simp [doneBy]
      · have h3 : doneBy k [(.call i a, e, r)] = [] := by simp [doneBy, hik]
        have h4 : doneBy k ((.call i a, e, r) :: tr1) = doneBy k tr1 := by simp [doneBy, hik]
        rw [h3, h4, List.nil_append, hk]

/-- C101: if one manager only makes opens — or none —, the order of the opens need not be asked for: any way of
interleaving the managers' calls gives the same. -/
theorem C101_one_opener {P : Plat} {p p' : Proc} {cs cs' : Calls} {tr : PTrace} (k : Nat)
    (h : p.run P (cs.map fun c => .call c.1 c.2) = some (p', tr)) (hcs : ∀ i, callsOf i cs = callsOf i cs')
    (hk : ∀ c ∈ cs, MOp.isOpen c.2 = true → c.1 = k) :
    ∃ q tr', p.run P (cs'.map fun c => .call c.1 c.2) = some (q, tr') ∧ (∀ i, doneBy i tr' = doneBy i tr) ∧
      SameState p' q := by
  have hmem : ∀ (l : Calls) (i : Nat) (a : MOp), (i, a) ∈ l ↔ a ∈ callsOf i l := by
    intro l i a
    simp only [callsOf, List.mem_filterMap]
    constructor
    · intro h; exact ⟨(i, a), h, if_pos rfl⟩
    · rintro ⟨c, h1, h2⟩
      split at h2
      · rename_i hc
        injection h2 with h2
        subst h2; subst hc
        exact h1
      · cases h2
  have hk' : ∀ c ∈ cs', MOp.isOpen c.2 = true → c.1 = k := by
    intro c hc
    refine hk c ?_
    have := (hmem cs' c.1 c.2).mp hc
    rw [← hcs] at this
    exact (hmem cs c.1 c.2).mpr this
  have hopens : ∀ (l : Calls), (∀ c ∈ l, MOp.isOpen c.2 = true → c.1 = k) →
      opensAmong l = ((callsOf k l).filter fun a => MOp.isOpen a).map fun a => (k, a) := by
    intro l hl
    induction l with
    | nil => rfl
    | cons c l ih =>
      have ih := ih fun x hx => hl x (List.mem_cons_of_mem _ hx)
      obtain ⟨j, b⟩ := c
      simp only [opensAmong, List.filter_cons, callsOf, List.filterMap_cons] at ih ⊢
      cases hb : MOp.isOpen b with
      | false =>
        by_cases hj : j = k
        · simp only [hj, if_true, List.filter_cons, hb]; exact ih
        · simp only [if_neg hj]; exact ih
      | true =>
        have hj : j = k := hl (j, b) (List.mem_cons_self ..) hb
        simp only [hj, if_true, List.filter_cons, hb, List.map_cons, ih]
  exact C101_order h ⟨hcs, by rw [hopens cs hk, hopens cs' hk', hcs k]⟩

end Verif.Props
