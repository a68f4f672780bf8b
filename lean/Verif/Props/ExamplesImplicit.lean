import Verif.Model.Examples
import Verif.Spec.Examples
import Verif.Props.Defined
import Verif.Props.Descriptors
import Verif.Props.Throwing
import Verif.Props.HandleTime
import Verif.Props.ManagerConn

/-!
# Property C97: the implicit messaging example
-/

namespace Verif.Props

open Verif Verif.Spec Verif.Examples

theorem services_append (xs ys : List MEv) : services (xs ++ ys) = services xs ++ services ys := by
  induction xs with
  | nil => rfl
  | cons x xs ih => cases x <;> simp [services, ih]

theorem services_none {evs : List MEv} (h : ∀ e ∈ evs, (∃ tv, e = .waited tv) ∨ (∃ id op io, e = .conn id op io) ∨
    (∃ ep, e = .bound ep) ∨ ∃ id c, e = .created id c) : services evs = [] := by
  induction evs with
  | nil => rfl
  | cons e es ih =>
    have := ih fun x hx => h x (List.mem_cons_of_mem _ hx)
    rcases h e List.mem_cons_self with ⟨_, rfl⟩ | ⟨_, _, _, rfl⟩ | ⟨_, rfl⟩ | ⟨_, _, rfl⟩ <;> exact this

theorem mtrace_append {P : Plat} {s s1 s2 : Mgr} {a b : MTrace} (h1 : s.run P (a.map Prod.fst) = some (s1, a))
    (h2 : s1.run P (b.map Prod.fst) = some (s2, b)) : s.run P ((a ++ b).map Prod.fst) = some (s2, a ++ b) := by
  induction a generalizing s with
  | nil => simp [Mgr.run] at h1; subst h1; exact h2
  | cons e a ih =>
    obtain ⟨s', evs, ret, tr', g1, g2, g3⟩ := mrun_cons h1
    injection g3 with g3 g4
    subst g4
    simp only [List.cons_append, List.map_cons, Mgr.run, g1, ih g2]
    rw [g3]

theorem mrun_one {P : Plat} {s s1 : Mgr} {op : MOp} {evs : List MEv} {ret : MRet} (h : s.step P op = .ok s1 evs ret) :
    s.run P ([(op, evs, ret)].map Prod.fst) = some (s1, [(op, evs, ret)]) := by
  simp [Mgr.run, h]

theorem call_ok {P : Plat} {s s1 : Mgr} {tr : MTrace} {op : MOp} {evs : List MEv} {ret : MRet} (h : s.step P op = .ok s1 evs ret)
    (hr : ∀ e, ret ≠ .threw e) : call P op (s, tr) = .ok (s1, tr ++ [(op, evs, ret)]) ret := by
  unfold call
  simp only [h]

theorem call_threw {P : Plat} {s s1 : Mgr} {tr : MTrace} {op : MOp} {evs : List MEv} {e : Exn}
    (h : s.step P op = .ok s1 evs (.threw e)) : call P op (s, tr) = .throw (s1, tr ++ [(op, evs, .threw e)]) e := by
  unfold call
  simp only [h]

theorem call_stop {P : Plat} {s : Mgr} {tr : MTrace} {op : MOp} {evs : List MEv} {why : Stop}
    (h : s.step P op = .stop evs why) : call P op (s, tr) = .ub := by
  unfold call
  simp only [h]

theorem handle_ret {P : Plat} {s s' : Mgr} {start : Nat} {t : Int} {rounds : List Round} {ticks : Nat → TickEnv}
    {evs : List MEv} {ret : MRet} (h : s.step P (.handle start t rounds ticks) = .ok s' evs ret) :
    ret = .unit ∨ ∃ e, ret = .threw e := by
  simp only [Mgr.step, Mgr.handle] at h
  repeat' split at h
  all_goals first | cases h | skip
  · exact .inr ⟨_, rfl⟩
  · exact .inl rfl
  · exact .inr ⟨_, rfl⟩

/-- The entries of the loop: questions and waits that returned. -/
def LoopEntry (E : ImplicitEnv) (e : MOp × List MEv × MRet) : Prop :=
  (e.1 = .hasOpen ∧ e.2.1 = []) ∨ ∃ j, e.1 = E.wait j ∧ e.2.2 = .unit

/-- How the loop ends. -/
inductive LoopEnd (P : Plat) (E : ImplicitEnv) (count : Nat) (s : Mgr) (tr0 : MTrace) : Res (Mgr × MTrace) Unit → Prop
  | ok {s' tr} : s.run P (tr.map Prod.fst) = some (s', tr) → (∀ e ∈ tr, LoopEntry E e) → countOps isHandle tr ≤ count →
      (s'.table = [] ∨ countOps isHandle tr = count) → LoopEnd P E count s tr0 (.ok (s', tr0 ++ tr) ())
  | threw {s1 s' tr j evs e} : s.run P (tr.map Prod.fst) = some (s1, tr) → (∀ e ∈ tr, LoopEntry E e) → s1.table ≠ [] →
      s1.step P (E.wait j) = .ok s' evs (.threw e) → countOps isHandle tr < count →
      LoopEnd P E count s tr0 (.throw (s', tr0 ++ tr ++ [(E.wait j, evs, .threw e)]) e)
  | ub {s1 tr j evs why} : s.run P (tr.map Prod.fst) = some (s1, tr) → (∀ e ∈ tr, LoopEntry E e) → s1.table ≠ [] →
      s1.step P (E.wait j) = .stop evs why → LoopEnd P E count s tr0 .ub

theorem loop_end (P : Plat) (E : ImplicitEnv) (count k : Nat) (s : Mgr) (tr0 : MTrace) :
    LoopEnd P E count s tr0 (implicitLoop P E count k (s, tr0)) := by
  induction count generalizing k s tr0 with
  | zero =>
    rcases C32_hasOpen P s with ⟨h, ht⟩ | ⟨h, ht⟩
    · rw [show implicitLoop P E 0 k (s, tr0) = _ from Prog.bind_ok (call_ok h (by simp))]
      exact .ok (mrun_one h) (by simp [LoopEntry]) (by simp [countOps, isHandle]) (.inr (by simp [countOps, isHandle]))
    · rw [show implicitLoop P E 0 k (s, tr0) = _ from Prog.bind_ok (call_ok h (by simp))]
      exact .ok (mrun_one h) (by simp [LoopEntry]) (by simp [countOps, isHandle]) (.inl ht)
  | succ count ih =>
    rcases C32_hasOpen P s with ⟨h, ht⟩ | ⟨h, ht⟩
    · rw [show implicitLoop P E (count + 1) k (s, tr0) = _ from Prog.bind_ok (call_ok h (by simp))]
      rw [if_pos rfl]
      cases hw : s.step P (E.wait k) with
      | stop evs why =>
        rw [show (call P (E.wait k) >>= fun _ => implicitLoop P E count (k + 1)) _ = .ub from Prog.bind_ub (call_stop hw)]
        exact .ub (mrun_one h) (by simp [LoopEntry]) ht hw
      | ok s1 evs ret =>
        rcases handle_ret hw with rfl | ⟨e, rfl⟩
        · rw [show (call P (E.wait k) >>= fun _ => implicitLoop P E count (k + 1)) _ = _ from
            Prog.bind_ok (call_ok hw (by simp))]
          have h2 : s.run P ([(MOp.hasOpen, [], MRet.bool true), (E.wait k, evs, MRet.unit)].map Prod.fst) =
              some (s1, [(MOp.hasOpen, [], MRet.bool true), (E.wait k, evs, MRet.unit)]) := mtrace_append (mrun_one h) (mrun_one hw)
          have hall : ∀ tr' : MTrace, (∀ e ∈ tr', LoopEntry E e) →
              ∀ e ∈ [(MOp.hasOpen, [], MRet.bool true), (E.wait k, evs, MRet.unit)] ++ tr', LoopEntry E e := by
            intro tr' htr e he
            simp only [List.cons_append, List.nil_append, List.mem_cons] at he
            rcases he with rfl | rfl | he
            · exact .inl ⟨rfl, rfl⟩
            · exact .inr ⟨k, rfl, rfl⟩
            · exact htr e he
          have hcount : ∀ tr' : MTrace,
              countOps isHandle ([(MOp.hasOpen, [], MRet.bool true), (E.wait k, evs, MRet.unit)] ++ tr') =
                countOps isHandle tr' + 1 := by
            intro tr'
            simp [countOps, isHandle, ImplicitEnv.wait]
          have := ih (k + 1) s1 (tr0 ++ [(MOp.hasOpen, [], MRet.bool true)] ++ [(E.wait k, evs, MRet.unit)])
          generalize implicitLoop P E count (k + 1) _ = res at this
          cases this with
          | ok g1 g2 g3 g4 =>
            rename_i s' tr
            rw [show tr0 ++ [(MOp.hasOpen, [], MRet.bool true)] ++ [(E.wait k, evs, MRet.unit)] ++ tr =
              tr0 ++ ([(MOp.hasOpen, [], MRet.bool true), (E.wait k, evs, MRet.unit)] ++ tr) by simp]
            exact .ok (mtrace_append h2 g1) (hall _ g2) (by rw [hcount]; omega)
              (g4.imp id fun g => by rw [hcount]; omega)
          | threw g1 g2 g3 g4 g5 =>
            rename_i s2 s' tr j evs' e
            rw [show tr0 ++ [(MOp.hasOpen, [], MRet.bool true)] ++ [(E.wait k, evs, MRet.unit)] ++ tr =
              tr0 ++ ([(MOp.hasOpen, [], MRet.bool true), (E.wait k, evs, MRet.unit)] ++ tr) by simp]
            exact .threw (mtrace_append h2 g1) (hall _ g2) g3 g4 (by rw [hcount]; omega)
          | ub g1 g2 g3 g4 => exact .ub (mtrace_append h2 g1) (hall _ g2) g3 g4
        · rw [show (call P (E.wait k) >>= fun _ => implicitLoop P E count (k + 1)) _ = _ from
            Prog.bind_throw (call_threw hw)]
          exact .threw (mrun_one h) (by simp [LoopEntry]) ht hw (by simp [countOps, isHandle])
    · rw [show implicitLoop P E (count + 1) k (s, tr0) = _ from Prog.bind_ok (call_ok h (by simp))]
      exact .ok (mrun_one h) (by simp [LoopEntry]) (by simp [countOps, isHandle]) (.inl ht)

/-! ## What the waits do -/

/-- What happens to a connection without a send listener whose data nobody writes. -/
def Keeps (op : ConnOp) : Prop := (∃ d, op = .recv d) ∨ ∃ now hook count, op = .tick now hook count ∧ hook.left = none ∧ hook.throws = none

theorem tickAll_hooks (ticks : Nat → TickEnv) (t : List (BitVec 16 × Nat)) (heap : List Conn) :
    ∀ id now hook count io, MEv.conn id (.tick now hook count) io ∈ (Mgr.tickAll ticks t heap).2.1 → hook = (ticks id).hook := by
  induction t generalizing heap with
  | nil => simp [Mgr.tickAll]
  | cons e t ih =>
    obtain ⟨k, i⟩ := e
    intro id now hook count io hm
    simp only [Mgr.tickAll] at hm
    split at hm
    · exact ih _ _ _ _ _ _ hm
    · split at hm
      · rw [List.mem_singleton] at hm
        cases hm; rfl
      all_goals
        rw [List.mem_cons] at hm
        rcases hm with hm | hm
        · cases hm; rfl
        · exact ih _ _ _ _ _ _ hm

theorem wait_keeps {P : Plat} {E : ImplicitEnv} {j : Nat} {s s' : Mgr} {evs : List MEv} {ret : MRet}
    (h : s.step P (E.wait j) = .ok s' evs ret) : ∀ id op io, MEv.conn id op io ∈ evs → Keeps op := by
  intro id op io hm
  have quiet : ∀ {s1 pre}, Quiet P s s1 pre → MEv.conn id op io ∈ pre → Keeps op := by
    intro s1 pre q hm
    rcases q.only _ hm with ⟨tv, he⟩ | ⟨i, d, io', he, _⟩
    · cases he
    · cases he; exact .inl ⟨d, rfl⟩
  have tick : ∀ t heap, MEv.conn id op io ∈ (Mgr.tickAll
      (fun id => (⟨(E.ticks j id).1, {}, (E.ticks j id).2⟩ : TickEnv)) t heap).2.1 → Keeps op := by
    intro t heap hm
    obtain ⟨i, now, hook, count, io', he, _⟩ := (tickAll_spec P.mem _ t heap).2 _ hm
    cases he
    have := tickAll_hooks _ t heap _ _ _ _ _ hm
    subst this
    exact .inr ⟨now, {}, count, rfl, rfl, rfl⟩
  rcases handle_ret h with rfl | ⟨e, rfl⟩
  · obtain ⟨s1, pre, hsel, rfl, _, _⟩ := handle_parts P _ _ _ _ s s' evs h
    rcases List.mem_append.mp hm with hm | hm
    · exact quiet ((selectLoop_quiet P _ _ _ s).1 _ _ hsel) hm
    · exact tick _ _ hm
  · rcases handle_threw_parts P _ _ _ _ s s' evs e h with hsel | ⟨s1, pre, hsel, rfl, _, _⟩
    · exact quiet ((selectLoop_quiet P _ _ _ s).2 _ _ _ hsel) hm
    · rcases List.mem_append.mp hm with hm | hm
      · exact quiet ((selectLoop_quiet P _ _ _ s).1 _ _ hsel) hm
      · exact tick _ _ hm

theorem wait_still {P : Plat} {E : ImplicitEnv} {j : Nat} {s s' : Mgr} {evs : List MEv} {e : Exn}
    (h : s.step P (E.wait j) = .ok s' evs (.threw e)) : s'.table = s.table := by
  rcases handle_threw_parts P _ _ _ _ s s' evs e h with hsel | ⟨s1, pre, hsel, _, _, rfl⟩
  · exact ((selectLoop_quiet P _ _ _ s).2 _ _ _ hsel).table
  · exact ((selectLoop_quiet P _ _ _ s).1 _ _ hsel).table

theorem wait_services {P : Plat} {E : ImplicitEnv} {j : Nat} {s s' : Mgr} {evs : List MEv} {ret : MRet}
    (h : s.step P (E.wait j) = .ok s' evs ret) : services evs = [] := by
  refine services_none fun e he => ?_
  rcases (handle_fewer P _ _ _ _ s s' evs ret h).2.2.2.2 e he with h | ⟨id, op, io, h, _⟩
  · exact .inl h
  · exact .inr (.inl ⟨id, op, io, h⟩)

structure LoopFacts (k : BitVec 16) (s s' : Mgr) (tr : MTrace) : Prop where
  inv : Inv s'
  held : s'.held = []
  sockets : s'.sockets = s.sockets
  length : s'.heap.length = s.heap.length
  services : Spec.services (allEvs tr) = []
  keeps : ∀ id op io, MEv.conn id op io ∈ allEvs tr → Keeps op
  table : (s'.table = s.table ∧ ¬ TimedOut 0 tr) ∨ (s.table = [(k, 0)] ∧ s'.table = [] ∧ TimedOut 0 tr)

theorem loop_facts (P : Plat) (E : ImplicitEnv) (k : BitVec 16) (tr : MTrace) (s s' : Mgr) (hi : Inv s) (hheld : s.held = [])
    (ht : s.table = [(k, 0)] ∨ s.table = []) (h : s.run P (tr.map Prod.fst) = some (s', tr)) (he : ∀ e ∈ tr, LoopEntry E e) :
    LoopFacts k s s' tr := by
  induction tr generalizing s with
  | nil =>
    simp only [List.map_nil, Mgr.run, Option.some.injEq, Prod.mk.injEq, and_true] at h
    subst h
    exact ⟨hi, hheld, rfl, rfl, rfl, by simp [allEvs], .inl ⟨rfl, by simp [TimedOut, allEvs]⟩⟩
  | cons x tr ih =>
    obtain ⟨op, evs, ret⟩ := x
    obtain ⟨s1, evs', ret', tr', h1, h2, h3⟩ := mrun_cons h
    injection h3 with h3 h4
    subst h4
    injection h3 with _ h3
    injection h3 with h3 h4
    subst h3; subst h4
    have hi1 := inv_step P s s1 op evs ret hi h1
    have hrest := fun e hm => he e (List.mem_cons_of_mem _ hm)
    have hall : allEvs ((op, evs, ret) :: tr) = evs ++ allEvs tr := by simp [allEvs]
    rcases he _ List.mem_cons_self with ⟨h3, h4⟩ | ⟨j, h3, h4⟩
    · simp only at h3 h4
      subst h3; subst h4
      simp only [Mgr.step, StepRes.ok.injEq, true_and] at h1
      obtain ⟨rfl, _⟩ := h1
      obtain ⟨g1, g2, g3, g4, g5, g6, g7⟩ := ih s hi hheld ht h2 hrest
      exact ⟨g1, g2, g3, g4, by rw [hall]; exact g5, by rw [hall]; exact g6, by unfold TimedOut at g7 ⊢; rw [hall]; exact g7⟩
    · simp only at h3 h4
      subst h3; subst h4
      obtain ⟨f1, f2, f3, ⟨f, f4⟩, f5⟩ := handle_fewer P _ _ _ _ s s1 evs _ h1
      have ht1 : s1.table = [(k, 0)] ∨ s1.table = [] := by
        rw [f4]
        rcases ht with ht | ht
        · rw [ht, List.filter_cons]
          split <;> simp
        · rw [ht]; simp
      obtain ⟨g1, g2, g3, g4, g5, g6, g7⟩ := ih s1 hi1 (f2.trans hheld) ht1 h2 hrest
      refine ⟨g1, g2, g3.trans f3, g4.trans f1, ?_, ?_, ?_⟩
      · rw [hall, services_append, wait_services h1, g5]; rfl
      · rw [hall]
        intro id op io hm
        rcases List.mem_append.mp hm with hm | hm
        · exact wait_keeps h1 id op io hm
        · exact g6 id op io hm
      · have hto : TimedOut 0 ((E.wait j, evs, MRet.unit) :: tr) ↔
            (∃ op io, MEv.conn 0 op io ∈ evs ∧ IoEv.closed ∈ io) ∨ TimedOut 0 tr := by
          simp only [TimedOut, hall, List.mem_append]
          constructor
          · rintro ⟨op, io, h | h, h'⟩
            · exact .inl ⟨op, io, h, h'⟩
            · exact .inr ⟨op, io, h, h'⟩
          · rintro (⟨op, io, h, h'⟩ | ⟨op, io, h, h'⟩)
            · exact ⟨op, io, .inl h, h'⟩
            · exact ⟨op, io, .inr h, h'⟩
        rw [hto]
        rcases ht with ht | ht
        · have hrem := handle_removes P s s1 hi _ _ _ _ evs h1 k 0 (by rw [ht]; simp)
          rcases ht1 with ht1 | ht1
          · have hno : ¬ ∃ op io, MEv.conn 0 op io ∈ evs ∧ IoEv.closed ∈ io := by
              rw [← hrem, ht1]; simp
            rcases g7 with ⟨g7, g8⟩ | ⟨g7, g8, g9⟩
            · exact .inl ⟨by rw [g7, ht1, ht], fun h => h.elim hno g8⟩
            · exact .inr ⟨ht, g8, .inr g9⟩
          · have hyes := hrem.mp (by rw [ht1]; simp)
            rcases g7 with ⟨g7, _⟩ | ⟨g7, _⟩
            · exact .inr ⟨ht, g7.trans ht1, .inl hyes⟩
            · rw [ht1] at g7; cases g7
        · have ht1 : s1.table = [] := by rw [f4, ht]; rfl
          have hno : ¬ ∃ op io, MEv.conn 0 op io ∈ evs ∧ IoEv.closed ∈ io := by
            rintro ⟨op, io, hm, _⟩
            rcases f5 _ hm with ⟨tv, he⟩ | ⟨id, op', io', he, k', hk⟩
            · cases he
            · rw [ht] at hk; cases hk
          rcases g7 with ⟨g7, g8⟩ | ⟨g7, _⟩
          · exact .inl ⟨by rw [g7, ht1, ht], fun h => h.elim hno g8⟩
          · rw [ht1] at g7; cases g7

/-! ## The whole program -/

/-- The first call. -/
abbrev implicitOpen (E : ImplicitEnv) : MOp := .forwardOpen "172.28.1.3" implicitParams false E.opened

theorem open_new (P : Plat) (inc : BitVec 16) (st : Statics) (host : String) (p : ConnectionParameters) (e : OpenEnv) (s : Mgr)
    (evs : List MEv) (ret : MRet) (h : (Mgr.new inc st).step P (.forwardOpen host p false e) = .ok s evs ret) :
    services evs = [0x54#8] ∧ (∀ id op io, MEv.conn id op io ∉ evs) ∧ s.held = [] ∧
    ((s.table = [] ∧ ((∃ x, ret = .threw x) ∨ (ret = .ptr none ∧ ∃ resp, e.reply = .ok resp ∧ resp.status ≠ 0x00#8))) ∨
     (ret = .ptr (some 0) ∧ s.sockets ≠ [] ∧ ∃ r mult ep, s.heap = [Mgr.newConn p false r mult ep e.now] ∧
        MEv.created 0 (Mgr.newConn p false r mult ep e.now) ∈ evs ∧
        s.table = [(r.t2oNetworkConnectionId.setWidth 16, 0)])) := by
  obtain ⟨st', data, _, _, hh⟩ := forwardOpen_cases P host p false e (Mgr.new inc st) s evs ret h
  rcases hh with ⟨rfl, rfl, hr⟩ | ⟨resp, _, _, r, mult, ep, socks, bs, _, _, _, _, hf, rfl, rfl, hret⟩
  · exact ⟨rfl, by simp, rfl, .inl ⟨rfl, hr⟩⟩
  · obtain ⟨g1, g2, g3, _, g5, _⟩ := register_shape (Mgr.newConn p false r mult ep e.now)
      { Mgr.new inc st with statics := st', sockets := socks }
    have hb := findOrCreate_events _ _ _ _ _ hf
    refine ⟨?_, ?_, g5, .inr ⟨hret, ?_, r, mult, ep, g1, by simp [Mgr.new], ?_⟩⟩
    · simp only [Bool.false_eq_true, if_false, List.cons_append, services]
      rw [services_none fun e he => ?_]
      rcases List.mem_append.mp he with he | he
      · exact .inr (.inr (.inl (hb e he)))
      · rw [List.mem_singleton] at he
        exact .inr (.inr (.inr ⟨_, _, he⟩))
    · intro id op io hm
      simp only [List.cons_append, List.mem_cons, List.mem_append, List.not_mem_nil, or_false] at hm
      rcases hm with hm | hm | hm
      · cases hm
      · obtain ⟨x, hx⟩ := hb _ hm; cases hx
      · cases hm
    · rw [g3]
      simp only [Mgr.findOrCreateSocket, Mgr.new, sockFind] at hf
      cases hbe : e.bindErr with
      | some code => rw [hbe] at hf; cases hf
      | none =>
        rw [hbe] at hf
        injection hf with hf
        injection hf with hf _
        simp [← hf, sockPut]
    · rcases g2 with ⟨id, hf', _⟩ | ⟨_, ht⟩
      · simp [Mgr.new, tblFind] at hf'
      · rw [ht]; rfl

/-- The calls before the loop. -/
abbrev implicitHead (E : ImplicitEnv) (evs : List MEv) : MTrace :=
  [(implicitOpen E, evs, .ptr (some 0)), (.lock 0, [], .unit),
    (.setData 0 (List.replicate 32 0#8), [.conn 0 (.setData (List.replicate 32 0#8)) []], .unit), (.release 0, [], .unit)]

/-- The program from the loop on. -/
abbrev implicitRest (P : Plat) (E : ImplicitEnv) (ptr : Option Nat) : Prog (Mgr × MTrace) Int := do
  implicitLoop P E 200 0
  let _ ← call P (.forwardClose ptr E.closed)
  pure 0

theorem loop_empty (P : Plat) (E : ImplicitEnv) (count k : Nat) (s : Mgr) (tr : MTrace) (ht : s.table = []) :
    implicitLoop P E count k (s, tr) = .ok (s, tr ++ [(.hasOpen, [], .bool false)]) () := by
  have hask : s.step P .hasOpen = .ok s [] (.bool false) := by simp [Mgr.step, ht]
  unfold implicitLoop
  refine (Prog.bind_ok (call_ok hask (by simp))).trans ?_
  rw [if_neg (by simp)]
  rfl

theorem implicit_refused (P : Plat) (E : ImplicitEnv) (inc : BitVec 16) (st : Statics) (s : Mgr) (evs : List MEv)
    (h : (Mgr.new inc st).step P (implicitOpen E) = .ok s evs (.ptr none)) :
    implicitMain P E (Mgr.new inc st, []) = .ok (s, [(implicitOpen E, evs, .ptr none), (.hasOpen, [], .bool false),
      (.forwardClose none E.closed, [], .unit)]) 0 ∧ s.table = [] := by
  obtain ⟨_, _, _, ⟨ht, _⟩ | ⟨h1, _⟩⟩ := open_new P inc st _ _ _ s evs _ h
  · refine ⟨?_, ht⟩
    refine (Prog.bind_ok (call_ok h (by simp))).trans ?_
    simp only
    refine (Prog.bind_ok (loop_empty P E 200 0 s _ ht)).trans ?_
    refine (Prog.bind_ok (call_ok (C42_expired P s none E.closed (by simp)) (by simp))).trans ?_
    simp
  · cases h1

theorem implicit_opened (P : Plat) (E : ImplicitEnv) (inc : BitVec 16) (st : Statics) (s : Mgr) (evs : List MEv) (id : Nat)
    (h : (Mgr.new inc st).step P (implicitOpen E) = .ok s evs (.ptr (some id))) :
    id = 0 ∧ ∃ s4 k, implicitMain P E (Mgr.new inc st, []) = implicitRest P E (some 0) (s4, implicitHead E evs) ∧
      (Mgr.new inc st).run P ((implicitHead E evs).map Prod.fst) = some (s4, implicitHead E evs) ∧
      s4.table = [(k, 0)] ∧ s4.held = [] ∧ s4.sockets ≠ [] ∧ s4.heap.length = 1 := by
  obtain ⟨_, _, hheld, ⟨_, ⟨x, hx⟩ | ⟨hx, _⟩⟩ | ⟨hid, hs, r, mult, ep, hheap, _, ht⟩⟩ := open_new P inc st _ _ _ s evs _ h
  · cases hx
  · cases hx
  · injection hid with hid
    injection hid with hid
    subst hid
    generalize hc : Mgr.newConn implicitParams false r mult ep E.opened.now = c at hheap
    generalize r.t2oNetworkConnectionId.setWidth 16 = k at ht
    have h2 : s.step P (.lock 0) = .ok { s with held := [0] } [] .unit := by
      simp [Mgr.step, Mgr.alive, ht, hheld]
    have h3 : ({ s with held := [0] } : Mgr).step P (.setData 0 (List.replicate 32 0#8)) =
        .ok { s with held := [0], heap := [c.setDataToSend (List.replicate 32 0#8)] }
          [.conn 0 (.setData (List.replicate 32 0#8)) []] .unit := by
      simp [Mgr.step, Mgr.alive, hheap]
    have h4 : ({ s with held := [0], heap := [c.setDataToSend (List.replicate 32 0#8)] } : Mgr).step P (.release 0) =
        .ok { s with held := [], heap := [c.setDataToSend (List.replicate 32 0#8)] } [] .unit := by
      simp [Mgr.step]
    refine ⟨rfl, { s with held := [], heap := [c.setDataToSend (List.replicate 32 0#8)] }, k, ?_, ?_, ht, rfl, hs, rfl⟩
    · refine (Prog.bind_ok (call_ok h (by simp))).trans ?_
      simp only
      refine (Prog.bind_ok (show implicitSetUp P 0 _ = .ok _ () from ?_)).trans (by simp only [implicitRest]; rfl)
      refine (Prog.bind_ok (call_ok h2 (by simp))).trans ?_
      refine (Prog.bind_ok (call_ok h3 (by simp))).trans ?_
      exact (Prog.bind_ok (call_ok h4 (by simp))).trans rfl
    · exact mtrace_append (mrun_one h) (mtrace_append (mrun_one h2) (mtrace_append (mrun_one h3) (mrun_one h4)))

theorem closeRet_cases {P : Plat} {s s' : Mgr} {ptr : Option Nat} {r : Outcome MessageRouterResponse} {evs : List MEv} {ret : MRet}
    (h : s.step P (.forwardClose ptr r) = .ok s' evs ret) : ret = .unit ∨ ∃ e, ret = .threw e := by
  simp only [Mgr.step, Mgr.forwardClose] at h
  repeat' split at h
  all_goals first | cases h | skip
  all_goals first | exact .inl rfl | exact .inr ⟨_, rfl⟩

/-- How the program ends after it got a connection. -/
inductive RestEnd (P : Plat) (E : ImplicitEnv) (s : Mgr) (tr0 : MTrace) : Res (Mgr × MTrace) Int → Prop
  | ok {s1 s2 tr evs} : s.run P (tr.map Prod.fst) = some (s1, tr) → (∀ e ∈ tr, LoopEntry E e) → countOps isHandle tr ≤ 200 →
      (s1.table = [] ∨ countOps isHandle tr = 200) → s1.step P (.forwardClose (some 0) E.closed) = .ok s2 evs .unit →
      RestEnd P E s tr0 (.ok (s2, tr0 ++ tr ++ [(.forwardClose (some 0) E.closed, evs, .unit)]) 0)
  | close {s1 s2 tr evs e} : s.run P (tr.map Prod.fst) = some (s1, tr) → (∀ e ∈ tr, LoopEntry E e) →
      (s1.table = [] ∨ countOps isHandle tr = 200) → s1.step P (.forwardClose (some 0) E.closed) = .ok s2 evs (.threw e) →
      RestEnd P E s tr0 (.throw (s2, tr0 ++ tr ++ [(.forwardClose (some 0) E.closed, evs, .threw e)]) e)
  | wait {s1 s2 tr j evs e} : s.run P (tr.map Prod.fst) = some (s1, tr) → (∀ e ∈ tr, LoopEntry E e) → s1.table ≠ [] →
      s1.step P (E.wait j) = .ok s2 evs (.threw e) →
      RestEnd P E s tr0 (.throw (s2, tr0 ++ tr ++ [(E.wait j, evs, .threw e)]) e)
  | ubClose {s1 tr evs why} : s.run P (tr.map Prod.fst) = some (s1, tr) → (∀ e ∈ tr, LoopEntry E e) →
      s1.step P (.forwardClose (some 0) E.closed) = .stop evs why → RestEnd P E s tr0 .ub
  | ubWait {s1 tr j evs why} : s.run P (tr.map Prod.fst) = some (s1, tr) → (∀ e ∈ tr, LoopEntry E e) →
      s1.step P (E.wait j) = .stop evs why → RestEnd P E s tr0 .ub

theorem rest_end (P : Plat) (E : ImplicitEnv) (s : Mgr) (tr0 : MTrace) :
    RestEnd P E s tr0 (implicitRest P E (some 0) (s, tr0)) := by
  have hl := loop_end P E 200 0 s tr0
  unfold implicitRest
  generalize hr : implicitLoop P E 200 0 (s, tr0) = res at hl
  cases hl with
  | threw g1 g2 g3 g4 g5 => rw [Prog.bind_throw hr]; exact .wait g1 g2 g3 g4
  | ub g1 g2 g3 g4 => rw [Prog.bind_ub hr]; exact .ubWait g1 g2 g4
  | ok g1 g2 g3 g4 =>
    rename_i s1 tr
    rw [Prog.bind_ok hr]
    cases hc : s1.step P (.forwardClose (some 0) E.closed) with
    | stop evs why => rw [Prog.bind_ub (call_stop hc)]; exact .ubClose g1 g2 hc
    | ok s2 evs ret =>
      rcases closeRet_cases hc with rfl | ⟨e, rfl⟩
      · rw [Prog.bind_ok (call_ok hc (by simp))]
        exact .ok g1 g2 g3 g4 hc
      · rw [Prog.bind_throw (call_threw hc)]
        exact .close g1 g2 g4 hc

theorem services_head (E : ImplicitEnv) (evs : List MEv) : services (allEvs (implicitHead E evs)) = services evs := by
  simp [allEvs, services_append, services]

theorem count_head (E : ImplicitEnv) (evs : List MEv) (tr : MTrace) (x : MOp × List MEv × MRet) (hx : isHandle x.1 = false) :
    countOps isHandle (implicitHead E evs ++ tr ++ [x]) = countOps isHandle tr := by
  simp [countOps, isHandle]
  exact hx

/-- What one close of connection 0 does, when it is the only one or has gone. -/
theorem close_one (P : Plat) (s : Mgr) (hi : Inv s) (hheld : s.held = []) (k : BitVec 16) (r : Outcome MessageRouterResponse) :
    (s.table = [] → s.step P (.forwardClose (some 0) r) = .ok s [] .unit) ∧
    (s.table = [(k, 0)] →
      (∀ resp, r = .ok resp → ∃ data s', s.step P (.forwardClose (some 0) r) = .ok s' [.request 0x4E#8 (EPath.mk2 6 1) data] .unit ∧
        s'.table = []) ∧
      (∀ x, r = .throw x → ∃ data, s.step P (.forwardClose (some 0) r) = .ok s [.request 0x4E#8 (EPath.mk2 6 1) data] (.threw x))) := by
  refine ⟨fun ht => C42_expired P s _ r fun id _ => ?_, fun ht => ?_⟩
  · simp [Mgr.alive, ht, hheld]
  · obtain ⟨c, hc, hk⟩ := hi.obj k 0 (by rw [ht]; simp)
    have hal : s.alive 0 = true := by simp [Mgr.alive, ht]
    refine ⟨?_, fun x hx => ?_⟩
    · rintro resp rfl
      refine ⟨(Mgr.closeRequest c).pack, { s with table := [] }, ?_, rfl⟩
      have hf : tblFind (c.t2oNetworkConnectionId.setWidth 16) s.table = some 0 := by rw [ht, ← hk]; simp [tblFind]
      have he : tblErase (c.t2oNetworkConnectionId.setWidth 16) s.table = [] := by rw [ht, ← hk]; simp [tblErase]
      simp only [Mgr.step, Mgr.forwardClose, hal, hc, hf, he, if_true]
    · subst hx
      exact C42_close_throws P s 0 c hal hc x

/-- C97. The implicit messaging example, with any target and network, when it ends with an exit code: it is 0 and no
connection is left open in the manager.  Either the target refused and there was one request and no wait, or there was a
connection, and it was closed with a request after 200 waits, or without one because it had timed out. -/
theorem C97_program (P : Plat) (E : ImplicitEnv) (inc : BitVec 16) (st : Statics) (s : Mgr) (tr : MTrace) (code : Int)
    (h : implicitMain P E (Mgr.new inc st, []) = .ok (s, tr) code) :
    code = 0 ∧ (Mgr.new inc st).run P (tr.map Prod.fst) = some (s, tr) ∧ s.table = [] ∧
    ((services (allEvs tr) = [0x54#8] ∧ countOps isHandle tr = 0 ∧ ∃ resp, E.opened.reply = .ok resp ∧ resp.status ≠ 0x00#8) ∨
     ∃ c, MEv.created 0 c ∈ allEvs tr ∧
      ((TimedOut 0 tr ∧ services (allEvs tr) = [0x54#8] ∧ countOps isHandle tr ≤ 200) ∨
       (¬ TimedOut 0 tr ∧ services (allEvs tr) = [0x54#8, 0x4E#8] ∧ countOps isHandle tr = 200))) := by
  cases ho : (Mgr.new inc st).step P (implicitOpen E) with
  | stop evs why => rw [show implicitMain P E (Mgr.new inc st, []) = .ub from Prog.bind_ub (call_stop ho)] at h; cases h
  | ok s1 evs ret =>
    obtain ⟨hserv, hconn, hheld, hcase⟩ := open_new P inc st _ _ _ s1 evs ret ho
    rcases hcase with ⟨ht, ⟨x, rfl⟩ | ⟨rfl, hresp⟩⟩ | ⟨rfl, _, r, mult, ep, _, hcr, _⟩
    · rw [show implicitMain P E (Mgr.new inc st, []) = _ from Prog.bind_throw (call_threw ho)] at h; cases h
    · obtain ⟨he, ht⟩ := implicit_refused P E inc st s1 evs ho
      rw [he] at h
      injection h with h1 h2
      injection h1 with h1 h3
      subst h1; subst h2; subst h3
      refine ⟨rfl, ?_, ht, .inl ⟨?_, by simp [countOps, isHandle], hresp⟩⟩
      · have hask : s1.step P .hasOpen = .ok s1 [] (.bool false) := by simp [Mgr.step, ht]
        exact mtrace_append (mrun_one ho) (mtrace_append (mrun_one hask)
          (mrun_one (C42_expired P s1 none E.closed (by simp))))
      · simp [allEvs, hserv]
    · obtain ⟨_, s4, k, he, hrun, ht, hheld4, hsock, hlen⟩ := implicit_opened P E inc st s1 evs 0 ho
      rw [he] at h
      have hend := rest_end P E s4 (implicitHead E evs)
      rw [h] at hend
      cases hend with
      | ok g1 g2 g3 g4 g5 =>
        rename_i s5 tr' evs'
        have hi4 := inv_run P _ s4 _ _ (inv_new inc st) hrun
        have F := loop_facts P E k tr' s4 s5 hi4 hheld4 (.inl ht) g1 g2
        obtain ⟨c1, c2⟩ := close_one P s5 F.inv F.held k E.closed
        have hto : TimedOut 0 (implicitHead E evs ++ tr' ++ [(.forwardClose (some 0) E.closed, evs', .unit)]) ↔ TimedOut 0 tr' := by
          have hno : ∀ op io, MEv.conn 0 op io ∉ evs' := by
            intro op io hm
            rcases F.table with ⟨ht5, _⟩ | ⟨_, ht5, _⟩
            · rw [ht] at ht5
              cases hcl : E.closed with
              | ok resp => obtain ⟨d, s', e1, _⟩ := (c2 ht5).1 resp hcl; rw [g5] at e1; cases e1; simp at hm
              | throw x => obtain ⟨d, e1⟩ := (c2 ht5).2 x hcl; rw [g5] at e1; cases e1
              | ub =>
                obtain ⟨c, hc, _⟩ := F.inv.obj k 0 (by rw [ht5]; simp)
                have hal : s5.alive 0 = true := by simp [Mgr.alive, ht5]
                simp [Mgr.step, Mgr.forwardClose, hal, hc, hcl] at g5
            · rw [c1 ht5] at g5; cases g5; simp at hm
          constructor
          · rintro ⟨op, io, hm, hcl⟩
            simp only [allEvs_append, List.mem_append] at hm
            rcases hm with (hm | hm) | hm
            · simp only [allEvs, List.flatMap_cons, List.flatMap_nil, List.append_nil, List.nil_append, List.mem_append,
                List.mem_singleton] at hm
              rcases hm with hm | hm
              · exact absurd hm (hconn _ _ _)
              · cases hm; cases hcl
            · exact ⟨op, io, hm, hcl⟩
            · simp only [allEvs, List.flatMap_cons, List.flatMap_nil, List.append_nil] at hm
              exact absurd hm (hno _ _)
          · rintro ⟨op, io, hm, hcl⟩
            exact ⟨op, io, by simp only [allEvs_append, List.mem_append]; exact .inl (.inr hm), hcl⟩
        have hsv : services (allEvs (implicitHead E evs ++ tr' ++ [(.forwardClose (some 0) E.closed, evs', .unit)])) =
            0x54#8 :: services evs' := by
          rw [allEvs_append, allEvs_append, services_append, services_append, services_head, hserv, F.services]
          simp [allEvs]
        rw [hto, hsv, count_head E evs tr' _ (by simp [isHandle])]
        have hcreated : MEv.created 0 (Mgr.newConn implicitParams false r mult ep E.opened.now) ∈
            allEvs (implicitHead E evs ++ tr' ++ [(.forwardClose (some 0) E.closed, evs', .unit)]) := by
          simp only [allEvs_append, List.mem_append]
          refine .inl (.inl ?_)
          simp only [allEvs, List.flatMap_cons, List.mem_append]
          exact .inl hcr
        have hfull := mtrace_append (mtrace_append hrun g1) (mrun_one g5)
        rcases F.table with ⟨ht5, hnt⟩ | ⟨_, ht5, hyt⟩
        · rw [ht] at ht5
          have h200 : countOps isHandle tr' = 200 := g4.resolve_left (by rw [ht5]; simp)
          cases hcl : E.closed with
          | ok resp =>
            obtain ⟨d, s', e1, e2⟩ := (c2 ht5).1 resp hcl
            rw [g5] at e1
            injection e1 with e1 e3 _
            subst e1; subst e3
            exact ⟨rfl, by rw [← hcl]; exact hfull, e2, .inr ⟨_, by rw [← hcl]; exact hcreated, .inr ⟨hnt, rfl, h200⟩⟩⟩
          | throw x => obtain ⟨d, e1⟩ := (c2 ht5).2 x hcl; rw [g5] at e1; cases e1
          | ub =>
            obtain ⟨c, hc, _⟩ := F.inv.obj k 0 (by rw [ht5]; simp)
            have hal : s5.alive 0 = true := by simp [Mgr.alive, ht5]
            simp [Mgr.step, Mgr.forwardClose, hal, hc, hcl] at g5
        · have e1 := c1 ht5
          rw [g5] at e1
          injection e1 with e1 e3 _
          subst e1; subst e3
          exact ⟨rfl, hfull, ht5, .inr ⟨_, hcreated, .inl ⟨hyt, rfl, g3⟩⟩⟩

theorem close_ub {P : Plat} {s s' : Mgr} (hi : Inv s) {k : BitVec 16} (ht : s.table = [(k, 0)]) {evs : List MEv} {ret : MRet} :
    s.step P (.forwardClose (some 0) .ub) ≠ .ok s' evs ret := by
  obtain ⟨c, hc, _⟩ := hi.obj k 0 (by rw [ht]; simp)
  have hal : s.alive 0 = true := by simp [Mgr.alive, ht]
  simp [Mgr.step, Mgr.forwardClose, hal, hc]

/-- C97. When an exception leaves the program it is the last call that threw it.  If that was the open, nothing is open.
If it was a wait or the close, the connection is still open in the manager; after a wait no close request was sent. -/
theorem C97_uncaught_violated (P : Plat) (E : ImplicitEnv) (inc : BitVec 16) (st : Statics) (s : Mgr) (tr : MTrace) (e : Exn)
    (h : implicitMain P E (Mgr.new inc st, []) = .throw (s, tr) e) :
    (Mgr.new inc st).run P (tr.map Prod.fst) = some (s, tr) ∧
    ∃ before op evs, tr = before ++ [(op, evs, .threw e)] ∧
      ((op = implicitOpen E ∧ before = [] ∧ s.table = [] ∧ services (allEvs tr) = [0x54#8]) ∨
       (isHandle op = true ∧ (∃ k, s.table = [(k, 0)]) ∧ services (allEvs tr) = [0x54#8]) ∨
       (op = .forwardClose (some 0) E.closed ∧ E.closed = .throw e ∧ countOps isHandle tr = 200 ∧ (∃ k, s.table = [(k, 0)]) ∧
        services (allEvs tr) = [0x54#8, 0x4E#8])) := by
  cases ho : (Mgr.new inc st).step P (implicitOpen E) with
  | stop evs why => rw [show implicitMain P E (Mgr.new inc st, []) = .ub from Prog.bind_ub (call_stop ho)] at h; cases h
  | ok s1 evs ret =>
    obtain ⟨hserv, hconn, hheld, hcase⟩ := open_new P inc st _ _ _ s1 evs ret ho
    rcases hcase with ⟨ht, ⟨x, rfl⟩ | ⟨rfl, hresp⟩⟩ | ⟨rfl, _, r, mult, ep, _, hcr, _⟩
    · rw [show implicitMain P E (Mgr.new inc st, []) = _ from Prog.bind_throw (call_threw ho)] at h
      injection h with h1 h2
      injection h1 with h1 h3
      subst h1; subst h2; subst h3
      exact ⟨mrun_one ho, [], _, _, rfl, .inl ⟨rfl, rfl, ht, by simp [allEvs, hserv]⟩⟩
    · rw [(implicit_refused P E inc st s1 evs ho).1] at h
      cases h
    · obtain ⟨_, s4, k, he, hrun, ht, hheld4, hsock, hlen⟩ := implicit_opened P E inc st s1 evs 0 ho
      rw [he] at h
      have hi4 := inv_run P _ s4 _ _ (inv_new inc st) hrun
      have hend := rest_end P E s4 (implicitHead E evs)
      rw [h] at hend
      have hsv : ∀ (tr' : MTrace) (x : MOp × List MEv × MRet), services (allEvs tr') = [] →
          services (allEvs (implicitHead E evs ++ tr' ++ [x])) = 0x54#8 :: services x.2.1 := by
        intro tr' x hx
        rw [allEvs_append, allEvs_append, services_append, services_append, services_head, hserv, hx]
        simp [allEvs]
      cases hend with
      | wait g1 g2 g3 g4 =>
        rename_i s5 tr' j evs'
        have F := loop_facts P E k tr' s4 s5 hi4 hheld4 (.inl ht) g1 g2
        refine ⟨mtrace_append (mtrace_append hrun g1) (mrun_one g4), _, _, _, rfl, .inr (.inl ⟨rfl, ⟨k, ?_⟩, ?_⟩)⟩
        · rw [wait_still g4]
          rcases F.table with ⟨ht5, _⟩ | ⟨_, ht5, _⟩
          · rw [ht5, ht]
          · exact absurd ht5 g3
        · rw [hsv _ _ F.services, wait_services g4]
      | close g1 g2 g3 g4 =>
        rename_i s5 tr' evs'
        have F := loop_facts P E k tr' s4 s5 hi4 hheld4 (.inl ht) g1 g2
        obtain ⟨c1, c2⟩ := close_one P s5 F.inv F.held k E.closed
        rcases F.table with ⟨ht5, hnt⟩ | ⟨_, ht5, hyt⟩
        · rw [ht] at ht5
          have h200 : countOps isHandle tr' = 200 := g3.resolve_left (by rw [ht5]; simp)
          cases hcl : E.closed with
          | ok resp => obtain ⟨d, s', e1, _⟩ := (c2 ht5).1 resp hcl; rw [g4] at e1; cases e1
          | ub => rw [hcl] at g4; exact absurd g4 (close_ub F.inv ht5)
          | throw x =>
            obtain ⟨d, e1⟩ := (c2 ht5).2 x hcl
            rw [g4] at e1
            injection e1 with e1 e3 e4
            injection e4 with e4
            subst e1; subst e3; subst e4
            refine ⟨?_, _, _, _, rfl,
              .inr (.inr ⟨rfl, rfl, by rw [count_head E evs tr' _ (by simp [isHandle])]; exact h200, ⟨k, ht5⟩,
                by rw [hsv _ _ F.services]; rfl⟩)⟩
            rw [← hcl]
            exact mtrace_append (mtrace_append hrun g1) (mrun_one g4)
        · rw [c1 ht5] at g4; cases g4

/-- C97. With a target and a network that keep to the rules the program has a defined outcome: an exit code or an exception. -/
theorem C97_defined (P : Plat) (hP : P.mem = Mem.strict) (E : ImplicitEnv) (inc : BitVec 16) (st : Statics)
    (hst : st.serial < 2 ^ 31 - 1) (hopen : E.opened.reply ≠ .ub)
    (hreply : ∀ resp, E.opened.reply = .ok resp → resp.status = 0x00#8 →
      CompleteReply resp.data ∧ ¬ ShortAddress resp.additionalItems)
    (hdgram : ∀ k, ∀ a ∈ receivedIn (E.rounds k), ∀ d, a.recv = .dgram d → Proper 2 d) (hclose : E.closed ≠ .ub) :
    implicitMain P E (Mgr.new inc st, []) ≠ .ub := by
  intro h
  have hP1 : ProperCall 2 (implicitOpen E) := ⟨by decide, by decide, hopen, hreply⟩
  have hrec : ∀ (rounds : List Round) (a : Arrival), a ∈ receivedIn (rounds.map listenerReturns) →
      ∃ b ∈ receivedIn rounds, b.recv = a.recv := by
    intro rounds
    induction rounds with
    | nil => intro a ha; cases ha
    | cons x xs ih =>
      intro a ha
      cases x with
      | fail code => exact ih a ha
      | ready f more now =>
        simp only [List.map_cons, listenerReturns, receivedIn, List.mem_append, List.mem_cons, List.mem_map] at ha ⊢
        rcases ha with (rfl | ⟨b, hb, rfl⟩) | ha
        · exact ⟨f, .inl (.inl rfl), rfl⟩
        · exact ⟨b, .inl (.inr hb), rfl⟩
        · obtain ⟨b, hb, he⟩ := ih a ha
          exact ⟨b, .inr hb, he⟩
  have hPw : ∀ j, ProperCall 2 (E.wait j) := by
    intro j a ha d hd
    obtain ⟨b, hb, he⟩ := hrec _ a ha
    exact hdgram j b hb d (by rw [he]; exact hd)
  cases ho : (Mgr.new inc st).step P (implicitOpen E) with
  | stop evs why =>
    obtain ⟨s, tr, hs⟩ := C95_proper P hP inc st [implicitOpen E] 2 (by simpa using hP1)
      (by intro a _ _ _ _ b _ _ he; cases a with
        | nil => cases he
        | cons x a => simp at he)
      (.inr (by intro a _ _ b _ _ he; cases a with
        | nil => cases he
        | cons x a => simp at he)) (by simp [MOp.isOpen]; omega)
    simp [Mgr.run, ho] at hs
  | ok s1 evs ret =>
    obtain ⟨_, _, _, hcase⟩ := open_new P inc st _ _ _ s1 evs ret ho
    rcases hcase with ⟨ht, ⟨x, rfl⟩ | ⟨rfl, hresp⟩⟩ | ⟨rfl, _⟩
    · rw [show implicitMain P E (Mgr.new inc st, []) = _ from Prog.bind_throw (call_threw ho)] at h; cases h
    · rw [(implicit_refused P E inc st s1 evs ho).1] at h; cases h
    · obtain ⟨_, s4, k, he, hrun, ht, hheld4, hsock, hlen⟩ := implicit_opened P E inc st s1 evs 0 ho
      rw [he] at h
      have hi4 := inv_run P _ s4 _ _ (inv_new inc st) hrun
      have hend := rest_end P E s4 (implicitHead E evs)
      rw [h] at hend
      have hmem : ∃ e ∈ implicitHead E evs, ∃ id, e.2.2 = .ptr (some id) := ⟨_, List.mem_cons_self, 0, rfl⟩
      have hproper : ∀ tr' : MTrace, (∀ e ∈ tr', LoopEntry E e) → ∀ op ∈ (implicitHead E evs ++ tr').map Prod.fst, ProperCall 2 op := by
        intro tr' hall op hop
        rw [List.map_append, List.mem_append] at hop
        rcases hop with hop | hop
        · simp only [implicitHead, List.map_cons, List.map_nil, List.mem_cons, List.not_mem_nil, or_false] at hop
          rcases hop with rfl | rfl | rfl | rfl
          · exact hP1
          · trivial
          · trivial
          · trivial
        · rw [List.mem_map] at hop
          obtain ⟨e, hm, rfl⟩ := hop
          rcases hall e hm with ⟨h1, _⟩ | ⟨j, h1, _⟩
          · rw [h1]; trivial
          · rw [h1]; exact hPw j
      cases hend with
      | ubWait g1 g2 g3 =>
        rename_i s5 tr' j evs' why
        have hfull := mtrace_append hrun g1
        have hi5 := inv_run P _ s5 _ _ (inv_new inc st) hfull
        have hub : why = .ub := by rcases (handle_stop P s5 _ _ _ _ evs' why).mp g3 with ⟨_, _, h⟩ | ⟨_, _, h⟩ <;> exact h
        subst hub
        rcases (C95_undefined_iff P hP inc st s5 _ _ hfull (E.wait j)).mp ⟨evs', g3⟩ with
          hu | ⟨before, r, rs, now, after, pre, x, post, d, m1, m2, m3, m4, m5, m6⟩
        · obtain ⟨e, hm, he⟩ := hmem
          exact hu ⟨e, List.mem_append_left _ hm, he⟩
        · refine proper_not_malformed P hP s5 hi5 2 ?_ d ?_ m6
          · exact heads_run P 2 _ s5 _ _ hfull (hproper tr' g2) (by simp [Mgr.new])
          · refine hPw j x (mem_receivedIn (r := r) (rs := rs) (now := now) (by rw [m1]; simp) ?_) d m5
            rw [m3]; simp
      | ubClose g1 g2 g3 =>
        rename_i s5 tr' evs' why
        have hfull := mtrace_append hrun g1
        have F := loop_facts P E k tr' s4 s5 hi4 hheld4 (.inl ht) g1 g2
        obtain ⟨c1, c2⟩ := close_one P s5 F.inv F.held k E.closed
        rcases F.table with ⟨ht5, _⟩ | ⟨_, ht5, _⟩
        · rw [ht] at ht5
          cases hcl : E.closed with
          | ok resp => obtain ⟨d, s', e1, _⟩ := (c2 ht5).1 resp hcl; rw [g3] at e1; cases e1
          | throw x => obtain ⟨d, e1⟩ := (c2 ht5).2 x hcl; rw [g3] at e1; cases e1
          | ub => exact hclose hcl
        · rw [c1 ht5] at g3; cases g3

/-! ## What is sent -/

theorem keeps_written (m : Mem) (c c' : Conn) (ops : List ConnOp) (tr : IoTrace) (h : c.run m ops = some (c', tr))
    (hk : ∀ op ∈ ops, Keeps op) (pre post : IoTrace) (htr : tr = pre ++ post) : lastWritten c.outputData pre = c.outputData := by
  induction ops generalizing c tr pre with
  | nil =>
    simp only [Conn.run, Option.some.injEq, Prod.mk.injEq] at h
    rw [← h.2] at htr
    cases pre with
    | nil => rfl
    | cons x pre => cases htr
  | cons op ops ih =>
    obtain ⟨d, evs, tr', h1, h2, rfl⟩ := run_cons h
    cases pre with
    | nil => rfl
    | cons x pre =>
      injection htr with hx htr
      subst hx
      have ih' := ih d tr' h2 (fun o ho => hk o (List.mem_cons_of_mem _ ho)) pre htr
      rcases hk op List.mem_cons_self with ⟨data, rfl⟩ | ⟨now, hook, count, rfl, hl, _⟩
      · rcases recv_cases m c d data evs (recv_step h1) with ⟨rfl, rfl⟩ | ⟨rfl, _, _, _, rfl, _⟩
        · exact ih'
        · exact ih'
      · obtain ⟨ret, ht⟩ := tick_step h1
        cases ht with
        | dead _ => exact ih'
        | idle _ _ => exact ih'
        | prod _ _ _ _ hev =>
          rw [hl] at hev ih'
          rcases hev with ⟨rfl, _⟩ | ⟨_, rfl, _⟩ | ⟨_, rfl, _⟩ <;> exact ih'

/-- The connection's part of every history of the program. -/
theorem implicit_conn (P : Plat) (E : ImplicitEnv) (inc : BitVec 16) (st : Statics) (s : Mgr) (tr : MTrace)
    (h : (∃ code, implicitMain P E (Mgr.new inc st, []) = .ok (s, tr) code) ∨
      ∃ e, implicitMain P E (Mgr.new inc st, []) = .throw (s, tr) e) :
    connTrace 0 (allEvs tr) = [] ∨
    ∃ r mult ep rest, (Mgr.new inc st).run P (tr.map Prod.fst) = some (s, tr) ∧
      MEv.created 0 (Mgr.newConn implicitParams false r mult ep E.opened.now) ∈ allEvs tr ∧
      connTrace 0 (allEvs tr) = (.setData (List.replicate 32 0#8), []) :: rest ∧ ∀ e ∈ rest, Keeps e.1 := by
  have hrun : (Mgr.new inc st).run P (tr.map Prod.fst) = some (s, tr) := by
    rcases h with ⟨code, h⟩ | ⟨e, h⟩
    · exact (C97_program P E inc st s tr code h).2.1
    · exact (C97_uncaught_violated P E inc st s tr e h).1
  cases ho : (Mgr.new inc st).step P (implicitOpen E) with
  | stop evs why =>
    rw [show implicitMain P E (Mgr.new inc st, []) = .ub from Prog.bind_ub (call_stop ho)] at h
    rcases h with ⟨_, h⟩ | ⟨_, h⟩ <;> cases h
  | ok s1 evs ret =>
    obtain ⟨hserv, hconn, hheld, hcase⟩ := open_new P inc st _ _ _ s1 evs ret ho
    have hnil : connTrace 0 evs = [] := connTrace_nil_of (hconn 0)
    rcases hcase with ⟨ht, ⟨x, rfl⟩ | ⟨rfl, hresp⟩⟩ | ⟨rfl, _, r, mult, ep, _, hcr, _⟩
    · rw [show implicitMain P E (Mgr.new inc st, []) = _ from Prog.bind_throw (call_threw ho)] at h
      rcases h with ⟨_, h⟩ | ⟨_, h⟩
      · cases h
      · injection h with h1 h2
        injection h1 with h1 h3
        subst h3
        exact .inl (by simpa [allEvs] using hnil)
    · rw [(implicit_refused P E inc st s1 evs ho).1] at h
      rcases h with ⟨_, h⟩ | ⟨_, h⟩
      · injection h with h1 h2
        injection h1 with h1 h3
        subst h3
        exact .inl (by simpa [allEvs] using hnil)
      · cases h
    · obtain ⟨_, s4, k, he, hrun4, ht, hheld4, hsock, hlen⟩ := implicit_opened P E inc st s1 evs 0 ho
      rw [he] at h
      have hi4 := inv_run P _ s4 _ _ (inv_new inc st) hrun4
      have hend := rest_end P E s4 (implicitHead E evs)
      have mk : ∀ tl : MTrace, (∀ op io, MEv.conn 0 op io ∈ allEvs tl → Keeps op) → tr = implicitHead E evs ++ tl →
          ∃ r mult ep rest, (Mgr.new inc st).run P (tr.map Prod.fst) = some (s, tr) ∧
            MEv.created 0 (Mgr.newConn implicitParams false r mult ep E.opened.now) ∈ allEvs tr ∧
            connTrace 0 (allEvs tr) = (.setData (List.replicate 32 0#8), []) :: rest ∧ ∀ e ∈ rest, Keeps e.1 := by
        intro tl hk htr
        refine ⟨r, mult, ep, connTrace 0 (allEvs tl), hrun, ?_, ?_, ?_⟩
        · rw [htr, allEvs_append, List.mem_append]
          left
          simp only [allEvs, List.flatMap_cons, List.mem_append]
          exact .inl hcr
        · rw [htr, allEvs_append, connTrace_append]
          simp only [allEvs, List.flatMap_cons, List.flatMap_nil, connTrace_append, hnil, List.append_nil, List.nil_append,
            connTrace, if_true]
          rfl
        · rintro ⟨op, io⟩ hm
          exact hk op io (mem_connTrace.mp hm)
      have hclose : ∀ (s5 s6 : Mgr) evs' ret, s5.step P (.forwardClose (some 0) E.closed) = .ok s6 evs' ret →
          ∀ op io, MEv.conn 0 op io ∉ evs' := by
        intro s5 s6 evs' ret hs op io hm
        simp only [Mgr.step, Mgr.forwardClose] at hs
        repeat' split at hs
        all_goals first | cases hs | skip
        all_goals simp at hm
      rcases h with ⟨code, h⟩ | ⟨e, h⟩
      · rw [h] at hend
        cases hend with
        | ok g1 g2 g3 g4 g5 =>
          rename_i tr' evs'
          have F := loop_facts P E k tr' s4 _ hi4 hheld4 (.inl ht) g1 g2
          refine .inr (mk (tr' ++ [(.forwardClose (some 0) E.closed, evs', .unit)]) (fun op io hm => ?_) (by simp))
          rw [allEvs_append, List.mem_append] at hm
          rcases hm with hm | hm
          · exact F.keeps _ _ _ hm
          · exact absurd (by simpa [allEvs] using hm) (hclose _ _ _ _ g5 op io)
      · rw [h] at hend
        cases hend with
        | close g1 g2 g3 g4 =>
          rename_i tr' evs'
          have F := loop_facts P E k tr' s4 _ hi4 hheld4 (.inl ht) g1 g2
          refine .inr (mk (tr' ++ [(.forwardClose (some 0) E.closed, evs', .threw e)]) (fun op io hm => ?_) (by simp))
          rw [allEvs_append, List.mem_append] at hm
          rcases hm with hm | hm
          · exact F.keeps _ _ _ hm
          · exact absurd (by simpa [allEvs] using hm) (hclose _ _ _ _ g4 op io)
        | wait g1 g2 g3 g4 =>
          rename_i tr' j evs'
          have F := loop_facts P E k tr' s4 _ hi4 hheld4 (.inl ht) g1 g2
          refine .inr (mk (tr' ++ [(E.wait j, evs', .threw e)]) (fun op io hm => ?_) (by simp))
          rw [allEvs_append, List.mem_append] at hm
          rcases hm with hm | hm
          · exact F.keeps _ _ _ hm
          · exact wait_keeps g4 _ _ _ (by simpa [allEvs] using hm)

/-- C97. Every datagram the program sends goes to the address of the connection and carries the next sequence count, a header
that says run, and 32 zero bytes - the data the program set and never changes. -/
theorem C97_sends (P : Plat) (E : ImplicitEnv) (inc : BitVec 16) (st : Statics) (s : Mgr) (tr : MTrace)
    (h : (∃ code, implicitMain P E (Mgr.new inc st, []) = .ok (s, tr) code) ∨
      ∃ e, implicitMain P E (Mgr.new inc st, []) = .throw (s, tr) e)
    (pre post : IoTrace) (op : ConnOp) (io : List IoEv) (to : Option EndPoint) (bytes : List Byte)
    (htr : connTrace 0 (allEvs tr) = pre ++ (op, io) :: post) (hsent : IoEv.sent to bytes ∈ io) :
    ∃ c, MEv.created 0 c ∈ allEvs tr ∧ to = c.socket ∧
      bytes = ioFrame c.o2tNetworkConnectionId.toNat ((asks pre + 1) % 2 ^ 32)
        (ioPayload (some ((asks pre + 1) % 2 ^ 16)) (some 1) (List.replicate 32 0#8)) := by
  rcases implicit_conn P E inc st s tr h with hnil | ⟨r, mult, ep, rest, hrun, hcr, hct, hk⟩
  · rw [hnil] at htr
    exact absurd htr (by simp)
  · refine ⟨_, hcr, ?_⟩
    obtain ⟨now, hook, count, data, rfl, _, hdata, _, hto, _, hbytes⟩ :=
      C37_C50_manager P inc st s _ tr hrun 0 _ hcr pre post op io to bytes htr hsent
    obtain ⟨c', _, hconn⟩ := C51_isolated P inc st s _ tr hrun 0 _ hcr
    rw [hct] at hconn htr
    cases pre with
    | nil => injection htr with htr; injection htr with htr; cases htr
    | cons x pre =>
      injection htr with hx htr
      subst hx
      have hleft : hook.left = none := by
        have := hk (.tick now hook count, io) (by rw [htr]; simp)
        rcases this with ⟨d, hd⟩ | ⟨_, _, _, he, hl, _⟩
        · cases hd
        · injection he with _ he _
          rw [he]; exact hl
      obtain ⟨d, evs', tr', h1, h2, h3⟩ := run_cons hconn
      injection h3 with _ h3
      subst h3
      simp only [Conn.step, Option.some.injEq, Prod.mk.injEq] at h1
      have hw := keeps_written P.mem d c' _ rest h2 (by
        intro o ho
        obtain ⟨e, he, rfl⟩ := List.mem_map.mp ho
        exact hk e he) pre _ htr
      rw [← h1.1] at hw
      have hd : data = List.replicate 32 0#8 := by
        rw [hdata, hleft]
        exact hw
      refine ⟨hto, ?_⟩
      have := hbytes (by rw [hd]; decide)
      rw [hd] at this
      exact this

/-- Every history of the program starts with the call of `forwardOpen`. -/
theorem implicit_first (P : Plat) (E : ImplicitEnv) (inc : BitVec 16) (st : Statics) (s : Mgr) (tr : MTrace)
    (h : (∃ code, implicitMain P E (Mgr.new inc st, []) = .ok (s, tr) code) ∨
      ∃ e, implicitMain P E (Mgr.new inc st, []) = .throw (s, tr) e) :
    ∃ s1 evs ret rest, (Mgr.new inc st).step P (implicitOpen E) = .ok s1 evs ret ∧ tr = (implicitOpen E, evs, ret) :: rest := by
  cases ho : (Mgr.new inc st).step P (implicitOpen E) with
  | stop evs why =>
    rw [show implicitMain P E (Mgr.new inc st, []) = .ub from Prog.bind_ub (call_stop ho)] at h
    rcases h with ⟨_, h⟩ | ⟨_, h⟩ <;> cases h
  | ok s1 evs ret =>
    refine ⟨s1, evs, ret, ?_⟩
    obtain ⟨_, _, _, hcase⟩ := open_new P inc st _ _ _ s1 evs ret ho
    rcases hcase with ⟨_, ⟨x, rfl⟩ | ⟨rfl, _⟩⟩ | ⟨rfl, _⟩
    · rw [show implicitMain P E (Mgr.new inc st, []) = _ from Prog.bind_throw (call_threw ho)] at h
      rcases h with ⟨_, h⟩ | ⟨_, h⟩
      · cases h
      · injection h with h1 h2
        injection h1 with h1 h3
        exact ⟨_, rfl, h3.symm⟩
    · rw [(implicit_refused P E inc st s1 evs ho).1] at h
      rcases h with ⟨_, h⟩ | ⟨_, h⟩
      · injection h with h1 h2
        injection h1 with h1 h3
        exact ⟨_, rfl, h3.symm⟩
      · cases h
    · obtain ⟨_, s4, k, he, _⟩ := implicit_opened P E inc st s1 evs 0 ho
      rw [he] at h
      have hend := rest_end P E s4 (implicitHead E evs)
      have mk : ∀ tl x : MTrace, tr = implicitHead E evs ++ tl ++ x → ∃ rest, StepRes.ok s1 evs (.ptr (some 0)) = .ok s1 evs (.ptr (some 0)) ∧
          tr = (implicitOpen E, evs, .ptr (some 0)) :: rest := by
        intro tl x htr
        exact ⟨_, rfl, by rw [htr]; rfl⟩
      rcases h with ⟨code, h⟩ | ⟨e, h⟩
      · rw [h] at hend
        cases hend with
        | ok => exact mk _ _ rfl
      · rw [h] at hend
        cases hend with
        | close => exact mk _ _ rfl
        | wait => exact mk _ _ rfl

/-- C97. The one open request of the program: 44 bytes, sent to the connection manager (class 6, instance 1), with the next
serial number, vendor 342 and serial number 0x12345, one second each way, both ways point to point with scheduled priority and
fixed size - 38 bytes (32 and a sequence count and a run header) and 34 bytes (32 and a sequence count) -, class 1, and the path
of assemblies 151, 150 and 100. -/
theorem C97_request (P : Plat) (E : ImplicitEnv) (inc : BitVec 16) (st : Statics) (s : Mgr) (tr : MTrace)
    (h : (∃ code, implicitMain P E (Mgr.new inc st, []) = .ok (s, tr) code) ∨
      ∃ e, implicitMain P E (Mgr.new inc st, []) = .throw (s, tr) e) :
    ∃ data rest, allEvs tr = .request 0x54#8 (EPath.mk2 6 1) data :: rest ∧ data.length = 44 ∧
      field data 0 1 = 0 ∧ field data 1 1 = 0 ∧ field data 2 4 = 0 ∧ field data 10 2 = (st.serial + 1) % 65536 ∧ field data 12 2 = 342 ∧ field data 14 4 = 0x12345 ∧
      field data 18 1 = 0 ∧ field data 19 3 = 0 ∧ field data 22 4 = 1000000 ∧ field data 26 2 = 0x4826 ∧ field data 28 4 = 1000000 ∧
      field data 32 2 = 0x4822 ∧ field data 34 1 = 1 ∧ field data 35 1 = 4 ∧
      data.drop 36 = [0x20#8, 0x04#8, 0x24#8, 151#8, 0x2C#8, 150#8, 0x2C#8, 100#8] := by
  obtain ⟨s1, evs, ret, rest, ho, rfl⟩ := implicit_first P E inc st s tr h
  obtain ⟨data, r, rfl, hdata, hst, hh⟩ := open_request P _ _ _ _ (Mgr.new inc st) s1 evs ret ho
  obtain ⟨bs, hbs, hlen, _, f26, f28, f32, f34, f35, hpath⟩ := C19_forwardOpen (Mgr.sentParams implicitParams false s1.statics)
  obtain rfl : bs = data := by
    rw [if_neg (by decide), hbs] at hdata
    injection hdata
  obtain ⟨h0, h1, h2, h6, h10, h12, h14, h18, h19, h22⟩ := hh
  have hser : s1.statics.serial = st.serial + 1 := by
    change Mgr.bumpStatics inc _ _ st = _ at hst
    simp only [Mgr.bumpStatics, Mgr.nextSerial] at hst
    split at hst
    · cases hst
    · rename_i n hn
      by_cases hc : st.serial = 2 ^ 31 - 1
      · rw [if_pos hc] at hn; cases hn
      · rw [if_neg hc] at hn
        simp only [Option.some.injEq] at hn hst
        rw [← hst, ← hn]
  refine ⟨bs, _, rfl, by rw [hlen]; rfl, by rw [h0]; rfl, by rw [h1]; rfl, by rw [h2]; rfl, ?_, by rw [h12]; rfl,
    by rw [h14]; rfl, by rw [h18]; rfl, h19, by rw [h22]; rfl, by rw [f26]; rfl,
    by rw [f28]; rfl, by rw [f32]; rfl, by rw [f34]; rfl, by rw [f35]; rfl, hpath⟩
  · rw [h10]
    show (BitVec.ofNat 16 s1.statics.serial).toNat = _
    rw [hser, BitVec.toNat_ofNat]

end Verif.Props
