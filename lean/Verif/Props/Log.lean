import Verif.Spec.Log
import Mathlib.Data.List.Induction

/-!
# C67: log filtering
-/

namespace Verif.Props

open Verif Verif.Spec Verif.Logs

theorem logs_run_append (fails : LogCall → Bool) (s : Logs) (xs ys : List LogOp) :
    Logs.run fails s (xs ++ ys) =
      match Logs.run fails s xs with
      | .ok s' _ => Logs.run fails s' ys
      | .throw s' e => .throw s' e
      | .ub => .ub := by
  induction xs generalizing s with
  | nil => rfl
  | cons x xs ih =>
    simp only [List.cons_append, Logs.run]
    cases Logs.step fails s x <;> simp [ih]

theorem handedAll_snoc (ops : List LogOp) (op : LogOp) : handedAll (ops ++ [op]) = handedAll ops ++ handed ops op := by
  unfold handedAll
  rw [List.length_append, List.length_singleton, List.range_succ, List.flatMap_append]
  congr 1
  · rw [List.flatMap_def, List.flatMap_def]
    congr 1
    apply List.map_congr_left
    intro i hi
    have hi := List.mem_range.1 hi
    rw [List.getElem?_append_left hi, List.take_append_of_le_length (Nat.le_of_lt hi)]
  · simp

theorem rank_eq (l : LogLevel) : rank l = l.toNat := by cases l <;> rfl

/-- What the state of the model says about the history. -/
structure Logged (ops : List LogOp) (s : Logs) : Prop where
  level : s.level = levelAfter ops
  appender : s.appender = appenderAfter ops
  find : ∀ k l t, s.find k = some (l, t) → madeWith k ops = some l ∧ streamed k ops = t
  calls : s.calls = handedAll ops

theorem find_cons (s : Logs) (j : Nat) (l : LogLevel) (t : String) (k : Nat) (alive : List (Nat × LogLevel × String)) :
    Logs.find { s with alive := (j, l, t) :: alive } k = if j = k then some (l, t) else Logs.find { s with alive } k := by
  unfold Logs.find
  by_cases h : j = k <;> simp [h]

theorem find_filter (s : Logs) (j k : Nat) :
    Logs.find { s with alive := s.alive.filter (·.1 ≠ j) } k = if k = j then none else s.find k := by
  unfold Logs.find
  simp only
  induction s.alive with
  | nil => simp
  | cons x xs ih =>
    by_cases hx : x.1 = j
    · rw [List.filter_cons_of_neg (by simp [hx]), ih]
      by_cases hk : k = j
      · simp [hk]
      · rw [if_neg hk, if_neg hk, List.find?_cons_of_neg (by simp; omega)]
    · rw [List.filter_cons_of_pos (by simp [hx])]
      by_cases hxk : x.1 = k
      · simp [hxk]; omega
      · rw [List.find?_cons_of_neg (by simp [hxk]), ih, List.find?_cons_of_neg (by simp [hxk])]

theorem madeWith_snoc (k : Nat) (ops : List LogOp) (op : LogOp) :
    madeWith k (ops ++ [op]) = match op with
      | .create j l => if j = k then some l else madeWith k ops
      | _ => madeWith k ops := by
  unfold madeWith
  rw [List.filterMap_append]
  cases op with
  | create j l => by_cases h : j = k <;> simp [h]
  | _ => simp

theorem streamed_snoc (k : Nat) (ops : List LogOp) (op : LogOp) :
    streamed k (ops ++ [op]) = match op with
      | .create j _ => if j = k then "" else streamed k ops
      | .stream j s => if j = k then streamed k ops ++ s else streamed k ops
      | _ => streamed k ops := by
  unfold streamed
  rw [List.foldl_append]
  cases op <;> rfl

theorem levelAfter_snoc (ops : List LogOp) (op : LogOp) :
    levelAfter (ops ++ [op]) = match op with | .setLevel l => l | _ => levelAfter ops := by
  unfold levelAfter
  rw [List.filterMap_append]
  cases op <;> simp

theorem appenderAfter_snoc (ops : List LogOp) (op : LogOp) :
    appenderAfter (ops ++ [op]) = match op with | .setAppender a => a | _ => appenderAfter ops := by
  unfold appenderAfter
  rw [List.filterMap_append]
  cases op <;> simp

/-- What one call of `print` does. -/
theorem print_cases (fails : LogCall → Bool) (s : Logs) (c : LogCall) :
    (Logs.print fails s c = .ok { s with calls := s.calls ++ [c], cout := s.cout ++ consoleLine c } () ∧
      ¬ (c.appender = .console ∧ c.level = .off) ∧ ¬ (c.appender ≠ .console ∧ fails c = true)) ∨
    (Logs.print fails s c = .throw { s with calls := s.calls ++ [c] } .abort ∧
      ((c.appender = .console ∧ c.level = .off) ∨ (c.appender ≠ .console ∧ fails c = true))) := by
  obtain ⟨a, l, t⟩ := c
  cases a with
  | console => cases l <;> simp [Logs.print, Logs.levelName, consoleLine]
  | user n =>
    by_cases h : fails ⟨.user n, l, t⟩ <;> simp [Logs.print, consoleLine, h]

/-- The destructor, seen from the history. -/
theorem destroy_cases (fails : LogCall → Bool) (ops : List LogOp) (s : Logs) (h : Logged ops s) (k : Nat) (l : LogLevel)
    (t : String) (hf : s.find k = some (l, t)) :
    Logs.step fails s (.destroy k) =
      if Passes l (levelAfter ops) then
        match appenderAfter ops with
        | some a => Logs.print fails { s with alive := s.alive.filter (·.1 ≠ k) } ⟨a, l, t⟩
        | none => .ub
      else .ok { s with alive := s.alive.filter (·.1 ≠ k) } () := by
  simp only [Logs.step, hf, Logs.finish, Passes, rank_eq]
  rw [← h.level, ← h.appender]
  rfl

theorem handed_destroy (ops : List LogOp) (s : Logs) (h : Logged ops s) (k : Nat) (l : LogLevel) (t : String)
    (hf : s.find k = some (l, t)) : handed ops (.destroy k) =
      match appenderAfter ops with
      | some a => if Passes l (levelAfter ops) then [⟨a, l, t⟩] else []
      | none => [] := by
  obtain ⟨h1, h2⟩ := h.find k l t hf
  simp only [handed, h1, h2]
  cases appenderAfter ops <;> rfl

/-- One operation keeps the invariant, and what it writes to the console is the lines of
the messages it hands over. -/
theorem logged_step (fails : LogCall → Bool) (ops : List LogOp) (s s' : Logs) (op : LogOp) (h : Logged ops s)
    (hs : Logs.step fails s op = .ok s' ()) :
    Logged (ops ++ [op]) s' ∧ s'.cout = s.cout ++ String.join ((handed ops op).map consoleLine) := by
  have hc : handedAll (ops ++ [op]) = s.calls ++ handed ops op := by rw [handedAll_snoc, h.calls]
  cases op with
  | setLevel l =>
    cases hs
    refine ⟨⟨by rw [levelAfter_snoc], by rw [appenderAfter_snoc]; exact h.appender, ?_, by rw [hc]; simp [handed]⟩, by simp [handed]⟩
    intro k l t hk
    rw [madeWith_snoc, streamed_snoc]
    exact h.find k l t hk
  | setAppender a =>
    cases hs
    refine ⟨⟨by rw [levelAfter_snoc]; exact h.level, by rw [appenderAfter_snoc], ?_, by rw [hc]; simp [handed]⟩, by simp [handed]⟩
    intro k l t hk
    rw [madeWith_snoc, streamed_snoc]
    exact h.find k l t hk
  | create j l0 =>
    simp only [Logs.step] at hs
    cases hj : s.find j with
    | some v => rw [hj] at hs; cases hs
    | none =>
      rw [hj] at hs
      cases hs
      refine ⟨⟨by rw [levelAfter_snoc]; exact h.level, by rw [appenderAfter_snoc]; exact h.appender, ?_, by rw [hc]; simp [handed]⟩, by simp [handed]⟩
      intro k l t hk
      rw [find_cons] at hk
      rw [madeWith_snoc, streamed_snoc]
      by_cases e : j = k
      · rw [if_pos e] at hk
        cases hk
        simp [e]
      · rw [if_neg e] at hk
        simpa [e] using h.find k l t hk
  | stream j t0 =>
    simp only [Logs.step] at hs
    cases hj : s.find j with
    | none => rw [hj] at hs; cases hs
    | some v =>
      obtain ⟨l1, t1⟩ := v
      rw [hj] at hs
      cases hs
      refine ⟨⟨by rw [levelAfter_snoc]; exact h.level, by rw [appenderAfter_snoc]; exact h.appender, ?_, by rw [hc]; simp [handed]⟩, by simp [handed]⟩
      intro k l t hk
      rw [find_cons, find_filter] at hk
      rw [madeWith_snoc, streamed_snoc]
      by_cases e : j = k
      · subst e
        simp only [if_true] at hk ⊢
        cases hk
        obtain ⟨a, b⟩ := h.find j l1 t1 hj
        exact ⟨a, by rw [b]⟩
      · rw [if_neg e, if_neg (Ne.symm e)] at hk
        simpa [e] using h.find k l t hk
  | destroy j =>
    cases hj : s.find j with
    | none => simp only [Logs.step, hj] at hs; cases hs
    | some v =>
      obtain ⟨l1, t1⟩ := v
      have hfind : ∀ k l t, Logs.find { s with alive := s.alive.filter (·.1 ≠ j) } k = some (l, t) →
          madeWith k (ops ++ [.destroy j]) = some l ∧ streamed k (ops ++ [.destroy j]) = t := by
        intro k l t hk
        rw [find_filter] at hk
        by_cases e : k = j
        · rw [if_pos e] at hk; cases hk
        · rw [if_neg e] at hk
          rw [madeWith_snoc, streamed_snoc]
          exact h.find k l t hk
      rw [destroy_cases fails ops s h j l1 t1 hj] at hs
      have hh := handed_destroy ops s h j l1 t1 hj
      by_cases hp : Passes l1 (levelAfter ops)
      · rw [if_pos hp] at hs
        rcases ha : appenderAfter ops with _ | a
        · simp only [ha] at hs; cases hs
        · simp only [ha, if_pos hp] at hs hh
          rcases print_cases fails { s with alive := s.alive.filter (·.1 ≠ j) } ⟨a, l1, t1⟩ with ⟨e, _⟩ | ⟨e, _⟩
          · rw [e] at hs
            cases hs
            refine ⟨⟨by rw [levelAfter_snoc]; exact h.level, by rw [appenderAfter_snoc]; exact h.appender, hfind, by rw [hc, hh]⟩, ?_⟩
            rw [hh]; simp
          · rw [e] at hs; cases hs
      · rw [if_neg hp] at hs
        cases hs
        have hh' : handed ops (.destroy j) = [] := by rw [hh]; cases appenderAfter ops <;> simp [hp]
        exact ⟨⟨by rw [levelAfter_snoc]; exact h.level, by rw [appenderAfter_snoc]; exact h.appender, hfind, by rw [hc, hh']; simp⟩,
          by rw [hh']; simp⟩

theorem logged_run (fails : LogCall → Bool) (ops : List LogOp) :
    ∀ s, Logs.run fails Logs.init ops = .ok s () → Logged ops s ∧ s.cout = String.join ((handedAll ops).map consoleLine) := by
  induction ops using List.reverseRecOn with
  | nil =>
    intro s h
    cases h
    exact ⟨⟨rfl, rfl, (by intro k l t h; cases h), rfl⟩, rfl⟩
  | append_singleton ops op ih =>
    intro s h
    rw [logs_run_append] at h
    cases hr : Logs.run fails Logs.init ops with
    | ok s1 u =>
      rw [hr] at h
      simp only [Logs.run] at h
      obtain ⟨i1, i2⟩ := ih s1 hr
      cases hs : Logs.step fails s1 op with
      | ok s2 u2 =>
        rw [hs] at h
        cases h
        obtain ⟨j1, j2⟩ := logged_step fails ops s1 s op i1 hs
        refine ⟨j1, ?_⟩
        rw [j2, i2, handedAll_snoc, List.map_append, String.join_append]
      | throw s2 e => rw [hs] at h; cases h
      | ub => rw [hs] at h; cases h
    | throw s1 e => rw [hr] at h; cases h
    | ub => rw [hr] at h; cases h

/-- C67. In every history that comes to its end, the appenders got exactly the messages
of the specification, in order and once each: when a logger is destroyed, its whole text goes
to the appender set last, if its level passes the level set last.  The console shows one line
for each message it got. -/
theorem C67_history (fails : LogCall → Bool) (ops : List LogOp) (s : Logs)
    (h : Logs.run fails Logs.init ops = .ok s ()) :
    s.calls = handedAll ops ∧ s.cout = String.join ((handedAll ops).map consoleLine) :=
  ⟨(logged_run fails ops s h).1.calls, (logged_run fails ops s h).2⟩

/-- The message ends the process: the console gets one of level OFF, or the appender throws. -/
def Fatal (fails : LogCall → Bool) (c : LogCall) : Prop :=
  (c.appender = .console ∧ c.level = .off) ∨ (c.appender ≠ .console ∧ fails c = true)

/-- C67. The only exception that leaves a logger ends the process; it happens at the first
message handed over that is fatal, and all messages before it were handed over. -/
theorem C67_aborts (fails : LogCall → Bool) (ops : List LogOp) (s : Logs) (e : Exn)
    (h : Logs.run fails Logs.init ops = .throw s e) :
    e = .abort ∧ ∃ before op after c, ops = before ++ op :: after ∧ handed before op = [c] ∧ Fatal fails c ∧
      s.calls = handedAll (before ++ [op]) ∧ s.cout = String.join ((handedAll before).map consoleLine) := by
  induction ops using List.reverseRecOn with
  | nil => cases h
  | append_singleton ops op ih =>
    rw [logs_run_append] at h
    cases hr : Logs.run fails Logs.init ops with
    | throw s1 e1 =>
      rw [hr] at h
      cases h
      obtain ⟨a, before, o, after, c, rfl, b⟩ := ih hr
      exact ⟨a, before, o, after ++ [op], c, by simp, b⟩
    | ub => rw [hr] at h; cases h
    | ok s1 u =>
      rw [hr] at h
      simp only [Logs.run] at h
      obtain ⟨i1, i2⟩ := logged_run fails ops s1 hr
      cases hs : Logs.step fails s1 op with
      | ok s2 u2 => rw [hs] at h; cases h
      | ub => rw [hs] at h; cases h
      | throw s2 e2 =>
        rw [hs] at h
        cases h
        cases op with
        | setLevel l => cases hs
        | setAppender a => cases hs
        | create j l0 =>
          simp only [Logs.step] at hs
          cases hj : s1.find j with
          | some v => rw [hj] at hs; cases hs
          | none => rw [hj] at hs; cases hs
        | stream j t0 =>
          simp only [Logs.step] at hs
          cases hj : s1.find j with
          | some v => rw [hj] at hs; cases hs
          | none => rw [hj] at hs; cases hs
        | destroy j =>
          cases hj : s1.find j with
          | none => simp only [Logs.step, hj] at hs; cases hs
          | some v =>
            obtain ⟨l1, t1⟩ := v
            rw [destroy_cases fails ops s1 i1 j l1 t1 hj] at hs
            have hh := handed_destroy ops s1 i1 j l1 t1 hj
            by_cases hp : Passes l1 (levelAfter ops)
            · rw [if_pos hp] at hs
              rcases ha : appenderAfter ops with _ | a
              · simp only [ha] at hs; cases hs
              · simp only [ha, if_pos hp] at hs hh
                rcases print_cases fails { s1 with alive := s1.alive.filter (·.1 ≠ j) } ⟨a, l1, t1⟩ with ⟨e, _⟩ | ⟨e, hf⟩
                · rw [e] at hs; cases hs
                · rw [e] at hs
                  cases hs
                  exact ⟨rfl, ops, .destroy j, [], _, rfl, hh, hf, by rw [handedAll_snoc, hh, ← i1.calls], i2⟩
            · rw [if_neg hp] at hs; cases hs

theorem isAlive_snoc (k : Nat) (ops : List LogOp) (op : LogOp) :
    isAlive k (ops ++ [op]) = match op with
      | .create j _ => if j = k then true else isAlive k ops
      | .destroy j => if j = k then false else isAlive k ops
      | _ => isAlive k ops := by
  unfold isAlive
  rw [List.filterMap_append]
  cases op with
  | create j l => by_cases h : j = k <;> simp [h]
  | destroy j => by_cases h : j = k <;> simp [h]
  | _ => simp

theorem print_alive (fails : LogCall → Bool) (s s' : Logs) (c : LogCall) (h : Logs.print fails s c = .ok s' ()) :
    s'.alive = s.alive := by
  rcases print_cases fails s c with ⟨e, _⟩ | ⟨e, _⟩ <;> rw [e] at h <;> cases h
  rfl

theorem find_congr {s s' : Logs} (h : s'.alive = s.alive) (k : Nat) : s'.find k = s.find k := by
  unfold Logs.find; rw [h]

/-- C67. A program that keeps the rules of C++ and sends no fatal message runs to its end;
together with `C67_history` all its messages are delivered. -/
theorem C67_total (fails : LogCall → Bool) (ops : List LogOp)
    (h : ∀ before op after, ops = before ++ op :: after → Legal before op ∧ ∀ c ∈ handed before op, ¬ Fatal fails c) :
    ∃ s, Logs.run fails Logs.init ops = .ok s () := by
  suffices ∃ s, Logs.run fails Logs.init ops = .ok s () ∧ ∀ k, (s.find k).isSome = isAlive k ops from
    this.imp fun _ h => h.1
  induction ops using List.reverseRecOn with
  | nil => exact ⟨_, rfl, fun k => rfl⟩
  | append_singleton ops op ih =>
    obtain ⟨s, hs, ha⟩ := ih (fun b o a e => h b o (a ++ [op]) (by rw [e]; simp))
    obtain ⟨hl, hf⟩ := h ops op [] rfl
    obtain ⟨i1, _⟩ := logged_run fails ops s hs
    suffices ∃ s', Logs.step fails s op = .ok s' () ∧ ∀ k, (s'.find k).isSome = isAlive k (ops ++ [op]) by
      obtain ⟨s', e, e'⟩ := this
      exact ⟨s', by rw [logs_run_append, hs]; simp only [Logs.run, e], e'⟩
    have dead : ∀ j, isAlive j ops = false → s.find j = none := fun j e => by
      have := ha j; rw [e] at this; simpa using this
    have live : ∀ j, isAlive j ops = true → ∃ l t, s.find j = some (l, t) := fun j e => by
      have := ha j; rw [e] at this
      obtain ⟨v, hv⟩ := Option.isSome_iff_exists.1 this
      exact ⟨v.1, v.2, hv⟩
    cases op with
    | setLevel l => exact ⟨_, rfl, fun k => by rw [isAlive_snoc]; exact ha k⟩
    | setAppender a => exact ⟨_, rfl, fun k => by rw [isAlive_snoc]; exact ha k⟩
    | create j l =>
      refine ⟨{ s with alive := (j, l, "") :: s.alive }, by simp only [Logs.step, dead j hl], fun k => ?_⟩
      rw [isAlive_snoc, find_cons]
      by_cases e : j = k
      · simp [e]
      · simpa [e] using ha k
    | stream j t =>
      obtain ⟨l, t0, e0⟩ := live j hl
      refine ⟨{ s with alive := (j, l, t0 ++ t) :: s.alive.filter (·.1 ≠ j) }, by simp only [Logs.step, e0], fun k => ?_⟩
      rw [isAlive_snoc, find_cons, find_filter]
      by_cases e : j = k
      · subst e; simpa using hl.symm
      · simpa [e, Ne.symm e] using ha k
    | destroy j =>
      obtain ⟨l, t0, e0⟩ := live j hl.1
      have hr : ∀ k, (Logs.find { s with alive := s.alive.filter (·.1 ≠ j) } k).isSome = isAlive k (ops ++ [.destroy j]) := by
        intro k
        rw [isAlive_snoc, find_filter]
        by_cases e : j = k
        · simp [e]
        · simpa [e, Ne.symm e] using ha k
      rw [destroy_cases fails ops s i1 j l t0 e0]
      have hh := handed_destroy ops s i1 j l t0 e0
      by_cases hp : Passes l (levelAfter ops)
      · rcases hap : appenderAfter ops with _ | a
        · exact absurd hap hl.2
        · simp only [hap, if_pos hp] at hh ⊢
          rcases print_cases fails { s with alive := s.alive.filter (·.1 ≠ j) } ⟨a, l, t0⟩ with ⟨e, _⟩ | ⟨e, hb⟩
          · exact ⟨_, e, fun k => (congrArg Option.isSome (find_congr (print_alive fails _ _ _ e) k)).trans (hr k)⟩
          · exact absurd hb (hf _ (by rw [hh]; simp))
      · rw [if_neg hp]
        exact ⟨_, rfl, hr⟩

/-- C67. With the level OFF nothing is handed over, and nothing can go wrong. -/
theorem C67_off (fails : LogCall → Bool) (before after : List LogOp) (s : Logs)
    (h : Logs.run fails Logs.init before = .ok s ()) (h0 : levelAfter before = .off)
    (ha : ∀ op ∈ after, ∀ l, op ≠ .setLevel l) :
    (∀ s', Logs.run fails s after = .ok s' () → s'.calls = s.calls ∧ s'.cout = s.cout) ∧
    ∀ s' e, Logs.run fails s after ≠ .throw s' e := by
  have hlev : s.level = .off := (logged_run fails before s h).1.level.trans h0
  clear h h0
  induction after generalizing s with
  | nil => exact ⟨fun s' h => by cases h; exact ⟨rfl, rfl⟩, fun s' e h => by cases h⟩
  | cons op ops ih =>
    have hstep : (∃ s1, Logs.step fails s op = .ok s1 () ∧ s1.level = .off ∧ s1.calls = s.calls ∧ s1.cout = s.cout) ∨
        Logs.step fails s op = .ub := by
      cases op with
      | setLevel l => exact absurd rfl (ha _ (List.mem_cons_self ..) l)
      | setAppender a => exact .inl ⟨_, rfl, hlev, rfl, rfl⟩
      | create j l =>
        simp only [Logs.step]
        cases s.find j with
        | some v => exact .inr rfl
        | none => exact .inl ⟨_, rfl, hlev, rfl, rfl⟩
      | stream j t =>
        simp only [Logs.step]
        cases s.find j with
        | some v => exact .inl ⟨_, rfl, hlev, rfl, rfl⟩
        | none => exact .inr rfl
      | destroy j =>
        simp only [Logs.step]
        cases s.find j with
        | some v =>
          refine .inl ⟨{ s with alive := s.alive.filter (·.1 ≠ j) }, ?_, hlev, rfl, rfl⟩
          simp [Logs.finish, hlev]
        | none => exact .inr rfl
    rcases hstep with ⟨s1, e1, e2, e3, e4⟩ | e1
    · have := ih s1 (fun op ho => ha op (List.mem_cons_of_mem _ ho)) e2
      simp only [Logs.run, e1]
      rw [e3, e4] at this
      exact this
    · have : Logs.run fails s (op :: ops) = .ub := by simp only [Logs.run, e1]
      rw [this]
      exact ⟨fun s' h => (by cases h), fun s' e h => (by cases h)⟩

/-- C67. A finding: a message of level OFF ends the process unless all logging is off or the
appender is one of the user; and a null appender is called through when a message passes. -/
theorem C67_fatal_violated (fails : LogCall → Bool) (g : LogLevel) (hg : g ≠ .off) (t : String) :
    (∃ s, Logs.run fails Logs.init [.setLevel g, .create 0 .off, .stream 0 t, .destroy 0] = .throw s .abort) ∧
    Logs.run fails Logs.init [.setLevel g, .setAppender none, .create 0 .error, .stream 0 t, .destroy 0] = .ub := by
  cases g <;> first | exact absurd rfl hg | exact ⟨⟨_, rfl⟩, rfl⟩

/-- A history with two loggers alive at once: the level that counts is the one at the
destruction, and the first message is cut into two pieces. -/
example : Logs.run (fun _ => false) Logs.init
    [.create 1 .debug, .stream 1 "a", .create 2 .error, .stream 2 "x", .destroy 2, .setLevel .debug, .stream 1 "b",
      .setAppender (some (.user 7)), .destroy 1, .create 1 .trace, .destroy 1] =
    .ok ⟨.debug, some (.user 7), [], [⟨.console, .error, "x"⟩, ⟨.user 7, .debug, "ab"⟩], "[ERROR] x\n"⟩ () := by decide +kernel

example : handedAll [.create 1 .debug, .stream 1 "a", .destroy 1, .create 1 .info, .stream 1 "b", .destroy 1] =
    [⟨.console, .info, "b"⟩] := by decide +kernel

end Verif.Props
