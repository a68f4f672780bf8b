import Verif.Spec.LogThreads
import Verif.Props.Log

/-!
# C111: threads that log
-/

namespace Verif.Props

open Verif Verif.Spec Verif.LogThreads

/-- What a thread is about to hand to the appender. -/
def aboutTo (a : Appender) : Phase → List LogCall
  | .passed l t => [⟨a, l, t⟩]
  | .pointer _ l t => [⟨a, l, t⟩]
  | _ => []

/-- What a thread has still to write of its line. -/
def leftOf : Phase → List Char
  | .writing cs => cs
  | _ => []

/-- What is known of the phase of a thread while nobody sets anything. -/
def LogPhaseOk : Phase → Prop
  | .passed l _ => l ≠ .off
  | .pointer n l _ => n = 0 ∧ l ≠ .off
  | .inUser n => n = 0
  | _ => True

structure LogInv (g : LogLevel) (a : Appender) (todo : Nat → List Act) (s : Sys) : Prop where
  level : s.level = g
  appender : s.appender = some (0, a)
  only : OnlyLogs fun i => (s.thr i).todo
  phase : ∀ i, LogPhaseOk (s.thr i).phase
  calls : ∀ i, ofThread i s.calls ++ (aboutTo a (s.thr i).phase ++ shownOf a g (s.thr i).todo) = shownOf a g (todo i)
  cout : ∀ i, ofThread i s.cout ++ leftOf (s.thr i).phase = linesOf (ofThread i s.calls)

theorem ofThread_snoc {α : Type} (i j : Nat) (xs : List (Nat × α)) (x : α) :
    ofThread j (xs ++ [(i, x)]) = ofThread j xs ++ (if j = i then [x] else []) := by
  simp only [ofThread, List.filter_append, List.map_append]
  by_cases h : j = i
  · subst h; simp
  · rw [if_neg h, List.filter_cons_of_neg (by simp; exact fun e => h e.symm)]; simp

theorem levelName_line {l : LogLevel} (h : l ≠ .off) (t : String) :
    ∃ name, Logs.levelName l = some name ∧ name ++ t ++ "\n" = consoleLine ⟨.console, l, t⟩ ∧ ∃ x r, name.toList = '[' :: x :: r ∧ x ≠ '[' := by
  cases l with
  | off => exact absurd rfl h
  | error => exact ⟨_, rfl, rfl, 'E', "RROR] ".toList, rfl, by decide⟩
  | warning => exact ⟨_, rfl, rfl, 'W', "ARNING] ".toList, rfl, by decide⟩
  | info => exact ⟨_, rfl, rfl, 'I', "NFO] ".toList, rfl, by decide⟩
  | debug => exact ⟨_, rfl, rfl, 'D', "EBUG] ".toList, rfl, by decide⟩
  | trace => exact ⟨_, rfl, rfl, 'T', "RACE] ".toList, rfl, by decide⟩

theorem logs_start (g : LogLevel) (a : Appender) (todo : Nat → List Act) (h : OnlyLogs todo) : LogInv g a todo (start g a todo) :=
  ⟨rfl, rfl, h, fun _ => trivial, fun _ => rfl, fun _ => rfl⟩

theorem logs_step (g : LogLevel) (a : Appender) (todo : Nat → List Act) (s : Sys) (h : LogInv g a todo s) (i : Nat) :
    step s i = .stuck ∨ ∃ s', step s i = .ok s' ∧ LogInv g a todo s' := by
  have hc := h.calls i
  have ho := h.cout i
  have hp := h.phase i
  have hl : ∀ a ∈ (s.thr i).todo, ∃ l t, a = Act.log l t ∧ l ≠ .off := h.only i
  -- a step that changes one thread
  have upd : ∀ {app : Option (Nat × Appender)} (_ : app = some (0, a)) (t : Thread) (calls : List (Nat × LogCall)) (cout : List (Nat × Char)),
      (∀ a ∈ t.todo, ∃ l t, a = Act.log l t ∧ l ≠ .off) → LogPhaseOk t.phase →
      (∀ j, j ≠ i → ofThread j calls = ofThread j s.calls) → (∀ j, j ≠ i → ofThread j cout = ofThread j s.cout) →
      ofThread i calls ++ (aboutTo a t.phase ++ shownOf a g t.todo) = shownOf a g (todo i) →
      ofThread i cout ++ leftOf t.phase = linesOf (ofThread i calls) →
      LogInv g a todo { s with appender := app, thr := LogThreads.set s.thr i t, calls := calls, cout := cout } := by
    intro app happ t calls cout h1 h2 h3 h4 h5 h6
    have e : ∀ j, LogThreads.set s.thr i t j = if j = i then t else s.thr j := fun _ => rfl
    refine ⟨h.level, happ, ?_, ?_, ?_, ?_⟩
    all_goals
      intro j
      simp only [e]
      by_cases hj : j = i
    · subst hj; simpa using h1
    · rw [if_neg hj]; exact h.only j
    · subst hj; simpa using h2
    · rw [if_neg hj]; exact h.phase j
    · subst hj; simpa using h5
    · rw [if_neg hj, h3 j hj]; exact h.calls j
    · subst hj; simpa using h6
    · rw [if_neg hj, h3 j hj, h4 j hj]; exact h.cout j
  unfold step
  generalize s.thr i = t at hc ho hp hl ⊢
  obtain ⟨acts, ph⟩ := t
  dsimp only at hc ho hp hl ⊢
  cases ph with
  | idle =>
    cases acts with
    | nil => exact .inl rfl
    | cons act rest =>
      right
      obtain ⟨l, text, rfl, hlo⟩ := hl act (by simp)
      have hr : ∀ a ∈ rest, ∃ l t, a = Act.log l t ∧ l ≠ .off := fun x hx => hl x (by simp [hx])
      have hpass : (s.level ≠ .off ∧ l.toNat ≤ s.level.toNat) ↔ Passes l g := by
        rw [h.level, Passes, rank_eq, rank_eq]
      dsimp only
      by_cases hq : Passes l g
      · rw [if_pos (hpass.mpr hq)]
        refine ⟨_, rfl, upd h.appender _ _ _ hr hlo (fun _ _ => rfl) (fun _ _ => rfl) ?_ ho⟩
        rw [← hc]
        simp [aboutTo, shownOf, hq]
      · rw [if_neg (fun x => hq (hpass.mp x))]
        refine ⟨_, rfl, upd h.appender _ _ _ hr trivial (fun _ _ => rfl) (fun _ _ => rfl) ?_ ho⟩
        rw [← hc]
        simp [aboutTo, shownOf, hq]
  | passed l text =>
    right
    rw [h.appender]
    exact ⟨_, rfl, upd rfl ⟨acts, .pointer 0 l text⟩ _ _ hl ⟨rfl, hp⟩ (fun _ _ => rfl) (fun _ _ => rfl) hc ho⟩
  | pointer n l text =>
    right
    obtain ⟨rfl, hlo⟩ := hp
    rw [h.appender]
    dsimp only
    rw [if_pos rfl]
    have h3 : ∀ j, j ≠ i → ofThread j (s.calls ++ [(i, (⟨a, l, text⟩ : LogCall))]) = ofThread j s.calls := fun j hj => by
      rw [ofThread_snoc, if_neg hj, List.append_nil]
    have h5 : ofThread i (s.calls ++ [(i, (⟨a, l, text⟩ : LogCall))]) ++ ([] ++ shownOf a g acts) = shownOf a g (todo i) := by
      rw [ofThread_snoc, if_pos rfl, ← hc]; simp [aboutTo]
    have h6 : linesOf (ofThread i (s.calls ++ [(i, (⟨a, l, text⟩ : LogCall))])) = ofThread i s.cout ++ (consoleLine ⟨a, l, text⟩).toList := by
      rw [ofThread_snoc, if_pos rfl]
      simp only [linesOf, List.flatMap_append, List.flatMap_cons, List.flatMap_nil, List.append_nil]
      rw [← linesOf, ← ho]
      simp [leftOf]
    cases a with
    | user k =>
      exact ⟨_, rfl, upd rfl ⟨acts, .inUser 0⟩ _ _ hl rfl h3 (fun _ _ => rfl) h5 (by rw [h6]; rfl)⟩
    | console =>
      obtain ⟨name, hn, hline, _⟩ := levelName_line hlo text
      dsimp only
      rw [hn]
      exact ⟨_, rfl, upd rfl ⟨acts, .writing _⟩ _ _ hl trivial h3 (fun _ _ => rfl) h5 (by rw [h6, ← hline]; rfl)⟩
  | writing left =>
    right
    cases left with
    | nil => exact ⟨_, rfl, upd h.appender ⟨acts, .idle⟩ _ _ hl trivial (fun _ _ => rfl) (fun _ _ => rfl) hc ho⟩
    | cons c left =>
      refine ⟨_, rfl, upd h.appender ⟨acts, .writing left⟩ _ _ hl trivial (fun _ _ => rfl) (fun j hj => ?_) hc ?_⟩
      · rw [ofThread_snoc, if_neg hj, List.append_nil]
      · rw [ofThread_snoc, if_pos rfl, ← ho]; simp [leftOf]
  | inUser n =>
    right
    cases (hp : n = 0)
    rw [h.appender]
    exact ⟨_, rfl, upd rfl ⟨acts, .idle⟩ _ _ hl trivial (fun _ _ => rfl) (fun _ _ => rfl) hc ho⟩

theorem logs_run (g : LogLevel) (a : Appender) (todo : Nat → List Act) (is : List Nat) (s : Sys) (h : LogInv g a todo s) :
    run s is = .stuck ∨ ∃ s', run s is = .ok s' ∧ LogInv g a todo s' := by
  induction is generalizing s with
  | nil => exact .inr ⟨s, rfl, h⟩
  | cons i is ih =>
    rcases logs_step g a todo s h i with e | ⟨s', e, h'⟩
    · left; simp only [run, e]
    · simp only [run, e]; exact ih s' h'

/-- C111: threads that only log, after level and appender have been set, never get into a data race, use nothing that is
destroyed and do not end the process, in whatever order their steps come. -/
theorem C111_defined (g : LogLevel) (a : Appender) (todo : Nat → List Act) (ht : OnlyLogs todo) (is : List Nat) :
    run (start g a todo) is ≠ .ub ∧ run (start g a todo) is ≠ .ended ∧
    ∀ s, run (start g a todo) is = .ok s → ¬ LogRace s := by
  rcases logs_run g a todo is _ (logs_start g a todo ht) with e | ⟨s', e, h⟩
  · rw [e]; simp
  · rw [e]
    refine ⟨by simp, by simp, ?_⟩
    intro s es
    cases es
    have nw : ∀ i c w, access (s'.thr i) = some (c, w) → w = false := by
      intro i c w hw
      unfold access at hw
      have := h.only i
      split at hw
      · split at hw
        · cases hw
        · cases hw; rfl
        · next e =>
          dsimp only at this; rw [e] at this
          obtain ⟨_, _, h, _⟩ := this _ List.mem_cons_self; cases h
        · next e =>
          dsimp only at this; rw [e] at this
          obtain ⟨_, _, h, _⟩ := this _ List.mem_cons_self; cases h
      · cases hw; rfl
      · cases hw
    rintro ⟨i, j, c, wi, wj, _, h1, h2, h3⟩
    rw [nw i c wi h1, nw j c wj h2] at h3
    simp at h3

/-- C111: no message is lost, doubled or changed, in whatever order the steps of the threads come.  What the appender is
given by a thread is a beginning of the messages of the thread that pass the level, in their order, and all of them when the
thread has done everything; on the console the characters of the thread are a beginning of the lines of these. -/
theorem C111_kept (g : LogLevel) (a : Appender) (todo : Nat → List Act) (ht : OnlyLogs todo) (is : List Nat) (s : Sys)
    (h : run (start g a todo) is = .ok s) (i : Nat) :
    ofThread i s.calls <+: shownOf a g (todo i) ∧ ofThread i s.cout <+: linesOf (shownOf a g (todo i)) ∧
    (Finished (s.thr i) → ofThread i s.calls = shownOf a g (todo i) ∧ ofThread i s.cout = linesOf (shownOf a g (todo i))) := by
  rcases logs_run g a todo is _ (logs_start g a todo ht) with e | ⟨s', e, hi⟩
  · rw [e] at h; cases h
  · rw [e] at h
    cases h
    have hc := hi.calls i
    have ho := hi.cout i
    refine ⟨⟨_, hc⟩, ⟨leftOf (s.thr i).phase ++ linesOf (aboutTo a (s.thr i).phase ++ shownOf a g (s.thr i).todo), ?_⟩, ?_⟩
    · rw [← List.append_assoc, ho, ← hc]
      simp [linesOf]
    · rintro ⟨h1, h2⟩
      rw [h1, h2] at hc
      rw [h2] at ho
      have hc' : ofThread i s.calls = shownOf a g (todo i) := by simpa [aboutTo, shownOf] using hc
      exact ⟨hc', by rw [← hc']; simpa [leftOf] using ho⟩

/-! ## With a lock -/

theorem step_thr {s s' : Sys} {i : Nat} (h : step s i = .ok s') (j : Nat) (hj : j ≠ i) : s'.thr j = s.thr j := by
  have e : ∀ t, LogThreads.set s.thr i t j = s.thr j := fun t => if_neg hj
  unfold step at h
  dsimp only at h
  repeat' split at h
  all_goals first
    | cases h; done
    | (cases h; exact e _)

/-- One thread at most is writing, and what it has not yet written completes the lines of all calls. -/
def InLines (s : Sys) : Prop :=
  ∃ k, (∀ j, j ≠ k → (s.thr j).phase = .idle) ∧ s.cout.map (·.2) ++ leftOf (s.thr k).phase = linesOf (s.calls.map (·.2))

theorem inLines_step (s s' : Sys) (i : Nat) (h : InLines s) (hs : step s i = .ok s')
    (hl : (s.thr i).phase = .idle → ∀ j, (s.thr j).phase = .idle) : InLines s' := by
  obtain ⟨k, h1, h2⟩ := h
  -- the thread that moves is the one that writes, or nobody writes
  have hk : (∀ j, j ≠ i → (s.thr j).phase = .idle) ∧ s.cout.map (·.2) ++ leftOf (s.thr i).phase = linesOf (s.calls.map (·.2)) := by
    by_cases hik : i = k
    · subst hik; exact ⟨h1, h2⟩
    · have hi := h1 i hik
      have := hl hi
      exact ⟨fun j _ => this j, by rw [hi]; rw [this k] at h2; exact h2⟩
  obtain ⟨h1, h2⟩ := hk
  refine ⟨i, fun j hj => by rw [step_thr hs j hj]; exact h1 j hj, ?_⟩
  have e : ∀ t, LogThreads.set s.thr i t i = t := fun t => if_pos rfl
  unfold step at hs
  dsimp only at hs
  generalize s.thr i = t at hs h2
  obtain ⟨acts, ph⟩ := t
  dsimp only at hs h2
  cases ph with
  | idle =>
    dsimp only at hs
    repeat' split at hs
    all_goals first
      | cases hs; done
      | (cases hs; simp only [e]; exact h2)
  | passed l text =>
    dsimp only at hs
    split at hs
    · cases hs
    · cases hs; simp only [e]; exact h2
  | pointer n l text =>
    dsimp only at hs
    split at hs
    · cases hs
    · split at hs
      · split at hs
        · cases hs
          simp only [e]
          simp only [leftOf, List.append_nil] at h2 ⊢
          simp [h2, linesOf, consoleLine]
        · split at hs
          · cases hs
          · next name hn =>
            cases hs
            simp only [e]
            have hlo : l ≠ .off := by rintro rfl; cases hn
            obtain ⟨name', hn', hline, _⟩ := levelName_line hlo text
            rw [hn] at hn'
            cases hn'
            simp only [leftOf, List.append_nil] at h2 ⊢
            rw [h2, hline]
            simp [linesOf]
      · cases hs
  | writing left =>
    dsimp only at hs
    split at hs
    · cases hs; simp only [e]; exact h2
    · cases hs
      simp only [e]
      simpa [leftOf] using h2
  | inUser n =>
    dsimp only at hs
    split at hs
    · cases hs; simp only [e]; exact h2
    · cases hs

theorem inLines_run (is : List Nat) (s s' : Sys) (h : InLines s) (hr : run s is = .ok s') (hl : LogsLocked s is) : InLines s' := by
  induction is generalizing s with
  | nil => cases hr; exact h
  | cons i is ih =>
    cases hs : step s i with
    | ok s1 =>
      simp only [run, hs] at hr
      exact ih s1 (inLines_step s s1 i h hs hl.1) hr (hl.2 s1 hs)
    | stuck | ended | ub => simp only [run, hs] at hr; cases hr

/-- C111: if a lock is held while a message is written, the console shows whole lines, in the order of the messages,
whenever no thread is writing; even if level and appender are set in between. -/
theorem C111_locked (g : LogLevel) (a : Appender) (todo : Nat → List Act) (is : List Nat) (s : Sys)
    (h : run (start g a todo) is = .ok s) (hl : LogsLocked (start g a todo) is) (hi : ∀ i, (s.thr i).phase = .idle) :
    s.cout.map (·.2) = linesOf (s.calls.map (·.2)) := by
  obtain ⟨k, _, h2⟩ := inLines_run is _ s ⟨0, fun _ _ => rfl, rfl⟩ h hl
  rw [hi k] at h2
  simpa [leftOf] using h2

/-- What the thread that is in the destructor is about to hand to the appender. -/
def pendOf (s : Sys) (k : Nat) : List LogCall :=
  match s.appender with
  | none => []
  | some (_, a) => aboutTo a (s.thr k).phase

theorem inTurn_run (is : List Nat) (s s' : Sys) (k : Nat) (hk : ∀ j, j ≠ k → (s.thr j).phase = .idle) (hr : run s is = .ok s')
    (hl : LogsLocked s is) (hi : ∀ i, (s'.thr i).phase = .idle) :
    s'.calls.map (·.2) = s.calls.map (·.2) ++ (pendOf s k ++ shownInTurn (s.appender.map (·.2)) s.level (begun s is)) := by
  induction is generalizing s k with
  | nil =>
    cases hr
    have : pendOf s' k = [] := by
      unfold pendOf
      rw [hi k]
      cases s'.appender <;> rfl
    simp [this, begun, shownInTurn]
  | cons i is ih =>
    cases hs : step s i with
    | stuck | ended | ub => simp only [run, hs] at hr; cases hr
    | ok s1 =>
      simp only [run, hs] at hr
      have hl1 := hl.2 s1 hs
      -- only thread `i` is inside
      have hki : (∀ j, j ≠ i → (s.thr j).phase = .idle) ∧ pendOf s k = pendOf s i := by
        by_cases hik : i = k
        · subst hik; exact ⟨hk, rfl⟩
        · have h0 := hk i hik
          have := hl.1 h0
          exact ⟨fun j _ => this j, by simp [pendOf, this]⟩
      rw [hki.2]
      have ih' := ih s1 i (fun j hj => by rw [step_thr hs j hj]; exact hki.1 j hj) hr hl1
      rw [ih']
      simp only [begun, hs]
      clear ih' ih hr hl hl1 hk hi
      have e : ∀ t, LogThreads.set s.thr i t i = t := fun t => if_pos rfl
      unfold step at hs
      dsimp only at hs
      unfold pendOf
      generalize hti : s.thr i = t at hs
      obtain ⟨acts, ph⟩ := t
      dsimp only at hs ⊢
      cases ph with
      | idle =>
        dsimp only at hs
        cases acts with
        | nil => cases hs
        | cons act rest =>
          cases act with
          | log l text =>
            dsimp only at hs
            have hp : Passes l s.level ↔ s.level ≠ .off ∧ l.toNat ≤ s.level.toNat := by
              rw [← rank_eq, ← rank_eq]; exact Iff.rfl
            split at hs
            · next hc =>
              cases hs
              simp only [e]
              cases s.appender with
              | none => simp [shownInTurn]
              | some x => simp [shownInTurn, aboutTo, if_pos (hp.mpr hc)]
            · next hc =>
              cases hs
              simp only [e]
              cases s.appender with
              | none => simp [shownInTurn]
              | some x => simp [shownInTurn, aboutTo, if_neg (fun h => hc (hp.mp h))]
          | setLevel l =>
            cases hs
            simp only [e]
            cases s.appender <;> simp [shownInTurn, aboutTo]
          | setAppender a =>
            cases hs
            simp only [e]
            cases s.appender <;> cases a <;> simp [shownInTurn, aboutTo]
      | passed l text =>
        dsimp only at hs
        split at hs
        · cases hs
        · next n a ha =>
          cases hs
          simp only [e, ha]
          simp [aboutTo]
      | pointer n l text =>
        dsimp only at hs
        split at hs
        · cases hs
        · next n' a ha =>
          split at hs
          · split at hs
            · cases hs
              simp only [e, ha]
              simp [aboutTo]
            · split at hs
              · cases hs
              · cases hs
                simp only [e, ha]
                simp [aboutTo]
          · cases hs
      | writing left =>
        dsimp only at hs
        split at hs
        · cases hs
          simp only [e]
          cases s.appender <;> simp [aboutTo]
        · cases hs
          simp only [e]
          cases s.appender <;> simp [aboutTo]
      | inUser n =>
        dsimp only at hs
        split at hs
        · cases hs
          simp only [e]
          cases s.appender <;> simp [aboutTo]
        · cases hs

/-- C111: under such a lock level and appender can be set at any time: what the appenders are given is what they would be
given if the threads had done everything one after the other in the order in which they began. -/
theorem C111_in_turn (g : LogLevel) (a : Appender) (todo : Nat → List Act) (is : List Nat) (s : Sys)
    (h : run (start g a todo) is = .ok s) (hl : LogsLocked (start g a todo) is) (hi : ∀ i, (s.thr i).phase = .idle) :
    s.calls.map (·.2) = shownInTurn (some a) g (begun (start g a todo) is) :=
  (inTurn_run is (start g a todo) s 0 (fun _ _ => rfl) h hl hi).trans (by simp [pendOf, start, aboutTo])

/-! ## Without one -/

theorem cout_grows (is : List Nat) (s s' : Sys) (h : run s is = .ok s') : s.cout <+: s'.cout := by
  induction is generalizing s with
  | nil => cases h; exact List.prefix_refl _
  | cons i is ih =>
    cases hs : step s i with
    | ok s1 =>
      simp only [run, hs] at h
      refine List.IsPrefix.trans ?_ (ih s1 h)
      unfold step at hs
      dsimp only at hs
      repeat' split at hs
      all_goals first
        | cases hs; done
        | (cases hs; exact List.prefix_refl _)
        | (cases hs; exact List.prefix_append _ _)
    | stuck | ended | ub => simp only [run, hs] at h; cases h

theorem lines_head (cs : List LogCall) (hc : ∀ c ∈ cs, c.appender = .console ∧ c.level ≠ .off) (r : List Char) :
    linesOf cs ≠ '[' :: '[' :: r := by
  cases cs with
  | nil => simp [linesOf]
  | cons c cs =>
    obtain ⟨h1, h2⟩ := hc c (by simp)
    obtain ⟨a, l, t⟩ := c
    dsimp only at h1 h2
    subst h1
    obtain ⟨name, -, e, x, u, hu, hh⟩ := levelName_line h2 t
    simp only [linesOf, List.flatMap_cons]
    rw [← e]
    simp only [String.toList_append, hu]
    intro hx
    simp only [List.cons_append, List.cons.injEq] at hx
    exact hh hx.2.1

/-- C111 violated: whenever two threads have messages to show on the console, they can be written so that the output is
not, and does not become, a sequence of whole lines, nor the beginning of one. -/
theorem C111_mixed_violated (g : LogLevel) (todo : Nat → List Act) (i j : Nat) (hij : i ≠ j) (li lj : LogLevel) (ti tj : String)
    (ri rj : List Act) (hi : todo i = .log li ti :: ri) (hj : todo j = .log lj tj :: rj) (oi : li ≠ .off) (oj : lj ≠ .off)
    (pi : Passes li g) (pj : Passes lj g) :
    ∃ is s, run (start g .console todo) is = .ok s ∧
      ∀ js s', run s js = .ok s' → ∀ rest, ¬ WholeLines (s'.cout.map (·.2) ++ rest) := by
  obtain ⟨ni, e1, -, x, u, hu, -⟩ := levelName_line oi ti
  obtain ⟨nj, e2, -, y, v, hv, -⟩ := levelName_line oj tj
  have qi : g ≠ .off ∧ li.toNat ≤ g.toNat := by rw [← rank_eq, ← rank_eq]; exact pi
  have qj : g ≠ .off ∧ lj.toNat ≤ g.toNat := by rw [← rank_eq, ← rank_eq]; exact pj
  have key : ∃ s, run (start g .console todo) [i, j, i, j, i, j, i, j] = .ok s ∧ s.cout = [(i, '['), (j, '[')] := by
    have hji : j ≠ i := fun h => hij h.symm
    simp [run, step, start, LogThreads.set, hi, hj, hij, hji, qi, qj, e1, e2, hu, hv]
  obtain ⟨s, h1, h2⟩ := key
  refine ⟨_, s, h1, ?_⟩
  rintro js s' hr rest ⟨cs, hc, e⟩
  obtain ⟨t, ht⟩ := cout_grows js s s' hr
  rw [← ht, h2] at e
  exact lines_head cs hc _ e.symm

/-- C111 violated: a thread that sets the level, or the appender, while another logs makes a data race. -/
theorem C111_race_violated (g : LogLevel) (a : Appender) (todo : Nat → List Act) (i j : Nat) (hij : i ≠ j) (l : LogLevel)
    (t : String) (r r' : List Act) (hi : todo i = .log l t :: r) (hp : Passes l g) :
    (∀ l', todo j = .setLevel l' :: r' → LogRace (start g a todo)) ∧
    (∀ a', todo j = .setAppender a' :: r' → ∃ s, run (start g a todo) [i] = .ok s ∧ LogRace s) := by
  have q : g ≠ .off ∧ l.toNat ≤ g.toNat := by rw [← rank_eq, ← rank_eq]; exact hp
  have hji : j ≠ i := fun h => hij h.symm
  constructor
  · intro l' hj
    exact ⟨i, j, .level, false, true, hij, by simp [access, start, hi], by simp [access, start, hj], by simp⟩
  · intro a' hj
    refine ⟨{ start g a todo with thr := LogThreads.set (start g a todo).thr i ⟨r, .passed l t⟩ }, ?_, ?_⟩
    · simp [run, step, start, hi, q]
    · exact ⟨i, j, .appender, false, true, hij, by simp [access, LogThreads.set], by simp [access, LogThreads.set, start, hj, hji], by simp⟩

/-- C111 violated: if a thread sets the appender while another logs, the appender can be used after it has been destroyed. -/
theorem C111_destroyed_violated (g : LogLevel) (a : Appender) (a' : Option Appender) (todo : Nat → List Act) (i j : Nat) (hij : i ≠ j)
    (l : LogLevel) (t : String) (r r' : List Act) (hi : todo i = .log l t :: r) (hp : Passes l g)
    (hj : todo j = .setAppender a' :: r') : ∃ is, run (start g a todo) is = .ub := by
  have q : g ≠ .off ∧ l.toNat ≤ g.toNat := by rw [← rank_eq, ← rank_eq]; exact hp
  have hji : j ≠ i := fun h => hij h.symm
  refine ⟨[i, i, j, i], ?_⟩
  cases a' <;> simp [run, step, start, LogThreads.set, hi, hj, hij, hji, q]

/-! ## Cases -/

/-- Two threads, three messages of which one does not pass. -/
def twoLoggers : Nat → List Act := fun i =>
  if i = 0 then [.log .info "a", .log .debug "b"] else if i = 1 then [.log .error "c"] else []

example : OnlyLogs twoLoggers := by
  intro i a h
  unfold twoLoggers at h
  split at h
  · simp at h; rcases h with rfl | rfl <;> exact ⟨_, _, rfl, by simp⟩
  · split at h
    · simp at h; subst h; exact ⟨_, _, rfl, by simp⟩
    · cases h

def coutOf : Next → Option (List Char × List (Nat × LogCall))
  | .ok s => some (s.cout.map (·.2), s.calls)
  | _ => none

/-- A schedule with a lock, in which all is done. -/
example : coutOf (run (start .info .console twoLoggers) (List.replicate 13 0 ++ List.replicate 14 1 ++ [0])) =
    some ("[INFO] a\n[ERROR] c\n".toList, [(0, ⟨.console, .info, "a"⟩), (1, ⟨.console, .error, "c"⟩)]) := by decide +kernel

/-- A thread that sets level and appender while another logs, with a lock. -/
def oneSets : Nat → List Act := fun i =>
  if i = 0 then [.log .info "a", .log .debug "b", .log .debug "c"]
  else if i = 1 then [.setLevel .debug, .setAppender (some (.user 7))] else []

/-- A test of `LogsLocked` for schedules of the first `n` threads. -/
def lockedB (n : Nat) : Sys → List Nat → Bool
  | _, [] => true
  | s, i :: is => decide (i < n) &&
    (!decide ((s.thr i).phase = .idle) || (List.range n).all fun j => decide ((s.thr j).phase = .idle)) &&
    match step s i with
    | .ok s' => lockedB n s' is
    | _ => true

theorem locked_of_test (n : Nat) (is : List Nat) (s : Sys) (hn : ∀ j, n ≤ j → (s.thr j).phase = .idle) (h : lockedB n s is = true) :
    LogsLocked s is := by
  induction is generalizing s with
  | nil => trivial
  | cons i is ih =>
    simp only [lockedB, Bool.and_eq_true, Bool.or_eq_true, Bool.not_eq_true', decide_eq_false_iff_not, decide_eq_true_eq,
      List.all_eq_true, List.mem_range] at h
    obtain ⟨⟨h1, h2⟩, h3⟩ := h
    refine ⟨fun hi j => ?_, fun s' hs => ?_⟩
    · rcases h2 with h2 | h2
      · exact absurd hi h2
      · by_cases hj : j < n
        · exact h2 j hj
        · exact hn j (by omega)
    · rw [hs] at h3
      exact ih s' (fun j hj => by rw [step_thr hs j (by omega)]; exact hn j hj) h3

/-- It meets the hypotheses of `C111_in_turn` and `C111_locked`. -/
example : LogsLocked (start .info .console oneSets) (List.replicate 13 0 ++ [0] ++ [1] ++ List.replicate 14 0 ++ [1]) ∧
    coutOf (run (start .info .console oneSets) (List.replicate 13 0 ++ [0] ++ [1] ++ List.replicate 14 0 ++ [1])) =
      some ("[INFO] a\n[DEBUG] c\n".toList, [(0, ⟨.console, .info, "a"⟩), (0, ⟨.console, .debug, "c"⟩)]) ∧
    begun (start .info .console oneSets) (List.replicate 13 0 ++ [0] ++ [1] ++ List.replicate 14 0 ++ [1]) =
      [.log .info "a", .log .debug "b", .setLevel .debug, .log .debug "c", .setAppender (some (.user 7))] := by
  exact ⟨locked_of_test 2 _ _ (fun _ _ => rfl) (by decide +kernel), by decide +kernel, by decide +kernel⟩

/-- One without. -/
example : coutOf (run (start .info .console twoLoggers) (List.replicate 10 0 ++ List.replicate 14 1 ++ List.replicate 4 0)) =
    some ("[INFO] [ERROR] c\na\n".toList, [(0, ⟨.console, .info, "a"⟩), (1, ⟨.console, .error, "c"⟩)]) := by decide +kernel

end Verif.Props
