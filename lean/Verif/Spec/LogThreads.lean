import Verif.Model.LogThreads
import Verif.Spec.Log

/-!
# Threads that log
-/

namespace Verif.Spec

open Verif.LogThreads

/-- A program in which threads only log: level and appender have been set before. -/
def OnlyLogs (todo : Nat → List Act) : Prop := ∀ i, ∀ a ∈ todo i, ∃ l t, a = .log l t ∧ l ≠ .off

/-- The messages that pass the level, for this appender. -/
def shownOf (a : Appender) (g : LogLevel) (acts : List Act) : List LogCall :=
  acts.filterMap fun
    | .log l t => if Passes l g then some ⟨a, l, t⟩ else none
    | _ => none

/-- What belongs to one thread. -/
def ofThread {α : Type} (i : Nat) (xs : List (Nat × α)) : List α := (xs.filter (·.1 = i)).map (·.2)

/-- The characters of lines. -/
def linesOf (cs : List LogCall) : List Char := cs.flatMap fun c => (consoleLine c).toList

/-- The thread has done everything. -/
def Finished (t : Thread) : Prop := t.todo = [] ∧ t.phase = .idle

/-- In this schedule a thread begins to write a message only when no thread is writing one, as if each message took a lock. -/
def LogsLocked : Sys → List Nat → Prop
  | _, [] => True
  | s, i :: is => ((s.thr i).phase = .idle → ∀ j, (s.thr j).phase = .idle) ∧ ∀ s', step s i = .ok s' → LogsLocked s' is

/-- Two threads are about to access the same static member, and one of them writes it: a data race. -/
def LogRace (s : Sys) : Prop :=
  ∃ i j c wi wj, i ≠ j ∧ access (s.thr i) = some (c, wi) ∧ access (s.thr j) = some (c, wj) ∧ (wi = true ∨ wj = true)

/-- Whole lines of messages. -/
def WholeLines (out : List Char) : Prop := ∃ cs : List LogCall, (∀ c ∈ cs, c.appender = .console ∧ c.level ≠ .off) ∧ out = linesOf cs

/-- The actions that the threads begin in a schedule, in the order in which they begin them. -/
def begun : Sys → List Nat → List Act
  | _, [] => []
  | s, i :: is =>
    (match (s.thr i).phase, (s.thr i).todo with
     | .idle, a :: _ => [a]
     | _, _ => []) ++
    match step s i with
    | .ok s' => begun s' is
    | _ => []

/-- What the appenders are given if actions are done one after the other: each message that passes the level of that
moment is given to the appender of that moment. -/
def shownInTurn : Option Appender → LogLevel → List Act → List LogCall
  | _, _, [] => []
  | some a, g, .log l t :: acts => (if Passes l g then [⟨a, l, t⟩] else []) ++ shownInTurn (some a) g acts
  | none, g, .log _ _ :: acts => shownInTurn none g acts
  | a, _, .setLevel g :: acts => shownInTurn a g acts
  | _, g, .setAppender a :: acts => shownInTurn a g acts

end Verif.Spec
