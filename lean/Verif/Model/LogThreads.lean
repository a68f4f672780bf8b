import Verif.Model.Log

/-!
# Model of several threads that log

Source: `src/utils/Logger.cpp`.

The level and the appender are static, not atomic, and no lock protects them.  Each access to one of them is a step.
The stream of a logger belongs to its thread.  The console appender writes to `std::cout`, for which the library of C++
promises only that concurrent use is no data race: characters of different threads may come in any order, so each
character is a step.
-/

namespace Verif.LogThreads

/-- What a thread does: a logger with this level and text is destroyed, or a static member is set (Logger.cpp:18-30). -/
inductive Act where
  | log (l : LogLevel) (text : String)
  | setLevel (l : LogLevel)
  | setAppender (a : Option Appender)
deriving Repr, DecidableEq

/-- Where a thread is: outside of the destructor, or in it (Logger.cpp:19-20). -/
inductive Phase where
  | idle
  /-- the level lets the message pass; before the read of `_appender` (line 20) -/
  | passed (l : LogLevel) (text : String)
  /-- before the virtual call on the object that was read (line 20) -/
  | pointer (obj : Nat) (l : LogLevel) (text : String)
  /-- in `ConsoleAppender::print`, which uses no member of the object; the characters left to write (line 42) -/
  | writing (left : List Char)
  /-- in `print` of an object of the user, which uses its members -/
  | inUser (obj : Nat)
deriving Repr, DecidableEq

/-- A thread: what it will do and where it is. -/
structure Thread where
  todo : List Act
  phase : Phase := .idle
deriving Repr, DecidableEq

/-- The static members, the appender with the number of the object; the threads; the characters on the console and the
calls of `print`, each with its thread. -/
structure Sys where
  level : LogLevel
  appender : Option (Nat × Appender)
  /-- objects made so far -/
  objs : Nat
  thr : Nat → Thread
  cout : List (Nat × Char) := []
  calls : List (Nat × LogCall) := []

/-- A step: the next state, nothing to do, the end of the process by an exception in a destructor, or undefined. -/
inductive Next where
  | ok (s : Sys)
  | stuck
  | ended
  | ub

/-- The threads with one changed. -/
def set (thr : Nat → Thread) (i : Nat) (t : Thread) : Nat → Thread := fun j => if j = i then t else thr j

/-- The next step of thread `i` (Logger.cpp:18-42).  An appender of the user does not throw here (that is C67).
`setAppender` (line 29) sets the pointer and destroys the object of before; it is one step. -/
def step (s : Sys) (i : Nat) : Next :=
  let t := s.thr i
  match t.phase with
  | .idle =>
    match t.todo with
    | [] => .stuck
    | .log l text :: rest =>
      if s.level ≠ .off ∧ l.toNat ≤ s.level.toNat then .ok { s with thr := set s.thr i ⟨rest, .passed l text⟩ }
      else .ok { s with thr := set s.thr i ⟨rest, .idle⟩ }
    | .setLevel l :: rest => .ok { s with level := l, thr := set s.thr i ⟨rest, .idle⟩ }
    | .setAppender a :: rest =>
      .ok { s with appender := a.map (s.objs, ·), objs := s.objs + 1, thr := set s.thr i ⟨rest, .idle⟩ }
  | .passed l text =>
    match s.appender with
    | none => .ub
    | some (n, _) => .ok { s with thr := set s.thr i ⟨t.todo, .pointer n l text⟩ }
  | .pointer n l text =>
    match s.appender with
    | none => .ub
    | some (n', a) =>
      if n' = n then
        let calls := s.calls ++ [(i, { appender := a, level := l, text })]
        match a with
        | .user _ => .ok { s with calls, thr := set s.thr i ⟨t.todo, .inUser n⟩ }
        | .console =>
          match Logs.levelName l with
          | none => .ended
          | some name => .ok { s with calls, thr := set s.thr i ⟨t.todo, .writing (name ++ text ++ "\n").toList⟩ }
      else .ub
  | .writing left =>
    match left with
    | [] => .ok { s with thr := set s.thr i ⟨t.todo, .idle⟩ }
    | c :: left => .ok { s with cout := s.cout ++ [(i, c)], thr := set s.thr i ⟨t.todo, .writing left⟩ }
  | .inUser n =>
    if s.appender.map (·.1) = some n then .ok { s with thr := set s.thr i ⟨t.todo, .idle⟩ } else .ub

/-- A schedule: the threads that take the steps. -/
def run (s : Sys) : List Nat → Next
  | [] => .ok s
  | i :: is =>
    match step s i with
    | .ok s' => run s' is
    | r => r

/-- Threads that will do this, with this level and this appender. -/
def start (level : LogLevel) (appender : Appender) (todo : Nat → List Act) : Sys :=
  { level, appender := some (0, appender), objs := 1, thr := fun i => { todo := todo i } }

/-- The static members. -/
inductive Static where
  | level
  | appender
deriving Repr, DecidableEq

/-- The static member that the next step of a thread accesses, and whether it writes it (Logger.cpp:19-20, 25, 29).
`std::cout` is left out: its use is no data race. -/
def access (t : Thread) : Option (Static × Bool) :=
  match t.phase with
  | .idle =>
    match t.todo with
    | [] => none
    | .log _ _ :: _ => some (.level, false)
    | .setLevel _ :: _ => some (.level, true)
    | .setAppender _ :: _ => some (.appender, true)
  | .passed _ _ => some (.appender, false)
  | _ => none

end Verif.LogThreads
