import Verif.Base.Outcome

/-!
# Model of `utils::Logger`

Source: `src/utils/Logger.h`, `src/utils/Logger.cpp`.

What the values streamed into a logger look like as text is in `LogText`: an operation
carries the text.  Several loggers can be alive at once; they are told apart by a number.
-/

namespace Verif

/-- `LogLevel` (Logger.h:18-25). -/
inductive LogLevel where
  | off
  | error
  | warning
  | info
  | debug
  | trace
deriving Repr, DecidableEq

/-- The numeric values of `LogLevel` (Logger.h:19-24). -/
def LogLevel.toNat : LogLevel → Nat
  | .off => 0
  | .error => 1
  | .warning => 2
  | .info => 3
  | .debug => 4
  | .trace => 5

/-- A `LogAppenderIf` (Logger.h:33-50): the `ConsoleAppender` or an object of the user. -/
inductive Appender where
  | console
  | user (n : Nat)
deriving Repr, DecidableEq

/-- A call of `LogAppenderIf::print` (Logger.h:38). -/
structure LogCall where
  appender : Appender
  level : LogLevel
  text : String
deriving Repr, DecidableEq

/-- The static members of `Logger` (Logger.h:97-98), the loggers that are alive
(members Logger.h:100-101), the calls of `print` so far and what was written to
`std::cout` so far. -/
structure Logs where
  level : LogLevel
  appender : Option Appender
  alive : List (Nat × LogLevel × String)
  calls : List LogCall
  cout : String
deriving Repr, DecidableEq

/-- What a program does with loggers. -/
inductive LogOp where
  /-- `Logger::setLogLevel(l)`. -/
  | setLevel (l : LogLevel)
  /-- `Logger::setAppender(a)`; `none` is a null pointer. -/
  | setAppender (a : Option Appender)
  /-- Logger `k` is made with level `l`. -/
  | create (k : Nat) (l : LogLevel)
  /-- `s` is streamed into logger `k`. -/
  | stream (k : Nat) (s : String)
  /-- Logger `k` is destroyed. -/
  | destroy (k : Nat)
deriving Repr, DecidableEq

namespace Logs

/-- Initial values of the static members (Logger.cpp:11-12). -/
def init : Logs :=
  { level := .info, appender := some .console, alive := [], calls := [], cout := "" }

/-- `LOGLEVEL_NAMES.at(level)` (Logger.cpp:33-41); `none` is `std::out_of_range`. -/
def levelName : LogLevel → Option String
  | .trace => some "[TRACE] "
  | .debug => some "[DEBUG] "
  | .info => some "[INFO] "
  | .warning => some "[WARNING] "
  | .error => some "[ERROR] "
  | .off => none

/-- `print` called from the destructor (Logger.cpp:20, 32-42).  A destructor is `noexcept`:
an exception that leaves `print` ends the process.  `fails` says for which calls an
appender of the user throws. -/
def print (fails : LogCall → Bool) (s : Logs) (c : LogCall) : Res Logs Unit :=
  let s := { s with calls := s.calls ++ [c] }
  match c.appender with
  | .console =>
    match levelName c.level with
    | some name => .ok { s with cout := s.cout ++ (name ++ c.text ++ "\n") } ()
    | none => .throw s .abort
  | .user _ => if fails c then .throw s .abort else .ok s ()

/-- `Logger::~Logger` (Logger.cpp:18-22) of a logger with level `l` and text `t`.
A call through a null `_appender` is undefined behaviour. -/
def finish (fails : LogCall → Bool) (s : Logs) (l : LogLevel) (t : String) : Res Logs Unit :=
  if s.level ≠ .off ∧ l.toNat ≤ s.level.toNat then
    match s.appender with
    | some a => print fails s ⟨a, l, t⟩
    | none => .ub
  else .ok s ()

/-- The logger `k`, if it is alive. -/
def find (s : Logs) (k : Nat) : Option (LogLevel × String) := (s.alive.find? (·.1 = k)).map (·.2)

/-- One operation: the constructor (Logger.cpp:14-16), `operator<<` (Logger.h:83-87), the
destructor, `setLogLevel` (Logger.cpp:24-26) and `setAppender` (Logger.cpp:28-30).  Using a
logger that is not alive, or making one where one is alive, is undefined behaviour. -/
def step (fails : LogCall → Bool) (s : Logs) : LogOp → Res Logs Unit
  | .setLevel l => .ok { s with level := l } ()
  | .setAppender a => .ok { s with appender := a } ()
  | .create k l =>
    match s.find k with
    | some _ => .ub
    | none => .ok { s with alive := (k, l, "") :: s.alive } ()
  | .stream k t =>
    match s.find k with
    | some (l, old) => .ok { s with alive := (k, l, old ++ t) :: s.alive.filter (·.1 ≠ k) } ()
    | none => .ub
  | .destroy k =>
    match s.find k with
    | some (l, t) => finish fails { s with alive := s.alive.filter (·.1 ≠ k) } l t
    | none => .ub

/-- A history of operations. -/
def run (fails : LogCall → Bool) (s : Logs) : List LogOp → Res Logs Unit
  | [] => .ok s ()
  | op :: ops =>
    match step fails s op with
    | .ok s' _ => run fails s' ops
    | .throw s' e => .throw s' e
    | .ub => .ub

end Logs
end Verif
