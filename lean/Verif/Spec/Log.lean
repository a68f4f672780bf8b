import Verif.Model.Log

/-!
# What logging means

Functions of the history alone: they look at the list of operations and use nothing of
the model but its types.
-/

namespace Verif.Spec

/-- The level set last; INFO if none was set. -/
def levelAfter (ops : List LogOp) : LogLevel :=
  (ops.filterMap fun | .setLevel l => some l | _ => none).getLast?.getD .info

/-- The appender set last; the console if none was set. -/
def appenderAfter (ops : List LogOp) : Option Appender :=
  (ops.filterMap fun | .setAppender a => some a | _ => none).getLast?.getD (some .console)

/-- The level logger `k` was last made with. -/
def madeWith (k : Nat) (ops : List LogOp) : Option LogLevel :=
  (ops.filterMap fun | .create j l => if j = k then some l else none | _ => none).getLast?

/-- Everything streamed into logger `k` since it was last made. -/
def streamed (k : Nat) (ops : List LogOp) : String :=
  ops.foldl (fun t op => match op with
    | .create j _ => if j = k then "" else t
    | .stream j s => if j = k then t ++ s else t
    | _ => t) ""

/-- Logger `k` was made and not destroyed since. -/
def isAlive (k : Nat) (ops : List LogOp) : Bool :=
  (ops.filterMap fun
    | .create j _ => if j = k then some true else none
    | .destroy j => if j = k then some false else none
    | _ => none).getLast?.getD false

/-- A C++ program can do `op` after the history `before`: objects are made once and used
while they are alive, and no message needs a null appender. -/
def Legal (before : List LogOp) (op : LogOp) : Prop :=
  match op with
  | .create k _ => isAlive k before = false
  | .stream k _ => isAlive k before = true
  | .destroy k => isAlive k before = true ∧ appenderAfter before ≠ none
  | _ => True

/-- OFF < ERROR < WARNING < INFO < DEBUG < TRACE. -/
def rank (l : LogLevel) : Nat := [LogLevel.off, .error, .warning, .info, .debug, .trace].idxOf l

/-- A message of level `l` passes a global level `g`. -/
def Passes (l g : LogLevel) : Prop := g ≠ .off ∧ rank l ≤ rank g

instance (l g : LogLevel) : Decidable (Passes l g) := by unfold Passes; infer_instance

/-- What operation `op` after the history `before` hands to an appender. -/
def handed (before : List LogOp) (op : LogOp) : List LogCall :=
  match op with
  | .destroy k =>
    match madeWith k before, appenderAfter before with
    | some l, some a => if Passes l (levelAfter before) then [⟨a, l, streamed k before⟩] else []
    | _, _ => []
  | _ => []

/-- What a whole history hands to the appenders, in order. -/
def handedAll (ops : List LogOp) : List LogCall :=
  (List.range ops.length).flatMap fun i => (ops[i]?.toList).flatMap (handed (ops.take i))

/-- The line the console shows for a message. -/
def consoleLine (c : LogCall) : String :=
  match c.appender with
  | .user _ => ""
  | .console =>
    (match c.level with
      | .off => ""
      | .error => "[ERROR] "
      | .warning => "[WARNING] "
      | .info => "[INFO] "
      | .debug => "[DEBUG] "
      | .trace => "[TRACE] ") ++ c.text ++ "\n"

end Verif.Spec
