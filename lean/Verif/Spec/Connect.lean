import Verif.Model.Connect

/-!
# What connecting means

Functions of the results of the system calls alone.  The error codes are those of Linux: 115 is
`EINPROGRESS`, 4 is `EINTR` and 110 is `ETIMEDOUT`.
-/

namespace Verif.Spec

/-- The connection was established: at once, or in the background and reported as such. -/
def Established (env : ConnectEnv) : Prop :=
  env.connect = none ∨
  env.connect = some 115 ∧ env.selects.head? = some .ready ∧ env.sockopt = .ok 0

/-- The error with which establishing the connection fails. -/
def connectError (env : ConnectEnv) : Option Int :=
  match env.connect, env.selects.head?, env.sockopt with
  | none, _, _ => none
  | some e, sel, opt =>
    if e ≠ 115 then some e
    else
      match sel, opt with
      | some .ready, .ok 0 => none
      | some .ready, .ok err => some err
      | some .ready, .error e => some e
      | some (.error e), _ => if e = 4 then some 110 else some e
      | _, _ => some 110

/-- Where a failure leaves the descriptor. -/
inductive Left where
  | nothing
  | leaked
  | closed
deriving Repr, DecidableEq

/-- The steps of connecting in order, each with its error and with what becomes of the
descriptor if it is the first to fail. -/
def connectSteps (env : ConnectEnv) : List (Option Int × Left) :=
  [(match env.socket with | .error e => some e | .ok _ => none, .nothing),
   (env.getfl1, .leaked), (env.setfl1, .leaked), (connectError env, .closed), (env.getfl2, .closed), (env.setfl2, .closed)]

/-- The first step that fails. -/
def firstFailure (env : ConnectEnv) : Option (Int × Left) :=
  (connectSteps env).findSome? fun p => p.1.map fun e => (e, p.2)

/-- `v` with the non-blocking bit cleared and all other bits kept. -/
def blocking (v w : BitVec 32) : Prop := ∀ i, w.getLsbD i = (v.getLsbD i && i != 11)

end Verif.Spec
