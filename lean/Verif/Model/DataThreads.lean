import Verif.Model.IoConn

/-!
# Model of several threads that use one connection object

Source: `src/IOConnection.cpp`.

`setDataToSend` and `notifyTick` take no lock.  Each read and each write of a byte of `_outputData` is one step.  The other members of
the object are used by `notifyTick` and `notifyReceiveData` only, which one thread calls, through `handleConnections`; they change with the
last step of a call.  Data of the size that is there are written in place; data of another size are put elsewhere in one step, and whoever is
still reading or writing the former bytes then has dangling pointers.  Simplifications: the send listener does nothing; any change of the
size counts as a move, although a vector with room to spare stays where it is.
-/

namespace Verif.DataThreads

/-- A call: `setDataToSend`; `notifyTick` at a time, with the result of `sendto`; `notifyReceiveData`. -/
inductive Op where
  | set (data : List Byte)
  | tick (now : Nat) (count : Int)
  | recv (data : List Byte)
deriving Repr, DecidableEq

/-- The call as an operation of a connection that is used by one thread (IOConnection.cpp:52-142). -/
def Op.plain : Op → ConnOp
  | .set data => .setData data
  | .tick now count => .tick now {} count
  | .recv data => .recv data

/-- Where a thread is: outside of a call; in `_outputData = data` with `k` bytes written in place, or about to move
(IOConnection.cpp:53); in `notifyTick` with these bytes of `_outputData` read (IOConnection.cpp:130-138).  `gen` says which bytes the
thread points to. -/
inductive Phase where
  | idle
  | writing (data : List Byte) (gen k : Nat)
  | moving (data : List Byte)
  | reading (now : Nat) (count : Int) (gen : Nat) (got : List Byte)
deriving Repr, DecidableEq

/-- A thread: the calls it will make and where it is. -/
structure Thread where
  todo : List Op
  phase : Phase := .idle
deriving Repr, DecidableEq

/-- The object, how often its data have moved, the threads, and the calls that have ended, in their order, with what they did. -/
structure Sys where
  conn : Conn
  gen : Nat := 0
  thr : Nat → Thread
  done : List (Nat × Op × List IoEv) := []

/-- Whether a tick produces data: it is no timeout, and the time has come (IOConnection.cpp:95-111). -/
def due (now : Nat) (c : Conn) : Bool :=
  let period := BitVec.ofNat 32 ((now - c.lastHandleTime) / 1000000 * 1000)
  !decide (c.connectionTimeoutCount + period > c.connectionTimeoutMultiplier.setWidth 32 * c.t2oAPI) &&
    decide (c.o2tTimer + period ≥ c.o2tAPI)

/-- The threads with one changed. -/
def set (thr : Nat → Thread) (i : Nat) (t : Thread) : Nat → Thread := fun j => if j = i then t else thr j

/-- The next step of thread `i` (IOConnection.cpp:52-142); `none` if it has nothing to do, or at undefined behaviour. -/
def step (m : Mem) (s : Sys) (i : Nat) : Option Sys :=
  match (s.thr i).phase, (s.thr i).todo with
  | .idle, [] => none
  | .idle, .set data :: rest =>
    if data.length = s.conn.outputData.length then some { s with thr := set s.thr i ⟨rest, .writing data s.gen 0⟩ }
    else some { s with thr := set s.thr i ⟨rest, .moving data⟩ }
  | .idle, .tick now count :: rest =>
    if due now s.conn then some { s with thr := set s.thr i ⟨rest, .reading now count s.gen []⟩ }
    else
      let r := s.conn.notifyTick now {} count
      some { s with conn := r.1, thr := set s.thr i ⟨rest, .idle⟩, done := s.done ++ [(i, .tick now count, r.2.1)] }
  | .idle, .recv data :: rest =>
    match s.conn.notifyReceiveData m data with
    | .ok r => some { s with conn := r.1, thr := set s.thr i ⟨rest, .idle⟩, done := s.done ++ [(i, .recv data, r.2)] }
    | _ => none
  | .writing data gen k, todo =>
    match data[k]? with
    | some b =>
      if gen = s.gen then
        some { s with conn := { s.conn with outputData := s.conn.outputData.set k b }, thr := set s.thr i ⟨todo, .writing data gen (k + 1)⟩ }
      else none
    | none => some { s with thr := set s.thr i ⟨todo, .idle⟩, done := s.done ++ [(i, .set data, [])] }
  | .moving data, todo =>
    some { s with conn := { s.conn with outputData := data }, gen := s.gen + 1, thr := set s.thr i ⟨todo, .idle⟩,
                  done := s.done ++ [(i, .set data, [])] }
  | .reading now count gen got, todo =>
    if gen = s.gen then
      match s.conn.outputData[got.length]? with
      | some b => some { s with thr := set s.thr i ⟨todo, .reading now count gen (got ++ [b])⟩ }
      | none =>
        let r := ({ s.conn with outputData := got } : Conn).notifyTick now {} count
        some { s with conn := { r.1 with outputData := s.conn.outputData }, thr := set s.thr i ⟨todo, .idle⟩,
                      done := s.done ++ [(i, .tick now count, r.2.1)] }
    else none

/-- A schedule: the threads that take the steps. -/
def run (m : Mem) (s : Sys) : List Nat → Option Sys
  | [] => some s
  | i :: is =>
    match step m s i with
    | none => none
    | some s' => run m s' is

/-- Threads that will make these calls. -/
def start (c : Conn) (todo : Nat → List Op) : Sys := { conn := c, thr := fun i => { todo := todo i } }

/-- The byte of `_outputData` that the next step of a thread accesses, and whether it writes it. -/
def access (c : Conn) (t : Thread) : Option (Nat × Bool) :=
  match t.phase with
  | .idle | .moving _ => none
  | .writing data _ k => if k < data.length then some (k, true) else none
  | .reading _ _ _ got => if got.length < c.outputData.length then some (got.length, false) else none

/-- Whether a thread is about to use bytes that have moved: undefined behaviour. -/
def dangling (s : Sys) (t : Thread) : Bool :=
  match t.phase with
  | .idle | .moving _ => false
  | .writing data gen k => decide (k < data.length) && gen != s.gen
  | .reading _ _ gen _ => gen != s.gen

end Verif.DataThreads
