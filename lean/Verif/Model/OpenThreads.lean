import Verif.Model.ConnManager

/-!
# Model of several threads that open connections

Source: `src/ConnectionManager.cpp`.

The counters of `forwardOpen` are static: all managers of the process share them, no lock protects them, and they are
not atomic.  Each read and each write of a counter is one step.  The rest of a call uses only the manager and the session
of the caller and is one step at its end.
-/

namespace Verif.OpenThreads

/-- What the counters are used for in a call of `forwardOpen`: the incarnation of the manager, and the types of the two
directions (ConnectionManager.cpp:57-65). -/
structure Want where
  inc : BitVec 16
  multicast : Bool
  p2p : Bool
deriving Repr, DecidableEq

/-- The numbers a call has got from the counters. -/
structure Numbers where
  serial : BitVec 16
  o2t : Option (BitVec 16) := none
  t2o : Option (BitVec 32) := none
deriving Repr, DecidableEq

/-- Where a thread is: outside of `forwardOpen`, or between two accesses to counters (ConnectionManager.cpp:54-68);
`read` is what it has read. -/
inductive Phase where
  | idle
  /-- before the write of `serialNumberCount` (line 55) -/
  | serialWrite (w : Want) (read : Nat)
  /-- before the read of the first `idCount` (line 62) -/
  | o2tRead (w : Want) (got : Numbers)
  /-- before the write of the first `idCount` (line 62) -/
  | o2tWrite (w : Want) (got : Numbers) (read : BitVec 16)
  /-- before the read of the second `idCount` (line 67) -/
  | t2oRead (w : Want) (got : Numbers)
  /-- before the write of the second `idCount` (line 67) -/
  | t2oWrite (w : Want) (got : Numbers) (read : BitVec 32)
  /-- it has its numbers (line 70) -/
  | drawn (w : Want) (got : Numbers)
deriving Repr, DecidableEq

/-- A thread: the calls it will make and where it is. -/
structure Thread where
  todo : List Want
  phase : Phase := .idle
deriving Repr, DecidableEq

/-- The counters, the threads, and the calls that have ended, in their order, with their numbers. -/
structure Sys where
  st : Statics
  thr : Nat → Thread
  done : List (Nat × Want × Numbers) := []

/-- After the first counter (ConnectionManager.cpp:60, 65). -/
def afterSerial (w : Want) (got : Numbers) : Phase :=
  if w.multicast then .o2tRead w got else if w.p2p then .t2oRead w got else .drawn w got

/-- After the second counter (ConnectionManager.cpp:65). -/
def afterO2T (w : Want) (got : Numbers) : Phase := if w.p2p then .t2oRead w got else .drawn w got

/-- The threads with one changed. -/
def set (thr : Nat → Thread) (i : Nat) (t : Thread) : Nat → Thread := fun j => if j = i then t else thr j

/-- The next step of thread `i` (ConnectionManager.cpp:53-68); `none` if it has nothing to do, or if
`serialNumberCount` would overflow.  The initialisation of an `idCount` is thread-safe and happens with the first read. -/
def step (s : Sys) (i : Nat) : Option Sys :=
  match (s.thr i).phase with
  | .idle =>
    match (s.thr i).todo with
    | [] => none
    | w :: rest => some { s with thr := set s.thr i ⟨rest, .serialWrite w s.st.serial⟩ }
  | .serialWrite w n =>
    match Mgr.nextSerial n with
    | none => none
    | some n' => some { s with
        st := { s.st with serial := n' }
        thr := set s.thr i ⟨(s.thr i).todo, afterSerial w ⟨BitVec.ofNat 16 n', none, none⟩⟩ }
  | .o2tRead w got =>
    let v := s.st.o2tId.getD ((w.inc.setWidth 32 <<< 16).setWidth 16)
    some { s with
      st := { s.st with o2tId := some v }
      thr := set s.thr i ⟨(s.thr i).todo, .o2tWrite w got v⟩ }
  | .o2tWrite w got v =>
    some { s with
      st := { s.st with o2tId := some (v + 1) }
      thr := set s.thr i ⟨(s.thr i).todo, afterO2T w { got with o2t := some (v + 1) }⟩ }
  | .t2oRead w got =>
    let v := s.st.t2oId.getD (w.inc.setWidth 32 <<< 16)
    some { s with
      st := { s.st with t2oId := some v }
      thr := set s.thr i ⟨(s.thr i).todo, .t2oWrite w got v⟩ }
  | .t2oWrite w got v =>
    some { s with
      st := { s.st with t2oId := some (v + 1) }
      thr := set s.thr i ⟨(s.thr i).todo, .drawn w { got with t2o := some (v + 1) }⟩ }
  | .drawn w got =>
    some { s with thr := set s.thr i ⟨(s.thr i).todo, .idle⟩, done := s.done ++ [(i, w, got)] }

/-- A schedule: the threads that take the steps. -/
def run (s : Sys) : List Nat → Option Sys
  | [] => some s
  | i :: is =>
    match step s i with
    | none => none
    | some s' => run s' is

/-- Threads that will make these calls. -/
def start (st : Statics) (todo : Nat → List Want) : Sys := { st, thr := fun i => { todo := todo i } }

/-- The counters. -/
inductive Counter where
  | serial
  | o2t
  | t2o
deriving Repr, DecidableEq

/-- The counter that the next step of a thread accesses, and whether it writes it (ConnectionManager.cpp:55, 62, 67). -/
def access (t : Thread) : Option (Counter × Bool) :=
  match t.phase with
  | .idle => if t.todo = [] then none else some (.serial, false)
  | .serialWrite _ _ => some (.serial, true)
  | .o2tRead _ _ => some (.o2t, false)
  | .o2tWrite _ _ _ => some (.o2t, true)
  | .t2oRead _ _ => some (.t2o, false)
  | .t2oWrite _ _ _ => some (.t2o, true)
  | .drawn _ _ => none

end Verif.OpenThreads
