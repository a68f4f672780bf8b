/-!
# Model of threads that share a connection manager

Source: `forwardOpen`, `forwardClose` and `handleConnections` (ConnectionManager.cpp:50-227), at the granularity of the accesses of the
map of connections. Simplified: of a connection only its identifier and the object's identity are kept; whether `notifyTick` of an object
asks for removal, and what a target replies, are parameters of the calls; sockets and received data are left out; an access of the map is
one step; a pointer counts as expired if its object is not in the map, although another thread may still hold it. The map is a list of entries in the order of the identifiers; an iterator is the entry it points to.
-/

namespace Verif

namespace ManagerThreads

/-- `_connectionMap`: identifier and object, in the order of identifiers. -/
abbrev Table := List (BitVec 32 × Nat)

/-- `_connectionMap.insert` (ConnectionManager.cpp:156-157): nothing happens if the key is there. -/
def add (k : BitVec 32) (o : Nat) : Table → Table
  | [] => [(k, o)]
  | e :: t => if k.toNat < e.1.toNat then (k, o) :: e :: t else if k = e.1 then e :: t else e :: add k o t

/-- `_connectionMap.erase` with a key (ConnectionManager.cpp:199, 225). -/
def erase (k : BitVec 32) (t : Table) : Table := t.filter fun e => e.1 ≠ k

/-- The entry after the one with this key, where `++` of the iterator leads (ConnectionManager.cpp:218). -/
def next (k : BitVec 32) (t : Table) : Option (BitVec 32 × Nat) := t.find? fun e => k.toNat < e.1.toNat

/-- A call: of `handleConnections`, with the objects of which `notifyTick` returns false; of `forwardOpen`, with the identifier that the target
grants, if it does; of `forwardClose`, with an object. -/
inductive Call where
  | handle (expired : Nat → Bool)
  | fopen (granted : Option (BitVec 32))
  | fclose (object : Nat)

/-- What a call did: the identifiers that were ticked; the object that the pointer returned leads to, if any; whether the pointer given was not expired. -/
inductive Ret where
  | handled (ticked : List (BitVec 32))
  | opened (object : Option Nat)
  | closed (was : Bool)
deriving DecidableEq

/-- Where in a call a thread is. -/
inductive Pc where
  | idle
  /-- in the loop (ConnectionManager.cpp:218-222), the iterator at this entry or at the end -/
  | ticking (it : Option (BitVec 32 × Nat)) (ticked toClose : List (BitVec 32))
  /-- in the second loop (ConnectionManager.cpp:224-226) -/
  | erasing (ticked toClose : List (BitVec 32))
  /-- before `insert` (ConnectionManager.cpp:156) -/
  | inserting (k : BitVec 32)
  /-- before `erase` (ConnectionManager.cpp:199), with a pointer to the object -/
  | closing (k : BitVec 32)

/-- A thread: the calls to make, the first of them the current one, and where it is in that. -/
structure Thr where
  todo : List Call
  pc : Pc

/-- The map, the number of the next object, the threads, and the calls that have ended, with thread and result. -/
structure State where
  table : Table
  fresh : Nat
  thr : Nat → Thr
  done : List (Nat × Call × Ret)

/-- The state after a step; or undefined behaviour, or a failed assertion. -/
inductive Out where
  | ok (s : State)
  | ub
  | abort

/-- Thread `i` goes on at `pc`. -/
def State.goto (s : State) (i : Nat) (pc : Pc) : State :=
  { s with thr := fun j => if j = i then { todo := (s.thr i).todo, pc := pc } else s.thr j }

/-- Thread `i` ends its call `c`; `rest` is what it has to do then. -/
def State.finish (s : State) (i : Nat) (c : Call) (r : Ret) (rest : List Call) : State :=
  { s with
    thr := fun j => if j = i then { todo := rest, pc := .idle } else s.thr j
    done := s.done ++ [(i, c, r)] }

/-- A step of thread `i` in `forwardOpen`, `forwardClose` or `handleConnections` (ConnectionManager.cpp:50-227), if it has something to do. -/
def step (s : State) (i : Nat) : Option Out :=
  match (s.thr i).todo with
  | [] => none
  | .handle expired :: rest =>
    match (s.thr i).pc with
    | .idle => some (.ok (s.goto i (.ticking s.table.head? [] [])))
    | .ticking none ticked toClose => some (.ok (s.goto i (.erasing ticked toClose)))
    | .ticking (some e) ticked toClose =>
      if e ∈ s.table then
        some (.ok (s.goto i (.ticking (next e.1 s.table) (ticked ++ [e.1]) (if expired e.2 then toClose ++ [e.1] else toClose))))
      else some .ub
    | .erasing ticked (k :: ks) => some (.ok ({ s with table := erase k s.table }.goto i (.erasing ticked ks)))
    | .erasing ticked [] => some (.ok (s.finish i (.handle expired) (.handled ticked) rest))
    | _ => none
  | .fopen granted :: rest =>
    match (s.thr i).pc with
    | .idle =>
      match granted with
      | none => some (.ok (s.finish i (.fopen granted) (.opened none) rest))
      | some k => some (.ok (s.goto i (.inserting k)))
    | .inserting k =>
      let r := if s.table.any fun e => e.1 = k then none else some s.fresh
      some (.ok ({ s with
        table := add k s.fresh s.table
        fresh := s.fresh + 1 }.finish i (.fopen granted) (.opened r) rest))
    | _ => none
  | .fclose object :: rest =>
    match (s.thr i).pc with
    | .idle =>
      match s.table.find? fun e => e.2 = object with
      | none => some (.ok (s.finish i (.fclose object) (.closed false) rest))
      | some e => some (.ok (s.goto i (.closing e.1)))
    | .closing k =>
      if s.table.any fun e => e.1 = k then
        some (.ok ({ s with table := erase k s.table }.finish i (.fclose object) (.closed true) rest))
      else some .abort
    | _ => none

/-- How the next step of a thread uses the map. -/
inductive Access where
  | none
  | read
  /-- reads the map, and changes the object of this entry -/
  | tick (e : BitVec 32 × Nat)
  | write
deriving DecidableEq

/-- The access of the next step of thread `i`. -/
def access (s : State) (i : Nat) : Access :=
  match (s.thr i).todo, (s.thr i).pc with
  | .handle _ :: _, .idle => .read
  | _, .ticking (some e) _ _ => .tick e
  | _, .ticking none _ _ => .read
  | _, .erasing _ (_ :: _) => .write
  | _, .inserting _ => .write
  | _, .closing _ => .write
  | _, _ => .none

end ManagerThreads

end Verif
