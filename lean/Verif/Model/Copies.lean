import Verif.Model.Process

/-!
# Model of copies of a connection manager

Source: `src/ConnectionManager.{h,cpp}`.

`ConnectionManager` has a destructor and no other special member function (ConnectionManager.h:37): it can be copied, and
a move is a copy, so that a vector of managers copies them when it grows.  The copy shares the connection objects and the
bound socket, which are members by `shared_ptr` (ConnectionManager.h:77-79).  The handler of the socket has captured
`this` of the manager that made the socket (ConnectionManager.cpp:239), and looks connections up in the map of that one
(ConnectionManager.cpp:250).  An assignment copies the members too, and leaves every captured `this` as it is.
-/

namespace Verif

/-- A manager: its members, and the manager whose `this` the handler of its bound socket has captured.  A manager has at
most one bound socket (C43). -/
structure Face where
  incarnation : BitVec 16
  table : List (BitVec 16 × Nat) := []
  sockets : List EndPoint := []
  owner : Nat := 0
deriving Repr, DecidableEq

/-- The managers made so far, in order, with those destroyed, the connection objects of all of them, and the statics of
`forwardOpen` (ConnectionManager.cpp:54,61,66). -/
structure Copies where
  statics : Statics := {}
  heap : List Conn := []
  held : List Nat := []
  faces : List Face := []
  gone : List Nat := []
deriving Repr, DecidableEq

/-- What a program does. -/
inductive CopyOp where
  /-- construct a manager; the argument is the number drawn at random -/
  | create (incarnation : BitVec 16)
  /-- construct a manager as a copy of manager `i` -/
  | copy (i : Nat)
  /-- assign manager `j` to manager `i` -/
  | assign (i j : Nat)
  /-- destroy manager `i` -/
  | destroy (i : Nat)
  /-- a call of manager `i`, or a call through a pointer to a connection -/
  | call (i : Nat) (op : MOp)

/-- The result of an operation; `noSuch`: no program does this. -/
inductive CopyRes where
  | ok (p : Copies) (evs : List MEv) (ret : MRet)
  | stop (evs : List MEv) (why : Stop)
  | noSuch

namespace Copies

/-- The objects that some `shared_ptr` keeps: of the program, or in the map of some manager. -/
def kept (p : Copies) : List Nat := p.held ++ p.faces.flatMap fun f => f.table.map (·.2)

/-- Manager `f` as the class sees itself. -/
def view (p : Copies) (f : Face) : Mgr :=
  { incarnation := f.incarnation, statics := p.statics, table := f.table, sockets := f.sockets, heap := p.heap, held := p.kept }

/-- Was a bound socket made? -/
def bound : List MEv → Bool
  | [] => false
  | .bound _ :: _ => true
  | _ :: es => bound es

/-- The strong pointers of the program after a call. -/
def heldAfter (p : Copies) : MOp → List Nat
  | .lock id => if p.kept.contains id then id :: p.held else p.held
  | .release id => p.held.erase id
  | _ => p.held

/-- The process after a call of manager `i` that left it as `m`. -/
def store (p : Copies) (i : Nat) (f : Face) (op : MOp) (m : Mgr) (evs : List MEv) : Copies :=
  { p with
    statics := m.statics, heap := m.heap, held := p.heldAfter op,
    faces := p.faces.set i { f with table := m.table, sockets := m.sockets, owner := if bound evs then i else f.owner } }

/-- The map in which the handler of the socket made by manager `o` looks (ConnectionManager.cpp:239,250), if this manager
still exists. -/
def handlerTable (p : Copies) (o : Nat) : Option (List (BitVec 16 × Nat)) :=
  if p.gone.contains o then none else p.faces[o]?.map (·.table)

/-- The waits of `handleConnections` (ConnectionManager.cpp:214-215), with the handler looking in `tbl`, and the ticks
of the connections of manager `i` (ConnectionManager.cpp:217-226). -/
def serve (P : Plat) (p : Copies) (i : Nat) (f : Face) (tbl : List (BitVec 16 × Nat)) (start : Nat) (timeoutMs : Int)
    (rounds : List Round) (ticks : Nat → TickEnv) : CopyRes :=
  match Mgr.selectLoop P (start + timeoutMs * 1000000) start rounds { p.view f with table := tbl } with
  | .ub evs => .stop evs .ub
  | .threw m evs e => .ok { p with heap := m.heap } evs (.threw e)
  | .go m evs =>
    match Mgr.tickAll ticks f.table m.heap with
    | (heap, evs', keys, none) =>
      .ok { p with heap := heap, faces := p.faces.set i { f with table := f.table.filter fun e => !keys.contains e.1 } }
        (evs ++ evs') .unit
    | (heap, evs', _, some e) => .ok { p with heap := heap } (evs ++ evs') (.threw e)

/-- The handler (ConnectionManager.cpp:239-257) for the first arrival `a`, when its manager was destroyed: what is before
the use of the map can end it; the use of the map is undefined. -/
def stray (P : Plat) (p : Copies) (f : Face) (a : Arrival) (waited : MEv) : CopyRes :=
  match Mgr.deliver P a.recv { p.view f with table := [] } with
  | .ub => .stop [waited] .ub
  | .throw e => .ok p [waited] (.threw e)
  | .ok _ => .stop [waited] .ub

/-- `ConnectionManager::handleConnections` (ConnectionManager.cpp:207-227) of manager `i`: the handler uses the manager
that made the socket, and the connections of `i` are ticked. -/
def handle (P : Plat) (p : Copies) (i : Nat) (f : Face) (start : Nat) (timeoutMs : Int) (rounds : List Round)
    (ticks : Nat → TickEnv) : CopyRes :=
  match f.sockets with
  | [] => .stop [] .ub
  | _ :: _ =>
    match p.handlerTable f.owner, rounds with
    | none, .ready a _ _ :: _ =>
      p.stray P f a (.waited (makePortableInterval (Mgr.remainingMs (start + timeoutMs * 1000000) start)))
    | tbl, rounds => p.serve P i f (tbl.getD []) start timeoutMs rounds ticks

/-- Can the operation be called?  The manager must not be destroyed, unless only a connection is used. -/
def callable (p : Copies) (i : Nat) (op : MOp) : Bool :=
  match op with
  | .otherOpen _ _ _ => false
  | op => Proc.onObject op || !p.gone.contains i

/-- A call of manager `i`. -/
def call (P : Plat) (p : Copies) (i : Nat) (op : MOp) : CopyRes :=
  match p.faces[i]? with
  | none => .noSuch
  | some f =>
    if p.callable i op then
      match op with
      | .handle start t rounds ticks => p.handle P i f start t rounds ticks
      | op =>
        match (p.view f).step P op with
        | .stop evs why => .stop evs why
        | .ok m evs ret => .ok (p.store i f op m evs) evs ret
    else .noSuch

/-- One operation.  Constructor: ConnectionManager.cpp:40-47; copy and assignment: member by member (ConnectionManager.h:77-82);
destructor: ConnectionManager.cpp:49, the socket is closed with the last manager that shares it. -/
def step (P : Plat) (p : Copies) : CopyOp → CopyRes
  | .create inc => .ok { p with faces := p.faces ++ [{ incarnation := inc }] } [] .unit
  | .copy i =>
    match p.faces[i]? with
    | none => .noSuch
    | some f => if p.gone.contains i then .noSuch else .ok { p with faces := p.faces ++ [f] } [] .unit
  | .assign i j =>
    match p.faces[i]?, p.faces[j]? with
    | some _, some g =>
      if p.gone.contains i || p.gone.contains j then .noSuch else .ok { p with faces := p.faces.set i g } [] .unit
    | _, _ => .noSuch
  | .destroy i =>
    match p.faces[i]? with
    | none => .noSuch
    | some f =>
      if p.gone.contains i then .noSuch
      else .ok { p with faces := p.faces.set i { f with table := [], sockets := [] }, gone := i :: p.gone } [] .unit
  | .call i op => p.call P i op

/-- A history of a process that is not stopped. -/
def run (P : Plat) (p : Copies) : List CopyOp → Option (Copies × List (CopyOp × List MEv × MRet))
  | [] => some (p, [])
  | op :: ops =>
    match p.step P op with
    | .ok p' evs ret => (p'.run P ops).map fun r => (r.1, (op, evs, ret) :: r.2)
    | _ => none

end Copies

end Verif
