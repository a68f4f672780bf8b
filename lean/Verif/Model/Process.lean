import Verif.Model.ConnManager

/-!
# Model of several connection managers in one process

Source: `src/ConnectionManager.{h,cpp}`.

The counters of `forwardOpen` are function-local statics, so all managers of a process share them.  Everything else
is a member.  A connection object can be kept by the program beyond the life of its manager, and a pointer to a
connection of one manager can be passed to `forwardClose` of another.  All managers are used by one thread.
-/

namespace Verif

/-- The managers made so far, in order, with those destroyed, and the statics of `forwardOpen`
(ConnectionManager.cpp:54,61,66).  The `statics` fields of the managers are not used. -/
structure Proc where
  statics : Statics := {}
  mgrs : List Mgr := []
  gone : List Nat := []
deriving Repr, DecidableEq

/-- The operations of a process. -/
inductive POp where
  /-- construct a manager; the argument is the number drawn at random -/
  | create (incarnation : BitVec 16)
  /-- a call of manager `i`, or a call through a pointer to one of its connections -/
  | call (i : Nat) (op : MOp)
  /-- `forwardClose` of manager `i` with a pointer to the connection `id` of manager `j` -/
  | closeOf (i j id : Nat) (reply : Outcome MessageRouterResponse)
  /-- destroy manager `i` -/
  | destroy (i : Nat)

/-- The result of an operation; `noSuch`: no program does this (there is no such manager any more). -/
inductive PRes where
  | ok (p : Proc) (evs : List MEv) (ret : MRet)
  | stop (evs : List MEv) (why : Stop)
  | noSuch
deriving Repr, DecidableEq

namespace Proc

/-- Is the operation one on a connection object that the program may have kept? -/
def onObject : MOp → Bool
  | .setData _ _ | .lock _ | .release _ => true
  | _ => false

/-- Can the operation be called?  The manager must exist and not be destroyed, unless only a connection is used.
`otherOpen` is not a call: other managers are in the list. -/
def callable (p : Proc) (i : Nat) (op : MOp) : Bool :=
  match op with
  | .otherOpen _ _ _ => false
  | op => onObject op || !p.gone.contains i

/-- A call of manager `i`: it works on the shared statics (ConnectionManager.cpp:54-68). -/
def call (P : Plat) (p : Proc) (i : Nat) (op : MOp) : PRes :=
  match p.mgrs[i]? with
  | none => .noSuch
  | some m =>
    if p.callable i op then
      match ({ m with statics := p.statics } : Mgr).step P op with
      | .stop evs why => .stop evs why
      | .ok m' evs ret => .ok { p with statics := m'.statics, mgrs := p.mgrs.set i m' } evs ret
    else .noSuch

/-- `ConnectionManager::forwardClose` (ConnectionManager.cpp:175-205) of manager `i` with a pointer to a connection
of manager `j`: the request is built from the connection, the entry is erased from the map of `i`. -/
def closeOf (P : Plat) (p : Proc) (i j id : Nat) (reply : Outcome MessageRouterResponse) : PRes :=
  match p.mgrs[i]?, p.mgrs[j]? with
  | some mi, some mj =>
    if p.gone.contains i then .noSuch
    else if mj.alive id then
      match mj.heap[id]? with
      | none => .ok p [] .unit
      | some c =>
        let ev := MEv.request 0x4E#8 (EPath.mk2 6 1) (Mgr.closeRequest c).pack
        match reply with
        | .ub => .stop [ev] .ub
        | .throw x => .ok p [ev] (.threw x)
        | .ok _ =>
          let key := c.t2oNetworkConnectionId.setWidth 16
          match tblFind key mi.table with
          | some _ => .ok { p with mgrs := p.mgrs.set i { mi with table := tblErase key mi.table } } [ev] .unit
          | none => if P.ndebug then .ok p [ev] .unit else .stop [ev] .aborted
    else .ok p [] .unit
  | _, _ => .noSuch

/-- `~ConnectionManager() = default` (ConnectionManager.cpp:49): the maps are destroyed, so the sockets are closed
and the connections die that the program does not keep; nothing is sent.  Destroying twice is not done. -/
def destroy (p : Proc) (i : Nat) : PRes :=
  match p.mgrs[i]? with
  | none => .noSuch
  | some m =>
    if p.gone.contains i then .noSuch
    else .ok { p with mgrs := p.mgrs.set i { m with table := [], sockets := [] }, gone := i :: p.gone } [] .unit

/-- One operation.  Constructor: ConnectionManager.cpp:40-47. -/
def step (P : Plat) (p : Proc) : POp → PRes
  | .create inc => .ok { p with mgrs := p.mgrs ++ [Mgr.new inc {}] } [] .unit
  | .call i op => p.call P i op
  | .closeOf i j id reply => p.closeOf P i j id reply
  | .destroy i => p.destroy i

/-- A history of a process that is not stopped. -/
def run (P : Plat) (p : Proc) : List POp → Option (Proc × List (POp × List MEv × MRet))
  | [] => some (p, [])
  | op :: ops =>
    match p.step P op with
    | .ok p' evs ret =>
      match p'.run P ops with
      | none => none
      | some (p'', tr) => some (p'', (op, evs, ret) :: tr)
    | _ => none

end Proc

end Verif
