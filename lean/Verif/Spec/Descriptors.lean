import Verif.Model.Descriptors
import Verif.Spec.Manager

/-!
# What correct use of descriptors means

Functions of the system calls alone, and of what the user can see.
-/

namespace Verif.Spec

open Verif

/-- One system call on a process with these open descriptors; `none`: the call is wrong,
because it uses or closes a descriptor that is not open, or gets one that already is. -/
def fdStep (opened : List Nat) : FdCall → Option (List Nat)
  | .socket fd => if fd ∈ opened then none else some (fd :: opened)
  | .otherOpened fd => if fd ∈ opened then none else some (fd :: opened)
  | .close fd => if fd ∈ opened then some (opened.erase fd) else none
  | .otherClosed fd => if fd ∈ opened then some (opened.erase fd) else none
  | .socketFailed => some opened
  | .reuseAddr fd => if fd ∈ opened then some opened else none
  | .broadcast fd => if fd ∈ opened then some opened else none
  | .rcvTimeout fd _ => if fd ∈ opened then some opened else none
  | .bind fd _ => if fd ∈ opened then some opened else none
  | .select nfds fds => if ∀ fd ∈ fds, fd ∈ opened ∧ fd < nfds then some opened else none
  | .sendto fd _ _ => if fd ∈ opened then some opened else none
  | .shutdown fd => if fd ∈ opened then some opened else none

/-- A sequence of system calls: the open descriptors afterwards, if no call was wrong. -/
def replay : List Nat → List FdCall → Option (List Nat)
  | l, [] => some l
  | l, c :: cs =>
    match fdStep l c with
    | none => none
    | some l' => replay l' cs

/-- The descriptors of the rest of the process after these calls. -/
def othersAfter : List Nat → List FdCall → List Nat
  | l, [] => l
  | l, .otherOpened fd :: cs => othersAfter (fd :: l) cs
  | l, .otherClosed fd :: cs => othersAfter (l.erase fd) cs
  | l, _ :: cs => othersAfter l cs

/-- The connection objects that a pointer can still reach: in the manager or held by the user. -/
def reachable (m : Mgr) : List Nat := (List.range m.heap.length).filter m.alive

/-- The manager's view of an operation. -/
def DOp.plain : DOp → Option MOp
  | .forwardOpen host p large e => some (.forwardOpen host p large e.plain)
  | .call op => some op
  | _ => none

/-- POSIX: the lowest descriptor that is not open. -/
def Lowest (alloc : Alloc) : Prop := ∀ l, alloc l ∉ l ∧ ∀ n < alloc l, n ∈ l

/-- Is the operation the destruction of the manager? -/
def DOp.isDestroy : DOp → Bool
  | .destroy => true
  | _ => false

/-- The process never has more than `n` descriptors open between two operations. -/
def NeverMore (P : Plat) (alloc : Alloc) (s : DMgr) (n : Nat) : List DOp → Prop
  | [] => s.fds.opened.length ≤ n
  | op :: ops => s.fds.opened.length ≤ n ∧ ∀ s' evs ret, s.step P alloc op = .ok s' evs ret → NeverMore P alloc s' n ops

end Verif.Spec
