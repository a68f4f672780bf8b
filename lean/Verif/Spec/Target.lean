import Verif.Spec.Manager

/-!
# Specification: the connection manager object of a target

A target knows each connection by the connection triad (connection serial number,
originator vendor, originator serial number; Vol. 1, 3-5.5.2).  It opens a connection
when a forward open asks for a triad it does not have, and closes it when a forward
close names its triad.
-/

namespace Verif.Spec

open Verif

/-- A connection as a target knows it. -/
structure TConn where
  serial : Nat
  vendor : Nat
  originator : Nat
  t2o : Nat
deriving Repr, DecidableEq

/-- The connection triad. -/
def TConn.triad (c : TConn) : Nat × Nat × Nat := (c.serial, c.vendor, c.originator)

/-- The triad in the data of a (large) forward open (Vol. 1, table 3-5.17). -/
def openTriad (data : List (BitVec 8)) : Nat × Nat × Nat := (field data 10 2, field data 12 2, field data 14 4)

/-- The triad in the data of a forward close (Vol. 1, table 3-5.22). -/
def closeTriad (data : List (BitVec 8)) : Nat × Nat × Nat := (field data 2 2, field data 4 2, field data 6 4)

/-- A complete, successful reply to a forward open that made this connection. -/
def Accepts (c : TConn) (resp : MessageRouterResponse) : Prop :=
  resp.status = 0x00#8 ∧ 26 ≤ resp.data.length ∧ 26 + 2 * field resp.data 24 1 ≤ resp.data.length ∧
  field resp.data 4 4 = c.t2o ∧ field resp.data 8 2 = c.serial

/-- What a target with these connections may answer to a request, and the connections it has
then.  `rule` restricts which connections it may add. -/
inductive Answers (rule : List TConn → TConn → Prop) (T : List TConn) (svc : BitVec 8) (path : EPath)
    (data : List (BitVec 8)) (resp : MessageRouterResponse) : List TConn → Prop
  /-- a forward open for a triad it does not have -/
  | accepts (c : TConn) : svc = 0x54#8 ∨ svc = 0x5B#8 → path = EPath.mk2 6 1 → c.triad = openTriad data →
      (∀ d ∈ T, d.triad ≠ c.triad) → rule T c → Accepts c resp → Answers rule T svc path data resp (c :: T)
  /-- a forward open it refuses, or a request that is none of its services -/
  | refuses : (svc = 0x4E#8 → path ≠ EPath.mk2 6 1) → resp.status ≠ 0x00#8 → Answers rule T svc path data resp T
  /-- a forward close for a connection it has -/
  | closes : svc = 0x4E#8 → path = EPath.mk2 6 1 → (∃ c ∈ T, c.triad = closeTriad data) → resp.status = 0x00#8 →
      Answers rule T svc path data resp (T.filter fun c => decide (c.triad ≠ closeTriad data))
  /-- a forward close for a connection it does not have -/
  | unknown : svc = 0x4E#8 → path = EPath.mk2 6 1 → (∀ c ∈ T, c.triad ≠ closeTriad data) → resp.status ≠ 0x00#8 →
      Answers rule T svc path data resp T

/-- Is the event a request to the target? -/
def isRequest : MEv → Bool
  | .request _ _ _ => true
  | _ => false

/-- What the call got from the target: `none` if it does not exchange messages. -/
def replyTo : MOp → Option (Outcome MessageRouterResponse)
  | .forwardOpen _ _ _ e => some e.reply
  | .forwardClose _ reply => some reply
  | _ => none

/-- The requests of a history all reach one target, which answers them, and no answer is lost. -/
inductive Served (rule : List TConn → TConn → Prop) : List TConn → MTrace → List TConn → Prop
  | nil {T} : Served rule T [] T
  | quiet {T T' op evs ret tr} : evs.filter isRequest = [] → Served rule T tr T' →
      Served rule T ((op, evs, ret) :: tr) T'
  | exchange {T T1 T' op evs ret tr svc path data resp} : evs.filter isRequest = [.request svc path data] →
      replyTo op = some (.ok resp) → Answers rule T svc path data resp T1 → Served rule T1 tr T' →
      Served rule T ((op, evs, ret) :: tr) T'

/-- No restriction. -/
def anyIds (_ : List TConn) (_ : TConn) : Prop := True

/-- The T→O identifiers of the target's connections differ in their low 16 bits. -/
def lowDistinct (T : List TConn) (c : TConn) : Prop := ∀ d ∈ T, d.t2o % 65536 ≠ c.t2o % 65536

/-- A connection of the scanner, as the target should know it. -/
def asTarget (c : Conn) : TConn :=
  ⟨c.serialNumber.toNat, c.originatorVendorId.toNat, c.originatorSerialNumber.toNat, c.t2oNetworkConnectionId.toNat⟩

/-- The connection is in the table of the manager. -/
def OpenHere (s : Mgr) (x : TConn) : Prop := ∃ k id c, (k, id) ∈ s.table ∧ s.heap[id]? = some c ∧ asTarget c = x

/-- The user closes only connections that are open, or whose pointer has expired. -/
def ClosesOpen (P : Plat) (s : Mgr) (ops : List MOp) : Prop :=
  ∀ a id r b s1 tr1, ops = a ++ .forwardClose (some id) r :: b → s.run P a = some (s1, tr1) → s1.alive id = true →
    ∃ k, (k, id) ∈ s1.table

/-- Nothing that makes the scanner forget a connection of the target happens: no forward open
throws although the target accepted it, and no connection times out. -/
def NoLoss (tr : MTrace) : Prop :=
  (∀ host p large e evs x, (MOp.forwardOpen host p large e, evs, MRet.threw x) ∈ tr →
    ∀ resp, e.reply = .ok resp → resp.status ≠ 0x00#8) ∧
  (∀ id op evs, MEv.conn id op evs ∈ allEvs tr → IoEv.closed ∉ evs)

end Verif.Spec
