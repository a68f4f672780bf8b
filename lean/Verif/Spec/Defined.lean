import Verif.Spec.Manager
import Verif.Spec.Eip

/-!
# Specification: which calls of a connection manager have a defined outcome
-/

namespace Verif.Spec

open Verif

/-- A datagram that breaks the rules: it is not a common packet, its first item has no room for an
identifier, or its second has no room for the header of the connection it is for. -/
def Malformed (s : Mgr) (d : List Byte) : Prop :=
  (¬ ∃ items, CpfAccepts (asReceived d) items) ∨
  ∃ t0 addr rest, CpfAccepts (asReceived d) ((t0, addr) :: rest) ∧ (addr.length < 4 ∨
    ∃ k id c t1 payload more, (k, id) ∈ s.table ∧ s.heap[id]? = some c ∧ k.toNat = field addr 0 4 % 65536 ∧
      rest = (t1, payload) :: more ∧ payload.length < headLen c)

/-- An arrival after which the wait goes on: a datagram for nobody, or one for an open connection that is
ignored for its size or given to a listener that returns. -/
def GoesOn (s : Mgr) (a : Arrival) : Prop :=
  ∃ d t0 addr rest, a.recv = .dgram d ∧ CpfAccepts (asReceived d) ((t0, addr) :: rest) ∧ 4 ≤ addr.length ∧
    ((∀ e ∈ s.table, e.1.toNat ≠ field addr 0 4 % 65536) ∨
     ∃ k id c t1 payload more, (k, id) ∈ s.table ∧ s.heap[id]? = some c ∧ k.toNat = field addr 0 4 % 65536 ∧
      rest = (t1, payload) :: more ∧ headLen c ≤ payload.length ∧
      ((c.t2oFixedSize = true ∧ payload.length - headLen c ≠ c.t2oDataSize) ∨ a.throws = none))

/-- The first arrival after which the wait does not go on is a malformed datagram. -/
def MeetsMalformed (s : Mgr) (rounds : List Round) : Prop :=
  ∃ before r rs now after pre a post d, rounds = before ++ .ready r rs now :: after ∧
    (∀ b ∈ before, ∃ r rs now, b = .ready r rs now ∧ ∀ x ∈ r :: rs, GoesOn s x) ∧
    r :: rs = pre ++ a :: post ∧ (∀ x ∈ pre, GoesOn s x) ∧ a.recv = .dgram d ∧ Malformed s d

/-- A reply to a forward open with all its fields and the application data it announces. -/
def CompleteReply (data : List Byte) : Prop := 26 ≤ data.length ∧ 26 + 2 * field data 24 1 ≤ data.length

/-- The first socket address item for O→T is shorter than a socket address. -/
def ShortAddress (items : List CommonPacketItem) : Prop :=
  ∃ pre i post, items = pre ++ i :: post ∧ (∀ j ∈ pre, j.typeId ≠ 0x8000#16) ∧ i.typeId = 0x8000#16 ∧ i.data.length < 16

/-- Can a weak pointer to the connection still be locked? -/
def Reachable (s : Mgr) (id : Nat) : Prop := (∃ k, (k, id) ∈ s.table) ∨ id ∈ s.held

/-- The calls that leave the process without a defined state, after a history. -/
def Undefined (s : Mgr) (tr : MTrace) : MOp → Prop
  | .forwardOpen _ p _ e => s.statics.serial = 2 ^ 31 - 1 ∨ e.reply = .ub ∨
      ∃ resp, e.reply = .ok resp ∧ resp.status = 0x00#8 ∧
        (¬ CompleteReply resp.data ∨ 32 ≤ p.connectionTimeoutMultiplier.toNat ∨ ShortAddress resp.additionalItems)
  | .otherOpen _ _ _ => s.statics.serial = 2 ^ 31 - 1
  | .forwardClose (some id) reply => Reachable s id ∧ reply = .ub
  | .handle _ _ rounds _ => (¬ ∃ e ∈ tr, ∃ id, e.2.2 = .ptr (some id)) ∨ MeetsMalformed s rounds
  | _ => False

/-- The calls that an assertion ends: closing, through a pointer the user kept, a connection that has left
the manager, when no open connection has the same low 16 bits of its identifier. -/
def Asserts (P : Plat) (s : Mgr) : MOp → Prop
  | .forwardClose (some id) (.ok _) => P.ndebug = false ∧ Reachable s id ∧
      ∃ c, s.heap[id]? = some c ∧ ∀ e ∈ s.table, e.1.toNat ≠ c.t2oNetworkConnectionId.toNat % 65536
  | _ => False

/-! ## Histories -/

/-- The bytes before the data that connections opened with these parameters receive. -/
def headLenOf (p : ConnectionParameters) : Nat :=
  (if p.t2oRealTimeFormat then 4 else 0) + (if hasCount p.transportTypeTrigger then 2 else 0)

/-- A datagram as targets send it: a common packet whose first item has an identifier and whose second has
at least n bytes. -/
def Proper (n : Nat) (d : List Byte) : Prop :=
  ∃ t0 addr t1 payload rest, CpfAccepts (asReceived d) ((t0, addr) :: (t1, payload) :: rest) ∧ 4 ≤ addr.length ∧ n ≤ payload.length

/-- A call with proper arguments, to a target and a network that keep to the rules: the timeout code is below 32,
replies are readable and complete, and every datagram has room for the header of each connection. -/
def ProperCall (n : Nat) : MOp → Prop
  | .forwardOpen _ p _ e => headLenOf p ≤ n ∧ p.connectionTimeoutMultiplier.toNat < 32 ∧ e.reply ≠ .ub ∧
      ∀ resp, e.reply = .ok resp → resp.status = 0x00#8 → CompleteReply resp.data ∧ ¬ ShortAddress resp.additionalItems
  | .forwardClose _ reply => reply ≠ .ub
  | .handle _ _ rounds _ => ∀ a ∈ receivedIn rounds, ∀ d, a.recv = .dgram d → Proper n d
  | _ => True

/-- The user waits only after a forward open returned a connection. -/
def WaitsAfterOpen (P : Plat) (s : Mgr) (ops : List MOp) : Prop :=
  ∀ a start t rounds ticks b s1 tr1, ops = a ++ .handle start t rounds ticks :: b → s.run P a = some (s1, tr1) →
    ∃ e ∈ tr1, ∃ id, e.2.2 = .ptr (some id)

end Verif.Spec
