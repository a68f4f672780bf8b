import Verif.Spec.Eip

/-!
# Specification: implicit (I/O) messages

CIP Volume 2, section 2-6 (sequenced address item, connected data item) and
Volume 1, section 3-6 (real-time formats).
-/

namespace Verif.Spec

/-- Does the transport class carry a sequence count?  The class is in the low four
bits of the transport/trigger byte; classes 1, 2 and 3 do. (The scanner looks at
the low two bits.) -/
def hasCount (trigger : BitVec 8) : Bool := trigger.toNat % 4 != 0

/-- The application part of an I/O message as this scanner transmits it: sequence
count if any, run/idle header if any, data. -/
def ioPayload (count : Option Nat) (header : Option Nat) (data : List (BitVec 8)) : List (BitVec 8) :=
  (match count with | some n => le 2 n | none => []) ++
  (match header with | some h => le 4 h | none => []) ++ data

/-- The application part with the header before the count. -/
def ioPayloadHeaderFirst (count : Option Nat) (header : Option Nat) (data : List (BitVec 8)) :
    List (BitVec 8) :=
  (match header with | some h => le 4 h | none => []) ++
  (match count with | some n => le 2 n | none => []) ++ data

/-- An I/O datagram: sequenced address item (connection identifier, sequence
number) and connected data item. -/
def ioFrame (connectionId seqNumber : Nat) (payload : List (BitVec 8)) : List (BitVec 8) :=
  cpf [(0x8002, le 4 connectionId ++ le 4 seqNumber), (0xB1, payload)]

/-- Whole milliseconds counted over successive clock readings (in nanoseconds),
starting from `last`: each gap loses its fraction. -/
def countedMs (last : Nat) : List Nat → Nat
  | [] => 0
  | now :: rest => (now - last) / 1000000 + countedMs now rest

end Verif.Spec
