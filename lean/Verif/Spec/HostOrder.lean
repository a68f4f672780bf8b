import Verif.Spec.Manager
import Verif.Model.HostOrder

/-!
# Specification: addresses in memory and in messages
-/

namespace Verif.Spec

open Verif

/-- The text of an address. -/
def octetText (q : List (BitVec 8)) : String := String.intercalate "." (q.map fun o => toString o.toNat)

/-- A socket address item (Vol. 2, 2-6.3.3): family, port and address, the most significant octet first, and zeros. -/
def addressItem (family port : Nat) (q : List (BitVec 8)) : List (BitVec 8) :=
  be 2 family ++ be 2 port ++ q ++ List.replicate 8 0#8

/-- What the system sees of port and address of a `sockaddr_in`: memory, byte by byte. -/
def portAndAddress (h : Host) (a : SockAddr) : List (BitVec 8) :=
  if h.big then be 2 a.port.toNat ++ be 4 a.addr.toNat else le 2 a.port.toNat ++ le 4 a.addr.toNat

/-- The family found in a correct item, in the order of the host; 2 is the right one. -/
def familyRead (h : Host) : BitVec 16 :=
  match h.big, h.bsd with
  | false, false => 2#16
  | false, true => 0#16
  | true, false => 512#16
  | true, true => 2#16

end Verif.Spec
