import Verif.Model.UdpUser

/-!
# Datagrams, one after the other
-/

namespace Verif.Spec

open Verif.UdpUser

/-- The operation takes something from the queue. -/
def Op.takes : UdpUser.Op → Bool
  | .receive _ => true
  | .receiveFrom _ => true
  | _ => false

/-- How many bytes it asks for. -/
def Op.asks : UdpUser.Op → Nat
  | .receive n => n
  | .receiveFrom n => n
  | _ => 0

/-- What a call that asks for `n` bytes must see: always `n` bytes, byte `k` being that of the datagram, or 0 beyond its end. -/
def Sees (n : Nat) : UdpUser.Arrival → Seen → Prop
  | .dgram d _, .got b => b.length = n ∧ ∀ k, k < n → b.getD k 0 = d.getD k 0
  | .err c, .threw c' => c = c'
  | _, _ => False

/-- Each call that takes an arrival sees the next one; `taken` are all that are taken. -/
def SeenInOrder : List UdpUser.Op → List UdpUser.Arrival → List Seen → Prop
  | [], taken, seen => taken = [] ∧ seen = []
  | op :: ops, taken, seen => ∃ e es, seen = e :: es ∧
    if Op.takes op then ∃ a rest, taken = a :: rest ∧ Sees (Op.asks op) a e ∧ SeenInOrder ops rest es else SeenInOrder ops taken es

end Verif.Spec
