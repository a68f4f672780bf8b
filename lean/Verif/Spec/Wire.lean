/-!
# Wire-format specification: integers as bytes

Written from the EtherNet/IP (CIP Volume 1, Appendix C) data encoding rules and
from RFC byte order for socket addresses.  Nothing here refers to the model.
-/

namespace Verif.Spec

/-- The `n` base-256 digits of `v`, least significant first. -/
def le : Nat → Nat → List (BitVec 8)
  | 0, _ => []
  | n + 1, v => BitVec.ofNat 8 (v % 256) :: le n (v / 256)

/-- The `n` base-256 digits of `v`, most significant first. -/
def be (n v : Nat) : List (BitVec 8) := (le n v).reverse

/-- The number denoted by a list of base-256 digits, least significant first. -/
def ofLe : List (BitVec 8) → Nat
  | [] => 0
  | b :: bs => b.toNat + 256 * ofLe bs

/-- The unsigned little-endian number in `n` bytes at offset `off`. -/
def field (bs : List (BitVec 8)) (off n : Nat) : Nat := ofLe ((bs.drop off).take n)

end Verif.Spec
