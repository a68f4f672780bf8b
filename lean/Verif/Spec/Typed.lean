import Verif.Spec.Wire

/-!
# Specification of typed values on the wire (property C01, C03)

A value is a CIP elementary value or one of the composite values the buffer
supports.  `bytesOf` is its encoding, `Fits` says that its length prefix can
hold the length, `need` is how many bytes a reader of the type must find.
Signed integers and floats are represented by their bit pattern.
-/

namespace Verif.Spec

/-- The types a user can stream. Vectors carry the element count. -/
inductive Ty where
  | u8 | u16 | u32 | u64
  | bytes (n : Nat)
  | words (n : Nat)
  | revision
  | shortString
  | longString
  | sockAddr
deriving DecidableEq, Repr

/-- A value of one of these types. -/
inductive Val where
  | u8 (v : BitVec 8)
  | u16 (v : BitVec 16)
  | u32 (v : BitVec 32)
  | u64 (v : BitVec 64)
  | bytes (v : List (BitVec 8))
  | words (v : List (BitVec 16))
  | revision (major minor : BitVec 8)
  | shortString (text : List (BitVec 8))
  | longString (text : List (BitVec 8))
  /-- family; port and IPv4 address in memory representation -/
  | sockAddr (family port : BitVec 16) (addr : BitVec 32)
deriving DecidableEq, Repr

def Val.ty : Val → Ty
  | .u8 _ => .u8
  | .u16 _ => .u16
  | .u32 _ => .u32
  | .u64 _ => .u64
  | .bytes v => .bytes v.length
  | .words v => .words v.length
  | .revision _ _ => .revision
  | .shortString _ => .shortString
  | .longString _ => .longString
  | .sockAddr _ _ _ => .sockAddr

/-- The text fits its length prefix. -/
def Val.Fits : Val → Prop
  | .shortString t => t.length < 256
  | .longString t => t.length < 65536
  | _ => True

/-- How many bytes a reader of the type must find in front of it. -/
def need : Ty → List (BitVec 8) → Nat
  | .u8, _ => 1
  | .u16, _ => 2
  | .u32, _ => 4
  | .u64, _ => 8
  | .bytes n, _ => n
  | .words n, _ => 2 * n
  | .revision, _ => 2
  | .shortString, rest => 1 + ofLe (rest.take 1)
  | .longString, rest => 2 + if rest.length < 2 then 0 else ofLe (rest.take 2)
  | .sockAddr, _ => 16

/-- What can be done with one buffer: write a value, or read one of a type. -/
inductive BufOp where
  | put (v : Val)
  | get (t : Ty)
deriving DecidableEq, Repr

/-- A queue of values: `put` appends, `get` takes the first value, which must be of the type asked
for.  The result: the values taken, and those still in the queue. -/
def queueRun : List BufOp → List Val → Option (List Val × List Val)
  | [], q => some ([], q)
  | .put v :: ops, q => queueRun ops (q ++ [v])
  | .get _ :: _, [] => none
  | .get t :: ops, v :: q => if v.ty = t then (queueRun ops q).map fun r => (v :: r.1, r.2) else none

end Verif.Spec
