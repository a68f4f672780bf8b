import Verif.Spec.Wire

/-!
# Specification: padded EPATHs and the message router request/response format

Written from CIP Volume 1, appendix C (logical segments) and section 2-4
(message router formats).  Identifiers are natural numbers.
-/

namespace Verif.Spec

/-- What a logical segment names. -/
inductive SegKind where
  | cls | inst | attr
deriving DecidableEq, Repr

/-- A logical segment in 8-bit form, or in 16-bit form with its pad byte. -/
inductive Seg where
  | short (k : SegKind) (id : Nat)
  | long (k : SegKind) (pad : BitVec 8) (id : Nat)
deriving DecidableEq, Repr

def SegKind.code8 : SegKind → BitVec 8
  | .cls => 0x20#8
  | .inst => 0x24#8
  | .attr => 0x30#8

def SegKind.code16 : SegKind → BitVec 8
  | .cls => 0x21#8
  | .inst => 0x25#8
  | .attr => 0x31#8

def Seg.bytes : Seg → List (BitVec 8)
  | .short k id => k.code8 :: le 1 id
  | .long k pad id => k.code16 :: pad :: le 2 id

/-- The identifier fits the form of the segment. -/
def Seg.Fits : Seg → Prop
  | .short _ id => id < 256
  | .long _ _ id => id < 65536

def Seg.kind : Seg → SegKind
  | .short k _ => k
  | .long k _ _ => k

def Seg.id : Seg → Nat
  | .short _ id => id
  | .long _ _ id => id

/-- The identifier named last for a kind, 0 when there is none. -/
def lastId (k : SegKind) (segs : List Seg) : Nat :=
  ((segs.filter fun s => s.kind = k).getLast?.map Seg.id).getD 0

/-- The six known segment codes. -/
def knownCodes : List (BitVec 8) := [0x20#8, 0x21#8, 0x24#8, 0x25#8, 0x30#8, 0x31#8]

/-- The bytes of a list of identifiers (class, instance, attribute in this
order), all in 8-bit or all in 16-bit form. -/
def pathBytes (use8 : Bool) (ids : List Nat) : List (BitVec 8) :=
  (List.zip [SegKind.cls, .inst, .attr] ids).flatMap fun p =>
    if use8 then (Seg.short p.1 p.2).bytes else (Seg.long p.1 0#8 p.2).bytes

/-- A request: service, path size in 16-bit words, path, data. -/
def mrRequest (service : Nat) (path : List (BitVec 8)) (data : List (BitVec 8)) : List (BitVec 8) :=
  le 1 service ++ le 1 (path.length / 2) ++ path ++ data

/-- A target's reading of a request: service, path, data. -/
def mrDecode : List (BitVec 8) → Option (Nat × List (BitVec 8) × List (BitVec 8))
  | s :: n :: rest =>
    if 2 * n.toNat ≤ rest.length then
      some (s.toNat, rest.take (2 * n.toNat), rest.drop (2 * n.toNat))
    else none
  | _ => none

/-- A response: service, reserved, status, number of additional status words, the
words, data. -/
def mrResponse (service reserved status : Nat) (extra : List Nat) (data : List (BitVec 8)) :
    List (BitVec 8) :=
  le 1 service ++ le 1 reserved ++ le 1 status ++ le 1 extra.length
    ++ extra.flatMap (le 2) ++ data

/-- A path of one, two or three identifiers as text. -/
def showPath : List Nat → String
  | [c] => s!"[classId={c}]"
  | [c, o] => s!"[classId={c} objectId={o}]"
  | [c, o, a] => s!"[classId={c} objectId={o} attributeId={a}]"
  | _ => ""

end Verif.Spec
