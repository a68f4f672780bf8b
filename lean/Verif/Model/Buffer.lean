import Verif.Base.Outcome

/-!
# Model of `utils::Buffer`, `CipRevision`, `CipBaseString`, `EndPoint` stream operators

Source: `src/utils/Buffer.cpp`, `src/utils/Buffer.h`, `src/cip/CipString.h`,
`src/cip/CipRevision.{h,cpp}`, `src/sockets/EndPoint.{h,cpp}`.
-/

namespace Verif

/-- `utils::Buffer` (Buffer.h:33-119): the bytes and the read position.
Simplification: capacity (`reserve`) is not modelled. -/
structure Buffer where
  bytes : List Byte
  pos : Nat := 0
deriving Repr, DecidableEq

namespace Buffer

/-- `Buffer::Buffer()` and `Buffer(size_t)` (Buffer.cpp:10-12,18-19). -/
def empty : Buffer := ⟨[], 0⟩

/-- `Buffer::Buffer(const std::vector<uint8_t>&)` (Buffer.cpp:14-16). -/
def ofData (data : List Byte) : Buffer := ⟨data, 0⟩

/-- `Buffer::isValid` (Buffer.h:114). -/
def isValid (b : Buffer) : Bool := decide (b.pos ≤ b.bytes.length)

/-- `Buffer::empty` (Buffer.h:115). -/
def isEmpty (b : Buffer) : Bool := decide (b.pos ≥ b.bytes.length)

/-! ## Writers -/

/-- `operator<<(uint8_t)` and `operator<<(int8_t)` (Buffer.cpp:21-25,33-37); signed
values are represented by their bit pattern. -/
def putU8 (b : Buffer) (v : BitVec 8) : Buffer := { b with bytes := b.bytes ++ [v] }

/-- `operator<<(uint16_t)` and `operator<<(int16_t)` (Buffer.cpp:44-48,56-58). -/
def putU16 (b : Buffer) (v : BitVec 16) : Buffer :=
  { b with bytes := b.bytes ++ [v.setWidth 8, (v >>> 8).setWidth 8] }

/-- `operator<<(uint32_t)`, `operator<<(int32_t)` and `operator<<(float)` on the
bit pattern (Buffer.cpp:64-71,82-84,124-126). -/
def putU32 (b : Buffer) (v : BitVec 32) : Buffer :=
  { b with bytes := b.bytes ++
      [v.setWidth 8, (v >>> 8).setWidth 8, (v >>> 16).setWidth 8, (v >>> 24).setWidth 8] }

/-- `operator<<(uint64_t)`, `operator<<(int64_t)` and `operator<<(double)` on the
bit pattern (Buffer.cpp:90-101,116-118,132-134). -/
def putU64 (b : Buffer) (v : BitVec 64) : Buffer :=
  { b with bytes := b.bytes ++
      [v.setWidth 8, (v >>> 8).setWidth 8, (v >>> 16).setWidth 8, (v >>> 24).setWidth 8,
       (v >>> 32).setWidth 8, (v >>> 40).setWidth 8, (v >>> 48).setWidth 8, (v >>> 56).setWidth 8] }

/-- `operator<<(const std::vector<uint8_t>&)` (Buffer.cpp:140-143). -/
def putBytes (b : Buffer) (v : List Byte) : Buffer := { b with bytes := b.bytes ++ v }

/-- `operator<<(const std::vector<uint16_t>&)` (Buffer.cpp:151-158): the `for` loop. -/
def putWords (b : Buffer) : List (BitVec 16) → Buffer
  | [] => b
  | v :: vs => putWords { b with bytes := b.bytes ++ [v.setWidth 8, (v >>> 8).setWidth 8] } vs

end Buffer

/-! ## Readers -/

/-- A computation that reads from a buffer.  The first argument says what stray
reads do (see `Mem`). -/
def Rd (α : Type) := Mem → Buffer → Outcome (α × Buffer)

namespace Rd

protected def pure (a : α) : Rd α := fun _ b => .ok (a, b)
protected def bind (x : Rd α) (f : α → Rd β) : Rd β := fun m b =>
  match x m b with
  | .ok (a, b') => f a m b'
  | .throw e => .throw e
  | .ub => .ub

instance : Monad Rd where
  pure := Rd.pure
  bind := Rd.bind

/-- Throw an exception. -/
def throw (e : Exn) : Rd α := fun _ _ => .throw e

/-- The current buffer, for `isValid()`, `empty()`, `pos()`, `size()`. -/
def get : Rd Buffer := fun _ b => .ok (b, b)

/-- `_buffer[_position++]` (Buffer.cpp:28): an unchecked vector access. -/
def u8 : Rd (BitVec 8) := fun m b =>
  match b.bytes[b.pos]? with
  | some v => .ok (v, { b with pos := b.pos + 1 })
  | none =>
    match m b.pos with
    | some v => .ok (v, { b with pos := b.pos + 1 })
    | none => .ub

/-- `operator>>(uint16_t&)`, `operator>>(int16_t&)` (Buffer.cpp:50-54,60-62). -/
def u16 : Rd (BitVec 16) := do
  let b0 ← u8
  let b1 ← u8
  pure (b0.setWidth 16 + (b1.setWidth 32 <<< 8).setWidth 16)

/-- `operator>>(uint32_t&)`, `operator>>(int32_t&)`, `operator>>(float&)`
(Buffer.cpp:73-80,86-88,128-130). -/
def u32 : Rd (BitVec 32) := do
  let b0 ← u8
  let b1 ← u8
  let b2 ← u8
  let b3 ← u8
  pure (b0.setWidth 32 + b1.setWidth 32 <<< 8 + b2.setWidth 32 <<< 16 + b3.setWidth 32 <<< 24)

/-- `operator>>(uint64_t&)`, `operator>>(int64_t&)`, `operator>>(double&)`
(Buffer.cpp:103-114,120-122,136-138). -/
def u64 : Rd (BitVec 64) := do
  let b0 ← u8
  let b1 ← u8
  let b2 ← u8
  let b3 ← u8
  let b4 ← u8
  let b5 ← u8
  let b6 ← u8
  let b7 ← u8
  pure (b0.setWidth 64 + b1.setWidth 64 <<< 8 + b2.setWidth 64 <<< 16 + b3.setWidth 64 <<< 24
    + b4.setWidth 64 <<< 32 + b5.setWidth 64 <<< 40 + b6.setWidth 64 <<< 48 + b7.setWidth 64 <<< 56)

/-- `operator>>(std::vector<uint8_t>&)` for a vector of `n` elements
(Buffer.cpp:145-149).  Simplification: `std::copy` is a loop of unchecked reads. -/
def bytes : Nat → Rd (List Byte)
  | 0 => pure []
  | n + 1 => do
    let b ← u8
    let bs ← bytes n
    pure (b :: bs)

/-- `operator>>(std::vector<uint16_t>&)` for a vector of `n` elements
(Buffer.cpp:160-167).  Both halves go through `int16_t`, i.e. are sign-extended
to `int` before the 16-bit addition. -/
def words : Nat → Rd (List (BitVec 16))
  | 0 => pure []
  | n + 1 => do
    let b0 ← u8
    let b1 ← u8
    let lo : BitVec 16 := b0.setWidth 16
    let hi : BitVec 16 := (b1.setWidth 32 <<< 8).setWidth 16
    let v : BitVec 16 := (lo.setWidth 32 + hi.signExtend 32).setWidth 16
    let vs ← words n
    pure (v :: vs)

/-- Reading and dropping `n` bytes: `std::vector<uint8_t> ignore(n); buffer >> ignore`. -/
def skip (n : Nat) : Rd Unit := do
  let _ ← bytes n
  pure ()

end Rd

/-! ## CIP revision -/

/-- `cip::CipRevision` (CipRevision.h, CipRevision.cpp:8-18). -/
structure CipRevision where
  major : BitVec 8
  minor : BitVec 8
deriving Repr, DecidableEq

/-- `CipRevision::operator==` (CipRevision.cpp:19-22). -/
def CipRevision.eq (r other : CipRevision) : Bool := r.major == other.major && r.minor == other.minor

/-- `CipRevision::toString` (CipRevision.cpp:24-26). -/
def CipRevision.toStr (r : CipRevision) : String := toString r.major.toNat ++ "." ++ toString r.minor.toNat

/-- `operator<<(cip::CipRevision)` (Buffer.cpp:169-171). -/
def Buffer.putRevision (b : Buffer) (r : CipRevision) : Buffer := (b.putU8 r.major).putU8 r.minor

/-- `operator>>(cip::CipRevision&)` (Buffer.cpp:173-178). -/
def Rd.revision : Rd CipRevision := do
  let major ← Rd.u8
  let minor ← Rd.u8
  pure ⟨major, minor⟩

/-! ## CIP strings -/

/-- `cip::CipBaseString<T>` with `T` of `w` bits (CipString.h:14-50): the stored
length has the width of `T`, the data is kept whole. -/
structure CipString (w : Nat) where
  length : BitVec w
  data : List Byte
deriving Repr, DecidableEq

/-- `CipBaseString(const std::string&)` / `CipBaseString(const std::vector<uint8_t>&)`
(CipString.h:19-28): `_length` is the size converted to `T`. -/
def CipString.ofBytes (w : Nat) (data : List Byte) : CipString w :=
  ⟨BitVec.ofNat w data.length, data⟩

/-- `CipShortString` (CipString.h:49): `T = CipUsint`. -/
abbrev CipShortString := CipString 8

/-- `CipLongString`/`CipString` (CipString.h:50): `T = CipUint`. -/
abbrev CipLongString := CipString 16

/-- `operator<<(const CipBaseString<CipUsint>&)` (Buffer.h:89-92). -/
def Buffer.putShortString (b : Buffer) (s : CipShortString) : Buffer :=
  (b.putU8 s.length).putBytes s.data

/-- `operator<<(const CipBaseString<CipUint>&)` (Buffer.h:89-92). -/
def Buffer.putLongString (b : Buffer) (s : CipLongString) : Buffer :=
  (b.putU16 s.length).putBytes s.data

/-- `operator>>(CipBaseString<CipUsint>&)` (Buffer.h:94-103). -/
def Rd.shortString : Rd CipShortString := do
  let length ← Rd.u8
  let data ← Rd.bytes length.toNat
  pure (CipString.ofBytes 8 data)

/-- `operator>>(CipBaseString<CipUint>&)` (Buffer.h:94-103). -/
def Rd.longString : Rd CipLongString := do
  let length ← Rd.u16
  let data ← Rd.bytes length.toNat
  pure (CipString.ofBytes 16 data)

/-! ## Socket addresses -/

/-- The parts of `sockaddr_in` the library uses, as the host sees them:
`sin_family`, `sin_port` and `s_addr` are integers of the host whose *memory*
bytes are in network order.  Little-endian host. -/
structure SockAddr where
  family : BitVec 16
  port : BitVec 16
  addr : BitVec 32
deriving Repr, DecidableEq

/-- `htons` on a little-endian host: swap the two bytes. -/
def htons (v : BitVec 16) : BitVec 16 := (v <<< 8) ||| (v >>> 8)

/-- `operator<<(sockets::EndPoint)` (Buffer.cpp:180-187). -/
def Buffer.putSockAddr (b : Buffer) (a : SockAddr) : Buffer :=
  (((b.putU16 (htons a.family)).putU16 a.port).putU32 a.addr).putBytes (List.replicate 8 0#8)

/-- `operator>>(sockets::EndPoint&)` up to the construction of the `EndPoint`
from the `sockaddr_in` (Buffer.cpp:189-200). -/
def Rd.sockAddr : Rd SockAddr := do
  let family ← Rd.u16
  let port ← Rd.u16
  let addr ← Rd.u32
  let _ ← Rd.bytes 8
  pure ⟨htons family, port, addr⟩

end Verif
