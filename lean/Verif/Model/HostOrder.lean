import Verif.Model.EndPoint

/-!
# Model of end points on hosts with another byte order or another layout of addresses

The rest of the model has a little-endian host with Linux's layout of `sockaddr_in`.  Of the code modelled, only the end
points depend on this: every other number goes into a buffer and out of it by shifts of its value (Buffer.cpp:21-178),
and every `reinterpret_cast` has the size of the object it is applied to (Buffer.cpp:61,87,121,125,129,133,137; the
enumerations of EPath.cpp:12, Types.h:30, Services.h:13, GeneralStatusCodes.h:13, EncapsPacket.h:17,30) except the one of
`sin_family` (Buffer.cpp:192).
-/

namespace Verif

/-- What matters of a host: the byte order of integers in memory, and whether `sin_family` has one byte, after a length
byte, as on macOS and the BSDs, or two. -/
structure Host where
  big : Bool := false
  bsd : Bool := false
deriving Repr, DecidableEq

namespace Host

/-- The bytes of a 16-bit integer in memory. -/
def image16 (h : Host) (v : BitVec 16) : List Byte :=
  if h.big then [(v >>> 8).setWidth 8, v.setWidth 8] else [v.setWidth 8, (v >>> 8).setWidth 8]

/-- The bytes of a 32-bit integer in memory. -/
def image32 (h : Host) (v : BitVec 32) : List Byte := if h.big then (octets v).reverse else octets v

/-- The integer with these four bytes in memory. -/
def load32 (h : Host) (a b c d : Byte) : BitVec 32 :=
  if h.big then a ++ b ++ c ++ d else d ++ c ++ b ++ a

/-- `htons`. -/
def htons (h : Host) (v : BitVec 16) : BitVec 16 := if h.big then v else Verif.htons v

/-- `inet_ntoa`: the memory bytes in decimal, separated by dots (C library). -/
def inetNtoa (h : Host) (a : BitVec 32) : String :=
  String.intercalate "." ((h.image32 a).map fun o => toString o.toNat)

/-- `EndPoint(sockaddr_in&)` (EndPoint.cpp:22-26). -/
def ofSockAddr (h : Host) (a : SockAddr) : EndPoint :=
  { host := h.inetNtoa a.addr, port := (h.htons a.port).toNat, addr := a }

/-- `EndPoint(std::string, int)` (EndPoint.cpp:28-42).  `aton` is `inet_aton`, with the four bytes that it stores. -/
def ofHost (h : Host) (aton : String → Option (Byte × Byte × Byte × Byte)) (host : String) (port : Int) : EndPoint :=
  { host, port,
    addr := { family := afInet, port := h.htons (BitVec.ofInt 16 port),
              addr := match aton host with
                | some (a, b, c, d) => h.load32 a b c d
                | none => 0#32 } }

/-- `operator<<(sockets::EndPoint)` (Buffer.cpp:180-187). -/
def putSockAddr (h : Host) (b : Buffer) (a : SockAddr) : Buffer :=
  (((b.putU16 (h.htons a.family)).putU16 a.port).putU32 a.addr).putBytes (List.replicate 8 0#8)

/-- What is left in `sin_family` when a 16-bit integer is stored at its address (Buffer.cpp:192): the integer, or its
first byte in memory.  With one byte the second one goes to `sin_port`, which is written next. -/
def storeFamily (h : Host) (v : BitVec 16) : BitVec 16 :=
  if h.bsd then ((h.image16 v).headD 0).setWidth 16 else v

/-- `addr.sin_family = htons(addr.sin_family)` (Buffer.cpp:197), cut to the size of `sin_family`. -/
def swapFamily (h : Host) (v : BitVec 16) : BitVec 16 :=
  if h.bsd then (h.htons v).setWidth 8 |>.setWidth 16 else h.htons v

/-- `operator>>(sockets::EndPoint&)` (Buffer.cpp:189-200). -/
def readEndPoint (h : Host) : Rd EndPoint := do
  let family ← Rd.u16
  let port ← Rd.u16
  let addr ← Rd.u32
  let _ ← Rd.bytes 8
  pure (h.ofSockAddr ⟨h.swapFamily (h.storeFamily family), port, addr⟩)

end Host

end Verif
