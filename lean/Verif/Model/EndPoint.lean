import Verif.Model.Buffer

/-!
# Model of `sockets::EndPoint`

Source: `src/sockets/EndPoint.{h,cpp}`.
-/

namespace Verif

/-- `sockets::EndPoint` (EndPoint.h:18-41): `_host`, `_port`, `_addr`; the getters
(EndPoint.cpp:44-54) are the fields. -/
structure EndPoint where
  host : String
  port : Int
  addr : SockAddr
deriving Repr, DecidableEq

/-- The four bytes of `s_addr` in memory order (little-endian host). -/
def octets (a : BitVec 32) : List Byte :=
  [a.setWidth 8, (a >>> 8).setWidth 8, (a >>> 16).setWidth 8, (a >>> 24).setWidth 8]

/-- `inet_ntoa`: the memory bytes in decimal, separated by dots (C library). -/
def inetNtoa (a : BitVec 32) : String :=
  String.intercalate "." ((octets a).map fun o => toString o.toNat)

/-- `AF_INET` on Linux. -/
def afInet : BitVec 16 := 2#16

namespace EndPoint

/-- `EndPoint(sockaddr_in&)` (EndPoint.cpp:22-26). -/
def ofSockAddr (a : SockAddr) : EndPoint :=
  { host := inetNtoa a.addr, port := (htons a.port).toNat, addr := a }

/-- `EndPoint(std::string, int)` (EndPoint.cpp:28-42).  `aton` is the C library's
`inet_aton`: `none` when it returns 0.  Since it never returns a negative number,
the `throw` at line 40 is unreachable and a bad host leaves the address zero
(`_addr{}`). -/
def ofHost (aton : String → Option (BitVec 32)) (host : String) (port : Int) : EndPoint :=
  { host, port,
    addr := { family := afInet, port := htons (BitVec.ofInt 16 port),
              addr := (aton host).getD 0#32 } }

/-- `EndPoint::operator==` (EndPoint.cpp:56-62). -/
def eq (l r : EndPoint) : Bool :=
  l.host == r.host && l.port == r.port && l.addr.addr == r.addr.addr
    && l.addr.port == r.addr.port && l.addr.family == r.addr.family

/-- `EndPoint::operator<` (EndPoint.cpp:68-71). -/
def lt (l r : EndPoint) : Bool := decide (l.host < r.host) && decide (l.port < r.port)

/-- `EndPoint::toString` (EndPoint.cpp:73-75). -/
def toStr (e : EndPoint) : String := e.host ++ ":" ++ toString e.port

end EndPoint

/-- `operator>>(sockets::EndPoint&)` (Buffer.cpp:189-200). -/
def Rd.endPoint : Rd EndPoint := do
  let a ← Rd.sockAddr
  pure (EndPoint.ofSockAddr a)

end Verif
