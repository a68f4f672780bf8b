import Verif.Model.Descriptors

/-!
# Datagrams that arrive at times

What `recvfrom` gives to the loop of `discover` (DiscoveryManager.cpp:43-79) when datagrams
arrive at given times and the socket has the receive timeout that `makeSocket` set
(DiscoveryManager.cpp:91, BaseSocket.cpp:78-89).  `SO_RCVTIMEO` is part of the system, not of
the code: every `recvfrom` waits at most that long for a datagram and then fails with `EAGAIN`,
and a timeval of zero means no limit (socket(7)).  Times are microseconds.  The time that the
scanner needs between two calls of `recvfrom` is `busy`, any function of the number of the call.
-/

namespace Verif

namespace Discovery

/-- The limit that `SO_RCVTIMEO` with this timeval puts on one `recvfrom`, if any. -/
def rcvLimit (tv : Int × Int) : Option Nat :=
  if tv = (0, 0) then none else some (tv.1.toNat * 1000000 + tv.2.toNat)

/-- The results of the calls of `recvfrom`, the first of which is made at time `now`, and the time
at which the last of them returned; `none` if it does not return.  `i` counts the calls. -/
def timedRecvs (limit : Option Nat) (busy : Nat → Nat) : Nat → Nat → List (Nat × List Byte) → List Recv × Option Nat
  | _, now, [] =>
    match limit with
    | none => ([], none)
    | some t => ([.err endError], some (now + t))
  | i, now, (a, d) :: rest =>
    match limit with
    | none =>
      let r := timedRecvs limit busy (i + 1) (max now a + busy i) rest
      (.dgram d :: r.1, r.2)
    | some t =>
      if a ≤ now + t then
        let r := timedRecvs limit busy (i + 1) (max now a + busy i) rest
        (.dgram d :: r.1, r.2)
      else ([.err endError], some (now + t))

/-- `discover` (DiscoveryManager.cpp:37-87) on a network where these datagrams arrive at these
times, given that socket and sending succeed: the end, and when the last `recvfrom` returned. -/
def discoverAt (m : Mem) (alloc : Alloc) (broadCast : EndPoint) (timeoutMs : Int) (busy : Nat → Nat) (start : Nat)
    (arrivals : List (Nat × List Byte)) (s : Fds) : Fds × DiscRes × Option Nat :=
  let r := timedRecvs (rcvLimit (makePortableInterval timeoutMs)) busy 0 start arrivals
  let d := discoverFd m alloc broadCast timeoutMs { sendCount := 24, recvs := r.1 } s
  (d.1, d.2, r.2)

end Discovery

end Verif
