import Verif.Model.Windows

/-!
# What connecting and receiving mean on Windows

The error codes are those of Winsock: 10004 is `WSAEINTR`, 10036 `WSAEINPROGRESS`, 10040 `WSAEMSGSIZE`, 10060 `WSAETIMEDOUT`.
-/

namespace Verif.Spec

/-- The error with which establishing the connection fails. -/
def winConnectError (env : Win.WEnv) : Option Int :=
  match env.connect with
  | none => none
  | some e =>
    if e ≠ 10036 then some e
    else
      match env.selects.head?, env.sockopt with
      | some .ready, .ok 0 => none
      | some .ready, .ok err => some err
      | some .ready, .error e => some e
      | some (.error e), _ => if e = 10004 then some 10060 else some e
      | _, _ => some 10060

/-- A time to wait, in seconds and microseconds; none if it is not positive. -/
def plainWait (ms : Int) : Int × Int := if ms ≤ 0 then (0, 0) else (ms / 1000, ms % 1000 * 1000)

/-- The time that the Windows build waits: of the seconds 32 bits with sign are kept. -/
def winWait (ms : Int) : Int × Int :=
  (if Int.bmod (ms.tdiv 1000) (2 ^ 32) < 0 then 0 else Int.bmod (ms.tdiv 1000) (2 ^ 32), (plainWait ms).2)

/-- The calls of Winsock that connecting makes. -/
def winCalls (env : Win.WEnv) (timeoutMs : Int) : List Win.WSys :=
  let select := Win.WSys.select env.socket (winWait timeoutMs).1 (winWait timeoutMs).2
  .socket :: .connect env.socket ::
    ((if env.connect = some 10036 then
        select :: (if env.selects.head? = some .ready then [.getsockopt env.socket] else [])
      else []) ++
      (if winConnectError env = none then [] else [.closesocket env.socket]))

/-- The error with which opening a bound UDP socket fails. -/
def winBindError (env : Win.BEnv) : Option Int := env.reuse.or env.bind

/-- The calls of Winsock that opening a bound UDP socket makes. -/
def winBindCalls (env : Win.BEnv) : List Win.WSys :=
  [.socket, .setsockopt env.socket] ++ (if env.reuse = none then [.bind env.socket] else []) ++
    (if winBindError env = none then [] else [.shutdown env.socket, .closesocket env.socket])

/-- The code of another system for an error: the end of waiting has the codes 10060 and 11. -/
def otherCode (code : Int) : Int := if code = 10060 then 11 else if code = 11 then 10060 else code

/-- The result of a call of `recvfrom` on the other system. -/
def otherRecv : Recv → Recv
  | .err code => .err (otherCode code)
  | .dgram d => .dgram d

/-- The end of a discovery on the other system. -/
def otherEnd : Discovery.DiscRes → Discovery.DiscRes
  | .threw (.system code) => .threw (.system (otherCode code))
  | r => r

/-- All datagrams have at most this size. -/
def Fit (size : Nat) (rs : List Recv) : Prop := ∀ d, Recv.dgram d ∈ rs → d.length ≤ size

end Verif.Spec
