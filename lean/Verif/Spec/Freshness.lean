import Verif.Spec.Manager

/-!
# Specification vocabulary: which of the data a target produced reach the receive listener

A target numbers what it sends.  A network that carries datagrams may lose them, repeat them and change their
order, so what arrives is any list of these numbers, between datagrams for other connections.
-/

namespace Verif.Spec

open Verif

/-- What a target sends with each number: a run/idle header, used if the connection has one, and data. -/
structure Producer where
  header : Nat → BitVec 32
  value : Nat → List (BitVec 8)

/-- Does a connection's receive direction carry a 16-bit sequence count? -/
def counted (c : Conn) : Bool := hasCount c.transportTypeTrigger

/-- The datagram number n that the target sends on a connection: its identifier, the number as 32-bit sequence
number, header and 16-bit sequence count if the connection has them, and the data. -/
def Producer.frame (T : Producer) (c : Conn) (n : Nat) : List (BitVec 8) :=
  ioFrame c.t2oNetworkConnectionId.toNat (n % 2 ^ 32)
    (ioPayloadHeaderFirst (if counted c then some (n % 2 ^ 16) else none)
      (if c.t2oRealTimeFormat then some (T.header n).toNat else none) (T.value n))

/-- The target keeps to the agreed size, and no datagram exceeds 8192 bytes. -/
def Producer.Suits (T : Producer) (c : Conn) : Prop :=
  ∀ n, (c.t2oFixedSize = true → (T.value n).length = c.t2oDataSize) ∧ (T.frame c n).length ≤ 8192

/-- What the receive listener is given of number n. -/
def Producer.given (T : Producer) (c : Conn) (n : Nat) : BitVec 32 × BitVec 16 × List (BitVec 8) :=
  (if c.t2oRealTimeFormat then T.header n else 0, if counted c then BitVec.ofNat 16 n else 0, T.value n)

/-- One thing that arrives: the datagram the target sent with a number, or another datagram. -/
inductive Came where
  | own (n : Nat)
  | other (d : List (BitVec 8))

/-- The bytes that arrive. -/
def Came.recv (T : Producer) (c : Conn) : Came → Recv
  | .own n => .dgram (T.frame c n)
  | .other d => .dgram d

/-- The numbers that arrive, in the order of their arrival. -/
def owns : List Came → List Nat
  | [] => []
  | .own n :: xs => n :: owns xs
  | .other _ :: xs => owns xs

/-- A datagram whose identifier does not have these low 16 bits. -/
def Foreign (k : BitVec 16) (d : List (BitVec 8)) : Prop :=
  ∃ t0 addr rest, CpfAccepts (asReceived d) ((t0, addr) :: rest) ∧ 4 ≤ addr.length ∧ field addr 0 4 % 65536 ≠ k.toNat

/-- Everything that arrives during the calls of a history, in order. -/
def arrivedIn (tr : MTrace) : List Recv :=
  tr.flatMap fun e => match e.1 with
    | .handle _ _ rounds _ => arrivals rounds
    | _ => []

/-- The calls of the receive listener of one connection during a history: header, sequence count and data. -/
def heard (id : Nat) (tr : MTrace) : List (BitVec 32 × BitVec 16 × List (BitVec 8)) :=
  (connTrace id (allEvs tr)).flatMap fun e => e.2.filterMap fun
    | .received h n d => some (h, n, d)
    | _ => none

/-- Is one 16-bit sequence count newer than another?  As signed difference (Vol. 1, 3-4.4.3.1). -/
def newer (a b : BitVec 16) : Bool := (a - b).toNat != 0 && (a - b).toNat < 2 ^ 15

/-- What a listener keeps that drops all that is not newer than the last it kept. -/
def keepNewer (last : BitVec 16) :
    List (BitVec 32 × BitVec 16 × List (BitVec 8)) → List (BitVec 32 × BitVec 16 × List (BitVec 8))
  | [] => []
  | x :: xs => if newer x.2.1 last then x :: keepNewer x.2.1 xs else keepNewer last xs

/-- The numbers greater than all before them, and than `top`. -/
def records (top : Nat) : List Nat → List Nat
  | [] => []
  | n :: ns => if top < n then n :: records n ns else records top ns

/-- Each number is less than `w` above the greatest before it, and at most `w` below. -/
def Displaced (w top : Nat) : List Nat → Prop
  | [] => True
  | n :: ns => n < top + w ∧ top ≤ n + w ∧ Displaced w (max top n) ns

/-- Two arrivals that differ at most in the 32-bit sequence number of a datagram. -/
inductive Renumbered : Arrival → Arrival → Prop
  | same (a : Arrival) : Renumbered a a
  | other (cid q q' : Nat) (payload : List (BitVec 8)) (throws : Option Exn) (h : payload.length + 18 ≤ 8192) :
      Renumbered ⟨.dgram (ioFrame cid q payload), throws⟩ ⟨.dgram (ioFrame cid q' payload), throws⟩

/-- Lists of arrivals of which this holds one by one. -/
inductive RenumberedAll : List Arrival → List Arrival → Prop
  | nil : RenumberedAll [] []
  | cons {a b : Arrival} {as bs : List Arrival} (h : Renumbered a b) (hs : RenumberedAll as bs) :
      RenumberedAll (a :: as) (b :: bs)

/-- Two waits whose arrivals differ at most in these numbers. -/
inductive RenumberedRounds : List Round → List Round → Prop
  | nil : RenumberedRounds [] []
  | fail {rounds rounds' : List Round} (code : Int) (h : RenumberedRounds rounds rounds') :
      RenumberedRounds (.fail code :: rounds) (.fail code :: rounds')
  | ready {r r' : Arrival} {rs rs' : List Arrival} {rounds rounds' : List Round} (now : Nat)
      (hs : RenumberedAll (r :: rs) (r' :: rs')) (h : RenumberedRounds rounds rounds') :
      RenumberedRounds (.ready r rs now :: rounds) (.ready r' rs' now :: rounds')

/-- Calls of `handleConnections`, one every `p` nanoseconds from `now` on, each of which receives the same
datagram; the program leaves `data` to be sent, and the system refuses to send. -/
def replayCalls (p : Nat) (timeoutMs : Int) (d data : List (BitVec 8)) (now : Nat) : Nat → List MOp
  | 0 => []
  | n + 1 => .handle now timeoutMs [.ready ⟨.dgram d, none⟩ [] (now + p)]
      (fun _ => ⟨now + p, { left := some data }, -1⟩) :: replayCalls p timeoutMs d data (now + p) n

end Verif.Spec
