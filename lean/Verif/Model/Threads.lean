import Verif.Model.Tcp

/-!
# Model of several threads that use one session

Source: `src/SessionInfo.cpp`, `src/sockets/TCPSocket.cpp`.

`sendAndReceive` is `const`, takes no lock and changes no member, so threads that share a session interfere only
through the socket.  Each system call is one step.  Simplifications: `send` always takes the whole packet; the peer
answers each packet at once with one packet, and what it answers arrives in order; a wait of `recv` ends with data or
with the receive timeout.
-/

namespace Verif.Threads

/-- Where a thread is in `sendAndReceive` (SessionInfo.cpp:47-53, TCPSocket.cpp:141-169): outside of it, or in
`Receive` of the header or of the rest, with the bytes stored so far. -/
inductive Phase where
  | idle
  | header (got : List Byte)
  | body (header : List Byte) (length : Nat) (got : List Byte)
deriving Repr, DecidableEq

/-- A thread: the packets it will send and where it is. -/
structure Thread where
  todo : List EncapsPacket
  phase : Phase := .idle
deriving Repr, DecidableEq

/-- The peer, the bytes that wait to be received, the threads; so far: what each thread was answered, in the order of
the requests at the peer, and what the calls returned or threw, in the order in which they ended. -/
structure Sys (δ : Type) where
  dev : δ
  inc : List Byte := []
  thr : Nat → Thread
  served : List (Nat × EncapsPacket × EncapsPacket) := []
  ended : List (Nat × Outcome EncapsPacket) := []

/-- A step of a thread: `send`; a `recv` that stores `k` bytes; a `recv` that times out. -/
inductive Act where
  | send (i : Nat)
  | recv (i k : Nat)
  | timeout (i : Nat)
deriving Repr, DecidableEq

/-- `sendAndReceive` after the last `Receive` (SessionInfo.cpp:53-68). -/
def conclude (m : Mem) (handle : BitVec 32) (bytes : List Byte) : Outcome EncapsPacket :=
  match EncapsPacket.parse m bytes with
  | .ub => .ub
  | .throw e => .throw e
  | .ok p =>
    if p.status ≠ encapsSuccess then .throw (.runtime "Bad encaps packet code")
    else if handle ≠ 0#32 ∧ p.sessionHandle ≠ handle then .throw (.runtime "Wrong session handle received")
    else .ok p

/-- How many bytes `Receive` still waits for (TCPSocket.cpp:144-146). -/
def room : Phase → Nat
  | .idle => 0
  | .header got => EncapsPacket.headerSize - got.length
  | .body _ length got => length - got.length

/-- What a thread does between two `recv`s: it goes on receiving, or the call ends (SessionInfo.cpp:49-68,
TCPSocket.cpp:144-169). -/
def advance (m : Mem) (handle : BitVec 32) (bytes : List Byte) : Phase → Phase ⊕ Outcome EncapsPacket
  | .idle => .inl .idle
  | .header got =>
    let got' := got ++ bytes
    if got'.length < EncapsPacket.headerSize then .inl (.header got')
    else
      match EncapsPacket.getLengthFromHeader got' with
      | .ub => .inr .ub
      | .throw e => .inr (.throw e)
      | .ok length => if length = 0 then .inr (conclude m handle got') else .inl (.body got' length [])
  | .body header length got =>
    let got' := got ++ bytes
    if got'.length < length then .inl (.body header length got') else .inr (conclude m handle (header ++ got'))

/-- The threads with one changed. -/
def set (thr : Nat → Thread) (i : Nat) (t : Thread) : Nat → Thread := fun j => if j = i then t else thr j

/-- A step (SessionInfo.cpp:47-69), if it is possible. -/
def step {δ : Type} (m : Mem) (handle : BitVec 32) (serve : δ → EncapsPacket → δ × EncapsPacket) (s : Sys δ) :
    Act → Option (Sys δ)
  | .send i =>
    match (s.thr i).phase, (s.thr i).todo with
    | .idle, p :: rest =>
      let r := serve s.dev p
      some { s with dev := r.1, inc := s.inc ++ r.2.pack, thr := set s.thr i ⟨rest, .header []⟩,
                    served := s.served ++ [(i, p, r.2)] }
    | _, _ => none
  | .recv i k =>
    if 0 < k ∧ k ≤ room (s.thr i).phase ∧ k ≤ s.inc.length then
      match advance m handle (s.inc.take k) (s.thr i).phase with
      | .inl phase => some { s with inc := s.inc.drop k, thr := set s.thr i { s.thr i with phase } }
      | .inr r =>
        some { s with inc := s.inc.drop k, thr := set s.thr i { s.thr i with phase := .idle },
                      ended := s.ended ++ [(i, r)] }
    else none
  | .timeout i =>
    if (s.thr i).phase = .idle then none
    else
      some { s with thr := set s.thr i { s.thr i with phase := .idle },
                    ended := s.ended ++ [(i, .throw (.system eagain))] }

/-- A schedule. -/
def run {δ : Type} (m : Mem) (handle : BitVec 32) (serve : δ → EncapsPacket → δ × EncapsPacket) (s : Sys δ) :
    List Act → Option (Sys δ)
  | [] => some s
  | a :: as =>
    match step m handle serve s a with
    | none => none
    | some s' => run m handle serve s' as

/-- Threads with this to send, before anything happened. -/
def start {δ : Type} (dev : δ) (todo : Nat → List EncapsPacket) : Sys δ := { dev, thr := fun i => { todo := todo i } }

end Verif.Threads
