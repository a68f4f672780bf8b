import Verif.Model.TcpTime
import Verif.Spec.Arrivals
import Verif.Spec.EndToEnd

/-!
# Specification: operations of objects over a session with times
-/

namespace Verif.Spec

/-- The number of interruptions. -/
def interrupts (net : List (Nat × NetEv)) : Nat := net.countP fun e => decide (e.2 = .eintr)

/-- Without times. -/
def plainLink (L : Link TTcp) : Link Tcp := ⟨L.dev.plain, L.sent⟩

/-- Keep the object, forget the times. -/
def plainObj {ο : Type} (s : ο × Link TTcp) : ο × Link Tcp := (s.1, plainLink s.2)

/-- The end, seen through a function of the state. -/
def mapEnd {σ τ α : Type} (f : σ → τ) : Res σ α → Res τ α
  | .ok s a => .ok (f s) a
  | .throw s e => .throw (f s) e
  | .ub => .ub

/-- The call returns or throws, and leaves such a state. -/
def EndState {σ α : Type} (x : Res σ α) (s : σ) : Prop := (∃ a, x = .ok s a) ∨ ∃ e, x = .throw s e

/-- What comes, comes in time: never longer than `t` after what came before it. -/
def LinkPrompt (t : Nat) (L : Link TTcp) : Prop := Prompt t L.dev.now L.dev.net

/-- From `L` to `L'`, on a session with a timeout of `ms` milliseconds, at most `n` requests were made, and the time
that took is at most 65559 timeouts for each and one for every interruption. -/
def Within (ms : Int) (n : Nat) (L L' : Link TTcp) : Prop :=
  L.dev.now ≤ L'.dev.now ∧ L'.sent.length ≤ L.sent.length + n ∧
    L'.dev.now ≤ L.dev.now + (n * 65559 + interrupts L.dev.net) * (ms.toNat * 1000)

/-- The operation `p` over a session with a timeout of `ms` milliseconds, whose link is `g` of the state: it ends, with
at most `n` requests and in bounded time; and if what the target sends comes in time, it ends exactly as `q`, the same
operation over a session without times. -/
def Punctual {σ τ α : Type} (ms : Int) (n : Nat) (g : σ → Link TTcp) (f : σ → τ) (p : Prog σ α) (q : Prog τ α) : Prop :=
  ∀ s, (∃ s', EndState (p s) s' ∧ Within ms n (g s) (g s')) ∧ (LinkPrompt (ms.toNat * 1000) (g s) → q (f s) = mapEnd f (p s))

/-- The frames of these replies, each arriving as a whole at its time. -/
def repliesAt (handle : BitVec 32) (replies : List (Nat × ExplicitReply)) : List (Nat × NetEv) :=
  replies.map fun x => (x.1, match x.2.frame handle with | [] => .eintr | b :: bs => .seg b bs)

/-- The socket after this request was written and nothing came before the timeout. -/
def gaveUp (ms : Int) (handle : BitVec 32) (r : Req) (s : TTcp) : TTcp :=
  { s with sent := s.sent ++ [reqFrame handle r], now := s.now + ms.toNat * 1000 }

end Verif.Spec
