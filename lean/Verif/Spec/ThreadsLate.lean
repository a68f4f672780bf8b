import Verif.Spec.Threads

/-!
# Specification of threads that share a session whose receive timeouts expire
-/

namespace Verif.Spec

open Verif.Threads

/-- The call ended because nothing came in time: `std::system_error` with EAGAIN. -/
def expired : Outcome EncapsPacket → Bool
  | .throw (.system code) => code == 11
  | _ => false

/-- A receive timeout only expires for a thread that has got nothing of a reply: replies come late or not at all, but not in halves. -/
def BetweenReplies {δ : Type} (s : Sys δ) : Act → Prop
  | .timeout i => midReply (s.thr i).phase = false
  | _ => True

/-- The calls that ended with a timeout before the `k`-th call ended. -/
def expiredBefore (k : Nat) (ended : List (Nat × Outcome EncapsPacket)) : Nat := (ended.take k).countP fun e => expired e.2

end Verif.Spec
