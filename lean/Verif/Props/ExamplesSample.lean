import Verif.Props.ExamplesImplicit
import Verif.Props.ManagerSample

/-! Runs of the implicit messaging example: the hypotheses of the C97 theorems are met by programs that end in
each of the ways they distinguish. -/

namespace Verif.Props

open Verif Verif.Spec Verif.Examples

/-- The target grants one second each way. -/
def grantReply : MessageRouterResponse :=
  { service := 0xD4, status := 0, additionalStatus := [],
    data := openReply 0xA 0x10001 1 342 0x12345 1000000 1000000 0 [], additionalItems := [] }

/-- Each wait takes 100 ms and every `sendto` sends the 56 bytes. -/
def sampleImplicit (reply : Outcome MessageRouterResponse) (rounds : Nat → List Round)
    (closed : Outcome MessageRouterResponse) : ImplicitEnv :=
  { opened := { reply := reply }, start := fun k => k * 100000000, rounds := rounds,
    ticks := fun k _ => ((k + 1) * 100000000, 56), closed := closed }

/-- A datagram with 32 bytes in every 20th wait. -/
def sampleArrivals (k : Nat) : List Round :=
  if k % 20 = 19 then [.ready (.dgram (ioFrame 0x10001 k (ioPayload (some k) none (List.replicate 32 7)))) [] 100] else []

/-- What can be compared: the exit code (or none for an exception), the requests, the waits, the datagrams sent,
the connections still registered, and whether a connection timed out. -/
structure ImplicitSummary where
  code : Option Int
  requests : List Byte
  waits : Nat
  sends : Nat
  registered : Nat
  timedOut : Bool
deriving DecidableEq, Repr

def isSend (e : MEv) : Bool :=
  match e with
  | .conn 0 _ io => io.any fun x => match x with | .sent _ _ => true | _ => false
  | _ => false

def isClosing (e : MEv) : Bool :=
  match e with
  | .conn _ _ io => io.contains .closed
  | _ => false

def implicitSummary (r : Res (Mgr × MTrace) Int) : Option ImplicitSummary :=
  let f := fun (code : Option Int) (q : Mgr × MTrace) =>
    (⟨code, services (allEvs q.2), countOps isHandle q.2, (allEvs q.2).countP isSend, q.1.table.length,
      (allEvs q.2).any isClosing⟩ : ImplicitSummary)
  match r with
  | .ok q c => some (f (some c) q)
  | .throw q _ => some (f none q)
  | .ub => none

def implicitRunOf (E : ImplicitEnv) : Res (Mgr × MTrace) Int := implicitMain samplePlat E (Mgr.new 1 {}, [])

/-- The target refuses. -/
example : implicitSummary (implicitRunOf (sampleImplicit (.ok { grantReply with status := 1 }) (fun _ => []) (.ok .default))) =
    some ⟨some 0, [0x54], 0, 0, 0, false⟩ := by decide +kernel

/-- Nothing arrives: four datagrams in four seconds, and then no connection and no close request. -/
example : implicitSummary (implicitRunOf (sampleImplicit (.ok grantReply) (fun _ => []) (.ok .default))) =
    some ⟨some 0, [0x54], 41, 4, 0, true⟩ := by decide +kernel

set_option maxRecDepth 100000 in
/-- A datagram arrives every two seconds: 200 waits, 20 datagrams, a close request. -/
theorem implicit_sample : implicitSummary (implicitRunOf (sampleImplicit (.ok grantReply) sampleArrivals (.ok .default))) =
    some ⟨some 0, [0x54, 0x4E], 200, 20, 0, false⟩ := by decide +kernel

/-- A signal interrupts the fourth wait: the program ends with an exception and asks for no close. -/
example : implicitSummary (implicitRunOf (sampleImplicit (.ok grantReply) (fun k => if k = 3 then [.fail 4] else []) (.ok .default))) =
    some ⟨none, [0x54], 4, 0, 1, false⟩ := by decide +kernel

/-- The hypotheses of `C97_program`, `C97_request` and `C97_sends` are met. -/
example : ∃ s tr, implicitRunOf (sampleImplicit (.ok grantReply) sampleArrivals (.ok .default)) = .ok (s, tr) 0 ∧
    ∃ pre post op io to bytes, connTrace 0 (allEvs tr) = pre ++ (op, io) :: post ∧ IoEv.sent to bytes ∈ io := by
  have h := implicit_sample
  generalize hr : implicitRunOf (sampleImplicit (.ok grantReply) sampleArrivals (.ok .default)) = r at h
  cases r with
  | ub => cases h
  | throw q e => simp [implicitSummary] at h
  | ok q c =>
    obtain ⟨s, tr⟩ := q
    simp only [implicitSummary, Option.some.injEq, ImplicitSummary.mk.injEq] at h
    obtain ⟨rfl, _, _, hs, _⟩ := h
    refine ⟨s, tr, rfl, ?_⟩
    obtain ⟨e, he, hsend⟩ := List.countP_pos_iff.mp (by rw [hs]; decide)
    cases e with
    | conn id op io =>
      obtain rfl : id = 0 := by cases id with
        | zero => rfl
        | succ n => cases hsend
      obtain ⟨x, hx, hxs⟩ := List.any_eq_true.mp (show io.any _ = true from hsend)
      cases x with
      | sent to bytes =>
        obtain ⟨pre, post, hp⟩ := List.append_of_mem (mem_connTrace.mpr he)
        exact ⟨pre, post, op, io, to, bytes, hp, hx⟩
      | _ => cases hxs
    | _ => cases hsend

end Verif.Props
