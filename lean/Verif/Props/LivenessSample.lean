import Verif.Props.Liveness
import Verif.Props.ManagerSample

/-!
# Concrete histories for C81
-/

namespace Verif.Props

open Verif Verif.Spec

instance stepsDecidable (R : Nat → Nat → Prop) [∀ a b, Decidable (R a b)] : ∀ (l : List Nat) (a : Nat), Decidable (Steps R a l)
  | [], _ => isTrue trivial
  | b :: l, _ => @instDecidableAnd _ _ _ (stepsDecidable R l b)

instance fedDecidable (lim : Nat) : ∀ (tr : IoTrace) (heard last : Nat), Decidable (Fed lim heard last tr)
  | [], _, _ => isTrue trivial
  | (.tick now _ _, _) :: tr, heard, _ =>
    @instDecidableAnd _ _ _ (@instDecidableAnd _ _ _ (fedDecidable lim tr heard now))
  | (.recv _, evs) :: tr, heard, last => fedDecidable lim tr (if evs.any IoEv.isReceived then last else heard) last
  | (.setData _, evs) :: tr, heard, last => fedDecidable lim tr (if evs.any IoEv.isReceived then last else heard) last

/-- The first connection made. -/
def firstMade : List MEv → Option Conn
  | [] => none
  | .created 0 c :: _ => some c
  | _ :: es => firstMade es

theorem firstMade_mem {evs : List MEv} {c : Conn} (h : firstMade evs = some c) : MEv.created 0 c ∈ evs := by
  induction evs with
  | nil => cases h
  | cons e es ih =>
    unfold firstMade at h
    split at h
    · cases h
    · rename_i heq
      injection heq with h1 h2
      subst h1
      injection h with h
      subst h
      exact List.mem_cons_self
    · rename_i heq
      injection heq with h1 h2
      subst h2
      exact List.mem_cons_of_mem _ (ih h)

/-- Two histories in sequence that satisfy a condition on what they did. -/
def both (ops ops' : List MOp) (f : Mgr → MTrace → Mgr → MTrace → Conn → Bool) : Bool :=
  match (Mgr.new 1 {}).run samplePlat ops with
  | none => false
  | some (s, tr) =>
    match s.run samplePlat ops', firstMade (allEvs tr) with
    | some (s', tr'), some c => f s tr s' tr' c
    | _, _ => false

theorem both_elim {ops ops' : List MOp} {f : Mgr → MTrace → Mgr → MTrace → Conn → Bool} (h : both ops ops' f = true) :
    ∃ s tr s' tr' c, (Mgr.new 1 {}).run samplePlat ops = some (s, tr) ∧ s.run samplePlat ops' = some (s', tr') ∧
      MEv.created 0 c ∈ allEvs tr ∧ f s tr s' tr' c = true := by
  unfold both at h
  split at h
  · cases h
  · rename_i s tr hs
    split at h
    · rename_i s' tr' c h1 h2
      exact ⟨s, tr, s', tr', c, hs, h1, firstMade_mem h2, h⟩
    · cases h

/-- `while (hasOpenConnections()) handleConnections(…)`: 41 rounds, one and a half milliseconds apart; the program
writes data and another manager opens a connection in between. -/
def idleCalls : List MOp :=
  .setData 0 [7] :: .otherOpen 0xA false true :: (List.range 41).flatMap fun i => [.hasOpen, sampleHandle (20000000 + 1500000 * i)]

/-- A connection (limit 40 ms) that has had data; then 41 calls without data. -/
def busyStart : List MOp :=
  [sampleOpen 0xA 0x10001 1,
   .handle 1000000 5 [.ready (.dgram (sampleDgram 0x10001 [9, 9])) [] 3000000] fun _ => ⟨12000000, { left := some [1, 2] }, 22⟩]

/-- C81 non-vacuity: the hypotheses of `C81_loop_ends` are met. -/
example : ∃ s tr s' tr', (Mgr.new 1 {}).run samplePlat busyStart = some (s, tr) ∧
    s.run samplePlat idleCalls = some (s', tr') ∧ s.table ≠ [] ∧
    Serves tr' ∧
    (∀ k id, (k, id) ∈ s.table → ∃ c, MEv.created id c ∈ allEvs tr ∧ Silent id c tr tr' ∧
      timeoutMicros c < 1000 * countOps isHandle tr') := by
  obtain ⟨s, tr, s', tr', c, h1, h2, h3, h4⟩ := both_elim (ops := busyStart) (ops' := idleCalls)
    (f := fun s tr _ tr' c =>
      decide (s.table = [(1, 0)]) && tr'.all (fun e => isHandle e.1 && decide (e.2.2 = .unit) || isIdle e.1) &&
      decide (∀ e ∈ connTrace 0 (allEvs tr), IoEv.closed ∉ e.2) && decide (timeoutMicros c < 40001) && decide (countOps isHandle tr' = 41) &&
      decide (Steps (fun a b => timeoutMicros c + (b - a) / 1000 < 2 ^ 32) c.lastHandleTime
        (tickTimes ((connTrace 0 (allEvs (tr ++ tr'))).map Prod.fst))) &&
      decide (∀ e ∈ connTrace 0 (allEvs tr'), ∀ ev ∈ e.2, IoEv.isReceived ev = false) &&
      decide (Steps (fun a b => a + 1000000 ≤ b) (lastTick c.lastHandleTime (connTrace 0 (allEvs tr)))
        (tickTimes ((connTrace 0 (allEvs tr')).map Prod.fst))))
    (by decide +kernel)
  simp only [Bool.and_eq_true, Bool.or_eq_true, decide_eq_true_eq, List.all_eq_true] at h4
  obtain ⟨⟨⟨⟨⟨⟨⟨g1, g2⟩, g3⟩, g4⟩, g8⟩, g5⟩, g6⟩, g7⟩ := h4
  refine ⟨s, tr, s', tr', h1, h2, by rw [g1]; simp, g2, fun k id hm => ?_⟩
  rw [g1, List.mem_singleton] at hm
  injection hm with _ hm
  subst hm
  exact ⟨c, h3, ⟨g3, by omega, g5, g6, g7⟩, by omega⟩

/-- Calls with data every 20 ms. -/
def fedCalls : List MOp := (List.range 10).map fun i =>
  .handle 0 5 [.ready (.dgram (sampleDgram 0x10001 [9, 9])) [] 3000000] fun _ => ⟨20000000 * (i + 1), { left := some [1, 2] }, 22⟩

/-- C81 non-vacuity: the hypotheses of `C81_all_kept` are met, 10 × 20 ms with a limit of 40 ms. -/
example : ∃ s tr s' tr', (Mgr.new 1 {}).run samplePlat [sampleOpen 0xA 0x10001 1] = some (s, tr) ∧
    s.run samplePlat fedCalls = some (s', tr') ∧ s.table ≠ [] ∧
    Serves tr' ∧
    (∀ k id, (k, id) ∈ s.table → ∃ c, MEv.created id c ∈ allEvs tr ∧ timeoutMicros c < 2 ^ 32 ∧
      Fed (timeoutMicros c * 1000) c.lastHandleTime c.lastHandleTime (connTrace id (allEvs (tr ++ tr')))) := by
  obtain ⟨s, tr, s', tr', c, h1, h2, h3, h4⟩ := both_elim (ops := [sampleOpen 0xA 0x10001 1]) (ops' := fedCalls)
    (f := fun s tr _ tr' c =>
      decide (s.table = [(1, 0)]) && tr'.all (fun e => isHandle e.1 && decide (e.2.2 = .unit) || isIdle e.1) &&
      decide (timeoutMicros c < 2 ^ 32) &&
      decide (Fed (timeoutMicros c * 1000) c.lastHandleTime c.lastHandleTime (connTrace 0 (allEvs (tr ++ tr')))))
    (by decide +kernel)
  simp only [Bool.and_eq_true, Bool.or_eq_true, decide_eq_true_eq, List.all_eq_true] at h4
  obtain ⟨⟨⟨g1, g2⟩, g3⟩, g4⟩ := h4
  refine ⟨s, tr, s', tr', h1, h2, by rw [g1]; simp, g2, fun k id hm => ?_⟩
  rw [g1, List.mem_singleton] at hm
  injection hm with _ hm
  subst hm
  exact ⟨c, h3, g3, g4⟩

end Verif.Props
