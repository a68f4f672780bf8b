import Verif.Props.Agreement
import Verif.Props.ManagerSample

/-!
# C82: concrete histories against a target

The hypotheses of the theorems about agreement are met, and the connections that only the
target knows exist.
-/

namespace Verif.Props

open Verif Verif.Spec

/-- The rule for identifiers: with or without the restriction. -/
def ruleOf (low : Bool) : List TConn → TConn → Prop := if low then lowDistinct else anyIds

/-- A target that follows the reply of the history, if it may. -/
def answerB (low : Bool) (T : List TConn) (svc : BitVec 8) (path : EPath) (data : List Byte) (resp : MessageRouterResponse) :
    Option (List TConn) :=
  if svc = 0x4E#8 ∧ path = EPath.mk2 6 1 then
    if ∃ c ∈ T, c.triad = closeTriad data then
      if resp.status = 0x00#8 then some (T.filter fun c => decide (c.triad ≠ closeTriad data)) else none
    else if resp.status = 0x00#8 then none else some T
  else if resp.status = 0x00#8 then
    let c : TConn := ⟨field data 10 2, field data 12 2, field data 14 4, field resp.data 4 4⟩
    if (svc = 0x54#8 ∨ svc = 0x5B#8) ∧ path = EPath.mk2 6 1 ∧ (∀ d ∈ T, d.triad ≠ c.triad) ∧ 26 ≤ resp.data.length ∧
        26 + 2 * field resp.data 24 1 ≤ resp.data.length ∧ field resp.data 8 2 = c.serial ∧
        (low = true → ∀ d ∈ T, d.t2o % 65536 ≠ c.t2o % 65536) then some (c :: T)
    else none
  else some T

def serveB (low : Bool) : List TConn → MTrace → Option (List TConn)
  | T, [] => some T
  | T, (op, evs, _) :: tr =>
    match evs.filter isRequest, replyTo op with
    | [], _ => serveB low T tr
    | [.request svc path data], some (.ok resp) => (answerB low T svc path data resp).bind fun T1 => serveB low T1 tr
    | _, _ => none

theorem answerB_sound {low : Bool} {T T1 : List TConn} {svc : BitVec 8} {path : EPath} {data : List Byte} {resp : MessageRouterResponse}
    (h : answerB low T svc path data resp = some T1) : Answers (ruleOf low) T svc path data resp T1 := by
  unfold answerB at h
  split at h
  · rename_i hp
    split at h
    · rename_i hc
      split at h
      · rename_i hs; cases h; exact .closes hp.1 hp.2 hc hs
      · cases h
    · rename_i hc
      split at h
      · cases h
      · rename_i hs
        cases h
        exact .unknown hp.1 hp.2 (fun c hm he => hc ⟨c, hm, he⟩) hs
  · rename_i hp
    split at h
    · rename_i hs
      dsimp only at h
      split at h
      · rename_i hh
        cases h
        refine .accepts _ hh.1 hh.2.1 rfl hh.2.2.1 ?_ ⟨hs, hh.2.2.2.1, hh.2.2.2.2.1, rfl, hh.2.2.2.2.2.1⟩
        cases low with
        | false => exact trivial
        | true => exact hh.2.2.2.2.2.2 rfl
      · cases h
    · rename_i hs
      cases h
      exact .refuses (fun h1 h2 => hp ⟨h1, h2⟩) hs

theorem serveB_sound {low : Bool} {T T' : List TConn} {tr : MTrace} (h : serveB low T tr = some T') : Served (ruleOf low) T tr T' := by
  induction tr generalizing T with
  | nil => cases h; exact .nil
  | cons e tr ih =>
    obtain ⟨op, evs, ret⟩ := e
    simp only [serveB] at h
    split at h
    · rename_i hq; exact .quiet hq (ih h)
    · rename_i hq hr
      cases ha : answerB low T _ _ _ _ with
      | none => rw [ha] at h; cases h
      | some T1 =>
        rw [ha] at h
        exact .exchange hq hr (answerB_sound ha) (ih h)
    · cases h

/-- A history and its result against the target. -/
def joint (low : Bool) (ops : List MOp) : Option (List (BitVec 16 × Nat) × List TConn) :=
  match (Mgr.new 1 {}).run samplePlat ops with
  | none => none
  | some (s, tr) => (serveB low [] tr).map fun T => (s.table, T)

theorem joint_run {low : Bool} {ops : List MOp} {t : List (BitVec 16 × Nat)} {T : List TConn} (h : joint low ops = some (t, T)) :
    ∃ s tr, (Mgr.new 1 {}).run samplePlat ops = some (s, tr) ∧ s.table = t ∧ Served (ruleOf low) [] tr T := by
  unfold joint at h
  split at h
  · cases h
  · rename_i s tr hr
    cases hs : serveB low [] tr with
    | none => rw [hs] at h; cases h
    | some T' =>
      rw [hs] at h
      simp only [Option.map_some, Option.some.injEq, Prod.mk.injEq] at h
      obtain ⟨h1, rfl⟩ := h
      exact ⟨s, tr, hr, h1, serveB_sound hs⟩

def refusal : MessageRouterResponse := { service := 0xD4, status := 1, additionalStatus := [], data := [], additionalItems := [] }

/-- Three opens, one of them refused, and a close: the hypotheses of `C82_open_at_target` are met. -/
def agreeOps : List MOp :=
  [sampleOpen 0xA 0x10001 1, .forwardOpen "192.168.1.10" sampleParams true { reply := .ok refusal },
   sampleOpen 0xB 0x10002 3, sampleHandle 1000000, sampleOpen 0xC 0x10003 4,
   .forwardClose (some 0) (.ok (sampleReply 0 0 0)), .forwardClose (some 0) (.ok refusal)]

theorem agreeOps_joint : joint true agreeOps = some ([(2, 1), (3, 2)], [⟨4, 0x1234, 7, 0x10003⟩, ⟨3, 0x1234, 7, 0x10002⟩]) := by decide +kernel

/-- Can the history be seen to lose nothing? -/
def noLossB (tr : MTrace) : Bool :=
  tr.all fun e => (match e.1, e.2.2 with
    | .forwardOpen _ _ _ env, .threw _ => (match env.reply with
      | .ok resp => resp.status != 0x00#8
      | _ => true)
    | _, _ => true) && e.2.1.all fun ev => match ev with
    | .conn _ _ io => !io.contains .closed
    | _ => true

theorem noLossB_sound {tr : MTrace} (h : noLossB tr = true) : NoLoss tr := by
  unfold noLossB at h
  rw [List.all_eq_true] at h
  constructor
  · intro host p large e evs x hm resp hr
    have := h _ hm
    simp only [hr, Bool.and_eq_true, bne_iff_ne] at this
    exact this.1
  · intro id op io hm hc
    obtain ⟨e, he, hm⟩ := List.mem_flatMap.mp hm
    have := h e he
    simp only [Bool.and_eq_true, List.all_eq_true] at this
    have := this.2 _ hm
    simp [hc] at this

theorem agreeOps_noLoss : ((Mgr.new 1 {}).run samplePlat agreeOps).map (fun r => noLossB r.2) = some true := by decide +kernel

/-- The hypotheses of `C82_agree` are met by this history; two connections are open at its end. -/
example : ∃ s tr T, (Mgr.new 1 {}).run samplePlat agreeOps = some (s, tr) ∧ s.table.length = 2 ∧ T.length = 2 ∧
    ClosesOpen samplePlat (Mgr.new 1 {}) agreeOps ∧ Served lowDistinct [] tr T ∧ NoLoss tr := by
  obtain ⟨s, tr, h1, h2, h3⟩ := joint_run agreeOps_joint
  refine ⟨s, tr, _, h1, by rw [h2]; rfl, rfl, C82_weak_pointers samplePlat 1 {} agreeOps
    (by simp [agreeOps, sampleOpen, sampleHandle]), h3, noLossB_sound ?_⟩
  have := agreeOps_noLoss
  rw [h1] at this
  simpa using this

/-- C82 violated: the socket for the connection cannot be made after the target accepted; the target has a
connection, the caller gets an exception and no pointer, and nothing is sent to close it (see `C82_orphan_stays`). -/
theorem C82_orphan_violated :
    joint false [.forwardOpen "192.168.1.10" sampleParams false { reply := .ok (sampleReply 0xA 0x10001 1), udpErr := some 24 }] =
      some ([], [⟨1, 0x1234, 7, 0x10001⟩]) := by decide +kernel

/-- C82 violated: a target whose second identifier has the same low 16 bits. -/
theorem C82_collision_violated :
    joint false [sampleOpen 0xA 0x10001 1, sampleOpen 0xB 0x20001 2, .forwardClose (some 1) (.ok refusal)] =
      some ([(1, 0)], [⟨2, 0x1234, 7, 0x20001⟩, ⟨1, 0x1234, 7, 0x10001⟩]) := by decide +kernel

/-- A timeout is not reported to the target: no forward close is sent. -/
theorem C82_timeout_violated :
    joint false [sampleOpen 0xA 0x10001 1, sampleHandle 90000000, .forwardClose (some 0) (.ok refusal)] =
      some ([], [⟨1, 0x1234, 7, 0x10001⟩]) := by decide +kernel

end Verif.Props
