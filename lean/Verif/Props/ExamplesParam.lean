import Verif.Model.Examples
import Verif.Spec.Examples
import Verif.Props.Parameter
import Verif.Props.Scaling
import Verif.Props.ExamplesLink

/-!
# Property C96: the parameter example
-/

namespace Verif.Props

open Verif Verif.Spec Verif.Examples

variable {δ : Type}

/-- The device answers the requests for parameters `i + 1`, `i + 2`, ... with these attributes. -/
inductive ParamsServed (D : Device δ) (full : Bool) : Nat → List Param → δ → δ → Prop
  | nil {i d} : ParamsServed D full i [] d d
  | cons {i p ps d d1 d2} : p.Fits → ParamServed D (BitVec.ofNat 16 (i + 1)) full p d d1 → ParamsServed D full (i + 1) ps d1 d2 →
      ParamsServed D full i (p :: ps) d d2

theorem readParameters_served (m : Mem) (D : Device δ) (full : Bool) (i : Nat) (ps : List Param) (d d' : δ) (sent : List Req)
    (h : ParamsServed D full i ps d d') :
    ∃ os, readParameters m D full i ps.length ⟨d, sent⟩ =
        .ok ⟨d', sent ++ paramsRequests full i (ps.map Param.scalable)⟩ os ∧
      os.map paramView = ps.map (·.seen full) ∧
      (∀ k (o : ParameterObject), os[k]? = some o → o.instanceId = BitVec.ofNat 16 (i + k + 1) ∧ o.hasRouter = true) := by
  induction h generalizing sent with
  | nil => exact ⟨[], by simp [readParameters, paramsRequests], rfl, by simp⟩
  | cons hf h1 _ ih =>
    rename_i i p ps d d1 d2 _
    obtain ⟨o, e1, e2, e3, _, _⟩ := C55_reads m D ⟨d, sent⟩ (BitVec.ofNat 16 (i + 1)) full p hf d1 h1
    obtain ⟨os, g1, g2, g3⟩ := ih (sent ++ paramRequests (BitVec.ofNat 16 (i + 1)) (full && p.scalable))
    refine ⟨o :: os, ?_, by simp [e2, g2], ?_⟩
    · refine (Prog.bind_ok e1).trans ((Prog.bind_ok g1).trans ?_)
      simp [paramsRequests, List.append_assoc]
    · intro k o' ho
      cases k with
      | zero =>
        simp only [List.getElem?_cons_zero, Option.some.injEq] at ho
        subst ho
        exact ⟨e3, C58_router D _ _ _ full _ m e1⟩
      | succ k =>
        rw [List.getElem?_cons_succ] at ho
        have := g3 k o' ho
        rw [show i + 1 + k + 1 = i + (k + 1) + 1 by omega] at this
        exact this

theorem bytes16 {v : Nat} (hv : v < 65536) (m : Mem) (t : List Byte) : Rd.u16.from m (le 2 v ++ t) = .ok (BitVec.ofNat 16 v) :=
  Rd.from_ok ((Reads.le2 hv).start m)

/-- The program after the two attributes of the class. -/
theorem parameterMain_class (m : Mem) (rnd : Rat → Rat) (pow : Nat → Rat) (D : Device δ) (L : Link δ) (count desc : Nat)
    (hc : count < 65536) (hd : desc < 65536) (t1 t2 : List Byte) (d1 : δ)
    (hg : Grants D L.dev [(paramClassReq 2, le 2 count ++ t1), (paramClassReq 8, le 2 desc ++ t2)] d1) :
    parameterMain m rnd pow D L =
      (do
        let parameters ← readParameters m D (desc / 2 % 2 == 1) 0 count
        match parameters with
        | [] => pure ⟨0, [], none⟩
        | p :: ps => do
          let first ← firstParameter m rnd pow D p
          pure ⟨0, p :: ps, some first⟩ : Prog (Link δ) ParamRun) ⟨d1, L.sent ++ [paramClassReq 2, paramClassReq 8]⟩ := by
  cases hg with
  | cons a1 s1 e1 hg =>
  cases hg with
  | cons a2 s2 e2 hg =>
  cases hg
  refine (Prog.bind_ok (ask_ok (r := paramClassReq 2) a1)).trans ?_
  rw [if_pos (show _ = GeneralStatus.success from s1), e1, bytes16 hc]
  refine (Prog.bind_ok (Prog.lift_ok _ _)).trans ?_
  refine (Prog.bind_ok (ask_ok (r := paramClassReq 8) a2)).trans ?_
  rw [if_pos (show _ = GeneralStatus.success from s2), e2, bytes16 hd]
  refine (Prog.bind_ok (Prog.lift_ok _ _)).trans ?_
  simp only [bit1, toNat16 hc, toNat16 hd, List.append_assoc, List.cons_append, List.nil_append]
  rfl

/-- C96. A device without parameters: two requests, exit code 0. -/
theorem C96_parameters_none (m : Mem) (rnd : Rat → Rat) (pow : Nat → Rat) (D : Device δ) (L : Link δ) (desc : Nat)
    (hd : desc < 65536) (t1 t2 : List Byte) (d1 : δ)
    (hg : Grants D L.dev [(paramClassReq 2, le 2 0 ++ t1), (paramClassReq 8, le 2 desc ++ t2)] d1) :
    parameterMain m rnd pow D L = .ok ⟨d1, L.sent ++ [paramClassReq 2, paramClassReq 8]⟩ ⟨0, [], none⟩ := by
  rw [parameterMain_class m rnd pow D L 0 desc (by decide) hd t1 t2 d1 hg]
  rfl

/-- C96. A device with parameters: the program reads all of them, with all attributes exactly if bit 1 of the class
descriptor is set, then reads the value of the first again, and ends with exit code 0.  Its objects hold the attributes of
the device, and the two values printed are the numbers in the first two bytes of the old and of the new value. -/
theorem C96_parameters (m : Mem) (rnd : Rat → Rat) (pow : Nat → Rat) (D : Device δ) (L : Link δ) (p : Param) (ps : List Param)
    (desc : Nat) (hc : (p :: ps).length < 65536) (hd : desc < 65536) (t1 t2 t3 v : List Byte) (d1 d2 d3 : δ)
    (hg : Grants D L.dev [(paramClassReq 2, le 2 (p :: ps).length ++ t1), (paramClassReq 8, le 2 desc ++ t2)] d1)
    (hs : ParamsServed D (desc / 2 % 2 == 1) 0 (p :: ps) d1 d2)
    (hu : Grants D d2 [(paramGet 1 1, v ++ t3)] d3) (hv : v.length = p.value.length) (h2 : 2 ≤ p.value.length) :
    ∃ os eng o, parameterMain m rnd pow D L =
        .ok ⟨d3, L.sent ++ [paramClassReq 2, paramClassReq 8] ++
          paramsRequests (desc / 2 % 2 == 1) 0 ((p :: ps).map Param.scalable) ++ [paramGet 1 1]⟩
        ⟨0, os, some ((field p.value 0 2 : Nat), eng, (field v 0 2 : Nat), o)⟩ ∧
      os.map paramView = (p :: ps).map (·.seen (desc / 2 % 2 == 1)) ∧
      paramView o = { p.seen (desc / 2 % 2 == 1) with value := v } := by
  rw [parameterMain_class m rnd pow D L _ desc hc hd t1 t2 d1 hg]
  generalize (desc / 2 % 2 == 1) = full at *
  obtain ⟨os, g1, g2, g3⟩ := readParameters_served m D full 0 (p :: ps) d1 d2
    (L.sent ++ [paramClassReq 2, paramClassReq 8]) hs
  cases os with
  | nil => simp at g2
  | cons o os =>
    have hview : paramView o = p.seen full := by simpa using (List.cons.inj (by simpa using g2)).1
    have hval : o.value = p.value := congrArg ParamSeen.value hview
    obtain ⟨hid, hrt⟩ := g3 0 o rfl
    have hid : o.instanceId = 1 := hid
    have hread : ∀ data : List Byte, 2 ≤ data.length → ParameterObject.encodeValue m .u16 data = .ok ((field data 0 2 : Nat) : Int) := by
      intro data hl
      rw [C74_reads m .u16 data hl]
      rfl
    have hupd := C58_updates m D ⟨d2, L.sent ++ [paramClassReq 2, paramClassReq 8] ++
      paramsRequests full 0 ((p :: ps).map Param.scalable)⟩ o hrt v t3 d3 (by rw [hv, hval]) (by rw [hid]; exact hu)
    refine ⟨o :: os, ParameterObject.actualToEng rnd pow o (rnd ((field p.value 0 2 : Nat) : Int)), { o with value := v },
      ?_, g2, ?_⟩
    · refine (Prog.bind_ok g1).trans ?_
      refine Prog.bind_ok ?_ |>.trans rfl
      unfold firstParameter
      rw [hval, hread _ h2]
      refine (Prog.bind_ok (Prog.lift_ok _ _)).trans ?_
      have heng : ParameterObject.engOf m rnd pow .u16 o p.value =
          .ok (ParameterObject.actualToEng rnd pow o (rnd ((field p.value 0 2 : Nat) : Int))) := by
        unfold ParameterObject.engOf
        rw [hread _ h2]
      rw [heng]
      refine (Prog.bind_ok (Prog.lift_ok _ _)).trans ?_
      refine (Prog.bind_ok (show updated m D o _ = _ from by unfold updated; rw [hupd])).trans ?_
      simp only
      rw [hread v (by omega)]
      refine (Prog.bind_ok (Prog.lift_ok _ _)).trans ?_
      rw [hid]
      rfl
    · rw [← hview]
      rfl

/-- C96. If the first parameter has a value of one byte, or of none, the program reads beyond it. -/
theorem C96_parameters_small_violated (rnd : Rat → Rat) (pow : Nat → Rat) (D : Device δ) (L : Link δ) (p : Param) (ps : List Param)
    (desc : Nat) (hc : (p :: ps).length < 65536) (hd : desc < 65536) (t1 t2 : List Byte) (d1 d2 : δ)
    (hg : Grants D L.dev [(paramClassReq 2, le 2 (p :: ps).length ++ t1), (paramClassReq 8, le 2 desc ++ t2)] d1)
    (hs : ParamsServed D (desc / 2 % 2 == 1) 0 (p :: ps) d1 d2) (h2 : p.value.length < 2) :
    parameterMain Mem.strict rnd pow D L = .ub := by
  rw [parameterMain_class Mem.strict rnd pow D L _ desc hc hd t1 t2 d1 hg]
  generalize (desc / 2 % 2 == 1) = full at *
  obtain ⟨os, g1, g2, g3⟩ := readParameters_served Mem.strict D full 0 (p :: ps) d1 d2
    (L.sent ++ [paramClassReq 2, paramClassReq 8]) hs
  cases os with
  | nil => simp at g2
  | cons o os =>
    have hview : paramView o = p.seen full := by simpa using (List.cons.inj (by simpa using g2)).1
    have hval : o.value = p.value := congrArg ParamSeen.value hview
    refine (Prog.bind_ok g1).trans ?_
    refine Prog.bind_ub ?_
    unfold firstParameter
    rw [hval, C74_short_violated .u16 p.value h2]
    rfl

/-- C96. If the class answers with an error the exit code is -1 and nothing more is asked; if it answers with success and
fewer than two bytes the program reads beyond them. -/
theorem C96_parameters_class (m : Mem) (rnd : Rat → Rat) (pow : Nat → Rat) (D : Device δ) (L : Link δ) (d1 : δ)
    (r1 : MessageRouterResponse) (h1 : D.answer (paramClassReq 2) L.dev = .ok d1 r1) :
    (r1.status ≠ 0x00#8 → parameterMain m rnd pow D L = .ok ⟨d1, L.sent ++ [paramClassReq 2]⟩ ⟨-1, [], none⟩) ∧
    (r1.status = 0x00#8 → r1.data.length < 2 → parameterMain Mem.strict rnd pow D L = .ub) ∧
    (r1.status = 0x00#8 → 2 ≤ r1.data.length → ∀ d2 r2, D.answer (paramClassReq 8) d1 = .ok d2 r2 →
      (r2.status ≠ 0x00#8 →
        parameterMain m rnd pow D L = .ok ⟨d2, L.sent ++ [paramClassReq 2, paramClassReq 8]⟩ ⟨-1, [], none⟩) ∧
      (r2.status = 0x00#8 → r2.data.length < 2 → parameterMain Mem.strict rnd pow D L = .ub)) := by
  have first : ∀ m : Mem, parameterMain m rnd pow D L = _ := fun m => Prog.bind_ok (ask_ok (r := paramClassReq 2) h1)
  refine ⟨fun hs => ?_, fun hs hl => ?_, fun hs hl d2 r2 h2 => ?_⟩
  · rw [first m, if_neg (show ¬ _ = GeneralStatus.success from hs)]
    rfl
  · rw [first, if_pos (show _ = GeneralStatus.success from hs), u16_short hl]
    rfl
  · constructor
    · intro hs2
      rw [first m, if_pos (show _ = GeneralStatus.success from hs), u16_from hl]
      refine (Prog.bind_ok (Prog.lift_ok _ _)).trans ((Prog.bind_ok (ask_ok (r := paramClassReq 8) h2)).trans ?_)
      rw [if_neg (show ¬ _ = GeneralStatus.success from hs2)]
      simp
    · intro hs2 hl2
      rw [first, if_pos (show _ = GeneralStatus.success from hs), u16_from hl]
      refine (Prog.bind_ok (Prog.lift_ok _ _)).trans ((Prog.bind_ok (ask_ok (r := paramClassReq 8) h2)).trans ?_)
      rw [if_pos (show _ = GeneralStatus.success from hs2), u16_short hl2]
      rfl

theorem word_lt (data : List Byte) : word data < 65536 := by
  unfold word field
  have := ofLe_lt ((data.drop 0).take 2)
  have hl : ((data.drop 0).take 2).length ≤ 2 := by simp; omega
  exact Nat.lt_of_lt_of_le this (Nat.pow_le_pow_right (by decide) hl)

theorem word_split {data : List Byte} (h : 2 ≤ data.length) : le 2 (word data) ++ data.drop 2 = data := by
  have hl : (data.take 2).length = 2 := by simp; omega
  have := le_ofLe (data.take 2)
  rw [hl] at this
  unfold word field
  rw [List.drop_zero, this, List.take_append_drop]

theorem readParameters_sound (D : Device δ) (full : Bool) (n i : Nat) (L L' : Link δ) (os : List ParameterObject)
    (h : readParameters Mem.strict D full i n L = .ok L' os) :
    ∃ ps : List Param, ps.length = n ∧ ParamsServed D full i ps L.dev L'.dev ∧ os.map paramView = ps.map (·.seen full) := by
  induction n generalizing i L L' os with
  | zero =>
    injection h with h1 h2
    subst h1; subst h2
    exact ⟨[], rfl, .nil, rfl⟩
  | succ n ih =>
    obtain ⟨L1, o, h1, h⟩ := Prog.bind_eq_ok h
    obtain ⟨L2, os', h2, h⟩ := Prog.bind_eq_ok h
    injection h with h3 h4
    subst h3; subst h4
    obtain ⟨p, hf, hp, hv, _⟩ := C55_sound D L L1 _ full o h1
    obtain ⟨ps, hl, hps, hvs⟩ := ih _ _ _ _ h2
    exact ⟨p :: ps, by simp [hl], .cons hf hp hps, by simp [hv, hvs]⟩

/-- C96. Exit code 0 without a read out of bounds says that the device answered all of this: both attributes of the class,
and every parameter from 1 to the number it gave; and the objects hold what it answered. -/
theorem C96_parameters_sound (rnd : Rat → Rat) (pow : Nat → Rat) (D : Device δ) (L L' : Link δ) (run : ParamRun)
    (h : parameterMain Mem.strict rnd pow D L = .ok L' run) (hcode : run.code = 0) :
    ∃ (ps : List Param) (desc : Nat) (t1 t2 : List Byte) (d1 d2 : δ), ps.length < 65536 ∧ desc < 65536 ∧
      Grants D L.dev [(paramClassReq 2, le 2 ps.length ++ t1), (paramClassReq 8, le 2 desc ++ t2)] d1 ∧
      ParamsServed D (desc / 2 % 2 == 1) 0 ps d1 d2 ∧
      run.parameters.map paramView = ps.map (·.seen (desc / 2 % 2 == 1)) ∧
      (∀ p ∈ ps.head?, 2 ≤ p.value.length) := by
  obtain ⟨L1, r1, h1, h⟩ := Prog.bind_eq_ok h
  obtain ⟨d1, a1, rfl⟩ := ask_inv h1
  by_cases s1 : r1.status = GeneralStatus.success
  case neg =>
    rw [if_neg s1] at h
    injection h with _ h4
    subst h4
    cases hcode
  rw [if_pos s1] at h
  obtain ⟨L2, count, h2, h⟩ := Prog.bind_eq_ok h
  obtain ⟨e2, rfl⟩ := lift_inv h2
  by_cases l1 : r1.data.length < 2
  · rw [u16_short l1] at e2; cases e2
  rw [u16_from (by omega)] at e2
  injection e2 with e2
  subst e2
  obtain ⟨L3, r2, h3, h⟩ := Prog.bind_eq_ok h
  obtain ⟨d2, a2, rfl⟩ := ask_inv h3
  by_cases s2 : r2.status = GeneralStatus.success
  case neg =>
    rw [if_neg s2] at h
    injection h with _ h4
    subst h4
    cases hcode
  rw [if_pos s2] at h
  obtain ⟨L4, desc, h4, h⟩ := Prog.bind_eq_ok h
  obtain ⟨e4, rfl⟩ := lift_inv h4
  by_cases l2 : r2.data.length < 2
  · rw [u16_short l2] at e4; cases e4
  rw [u16_from (by omega)] at e4
  injection e4 with e4
  subst e4
  obtain ⟨L5, os, h5, h⟩ := Prog.bind_eq_ok h
  simp only [bit1, toNat16 (word_lt _)] at h5
  obtain ⟨ps, hl, hps, hvs⟩ := readParameters_sound D _ _ _ _ _ _ h5
  refine ⟨ps, word r2.data, r1.data.drop 2, r2.data.drop 2, d2, L5.dev, by rw [hl]; exact word_lt _, word_lt _, ?_, hps, ?_⟩
  · refine .cons a1 s1 ?_ (.cons a2 s2 ?_ .nil)
    · rw [hl]; exact (word_split (by omega)).symm
    · exact (word_split (by omega)).symm
  · cases ps with
    | nil =>
      simp only [List.map_nil, List.map_eq_nil_iff] at hvs
      subst hvs
      injection h with _ h6
      subst h6
      exact ⟨rfl, by simp⟩
    | cons p ps =>
      cases os with
      | nil => simp at hvs
      | cons o os =>
        obtain ⟨L6, first, h6, h⟩ := Prog.bind_eq_ok h
        injection h with _ h7
        subst h7
        refine ⟨hvs, ?_⟩
        simp only [List.head?_cons, Option.mem_def, Option.some.injEq]
        rintro _ rfl
        have hval : o.value = p.value := congrArg ParamSeen.value (List.cons.inj hvs).1
        by_cases hlt : p.value.length < 2
        · obtain ⟨_, _, h8, _⟩ := Prog.bind_eq_ok h6
          rw [hval, C74_short_violated .u16 p.value hlt] at h8
          cases h8
        · omega

/-! ## Non-vacuity -/

/-- A device with two parameters, the second like the first; the class answers 2 and a descriptor with bit 1. -/
def sampleParamsDevice : Device Unit := tableDevice fun r =>
  if r.path.objectId = 0 then
    (if r.path.attributeId = 2 then (0, [2#8, 0#8]) else if r.path.attributeId = 8 then (0, [3#8, 0#8, 1#8]) else (0x14, []))
  else if r.service = 0x01#8 then (0, paramBytes true sampleParam 2 (List.replicate 16 9#8))
  else match r.path.attributeId.toNat with
    | 6 => (0, [2#8])
    | 13 => (0, [3#8, 0#8])
    | 14 => (0, [2#8, 0#8])
    | 15 => (0, [1#8, 0#8])
    | 16 => (0, [0xff#8, 0xff#8])
    | 1 => (0, [0xaa#8, 0xbb#8, 0xcc#8])
    | _ => (0x14, [])

def paramRunOf : Res (Link Unit) ParamRun → Option (Int × List ParamSeen × Option (Int × Int) × List Req)
  | .ok L r => some (r.code, r.parameters.map paramView, r.first.map (fun x => (x.1, x.2.2.1)), L.sent)
  | _ => none

example : paramRunOf (parameterMain Mem.strict id (fun n => 10 ^ n) sampleParamsDevice ⟨(), []⟩) =
    some (0, [sampleParam.seen true, sampleParam.seen true], some (0x2710, 0xbbaa),
      [paramClassReq 2, paramClassReq 8] ++ paramRequests 1 true ++ paramRequests 2 true ++ [paramGet 1 1]) := by decide +kernel

end Verif.Props
