import Verif.Model.Parameter
import Verif.Spec.Object
import Verif.Lemmas.Invert

/-!
# Properties C55, C58: parameter objects
-/

namespace Verif.Props

open Verif Verif.Spec

/-- What the getters of a parameter object return. -/
def paramView (o : ParameterObject) : ParamSeen :=
  { value := o.value, type := o.type.toNat, scalable := o.isScalable, readOnly := o.isReadOnly
    name := o.name, units := o.units, help := o.help, min := o.minValue, max := o.maxValue, default := o.defaultValue
    multiplier := o.scalingMultiplier.toNat, divisor := o.scalingDivisor.toNat, base := o.scalingBase.toNat
    offset := o.scalingOffset.toInt, precision := o.precision.toNat }

/-! ## Reading the attributes -/

theorem bit2 (d : BitVec 16) : (d &&& 4#16 != 0#16) = (d.toNat / 4 % 2 == 1) := by
  have h2 : d.getLsbD 2 = decide (d.toNat / 4 % 2 = 1) := Nat.testBit_eq_decide_div_mod_eq
  rw [show 4#16 = BitVec.twoPow 16 2 from rfl, BitVec.and_twoPow, h2]
  by_cases hc : d.toNat / 4 % 2 = 1
  · simp only [hc, decide_true, if_true]; decide
  · simp [hc]

theorem bit4 (d : BitVec 16) : (d &&& 16#16 != 0#16) = (d.toNat / 16 % 2 == 1) := by
  have h2 : d.getLsbD 4 = decide (d.toNat / 16 % 2 = 1) := Nat.testBit_eq_decide_div_mod_eq
  rw [show 16#16 = BitVec.twoPow 16 4 from rfl, BitVec.and_twoPow, h2]
  by_cases hc : d.toNat / 16 % 2 = 1
  · simp only [hc, decide_true, if_true]; decide
  · simp [hc]

theorem Reads.le1 {v : Nat} (h : v < 256) : Reads Rd.u8 (le 1 v) (BitVec.ofNat 8 v) := by
  have := Reads.u8 (BitVec.ofNat 8 v)
  rw [← le_one, BitVec.toNat_ofNat, Nat.mod_eq_of_lt h] at this
  exact this

theorem Reads.le2 {v : Nat} (h : v < 65536) : Reads Rd.u16 (le 2 v) (BitVec.ofNat 16 v) := by
  have := Reads.u16 (BitVec.ofNat 16 v)
  rw [BitVec.toNat_ofNat, Nat.mod_eq_of_lt h] at this
  exact this

theorem Reads.str {s : List Byte} (h : s.length < 256) : Reads Rd.shortString (Param.str s) (CipString.ofBytes 8 s) := by
  refine (Reads.shortString s h).cast ?_ rfl
  unfold Param.str le le
  rw [Nat.mod_eq_of_lt h]
  rfl

theorem toNat8 {v : Nat} (h : v < 256) : (BitVec.ofNat 8 v).toNat = v := by simp; omega
theorem toNat16 {v : Nat} (h : v < 65536) : (BitVec.ofNat 16 v).toNat = v := by simp; omega

/-- The object made of an answer, before the scaling attributes are read. -/
def paramObject (inst : BitVec 16) (full : Bool) (p : Param) : ParameterObject :=
  let zeros := List.replicate p.value.length 0#8
  { instanceId := inst, hasFullAttributes := full, isScalable := p.scalable, isReadOnly := p.readOnly
    parameter := inst, value := p.value, type := BitVec.ofNat 8 p.type
    name := if full then p.name else []
    units := if full then p.units else []
    help := if full then p.help else []
    minValue := if full then p.min else zeros
    maxValue := if full then p.max else zeros
    defaultValue := if full then p.default else zeros
    precision := if full && p.scalable then BitVec.ofNat 8 p.precision else 0
    hasRouter := true }

/-- The bytes the constructor reads from the answer to GetAttributeAll. -/
def paramBytes (full : Bool) (p : Param) (size : Nat) (block : List Byte) : List Byte :=
  if full then p.stub ++ p.rest size block else p.stub

theorem attributes_reads (inst : BitVec 16) (full : Bool) (p : Param) (hf : p.Fits) (size : Nat)
    (block : List Byte) (hb : block.length = 16) :
    Reads (ParameterObject.attributes inst full p.value.length) (paramBytes full p size block) (paramObject inst full p) := by
  have hd := toNat16 hf.descriptor
  have hs : (BitVec.ofNat 16 p.descriptor &&& 4#16 != 0#16) = p.scalable := by rw [bit2, hd]; rfl
  have hr : (BitVec.ofNat 16 p.descriptor &&& 16#16 != 0#16) = p.readOnly := by rw [bit4, hd]; rfl
  have h3 : Reads (Rd.bytes (BitVec.ofNat 8 p.linkPath.length).toNat) p.linkPath p.linkPath :=
    Reads.bytes' (toNat8 hf.linkPath).symm
  unfold ParameterObject.attributes
  cases full with
  | false =>
    refine ((Reads.bytes p.value).bind ((Reads.le1 hf.linkPath).bind (h3.bind ((Reads.le2 hf.descriptor).bind
      ((Reads.le1 hf.type).bind (cs := []) (c := paramObject inst false p) ?_))))).cast ?_ rfl
    · simp only [hs, hr]
      exact Reads.pure _
    · simp [paramBytes, Param.stub]
  | true =>
    refine ((Reads.bytes p.value).bind ((Reads.le1 hf.linkPath).bind (h3.bind ((Reads.le2 hf.descriptor).bind
      ((Reads.le1 hf.type).bind (cs := p.rest size block) (c := paramObject inst true p) ?_))))).cast ?_ rfl
    · simp only [hs, hr, if_true]
      refine (Reads.bytes' (bs := le 1 size) rfl).bind ((Reads.str hf.name).bind ((Reads.str hf.units).bind ((Reads.str hf.help).bind
        ((Reads.bytes' hf.min).bind ((Reads.bytes' hf.max).bind ((Reads.bytes' hf.default).bind ?_))))))
      by_cases hc : p.scalable = true
      · rw [if_pos hc, if_pos hc]
        refine (((Reads.bytes' hb).bind ((Reads.le1 hf.precision).map_pure fun precision => _)).cast rfl ?_)
        simp only [paramObject, hc, Bool.and_self, if_true, CipString.ofBytes]
      · rw [if_neg hc, if_neg hc]
        refine (Reads.pure _).cast rfl ?_
        simp only [paramObject, hc, Bool.and_false, if_true, CipString.ofBytes]
        rfl
    · simp [paramBytes, Param.stub]

theorem scaling_reads (o : ParameterObject) (p : Param) (hf : p.Fits) :
    Reads (ParameterObject.scaling o) p.scaling
      { o with scalingMultiplier := BitVec.ofNat 16 p.multiplier, scalingDivisor := BitVec.ofNat 16 p.divisor,
               scalingBase := BitVec.ofNat 16 p.base, scalingOffset := BitVec.ofNat 16 p.offset } :=
  (Reads.le2 hf.multiplier).bind ((Reads.le2 hf.divisor).bind ((Reads.le2 hf.base).bind ((Reads.le2 hf.offset).map_pure
    fun scalingOffset => _)))

/-! ## The requests -/

theorem scalingData_does {δ : Type} (D : Device δ) (inst : BitVec 16) (attrs : List (BitVec 16)) (L : Link δ) :
    Does (ParameterObject.scalingData D inst attrs) L (fun _ tr => tr = attrs.map (paramGet inst))
      (fun tr => tr <+: attrs.map (paramGet inst)) := by
  induction attrs generalizing L with
  | nil => exact Does.pure rfl
  | cons a l ih =>
    refine Does.bind Does.ask ?_ ?_
    · rintro tr rfl
      exact ⟨l.map (paramGet inst), rfl⟩
    · rintro L' r tr rfl
      refine Does.ite (fun _ => Does.throw ⟨l.map (paramGet inst), rfl⟩) fun _ => ?_
      refine Does.bind (ih L') ?_ ?_
      · rintro tr ⟨t, ht⟩
        exact ⟨t, by rw [List.map_cons, ← ht]; rfl⟩
      · rintro L'' d tr rfl
        exact Does.pure (by simp; rfl)

/-- C55. Whatever the device does, the requests made are the documented ones, in their
order: all of them if the constructor returns, the first few if it throws. -/
theorem C55_requests {δ : Type} (m : Mem) (D : Device δ) (L : Link δ) (inst : BitVec 16) (full : Bool) :
    (∀ L' o, ParameterObject.connect m D inst full L = .ok L' o →
      L'.sent = L.sent ++ paramRequests inst (full && o.isScalable)) ∧
    (∀ L' e, ParameterObject.connect m D inst full L = .throw L' e →
      ∃ tr, L'.sent = L.sent ++ tr ∧ tr <+: paramRequests inst full) := by
  have hp1 : [paramGet inst 6] <+: paramRequests inst full := by
    unfold paramRequests; exact ⟨_, rfl⟩
  have hp2 : paramRequests inst false <+: paramRequests inst full := by
    unfold paramRequests; exact ⟨_, rfl⟩
  have h : Does (ParameterObject.connect m D inst full) L
      (fun o tr => tr = paramRequests inst (full && o.isScalable)) (fun tr => tr <+: paramRequests inst full) := by
    refine Does.bind Does.ask ?_ ?_
    · rintro tr rfl; exact hp1
    · rintro L1 r1 tr rfl
      refine Does.ite (fun _ => ?_) fun _ => Does.throw hp1
      refine Does.bind (A := fun _ tr => tr = []) (B := (· = [])) (Does.lift (fun _ _ => rfl) rfl) ?_ ?_
      · rintro tr rfl; exact hp1
      rintro L2 size tr rfl
      refine Does.bind Does.ask ?_ ?_
      · rintro tr rfl; exact hp2
      rintro L3 r2 tr rfl
      refine Does.ite (fun _ => ?_) fun _ => Does.throw hp2
      refine Does.bind (A := fun _ tr => tr = []) (B := (· = [])) (Does.lift (fun _ _ => rfl) rfl) ?_ ?_
      · rintro tr rfl; exact hp2
      rintro L4 o tr rfl
      refine Does.ite (fun hc => ?_) fun hc => ?_
      · have hfull : full = true := by revert hc; cases full <;> simp
        refine Does.bind (scalingData_does D inst _ L4) ?_ ?_
        · rintro tr ⟨t, ht⟩
          refine ⟨t, ?_⟩
          rw [hfull]
          unfold paramRequests
          simp only [if_true, List.append_assoc]
          exact congrArg ([_, _] ++ ·) ht
        · rintro L5 d tr rfl
          have hs : ∀ a, (ParameterObject.scaling o).from m d = .ok a → a.isScalable = o.isScalable := by
            intro a ha
            obtain ⟨b, hb⟩ := Rd.from_inv ha
            obtain ⟨v1, b1, _, hb⟩ := Rd.bind_inv hb
            obtain ⟨v2, b2, _, hb⟩ := Rd.bind_inv hb
            obtain ⟨v3, b3, _, hb⟩ := Rd.bind_inv hb
            obtain ⟨v4, b4, _, hb⟩ := Rd.bind_inv hb
            rw [(Rd.pure_inv hb).1]
          refine Does.lift ?_ ?_
          · intro a ha
            rw [hs a ha, hc]
            rfl
          · rw [hfull]; exact List.prefix_rfl
      · refine Does.pure ?_
        have : (full && o.isScalable) = false := by simpa using hc
        rw [this]
        rfl
  constructor
  · intro L' o ho
    obtain ⟨tr, h1, h2⟩ := h.1 L' o ho
    rw [h1, h2]
  · intro L' e he
    exact h.2 L' e he

/-! ## C55: the content -/

/-- The device answers the constructor's requests with success and the attributes `p`:
the data size, all attributes (each possibly followed by more bytes), and for a
scalable parameter four answers that together start with the four scaling values. -/
def ParamServed {δ : Type} (D : Device δ) (inst : BitVec 16) (full : Bool) (p : Param) (d d' : δ) : Prop :=
  ∃ size block t1 t2, block.length = 16 ∧
    if full && p.scalable then
      ∃ a1 a2 a3 a4 t3, a1 ++ (a2 ++ (a3 ++ a4)) = p.scaling ++ t3 ∧
        Grants D d [(paramGet inst 6, le 1 p.value.length ++ t1), (⟨0x01#8, ⟨0x0F, inst, 0, 2⟩, []⟩, paramBytes full p size block ++ t2),
          (paramGet inst 13, a1), (paramGet inst 14, a2), (paramGet inst 15, a3), (paramGet inst 16, a4)] d'
    else
      Grants D d [(paramGet inst 6, le 1 p.value.length ++ t1),
        (⟨0x01#8, ⟨0x0F, inst, 0, 2⟩, []⟩, paramBytes full p size block ++ t2)] d'

/-- The object at the end of the constructor. -/
def paramFinal (inst : BitVec 16) (full : Bool) (p : Param) : ParameterObject :=
  if full && p.scalable then
    { paramObject inst full p with
      scalingMultiplier := BitVec.ofNat 16 p.multiplier
      scalingDivisor := BitVec.ofNat 16 p.divisor
      scalingBase := BitVec.ofNat 16 p.base
      scalingOffset := BitVec.ofNat 16 p.offset }
  else paramObject inst full p

theorem toInt16 {v : Nat} (h : v < 65536) : (BitVec.ofNat 16 v).toInt = Param.signed16 v := by
  unfold Param.signed16
  rw [BitVec.toInt_eq_toNat_cond, toNat16 h]
  split <;> split <;> first | rfl | omega

theorem paramFinal_view (inst : BitVec 16) (full : Bool) (p : Param) (hf : p.Fits) :
    paramView (paramFinal inst full p) = p.seen full := by
  unfold paramFinal
  have h1 := toNat16 hf.multiplier; have h2 := toNat16 hf.divisor; have h3 := toNat16 hf.base
  have h4 := toInt16 hf.offset; have h5 := toNat8 hf.precision; have h6 := toNat8 hf.type
  by_cases hc : (full && p.scalable) = true
  · rw [if_pos hc]
    simp only [paramView, paramObject, Param.seen, hc, if_true, h1, h2, h3, h4, h5, h6]
  · rw [if_neg hc]
    have hc' : (full && p.scalable) = false := by simpa using hc
    simp only [paramView, paramObject, Param.seen, hc', h6]
    rfl

theorem scalingData_ok {δ : Type} (D : Device δ) (inst : BitVec 16) (l : List (BitVec 16 × List Byte)) (d d' : δ)
    (sent : List Req) (h : Grants D d (l.map fun x => (paramGet inst x.1, x.2)) d') :
    ParameterObject.scalingData D inst (l.map (·.1)) ⟨d, sent⟩ =
      .ok ⟨d', sent ++ (l.map (·.1)).map (paramGet inst)⟩ (l.flatMap (·.2)) := by
  induction l generalizing d sent with
  | nil => cases h; simp [ParameterObject.scalingData]
  | cons a l ih =>
    cases h with
    | cons ha hs hd hr =>
      have := ih _ (sent ++ [paramGet inst a.1]) hr
      refine (Prog.bind_ok (ask_ok (r := paramGet inst a.1) (L := ⟨d, sent⟩) ha)).trans ?_
      rw [if_neg (fun h => h hs)]
      refine (Prog.bind_ok this).trans ?_
      simp [hd]

/-- C55. The object holds exactly the attributes of the device. -/
theorem C55_reads {δ : Type} (m : Mem) (D : Device δ) (L : Link δ) (inst : BitVec 16) (full : Bool) (p : Param)
    (hf : p.Fits) (d' : δ) (h : ParamServed D inst full p L.dev d') :
    ∃ o, ParameterObject.connect m D inst full L = .ok ⟨d', L.sent ++ paramRequests inst (full && p.scalable)⟩ o ∧
      paramView o = p.seen full ∧ o.instanceId = inst ∧ o.parameter = inst ∧ o.hasFullAttributes = full := by
  refine ⟨paramFinal inst full p, ?_, paramFinal_view inst full p hf, ?_, ?_, ?_⟩
  · obtain ⟨size, block, t1, t2, hb, h⟩ := h
    have hsize : Rd.u8.from m (le 1 p.value.length ++ t1) = .ok (BitVec.ofNat 8 p.value.length) :=
      Rd.from_ok ((Reads.le1 hf.value).start m)
    have hattr : (ParameterObject.attributes inst full (BitVec.ofNat 8 p.value.length).toNat).from m
        (paramBytes full p size block ++ t2) = .ok (paramObject inst full p) := by
      rw [toNat8 hf.value]
      exact Rd.from_ok ((attributes_reads inst full p hf size block hb).start m)
    have hcond : (full && (paramObject inst full p).isScalable) = (full && p.scalable) := rfl
    unfold ParameterObject.connect
    by_cases hc : (full && p.scalable) = true
    · rw [if_pos hc] at h
      obtain ⟨a1, a2, a3, a4, t3, ha, h⟩ := h
      cases h with
      | cons h1 s1 d1 h =>
      cases h with
      | cons h2 s2 d2 h =>
      have h3 := scalingData_ok D inst [(13, a1), (14, a2), (15, a3), (16, a4)] _ _
        (L.sent ++ [paramGet inst 6] ++ [⟨0x01#8, ⟨0x0F, inst, 0, 2⟩, []⟩]) h
      refine (Prog.bind_ok (ask_ok (r := paramGet inst 6) h1)).trans ?_
      rw [if_pos (show _ = GeneralStatus.success from s1), d1, hsize]
      refine (Prog.bind_ok (Prog.lift_ok _ _)).trans ?_
      refine (Prog.bind_ok (ask_ok (r := ⟨0x01#8, ⟨0x0F, inst, 0, 2⟩, []⟩) h2)).trans ?_
      rw [if_pos (show _ = GeneralStatus.success from s2), d2, hattr]
      refine (Prog.bind_ok (Prog.lift_ok _ _)).trans ?_
      rw [hcond, if_pos hc]
      refine (Prog.bind_ok h3).trans ?_
      have hs : (ParameterObject.scaling (paramObject inst full p)).from m
          ([((13 : BitVec 16), a1), (14, a2), (15, a3), (16, a4)].flatMap (·.2)) = .ok (paramFinal inst full p) := by
        have e : [((13 : BitVec 16), a1), (14, a2), (15, a3), (16, a4)].flatMap (·.2) = p.scaling ++ t3 := by
          rw [← ha]; simp
        rw [e]
        unfold paramFinal
        rw [if_pos hc]
        exact Rd.from_ok ((scaling_reads _ p hf).start m)
      rw [hs, Prog.lift_ok, hc]
      simp [paramRequests]
    · rw [if_neg hc] at h
      cases h with
      | cons h1 s1 d1 h =>
      cases h with
      | cons h2 s2 d2 h =>
      cases h
      refine (Prog.bind_ok (ask_ok (r := paramGet inst 6) h1)).trans ?_
      rw [if_pos (show _ = GeneralStatus.success from s1), d1, hsize]
      refine (Prog.bind_ok (Prog.lift_ok _ _)).trans ?_
      refine (Prog.bind_ok (ask_ok (r := ⟨0x01#8, ⟨0x0F, inst, 0, 2⟩, []⟩) h2)).trans ?_
      rw [if_pos (show _ = GeneralStatus.success from s2), d2, hattr]
      refine (Prog.bind_ok (Prog.lift_ok _ _)).trans ?_
      rw [hcond, if_neg hc]
      unfold paramFinal
      rw [if_neg hc]
      have hc' : (full && p.scalable) = false := by simpa using hc
      rw [hc']
      simp only [paramRequests, List.append_assoc]
      rfl
  all_goals
    unfold paramFinal
    split <;> rfl

/-! ## C55: nothing else is accepted -/

theorem ask_inv {δ : Type} {D : Device δ} {r : Req} {L L' : Link δ} {resp : MessageRouterResponse}
    (h : ask D r L = .ok L' resp) : ∃ d, D.answer r L.dev = .ok d resp ∧ L' = ⟨d, L.sent ++ [r]⟩ := by
  unfold ask at h
  match ha : D.answer r L.dev, h with
  | .ok d r', h =>
    injection h with h1 h2
    subst h2
    exact ⟨d, rfl, h1.symm⟩

theorem lift_inv {σ α : Type} {x : Outcome α} {s s' : σ} {a : α} (h : Prog.lift x s = .ok s' a) : x = .ok a ∧ s' = s := by
  cases x with
  | ok b => injection h with h1 h2; subst h1; subst h2; exact ⟨rfl, rfl⟩
  | throw e => cases h
  | ub => cases h

theorem scalingData_inv {δ : Type} (D : Device δ) (inst : BitVec 16) (attrs : List (BitVec 16)) (L L' : Link δ)
    (data : List Byte) (h : ParameterObject.scalingData D inst attrs L = .ok L' data) :
    ∃ l : List (BitVec 16 × List Byte), l.map (·.1) = attrs ∧ Grants D L.dev (l.map fun x => (paramGet inst x.1, x.2)) L'.dev ∧
      data = l.flatMap (·.2) := by
  induction attrs generalizing L L' data with
  | nil =>
    injection h with h1 h2
    subst h1; subst h2
    exact ⟨[], rfl, Grants.nil, rfl⟩
  | cons a l ih =>
    obtain ⟨L1, r, h1, h2⟩ := Prog.bind_eq_ok h
    obtain ⟨d1, h3, rfl⟩ := ask_inv h1
    by_cases hs : r.status = GeneralStatus.success
    · rw [if_neg (fun h => h hs)] at h2
      obtain ⟨L2, more, h4, h5⟩ := Prog.bind_eq_ok h2
      obtain ⟨l', h6, h7, h8⟩ := ih _ _ _ h4
      injection h5 with h5 h9
      subst h5; subst h9
      exact ⟨(a, r.data) :: l', by rw [List.map_cons, h6], Grants.cons h3 hs rfl h7, by rw [h8]; rfl⟩
    · rw [if_pos hs] at h2
      cases h2

theorem attributes_inv (inst : BitVec 16) (full : Bool) (size : Nat) (hsz : size < 256) (data : List Byte) (o : ParameterObject)
    (h : (ParameterObject.attributes inst full size).from Mem.strict data = .ok o) :
    ∃ (p : Param) (sz : Nat) (block t : List Byte), block.length = 16 ∧ p.value.length = size ∧
      data = paramBytes full p sz block ++ t ∧ o = paramObject inst full p ∧
      ∀ mu di ba off, mu < 65536 → di < 65536 → ba < 65536 → off < 65536 →
        Param.Fits { p with multiplier := mu, divisor := di, base := ba, offset := off } := by
  obtain ⟨b, hb⟩ := Rd.from_inv h
  obtain ⟨value, b1, h1, hb⟩ := Rd.bind_inv hb
  obtain ⟨r1, hr1, e1, l1⟩ := bytes_inv (Rest.ofData data) h1
  obtain ⟨lps, b2, h2, hb⟩ := Rd.bind_inv hb
  obtain ⟨r2, hr2, e2⟩ := u8_inv hr1 h2
  obtain ⟨path, b3, h3, hb⟩ := Rd.bind_inv hb
  obtain ⟨r3, hr3, e3, l3⟩ := bytes_inv hr2 h3
  obtain ⟨desc, b4, h4, hb⟩ := Rd.bind_inv hb
  obtain ⟨r4, hr4, e4⟩ := u16_inv hr3 h4
  obtain ⟨type, b5, h5, hb⟩ := Rd.bind_inv hb
  obtain ⟨r5, hr5, e5⟩ := u8_inv hr4 h5
  rw [bit2, bit4] at hb
  subst l1
  have hdesc := desc.isLt
  have htype := type.isLt
  have hpath : path.length < 256 := by rw [l3]; exact lps.isLt
  rw [← l3] at e2
  cases full with
  | false =>
    obtain ⟨rfl, rfl⟩ := Rd.pure_inv hb
    refine ⟨⟨value, path, desc.toNat, type.toNat, [], [], [], List.replicate value.length 0#8, List.replicate value.length 0#8,
      List.replicate value.length 0#8, 1, 1, 1, 0, 0⟩, 0, List.replicate 16 0#8, r5, by simp, rfl, ?_, ?_, ?_⟩
    · rw [e1, e2, e3, e4, e5]; simp [paramBytes, Param.stub]
    · simp [paramObject, Param.scalable, Param.readOnly]
    · intros; constructor <;> first | assumption | simp
  | true =>
    simp only [if_true] at hb
    obtain ⟨ign, b6, h6, hb⟩ := Rd.bind_inv hb
    obtain ⟨r6, hr6, e6, l6⟩ := bytes_inv hr5 h6
    obtain ⟨name, b7, h7, hb⟩ := Rd.bind_inv hb
    obtain ⟨r7, hr7, e7, l7⟩ := shortString_inv hr6 h7
    obtain ⟨units, b8, h8, hb⟩ := Rd.bind_inv hb
    obtain ⟨r8, hr8, e8, l8⟩ := shortString_inv hr7 h8
    obtain ⟨help, b9, h9, hb⟩ := Rd.bind_inv hb
    obtain ⟨r9, hr9, e9, l9⟩ := shortString_inv hr8 h9
    obtain ⟨mn, b10, h10, hb⟩ := Rd.bind_inv hb
    obtain ⟨r10, hr10, e10, l10⟩ := bytes_inv hr9 h10
    obtain ⟨mx, b11, h11, hb⟩ := Rd.bind_inv hb
    obtain ⟨r11, hr11, e11, l11⟩ := bytes_inv hr10 h11
    obtain ⟨df, b12, h12, hb⟩ := Rd.bind_inv hb
    obtain ⟨r12, hr12, e12, l12⟩ := bytes_inv hr11 h12
    obtain ⟨sz, rfl⟩ : ∃ sz, ign = le 1 sz := by
      match ign, l6 with
      | [x], _ => exact ⟨x.toNat, (le_one x).symm⟩
    by_cases hc : desc.toNat / 4 % 2 = 1
    · simp only [hc, beq_self_eq_true, if_true] at hb
      obtain ⟨block, b13, h13, hb⟩ := Rd.bind_inv hb
      obtain ⟨r13, hr13, e13, l13⟩ := bytes_inv hr12 h13
      obtain ⟨prec, b14, h14, hb⟩ := Rd.bind_inv hb
      obtain ⟨r14, hr14, e14⟩ := u8_inv hr13 h14
      obtain ⟨rfl, rfl⟩ := Rd.pure_inv hb
      have hprec := prec.isLt
      refine ⟨⟨value, path, desc.toNat, type.toNat, name.data, units.data, help.data, mn, mx, df, 1, 1, 1, 0, prec.toNat⟩, sz,
        block, r14, l13, rfl, ?_, ?_, ?_⟩
      · rw [e1, e2, e3, e4, e5, e6, e7, e8, e9, e10, e11, e12, e13, e14]
        simp [paramBytes, Param.stub, Param.rest, Param.str, Param.scalable, hc]
      · simp [paramObject, Param.scalable, Param.readOnly, hc]
      · intros; constructor <;> assumption
    · simp only [hc, beq_eq_false_iff_ne.mpr hc] at hb
      obtain ⟨rfl, rfl⟩ := Rd.pure_inv hb
      refine ⟨⟨value, path, desc.toNat, type.toNat, name.data, units.data, help.data, mn, mx, df, 1, 1, 1, 0, 0⟩, sz,
        List.replicate 16 0#8, r12, by simp, rfl, ?_, ?_, ?_⟩
      · rw [e1, e2, e3, e4, e5, e6, e7, e8, e9, e10, e11, e12]
        simp [paramBytes, Param.stub, Param.rest, Param.str, Param.scalable, hc]
      · simp [paramObject, Param.scalable, Param.readOnly, hc]
      · intros; constructor <;> first | assumption | simp

/-- C55. If the constructor returns without reading out of bounds, the device answered
every request with success, the answers had the layout of some parameter, and the
object holds that parameter. -/
theorem C55_sound {δ : Type} (D : Device δ) (L L' : Link δ) (inst : BitVec 16) (full : Bool) (o : ParameterObject)
    (h : ParameterObject.connect Mem.strict D inst full L = .ok L' o) :
    ∃ p : Param, p.Fits ∧ ParamServed D inst full p L.dev L'.dev ∧ paramView o = p.seen full ∧
      o.instanceId = inst ∧ o.parameter = inst ∧ o.hasFullAttributes = full := by
  suffices hs : ∃ p : Param, p.Fits ∧ ParamServed D inst full p L.dev L'.dev ∧ o = paramFinal inst full p by
    obtain ⟨p, h1, h2, rfl⟩ := hs
    refine ⟨p, h1, h2, paramFinal_view inst full p h1, ?_, ?_, ?_⟩ <;>
    · unfold paramFinal
      split <;> rfl
  obtain ⟨L1, r1, h1, h⟩ := Prog.bind_eq_ok h
  obtain ⟨d1, a1, rfl⟩ := ask_inv h1
  by_cases s1 : r1.status = GeneralStatus.success
  case neg => rw [if_neg s1] at h; cases h
  rw [if_pos s1] at h
  obtain ⟨L2, size, h2, h⟩ := Prog.bind_eq_ok h
  obtain ⟨g2, rfl⟩ := lift_inv h2
  obtain ⟨b, g2⟩ := Rd.from_inv g2
  obtain ⟨t1, _, e1⟩ := u8_inv (Rest.ofData _) g2
  obtain ⟨L3, r2, h3, h⟩ := Prog.bind_eq_ok h
  obtain ⟨d2, a2, rfl⟩ := ask_inv h3
  by_cases s2 : r2.status = GeneralStatus.success
  case neg => rw [if_neg s2] at h; cases h
  rw [if_pos s2] at h
  obtain ⟨L4, o1, h4, h⟩ := Prog.bind_eq_ok h
  obtain ⟨g4, rfl⟩ := lift_inv h4
  obtain ⟨p, sz, block, t2, hb, hv, e2, rfl, hfits⟩ := attributes_inv inst full size.toNat size.isLt r2.data o1 g4
  have hcond : (full && (paramObject inst full p).isScalable) = (full && p.scalable) := rfl
  rw [← hv] at e1
  rw [hcond] at h
  by_cases hc : (full && p.scalable) = true
  · rw [if_pos hc] at h
    obtain ⟨L5, data, h5, h⟩ := Prog.bind_eq_ok h
    obtain ⟨l, hl, hg, rfl⟩ := scalingData_inv D inst _ _ _ _ h5
    obtain ⟨g6, rfl⟩ := lift_inv h
    obtain ⟨b6, h6⟩ := Rd.from_inv g6
    obtain ⟨mu, c1, k1, h6⟩ := Rd.bind_inv h6
    obtain ⟨q1, hq1, f1⟩ := u16_inv (Rest.ofData _) k1
    obtain ⟨di, c2, k2, h6⟩ := Rd.bind_inv h6
    obtain ⟨q2, hq2, f2⟩ := u16_inv hq1 k2
    obtain ⟨ba, c3, k3, h6⟩ := Rd.bind_inv h6
    obtain ⟨q3, hq3, f3⟩ := u16_inv hq2 k3
    obtain ⟨off, c4, k4, h6⟩ := Rd.bind_inv h6
    obtain ⟨q4, hq4, f4⟩ := u16_inv hq3 k4
    obtain ⟨rfl, _⟩ := Rd.pure_inv h6
    match l, hl with
    | [(i1, x1), (i2, x2), (i3, x3), (i4, x4)], hl =>
      simp only [List.map_cons, List.map_nil, List.cons.injEq, and_true] at hl
      obtain ⟨rfl, rfl, rfl, rfl⟩ := hl
      refine ⟨{ p with multiplier := mu.toNat, divisor := di.toNat, base := ba.toNat, offset := off.toNat },
        hfits _ _ _ _ mu.isLt di.isLt ba.isLt off.isLt, ⟨sz, block, t1, t2, hb, ?_⟩, ?_⟩
      · refine (if_pos (c := (full && p.scalable) = true) hc).mpr ⟨x1, x2, x3, x4, q4, ?_, ?_⟩
        · rw [f2, f3, f4] at f1
          simpa [Param.scaling] using f1
        · exact Grants.cons a1 s1 e1 (Grants.cons a2 s2 e2 hg)
      · unfold paramFinal
        refine ((if_pos (c := (full && p.scalable) = true) hc).trans ?_).symm
        simp [paramObject, Param.scalable, Param.readOnly]
  · rw [if_neg hc] at h
    injection h with h5 h6
    subst h5
    refine ⟨{ p with multiplier := 1, divisor := 1, base := 1, offset := 0 },
        hfits _ _ _ _ (by decide) (by decide) (by decide) (by decide), ⟨sz, block, t1, t2, hb, ?_⟩, ?_⟩
    · exact (if_neg (c := (full && p.scalable) = true) hc).mpr (Grants.cons a1 s1 e1 (Grants.cons a2 s2 e2 Grants.nil))
    · unfold paramFinal
      exact h6.symm.trans (if_neg (c := (full && p.scalable) = true) hc).symm

/-! ## C58 -/

/-- C58. One request, GetAttributeSingle of attribute 1 of the object's own instance,
whatever happens; and if it throws, the object is what it was. -/
theorem C58_request {δ : Type} (m : Mem) (D : Device δ) (L : Link δ) (o : ParameterObject) :
    (∀ o' L', ParameterObject.updateValue m D (o, L) = .ok (o', L') () → L'.sent = L.sent ++ [paramGet o.instanceId 1]) ∧
    (∀ o' L' e, ParameterObject.updateValue m D (o, L) = .throw (o', L') e →
      L'.sent = L.sent ++ [paramGet o.instanceId 1] ∧ o' = o) := by
  unfold ParameterObject.updateValue
  rw [Prog.bind_ok (Prog.get_run _)]
  by_cases ho : o.hasRouter = true
  case neg => simp only [if_neg ho]; exact ⟨fun _ _ h => (by cases h), fun _ _ _ h => (by cases h)⟩
  simp only [if_pos ho]
  cases ha : D.answer (paramGet o.instanceId 1) L.dev with
  | ub =>
    have := onLink_ub (o := o) (ask_ub (L := L) ha)
    constructor
    · intro o' L' h; cases (Prog.bind_ub this).symm.trans h
    · intro o' L' e h; cases (Prog.bind_ub this).symm.trans h
  | throw d e =>
    have := onLink_throw (o := o) (ask_throw (L := L) ha)
    constructor
    · intro o' L' h; cases (Prog.bind_throw this).symm.trans h
    · intro o' L' e h
      cases (Prog.bind_throw this).symm.trans h
      exact ⟨rfl, rfl⟩
  | ok d r =>
    have := onLink_ok (o := o) (ask_ok (L := L) ha)
    by_cases hs : r.status = GeneralStatus.success
    · cases hv : (Rd.bytes o.value.length).from m r.data with
      | ub =>
        constructor
        · intro o' L' h
          have h := (Prog.bind_ok this).symm.trans h
          rw [if_pos hs, hv] at h
          cases h
        · intro o' L' e h
          have h := (Prog.bind_ok this).symm.trans h
          rw [if_pos hs, hv] at h
          cases h
      | throw e =>
        constructor
        · intro o' L' h
          have h := (Prog.bind_ok this).symm.trans h
          rw [if_pos hs, hv] at h
          cases h
        · intro o' L' e h
          have h := (Prog.bind_ok this).symm.trans h
          rw [if_pos hs, hv] at h
          cases h
          exact ⟨rfl, rfl⟩
      | ok v =>
        constructor
        · intro o' L' h
          have h := (Prog.bind_ok this).symm.trans h
          rw [if_pos hs, hv] at h
          cases h
          rfl
        · intro o' L' e h
          have h := (Prog.bind_ok this).symm.trans h
          rw [if_pos hs, hv] at h
          cases h
    · constructor
      · intro o' L' h
        have h := (Prog.bind_ok this).symm.trans h
        rw [if_neg hs] at h
        cases h
      · intro o' L' e h
        have h := (Prog.bind_ok this).symm.trans h
        rw [if_neg hs] at h
        cases h
        exact ⟨rfl, rfl⟩

/-- C58. On success the value is the first bytes of the answer, as many as it had
before; nothing else changes. -/
theorem C58_updates {δ : Type} (m : Mem) (D : Device δ) (L : Link δ) (o : ParameterObject) (ho : o.hasRouter = true)
    (v t : List Byte) (d' : δ) (hv : v.length = o.value.length)
    (h : Grants D L.dev [(paramGet o.instanceId 1, v ++ t)] d') :
    ParameterObject.updateValue m D (o, L) =
      .ok ({ o with value := v }, ⟨d', L.sent ++ [paramGet o.instanceId 1]⟩) () := by
  cases h with
  | cons h1 s1 e1 h =>
  cases h
  unfold ParameterObject.updateValue
  rw [Prog.bind_ok (Prog.get_run _)]
  simp only [if_pos ho]
  refine (Prog.bind_ok (onLink_ok (ask_ok (r := paramGet o.instanceId 1) h1))).trans ?_
  rw [if_pos (show _ = GeneralStatus.success from s1), e1, Rd.from_ok ((Reads.bytes' hv).start m)]
  rfl

/-- C58. Any other status throws and changes nothing. -/
theorem C58_refused {δ : Type} (m : Mem) (D : Device δ) (L : Link δ) (o : ParameterObject) (ho : o.hasRouter = true)
    (r : MessageRouterResponse) (d' : δ) (h : D.answer (paramGet o.instanceId 1) L.dev = .ok d' r) (hr : r.status ≠ 0x00#8) :
    ParameterObject.updateValue m D (o, L) =
      .throw (o, ⟨d', L.sent ++ [paramGet o.instanceId 1]⟩) (.runtime "Failed to read value") := by
  unfold ParameterObject.updateValue
  rw [Prog.bind_ok (Prog.get_run _)]
  simp only [if_pos ho]
  refine (Prog.bind_ok (onLink_ok (ask_ok (r := paramGet o.instanceId 1) h))).trans ?_
  rw [if_neg (show ¬ _ = GeneralStatus.success from hr)]
  rfl

/-- C58. A success answer that is too short is read out of bounds. -/
theorem C58_short_violated {δ : Type} (D : Device δ) (L : Link δ) (o : ParameterObject) (ho : o.hasRouter = true)
    (v : List Byte) (d' : δ) (hv : v.length < o.value.length)
    (h : Grants D L.dev [(paramGet o.instanceId 1, v)] d') :
    ParameterObject.updateValue Mem.strict D (o, L) = .ub := by
  cases h with
  | cons h1 s1 e1 h =>
  unfold ParameterObject.updateValue
  rw [Prog.bind_ok (Prog.get_run _)]
  simp only [if_pos ho]
  refine (Prog.bind_ok (onLink_ok (ask_ok (r := paramGet o.instanceId 1) h1))).trans ?_
  rw [if_pos (show _ = GeneralStatus.success from s1), e1,
    Rd.from_ub ((Sized.bytes _).short _ (Nat.zero_le _) (by simpa [Buffer.ofData] using hv))]
  rfl

/-- C58. An object made without a session has no router: updating it is undefined. -/
theorem C58_no_router_violated {δ : Type} (m : Mem) (D : Device δ) (L : Link δ) (inst : BitVec 16) (full : Bool) (n : Nat) :
    ParameterObject.updateValue m D (ParameterObject.empty inst full n, L) = .ub := rfl

/-- C55, C58. Every object made with a session has a router. -/
theorem C58_router {δ : Type} (D : Device δ) (L L' : Link δ) (inst : BitVec 16) (full : Bool) (o : ParameterObject) (m : Mem)
    (h : ParameterObject.connect m D inst full L = .ok L' o) : o.hasRouter = true := by
  obtain ⟨L1, r1, _, h⟩ := Prog.bind_eq_ok h
  split at h
  case isFalse => cases h
  obtain ⟨L2, size, _, h⟩ := Prog.bind_eq_ok h
  obtain ⟨L3, r2, _, h⟩ := Prog.bind_eq_ok h
  split at h
  case isFalse => cases h
  obtain ⟨L4, o1, h4, h⟩ := Prog.bind_eq_ok h
  obtain ⟨g4, _⟩ := lift_inv h4
  obtain ⟨b, g⟩ := Rd.from_inv g4
  have h1 : o1.hasRouter = true := by
    obtain ⟨_, _, _, g⟩ := Rd.bind_inv g
    obtain ⟨_, _, _, g⟩ := Rd.bind_inv g
    obtain ⟨_, _, _, g⟩ := Rd.bind_inv g
    obtain ⟨_, _, _, g⟩ := Rd.bind_inv g
    obtain ⟨_, _, _, g⟩ := Rd.bind_inv g
    split at g
    · obtain ⟨_, _, _, g⟩ := Rd.bind_inv g
      obtain ⟨_, _, _, g⟩ := Rd.bind_inv g
      obtain ⟨_, _, _, g⟩ := Rd.bind_inv g
      obtain ⟨_, _, _, g⟩ := Rd.bind_inv g
      obtain ⟨_, _, _, g⟩ := Rd.bind_inv g
      obtain ⟨_, _, _, g⟩ := Rd.bind_inv g
      obtain ⟨_, _, _, g⟩ := Rd.bind_inv g
      split at g
      · obtain ⟨_, _, _, g⟩ := Rd.bind_inv g
        obtain ⟨_, _, _, g⟩ := Rd.bind_inv g
        rw [(Rd.pure_inv g).1]
      · rw [(Rd.pure_inv g).1]
    · rw [(Rd.pure_inv g).1]
  split at h
  · obtain ⟨L5, data, _, h⟩ := Prog.bind_eq_ok h
    obtain ⟨g6, _⟩ := lift_inv h
    obtain ⟨b6, g6⟩ := Rd.from_inv g6
    obtain ⟨_, _, _, g6⟩ := Rd.bind_inv g6
    obtain ⟨_, _, _, g6⟩ := Rd.bind_inv g6
    obtain ⟨_, _, _, g6⟩ := Rd.bind_inv g6
    obtain ⟨_, _, _, g6⟩ := Rd.bind_inv g6
    rw [(Rd.pure_inv g6).1]
    exact h1
  · injection h with _ h
    rw [← h]; exact h1

/-! ## A concrete device -/

/-- A device given by a function of the request. -/
def tableDevice (f : Req → BitVec 8 × List Byte) : Device Unit :=
  ⟨fun r d => .ok d { MessageRouterResponse.default with status := (f r).1, data := (f r).2 }⟩

/-- A 16-bit parameter with link path, name, units and scaling. -/
def sampleParam : Param :=
  { value := [0x10#8, 0x27#8], linkPath := [0x20#8, 0x04#8], descriptor := 0x14, type := 0xC7
    name := [0x46#8, 0x72#8], units := [0x48#8, 0x7a#8], help := []
    min := [0#8, 0#8], max := [0xff#8, 0x7f#8], default := [1#8, 0#8]
    multiplier := 3, divisor := 2, base := 1, offset := 65535, precision := 1 }

def sampleParamDevice : Device Unit := tableDevice fun r =>
  if r.service = 0x01#8 then (0, paramBytes true sampleParam 2 (List.replicate 16 9#8) ++ [7#8])
  else match r.path.attributeId.toNat with
    | 6 => (0, [2#8])
    | 13 => (0, [3#8, 0#8])
    | 14 => (0, [2#8, 0#8])
    | 15 => (0, [1#8, 0#8])
    | 16 => (0, [0xff#8, 0xff#8])
    | 1 => (0, [0xaa#8, 0xbb#8, 0xcc#8])
    | _ => (0x14, [])

example : sampleParam.Fits := by constructor <;> decide

def paramOf : Res (Link Unit) ParameterObject → Option (ParamSeen × List Req)
  | .ok L o => some (paramView o, L.sent)
  | _ => none

example : paramOf (ParameterObject.connect Mem.strict sampleParamDevice 7 true ⟨(), []⟩) =
    some (sampleParam.seen true, paramRequests 7 true) := by decide +kernel
example : paramOf (ParameterObject.connect Mem.strict sampleParamDevice 7 false ⟨(), []⟩) =
    some (sampleParam.seen false, paramRequests 7 false) := by decide +kernel

/-- The value is read again; a device that refuses leaves it. -/
example :
    let o : ParameterObject := { instanceId := 7, hasFullAttributes := false, value := [1#8, 2#8], hasRouter := true }
    ParameterObject.updateValue Mem.strict sampleParamDevice (o, ⟨(), []⟩) =
      .ok ({ o with value := [0xaa#8, 0xbb#8] }, ⟨(), [paramGet 7 1]⟩) () ∧
    ParameterObject.updateValue Mem.strict (tableDevice fun _ => (5, [])) (o, ⟨(), []⟩) =
      .throw (o, ⟨(), [paramGet 7 1]⟩) (.runtime "Failed to read value") := by decide +kernel

/-- C55. The four answers are concatenated: a device that answers the multiplier with
four bytes (3, 0, 0, 0) instead of two gets divisor 0 and a wrong base and offset. -/
theorem C55_shifted_violated :
    (paramOf (ParameterObject.connect Mem.strict (tableDevice fun r =>
      if r.service = 0x0E#8 ∧ r.path.attributeId = 13 then (0, [3#8, 0#8, 0#8, 0#8])
      else if r.service = 0x01#8 then (0, paramBytes true sampleParam 2 (List.replicate 16 9#8))
      else if r.path.attributeId = 6 then (0, [2#8]) else if r.path.attributeId = 14 then (0, [2#8, 0#8])
      else (0, [1#8, 0#8])) 7 true ⟨(), []⟩)).map (fun x => (x.1.multiplier, x.1.divisor, x.1.base, x.1.offset)) =
    some (3, 0, 2, 1) := by decide +kernel

end Verif.Props
