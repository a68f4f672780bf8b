import Verif.Props.Ieee

/-!
# C105: `CipReal` and `CipLreal`
-/

namespace Verif.Props

open Verif Verif.Spec Ieee Double ParameterObject Format

/-! ## Bit patterns -/

theorem readReal_le (m : Mem) (n : Nat) (h : n < 2 ^ 32) : readReal m (le 4 n) = .ok (f32.decode n) := by
  unfold readReal
  have := Rd.from_ok ((Reads.u32 (BitVec.ofNat 32 n)).all m)
  rw [BitVec.toNat_ofNat, Nat.mod_eq_of_lt h] at this
  rw [this]
  simp only [BitVec.toNat_ofNat, Nat.mod_eq_of_lt h]

theorem readLreal_le (m : Mem) (n : Nat) (h : n < 2 ^ 64) : readLreal m (le 8 n) = .ok (f64.decode n) := by
  unfold readLreal
  have := Rd.from_ok ((Reads.u64 (BitVec.ofNat 64 n)).all m)
  rw [BitVec.toNat_ofNat, Nat.mod_eq_of_lt h] at this
  rw [this]
  simp only [BitVec.toNat_ofNat, Nat.mod_eq_of_lt h]

/-- C105. The value of four bytes as `CipReal`: sign, exponent and fraction as IEEE 754 says. -/
theorem C105_real_bits (m : Mem) (s ex frac : Nat) (hs : s < 2) (hex : ex < 2 ^ 8) (hf : frac < 2 ^ 23) :
    readReal m (le 4 (s * 2 ^ 31 + ex * 2 ^ 23 + frac)) = .ok (
      if ex = 255 then if frac = 0 then .inf (decide (s = 1)) else .nan
      else if ex = 0 then .fin ((-1) ^ s * frac * (2 : Rat) ^ (-149 : Int))
      else .fin ((-1) ^ s * (2 ^ 23 + frac) * (2 : Rat) ^ (ex - 150 : Int))) := by
  rw [readReal_le m _ (by omega)]
  have h := decode_fields f32 s ex frac hs hex hf
  have e1 : s * (2 ^ (f32.prec - 1) * 2 ^ f32.ebits) + (ex * 2 ^ (f32.prec - 1) + frac) = s * 2 ^ 31 + ex * 2 ^ 23 + frac := by
    rw [show f32.prec = 24 from rfl, show f32.ebits = 8 from rfl]; omega
  have e2 : 2 ^ f32.ebits - 1 = 255 := rfl
  have e3 : 1 - f32.emax - ((f32.prec : Int) - 1) = -149 := by decide
  have e4 : (ex : Int) - f32.emax - ((f32.prec : Int) - 1) = ex - 150 := by
    have : f32.emax = 127 := by decide
    have : (f32.prec : Int) = 24 := rfl
    omega
  have e5 : (if s = 1 then (-1 : Rat) else 1) = (-1) ^ s := by
    rcases (by omega : s = 0 ∨ s = 1) with rfl | rfl <;> simp
  rw [e1, e2, e3, e4, e5, pow2_eq, pow2_eq, show f32.prec - 1 = 23 from rfl] at h
  rw [h, Nat.cast_add, Nat.cast_pow, Nat.cast_ofNat]

/-- C105. The value of eight bytes as `CipLreal`. -/
theorem C105_lreal_bits (m : Mem) (s ex frac : Nat) (hs : s < 2) (hex : ex < 2 ^ 11) (hf : frac < 2 ^ 52) :
    readLreal m (le 8 (s * 2 ^ 63 + ex * 2 ^ 52 + frac)) = .ok (
      if ex = 2047 then if frac = 0 then .inf (decide (s = 1)) else .nan
      else if ex = 0 then .fin ((-1) ^ s * frac * (2 : Rat) ^ (-1074 : Int))
      else .fin ((-1) ^ s * (2 ^ 52 + frac) * (2 : Rat) ^ (ex - 1075 : Int))) := by
  rw [readLreal_le m _ (by omega)]
  have h := decode_fields f64 s ex frac hs hex hf
  have e1 : s * (2 ^ (f64.prec - 1) * 2 ^ f64.ebits) + (ex * 2 ^ (f64.prec - 1) + frac) = s * 2 ^ 63 + ex * 2 ^ 52 + frac := by
    rw [show f64.prec = 53 from rfl, show f64.ebits = 11 from rfl]; omega
  have e2 : 2 ^ f64.ebits - 1 = 2047 := rfl
  have e3 : 1 - f64.emax - ((f64.prec : Int) - 1) = -1074 := by decide
  have e4 : (ex : Int) - f64.emax - ((f64.prec : Int) - 1) = ex - 1075 := by
    have : f64.emax = 1023 := by decide
    have : (f64.prec : Int) = 53 := rfl
    omega
  have e5 : (if s = 1 then (-1 : Rat) else 1) = (-1) ^ s := by
    rcases (by omega : s = 0 ∨ s = 1) with rfl | rfl <;> simp
  rw [e1, e2, e3, e4, e5, pow2_eq, pow2_eq, show f64.prec - 1 = 52 from rfl] at h
  rw [h, Nat.cast_add, Nat.cast_pow, Nat.cast_ofNat]

/-- A value of the format: infinite, NaN or one of its numbers. -/
def IsVal (p : Nat) (b : Int) : Val → Prop
  | .fin x => IsNumber p b x
  | _ => True

theorem decode_encode_val {F : Format} (hF : SoundFormat F) (v : Val) (h : IsVal F.prec F.emax v) :
    F.decode (F.encode v) = v ∧ F.encode v < 2 * (2 ^ (F.prec - 1) * 2 ^ F.ebits) := by
  cases v with
  | nan => exact decode_encode_nan F hF.prec
  | inf a => exact decode_encode_inf F a
  | fin x => exact decode_encode_fin F hF.prec hF.ebits x (number_exact hF h) (number_small h)

/-- Every bit pattern is a value of the format. -/
theorem decode_isVal {F : Format} (hF : SoundFormat F) (n : Nat) : IsVal F.prec F.emax (F.decode n) := by
  have hp := hF.prec
  have he := hF.emax
  have hW : ((2 ^ F.ebits : Nat) : Int) = 2 * (F.emax + 1) := by
    obtain ⟨n, hn⟩ : ∃ n, F.ebits = n + 1 := ⟨F.ebits - 1, by have := hF.ebits; omega⟩
    unfold Format.emax
    rw [hn, Nat.add_sub_cancel]; push_cast; rw [pow_succ]; ring
  have hpp : 2 ^ F.prec = 2 * 2 ^ (F.prec - 1) := by
    obtain ⟨n, hn⟩ : ∃ n, F.prec = n + 1 := ⟨F.prec - 1, by omega⟩
    rw [hn, Nat.add_sub_cancel, pow_succ]; ring
  have hf : n % 2 ^ (F.prec - 1) < 2 ^ (F.prec - 1) := Nat.mod_lt _ (by positivity)
  have hx : n / 2 ^ (F.prec - 1) % 2 ^ F.ebits < 2 ^ F.ebits := Nat.mod_lt _ (by positivity)
  have key : ∀ (c : Prop) [Decidable c] (k : Nat) (j : Int), k < 2 ^ F.prec → 1 - F.emax - (F.prec - 1) ≤ j → j ≤ F.emax - (F.prec - 1) →
      IsNumber F.prec F.emax ((if c then -1 else 1) * (k : Rat) * pow2 j) := by
    intro c _ k j hk h1 h2
    have hk' : ((k : Nat) : Int) < 2 ^ F.prec := by exact_mod_cast hk
    by_cases hc : c
    · refine ⟨-k, j, by rw [abs_neg, Nat.abs_cast]; exact hk', h1, h2, ?_⟩
      rw [if_pos hc, pow2_eq]; push_cast; ring
    · refine ⟨k, j, by rw [Nat.abs_cast]; exact hk', h1, h2, ?_⟩
      rw [if_neg hc, pow2_eq]; push_cast; ring
  unfold Format.decode
  simp only
  split
  · split <;> trivial
  · split
    · exact key _ _ _ (by omega) (le_refl _) (by omega)
    · exact key _ _ _ (by omega) (by omega) (by omega)

theorem round_isVal {F : Format} (hF : SoundFormat F) (x : Rat) : IsVal F.prec F.emax (F.round x) := by
  unfold Format.round
  rw [abs_def]
  split
  · trivial
  · exact near_number hF (not_le.mp ‹_›)

theorem convert_isVal {F : Format} (hF : SoundFormat F) (v : Val) : IsVal F.prec F.emax (convert F v) := by
  cases v with
  | nan => trivial
  | inf a => trivial
  | fin x => exact round_isVal hF x

theorem round_exact {F : Format} (hF : SoundFormat F) {x : Rat} (h : IsNumber F.prec F.emax x) : F.round x = .fin x := by
  unfold Format.round
  rw [number_exact hF h, abs_def, if_neg (not_le.mpr (number_small h))]

/-- Every `float` is a `double`. -/
theorem float_double {x : Rat} (h : IsNumber 24 127 x) : IsNumber 53 1023 x := by
  obtain ⟨k, j, h1, h2, h3, h4⟩ := h
  norm_num at h2 h3
  refine ⟨k, j, lt_trans h1 (by norm_num), ?_, ?_, h4⟩ <;> norm_num <;> omega

theorem widen {v : Val} (h : IsVal 24 127 v) : convert f64 v = v := by
  cases v with
  | nan => rfl
  | inf a => rfl
  | fin x => exact round_exact sound64 (float_double h)

theorem read_putReal (m : Mem) (v : Val) (h : IsVal 24 127 v) :
    readReal m (Buffer.empty.putU32 (BitVec.ofNat 32 (f32.encode v))).bytes = .ok v := by
  obtain ⟨h1, h2⟩ := decode_encode_val sound32 v h
  have h3 : f32.encode v < 2 ^ 32 := h2
  rw [show (Buffer.empty.putU32 (BitVec.ofNat 32 (f32.encode v))).bytes = _ from put4_eq _, BitVec.toNat_ofNat, Nat.mod_eq_of_lt h3, readReal_le m _ h3, h1]

theorem read_putLreal (m : Mem) (v : Val) (h : IsVal 53 1023 v) :
    readLreal m (Buffer.empty.putU64 (BitVec.ofNat 64 (f64.encode v))).bytes = .ok v := by
  obtain ⟨h1, h2⟩ := decode_encode_val sound64 v h
  have h3 : f64.encode v < 2 ^ 64 := h2
  rw [show (Buffer.empty.putU64 (BitVec.ofNat 64 (f64.encode v))).bytes = _ from put8_eq _, BitVec.toNat_ofNat, Nat.mod_eq_of_lt h3, readLreal_le m _ h3, h1]

/-- C105. Without scaling, a limit of type `CipLreal` holds exactly what was set; infinities and NaN
too. -/
theorem C105_lreal_same (m : Mem) (pow : Nat → Rat) (o : ParameterObject) (e : Val) (he : IsVal 53 1023 e) (hs : o.isScalable = false) :
    ∃ bs, putEng pow .lreal o e = .ok bs ∧ bs.length = 8 ∧ getEng m pow .lreal o bs = .ok e := by
  refine ⟨(Buffer.empty.putU64 (BitVec.ofNat 64 (f64.encode e))).bytes, ?_, ?_, ?_⟩
  · unfold putEng toActual; rw [hs]; rfl
  · rfl
  · unfold getEng actualOf toEng
    simp only
    rw [read_putLreal m e he, hs]; rfl

/-- C105. Without scaling, a limit of type `CipReal` holds the nearest `float` of what was set. -/
theorem C105_real_same (m : Mem) (pow : Nat → Rat) (o : ParameterObject) (e : Val) (hs : o.isScalable = false) :
    ∃ bs, putEng pow .real o e = .ok bs ∧ bs.length = 4 ∧ getEng m pow .real o bs = .ok (convert f32 e) := by
  have hv : IsVal 24 127 (convert f32 e) := convert_isVal sound32 e
  refine ⟨(Buffer.empty.putU32 (BitVec.ofNat 32 (f32.encode (convert f32 e)))).bytes, ?_, ?_, ?_⟩
  · unfold putEng toActual; rw [hs]; rfl
  · rfl
  · unfold getEng actualOf toEng
    simp only
    rw [read_putReal m _ hv, hs]
    simp only
    rw [widen hv]; rfl

/-! ## Accuracy -/

theorem pow_form {p t : Rat} (ht : 0 < t) (h : |p - t| ≤ t / 2 ^ 52) : ∃ d, |d| ≤ 2 * unit ∧ p = t * (1 + d) := by
  refine ⟨(p - t) / t, ?_, by field_simp; ring⟩
  rw [abs_div, abs_of_pos ht, div_le_iff₀ ht]
  refine le_trans h (le_of_eq ?_)
  unfold unit; ring

/-- `std::pow(10, _)` that is right to the last bit is between 1/2 and 2^849. -/
theorem pow_range {p : Rat} (n : BitVec 8) (h : |p - 10 ^ n.toNat| ≤ 10 ^ n.toNat / 2 ^ 52) : Mag (-1) 849 p := by
  have h1 : (1 : Rat) ≤ 10 ^ n.toNat := one_le_pow₀ (by norm_num)
  have h2 : (10 : Rat) ^ n.toNat ≤ pow2 848 := by
    refine le_trans (pow_le_pow_right₀ (by norm_num) (show n.toNat ≤ 255 by have := n.isLt; omega)) ?_
    have h3 : (10 : Nat) ^ 255 ≤ 2 ^ 848 := by decide +kernel
    have h4 := Nat.cast_le (α := Rat) |>.mpr h3
    rw [Nat.cast_pow, Nat.cast_pow] at h4
    rw [pow2_eq, show ((848 : Int)) = ((848 : Nat) : Int) from rfl, zpow_natCast]
    exact h4
  have hh := abs_le.mp h
  have h3 : (10 : Rat) ^ n.toNat / 2 ^ 52 ≤ 10 ^ n.toNat / 2 := by
    apply div_le_div_of_nonneg_left <;> norm_num
  have h4 : (0 : Rat) < p := by linarith
  refine Or.inr ⟨?_, ?_⟩ <;> rw [abs_of_pos h4]
  · rw [show pow2 (-1) = 1 / 2 by rw [pow2_eq]; norm_num]; linarith
  · rw [show (849 : Int) = 848 + 1 by norm_num, pow2_succ]; linarith

/-- The scaling of a finite value that is neither tiny nor huge: accurate to one part in 2^49. -/
theorem toEng_accuracy (pow : Nat → Rat) (o : ParameterObject) (a : Rat) (hs : o.isScalable = true) (hd : o.scalingDivisor ≠ 0)
    (hp : |pow o.precision.toNat - 10 ^ o.precision.toNat| ≤ 10 ^ o.precision.toNat / 2 ^ 52)
    (ha : Mag (-149) 900 (a + o.scalingOffset.toInt)) :
    ∃ e, toEng pow o (.fin a) = .fin e ∧
      |e - (a + o.scalingOffset.toInt) * o.scalingMultiplier.toNat * o.scalingBase.toNat
          / (o.scalingDivisor.toNat * 10 ^ o.precision.toNat)| ≤
        (1 / 2 ^ 49) * |(a + o.scalingOffset.toInt) * o.scalingMultiplier.toNat * o.scalingBase.toNat
          / (o.scalingDivisor.toNat * 10 ^ o.precision.toNat)| := by
  have m1 := ha.rounded.times (Mag.nat16 o.scalingMultiplier)
  have m2 := m1.rounded.times (Mag.nat16 o.scalingBase)
  have hmp := pow_range o.precision hp
  have mD := (Mag.nat16 o.scalingDivisor).times hmp
  have mE := m2.rounded.over mD.rounded
  have hDn : (o.scalingDivisor.toNat : Rat) ≠ 0 := cast_ne (fun e => hd (BitVec.eq_of_toNat_eq (by simpa using e)))
  have ht : (0 : Rat) < 10 ^ o.precision.toNat := by positivity
  obtain ⟨d, hd2, hpw⟩ := pow_form ht hp
  have hu1 : 1000 * unit ≤ 1 := by unfold unit; norm_num
  have hu : (0 : Rat) < unit := by unfold unit; positivity
  have hd3 : 0 < 1 + d := by
    have := (abs_le.mp hd2).1
    linarith
  have hDp : (o.scalingDivisor.toNat : Rat) * pow o.precision.toNat ≠ 0 := by rw [hpw]; positivity
  refine ⟨binary64 (binary64 (binary64 (binary64 (a + o.scalingOffset.toInt) * o.scalingMultiplier.toNat) * o.scalingBase.toNat)
      / binary64 (o.scalingDivisor.toNat * pow o.precision.toNat)), ?_, ?_⟩
  · unfold toEng
    rw [if_pos hs]
    simp only [add, mul]
    rw [round_inRange (ha.inRange (by norm_num) (by norm_num))]
    simp only
    rw [round_inRange (m1.inRange (by norm_num) (by norm_num))]
    simp only
    rw [round_inRange (m2.inRange (by norm_num) (by norm_num)), round_inRange (mD.inRange (by norm_num) (by norm_num))]
    simp only [div]
    rw [if_neg (fun e => hDp ((binary64_sign _).1.mp e)), round_inRange (mE.inRange (by norm_num) (by norm_num))]
  · generalize hS : a + (o.scalingOffset.toInt : Rat) = S
    obtain ⟨d1, h1, e1⟩ := rel_form S
    rw [e1]
    obtain ⟨d2, h2, e2⟩ := rel_form (S * (1 + d1) * o.scalingMultiplier.toNat)
    rw [e2]
    obtain ⟨d3, h3, e3⟩ := rel_form (S * (1 + d1) * o.scalingMultiplier.toNat * (1 + d2) * o.scalingBase.toNat)
    rw [e3]
    obtain ⟨d4, h4, e4⟩ := rel_form (o.scalingDivisor.toNat * pow o.precision.toNat)
    rw [e4]
    obtain ⟨d5, h5, e5⟩ := rel_form (S * (1 + d1) * o.scalingMultiplier.toNat * (1 + d2) * o.scalingBase.toNat * (1 + d3) /
      (o.scalingDivisor.toNat * pow o.precision.toNat * (1 + d4)))
    rw [e5]
    have n := (((((Near.one h1).mul (by norm_num) (by norm_num) h2).mul (by norm_num) (by norm_num) h3).div (by norm_num) (by norm_num) h4).mul
      (by norm_num) (by norm_num) h5).div2 (by norm_num) (by norm_num) hd2
    have hp4 := (Near.one h4).pos (by norm_num)
    have c := n.close (s := S * o.scalingMultiplier.toNat * o.scalingBase.toNat / (o.scalingDivisor.toNat * 10 ^ o.precision.toNat))
    have e : S * o.scalingMultiplier.toNat * o.scalingBase.toNat / (o.scalingDivisor.toNat * 10 ^ o.precision.toNat)
        * ((1 + d1) * (1 + d2) * (1 + d3) / (1 + d4) * (1 + d5) * (1 / (1 + d)))
        = S * (1 + d1) * o.scalingMultiplier.toNat * (1 + d2) * o.scalingBase.toNat * (1 + d3) /
          (o.scalingDivisor.toNat * pow o.precision.toNat * (1 + d4)) * (1 + d5) := by
      rw [hpw]; field_simp
    rw [e] at c
    refine le_trans c (mul_le_mul_of_nonneg_right ?_ (abs_nonneg _))
    unfold unit; norm_num

theorem float_mag {a : Rat} (h : IsNumber 24 127 a) (off : BitVec 16) : Mag (-149) 129 (a + off.toInt) := by
  obtain ⟨k, j, h1, h2, h3, rfl⟩ := number_pow h
  norm_num at h2 h3
  obtain ⟨i, hi⟩ := Format.grid_finer k j (-149) h2
  have hj : ((off.toInt : Int) : Rat) = ((off.toInt * 2 ^ 149 : Int) : Rat) * pow2 (-149) := by
    have h5 : ((2 ^ 149 : Int) : Rat) * pow2 (-149) = 1 := by
      rw [← Ieee.pow2_nat, ← pow2_add]; rfl
    rw [Int.cast_mul, mul_assoc, h5, mul_one]
  by_cases hz : (k : Rat) * pow2 j + off.toInt = 0
  · exact Or.inl hz
  refine Or.inr ⟨?_, ?_⟩
  · rw [hi, hj, ← add_mul, ← Int.cast_add] at hz ⊢
    rw [abs_mul, abs_of_pos (pow2_pos _), ← Int.cast_abs]
    have hne : i + off.toInt * 2 ^ 149 ≠ 0 := fun e => hz (by rw [e]; simp)
    have : (1 : Rat) ≤ ((|i + off.toInt * 2 ^ 149| : Int) : Rat) := by exact_mod_cast Int.one_le_abs hne
    nlinarith [pow2_pos (-149)]
  · refine le_trans (abs_add_le _ _) ?_
    have ha : |(k : Rat) * pow2 j| < pow2 128 := by
      have := number_small (F := f32) h
      exact this
    have ho : |(off.toInt : Rat)| ≤ pow2 128 := by
      have h5 := offset_bound off
      have : |(off.toInt : Rat)| ≤ 2 ^ 15 := by rw [← Int.cast_abs]; exact_mod_cast h5
      refine le_trans this ?_
      rw [show ((2 : Rat) ^ 15) = pow2 15 by rw [pow2_eq]; norm_num]
      exact pow2_mono (by norm_num)
    rw [show (129 : Int) = 128 + 1 by norm_num, pow2_succ]
    linarith

/-- C105. The engineering value of every finite `CipReal` is the one of the documented formula up to
one part in 2^49, if the divisor is not zero: never infinite, never NaN. -/
theorem C105_real (m : Mem) (pow : Nat → Rat) (o : ParameterObject) (bs : List Byte) (a : Rat) (hbs : readReal m bs = .ok (.fin a))
    (hs : o.isScalable = true) (hd : o.scalingDivisor ≠ 0)
    (hp : |pow o.precision.toNat - 10 ^ o.precision.toNat| ≤ 10 ^ o.precision.toNat / 2 ^ 52) :
    ∃ e, getEng m pow .real o bs = .ok (.fin e) ∧
      |e - (a + o.scalingOffset.toInt) * o.scalingMultiplier.toNat * o.scalingBase.toNat
          / (o.scalingDivisor.toNat * 10 ^ o.precision.toNat)| ≤
        (1 / 2 ^ 49) * |(a + o.scalingOffset.toInt) * o.scalingMultiplier.toNat * o.scalingBase.toNat
          / (o.scalingDivisor.toNat * 10 ^ o.precision.toNat)| := by
  have hn : IsVal 24 127 (.fin a) := by
    unfold readReal at hbs
    split at hbs
    · cases hbs
    · cases hbs
    · have := Outcome.ok.inj hbs
      rw [← this]
      exact decode_isVal sound32 _
  have hm := float_mag hn o.scalingOffset
  obtain ⟨e, h1, h2⟩ := toEng_accuracy pow o a hs hd hp (by
    rcases hm with h | h
    · exact Or.inl h
    · exact Or.inr ⟨h.1, le_trans h.2 (pow2_mono (by norm_num))⟩)
  refine ⟨e, ?_, h2⟩
  unfold getEng actualOf
  simp only
  rw [hbs]
  simp only
  rw [widen (v := .fin a) hn, h1]

/-- C105. The same for `CipLreal`, as long as the value is neither tiny nor huge. -/
theorem C105_lreal (m : Mem) (pow : Nat → Rat) (o : ParameterObject) (bs : List Byte) (a : Rat) (hbs : readLreal m bs = .ok (.fin a))
    (hs : o.isScalable = true) (hd : o.scalingDivisor ≠ 0)
    (hp : |pow o.precision.toNat - 10 ^ o.precision.toNat| ≤ 10 ^ o.precision.toNat / 2 ^ 52)
    (ha : a + o.scalingOffset.toInt = 0 ∨ (2 : Rat) ^ (-149 : Int) ≤ |a + o.scalingOffset.toInt| ∧ |a + o.scalingOffset.toInt| ≤ (2 : Rat) ^ (900 : Int)) :
    ∃ e, getEng m pow .lreal o bs = .ok (.fin e) ∧
      |e - (a + o.scalingOffset.toInt) * o.scalingMultiplier.toNat * o.scalingBase.toNat
          / (o.scalingDivisor.toNat * 10 ^ o.precision.toNat)| ≤
        (1 / 2 ^ 49) * |(a + o.scalingOffset.toInt) * o.scalingMultiplier.toNat * o.scalingBase.toNat
          / (o.scalingDivisor.toNat * 10 ^ o.precision.toNat)| := by
  rw [← pow2_eq, ← pow2_eq] at ha
  obtain ⟨e, h1, h2⟩ := toEng_accuracy pow o a hs hd hp ha
  refine ⟨e, ?_, h2⟩
  unfold getEng actualOf
  simp only
  rw [hbs]
  simp only
  rw [h1]

/-- C105. A stored NaN is NaN in engineering units, and an infinite value is infinite or NaN: never a
number. -/
theorem C105_special (m : Mem) (pow : Nat → Rat) (o : ParameterObject) (bs : List Byte) (v : Val) (hv : v = .nan ∨ ∃ s, v = .inf s) (e : Val) :
    (readReal m bs = .ok v → getEng m pow .real o bs = .ok e → ∀ x, e ≠ .fin x) ∧
    (readLreal m bs = .ok v → getEng m pow .lreal o bs = .ok e → ∀ x, e ≠ .fin x) := by
  have nan : ∀ x, mul .nan x = .nan := by intro x; cases x <;> rfl
  have nan1 : ∀ x, div .nan x = .nan := by intro x; cases x <;> rfl
  have nan2 : ∀ x, add .nan x = .nan := by intro x; cases x <;> rfl
  have key : ∀ x, toEng pow o v ≠ .fin x := by
    intro x
    unfold toEng
    by_cases hs : o.isScalable = true
    · rw [if_pos hs]
      rcases hv with rfl | ⟨s, rfl⟩
      · simp only [nan, nan1, nan2]; intro h; cases h
      · simp only [add, mul]
        by_cases hM : (o.scalingMultiplier.toNat : Rat) = 0
        · rw [if_pos hM]; simp only [nan1]; intro h; cases h
        · rw [if_neg hM]
          simp only
          by_cases hB : (o.scalingBase.toNat : Rat) = 0
          · rw [if_pos hB]; simp only [nan1]; intro h; cases h
          · rw [if_neg hB]
            generalize f64.round _ = d
            cases d <;> simp [div]
    · rw [if_neg hs]
      rcases hv with rfl | ⟨s, rfl⟩ <;> intro h <;> cases h
  have hc : convert f64 v = v := by rcases hv with rfl | ⟨s, rfl⟩ <;> rfl
  constructor <;> intro h1 h2 x hx
  · unfold getEng actualOf at h2
    simp only [h1] at h2
    rw [hc] at h2
    exact key x ((Outcome.ok.inj h2).trans hx)
  · unfold getEng actualOf at h2
    simp only [h1] at h2
    exact key x ((Outcome.ok.inj h2).trans hx)

/-- A parameter whose scaling doubles and halves. -/
def doubled : ParameterObject :=
  { thirds with scalingMultiplier := 2, scalingBase := 1, scalingDivisor := 2, scalingOffset := 0, precision := 0 }

/-- C105. A `CipLreal` that is huge can become infinite though its engineering value is a `double`: here
2^1023, with multiplier and divisor 2. -/
theorem C105_lreal_overflow_violated (m : Mem) (pow : Nat → Rat) (hp : pow 0 = 1) :
    readLreal m (le 8 (2046 * 2 ^ 52)) = .ok (.fin (pow2 1023)) ∧
    getEng m pow .lreal doubled (le 8 (2046 * 2 ^ 52)) = .ok (.inf false) := by
  have h1 : readLreal m (le 8 (2046 * 2 ^ 52)) = .ok (.fin (pow2 1023)) := by
    rw [readLreal_le m _ (by norm_num)]
    refine congrArg Outcome.ok ?_
    decide +kernel
  refine ⟨h1, ?_⟩
  unfold getEng actualOf
  simp only [h1]
  refine congrArg Outcome.ok ?_
  unfold toEng
  rw [show doubled.precision.toNat = 0 from rfl, hp]
  decide +kernel

/-! ## Setting limits of these types -/

/-- What `engToActualValue` gives: accurate to one part in 2^49 of the two terms. -/
theorem toActual_accuracy (pow : Nat → Rat) (o : ParameterObject) (x : Rat) (hs : o.isScalable = true)
    (hm : o.scalingMultiplier ≠ 0) (hb : o.scalingBase ≠ 0) (hov : o.scalingMultiplier.toNat * o.scalingBase.toNat < 2 ^ 31)
    (hp : |pow o.precision.toNat - 10 ^ o.precision.toNat| ≤ 10 ^ o.precision.toNat / 2 ^ 52) (hx : Mag (-900) 100 x) :
    ∃ q, toActual pow o (.fin x) = .ok (.fin q) ∧ IsNumber 53 1023 q ∧
      |q - (x * (o.scalingDivisor.toNat * 10 ^ o.precision.toNat) / (o.scalingMultiplier.toNat * o.scalingBase.toNat) - o.scalingOffset.toInt)| ≤
        (1 / 2 ^ 49) * (|x * (o.scalingDivisor.toNat * 10 ^ o.precision.toNat) / (o.scalingMultiplier.toNat * o.scalingBase.toNat)|
          + |(o.scalingOffset.toInt : Rat)|) := by
  have nz : ∀ {x : BitVec 16}, x ≠ 0 → x.toNat ≠ 0 := fun h e => h (BitVec.eq_of_toNat_eq (by simpa using e))
  have m1 := hx.times (Mag.nat16 o.scalingDivisor)
  have hmp := pow_range o.precision hp
  have m2 := m1.rounded.times hmp
  have hMB : ((o.scalingMultiplier.toNat * o.scalingBase.toNat : Nat) : Rat) ≠ 0 := cast_ne (mul_ne_zero (nz hm) (nz hb))
  have mMB : Mag 0 31 ((o.scalingMultiplier.toNat * o.scalingBase.toNat : Nat) : Rat) := by
    have := Mag.int (o.scalingMultiplier.toNat * o.scalingBase.toNat : Nat) 31 (by rw [Nat.abs_cast]; exact_mod_cast hov.le)
    exact_mod_cast this
  have m3 := m2.rounded.over mMB
  have r1 := round_inRange (m1.inRange (by norm_num) (by norm_num))
  have r2 := round_inRange (m2.inRange (by norm_num) (by norm_num))
  have r3 := round_inRange (m3.inRange (by norm_num) (by norm_num))
  generalize hq : binary64 (binary64 (binary64 (x * o.scalingDivisor.toNat) * pow o.precision.toNat)
    / ((o.scalingMultiplier.toNat * o.scalingBase.toNat : Nat) : Rat)) = q at r3
  have m4 : Mag (-935) 971 q := by
    have := m3.rounded
    rw [hq] at this
    rcases this with h | h
    · exact Or.inl h
    · exact Or.inr ⟨le_trans (pow2_mono (by norm_num)) h.1, le_trans h.2 (pow2_mono (by norm_num))⟩
  have gq : OnGrid q := by
    have := round_isVal sound64 (binary64 (binary64 (x * o.scalingDivisor.toNat) * pow o.precision.toNat)
      / ((o.scalingMultiplier.toNat * o.scalingBase.toNat : Nat) : Rat))
    rw [r3] at this
    exact number_grid this
  have g5 := gq.addInt (-o.scalingOffset.toInt)
  have hoff : |(o.scalingOffset.toInt : Rat)| ≤ pow2 15 := by
    have h5 := offset_bound o.scalingOffset
    rw [show pow2 15 = 2 ^ 15 by rw [pow2_eq]; norm_num, ← Int.cast_abs]; exact_mod_cast h5
  have b5 : |q + ((-o.scalingOffset.toInt : Int) : Rat)| ≤ pow2 972 := by
    refine le_trans (abs_add_le _ _) ?_
    rw [Int.cast_neg, abs_neg]
    have h1 : |q| ≤ pow2 971 := by
      rcases m4 with h | h
      · rw [h, abs_zero]; exact (pow2_pos _).le
      · exact h.2
    have h2 : pow2 15 ≤ pow2 971 := pow2_mono (by norm_num)
    rw [show (972 : Int) = 971 + 1 by norm_num, pow2_succ]; linarith
  have r5 : f64.round (q + ((-o.scalingOffset.toInt : Int) : Rat)) = .fin (binary64 (q + ((-o.scalingOffset.toInt : Int) : Rat))) := by
    obtain ⟨y, hy, hyb⟩ := round_tiny b5 (by norm_num)
    rcases round_tracks g5 with h | ⟨s, h, _⟩
    · exact h
    · rw [h] at hy; cases hy
  refine ⟨binary64 (q + ((-o.scalingOffset.toInt : Int) : Rat)), ?_, ?_, ?_⟩
  · unfold toActual
    rw [if_pos hs, if_pos hov]
    simp only [mul]
    rw [r1]
    simp only
    rw [r2]
    simp only [div, neg]
    rw [if_neg hMB, r3]
    simp only [add]
    rw [← Int.cast_neg, r5]
  · have := round_isVal sound64 (q + ((-o.scalingOffset.toInt : Int) : Rat))
    rw [r5] at this
    exact this
  · have ht : (0 : Rat) < 10 ^ o.precision.toNat := by positivity
    obtain ⟨d, hd2, hpw⟩ := pow_form ht hp
    generalize (o.scalingOffset.toInt) = off
    rw [Nat.cast_mul] at hq hMB
    generalize (o.scalingMultiplier.toNat : Rat) * (o.scalingBase.toNat : Rat) = N at hq hMB ⊢
    rw [hpw] at hq
    generalize (10 : Rat) ^ o.precision.toNat = t at hq ht ⊢
    generalize (o.scalingDivisor.toNat : Rat) = D at hq ⊢
    obtain ⟨d1, h1, e1⟩ := rel_form (x * D)
    rw [e1] at hq
    obtain ⟨d2, h2, e2⟩ := rel_form (x * D * (1 + d1) * (t * (1 + d)))
    rw [e2] at hq
    obtain ⟨d3, h3, e3⟩ := rel_form (x * D * (1 + d1) * (t * (1 + d)) * (1 + d2) / N)
    rw [e3] at hq
    obtain ⟨d4, h4, e4⟩ := rel_form (q + ((-off : Int) : Rat))
    rw [e4]
    have hu1 : 1000 * unit ≤ 1 := by unfold unit; norm_num
    have hu : (0 : Rat) < unit := by unfold unit; positivity
    have n := ((Near.one h1).mul (by norm_num) (by norm_num) h2).mul (by norm_num) (by norm_num) h3
    generalize hQ : x * (D * t) / N = Q
    have hqQ : q = Q * ((1 + d1) * (1 + d2) * (1 + d3) * (1 + d)) := by rw [← hq, ← hQ]; field_simp
    generalize hc : (1 + d1) * (1 + d2) * (1 + d3) = c at n hqQ
    have n' : |c - 1| ≤ 5 * unit := by unfold Near at n; norm_num at n; exact n
    have hcd : |c * (1 + d) - 1| ≤ 8 * unit := by
      have e : c * (1 + d) - 1 = (c - 1) + d + (c - 1) * d := by ring
      rw [e]
      have t1 := abs_add_le ((c - 1) + d) ((c - 1) * d)
      have t2 := abs_add_le (c - 1) d
      have t3 : |(c - 1) * d| ≤ unit := by
        rw [abs_mul]
        have : |c - 1| * |d| ≤ (5 * unit) * (2 * unit) := mul_le_mul n' hd2 (abs_nonneg _) (by linarith)
        nlinarith
      linarith
    generalize c * (1 + d) = f at hcd hqQ
    rw [hqQ]
    have e : (Q * f + ((-off : Int) : Rat)) * (1 + d4) - (Q - off) = Q * (f - 1) + (Q * (f - 1) + Q - off) * d4 := by push_cast; ring
    rw [e]
    have a1 : |Q * (f - 1)| ≤ 8 * unit * |Q| := by
      rw [abs_mul, mul_comm]; exact mul_le_mul_of_nonneg_right hcd (abs_nonneg _)
    have a2 : |Q * (f - 1) + Q - off| ≤ 8 * unit * |Q| + |Q| + |(off : Rat)| := by
      have t1 := abs_sub (Q * (f - 1) + Q) (off : Rat)
      have t2 := abs_add_le (Q * (f - 1)) Q
      linarith
    have a3 : |(Q * (f - 1) + Q - off) * d4| ≤ (8 * unit * |Q| + |Q| + |(off : Rat)|) * unit := by
      rw [abs_mul]; exact mul_le_mul a2 h4 (abs_nonneg _) (le_trans (abs_nonneg _) a2)
    have a4 := abs_add_le (Q * (f - 1)) ((Q * (f - 1) + Q - off) * d4)
    have hQ0 := abs_nonneg Q
    have hO0 := abs_nonneg (off : Rat)
    have hfin : (1 : Rat) / 2 ^ 49 = 16 * unit := by unfold unit; norm_num
    rw [hfin]
    have p1 : unit * |Q| * (8 * unit) ≤ unit * |Q| * 1 := mul_le_mul_of_nonneg_left (by linarith) (by positivity)
    nlinarith [mul_nonneg hu.le hO0, mul_nonneg hu.le hQ0]

/-- C105. Setting a limit of type `CipLreal` and asking for the stored value gives the one of the
documented formula, up to one part in 2^49 of its two terms. -/
theorem C105_set_lreal (m : Mem) (pow : Nat → Rat) (o : ParameterObject) (x : Rat) (hs : o.isScalable = true)
    (hm : o.scalingMultiplier ≠ 0) (hb : o.scalingBase ≠ 0) (hov : o.scalingMultiplier.toNat * o.scalingBase.toNat < 2 ^ 31)
    (hp : |pow o.precision.toNat - 10 ^ o.precision.toNat| ≤ 10 ^ o.precision.toNat / 2 ^ 52)
    (hx : x = 0 ∨ (2 : Rat) ^ (-900 : Int) ≤ |x| ∧ |x| ≤ (2 : Rat) ^ (100 : Int)) :
    ∃ bs q, putEng pow .lreal o (.fin x) = .ok bs ∧ readLreal m bs = .ok (.fin q) ∧
      |q - (x * (o.scalingDivisor.toNat * 10 ^ o.precision.toNat) / (o.scalingMultiplier.toNat * o.scalingBase.toNat) - o.scalingOffset.toInt)| ≤
        (1 / 2 ^ 49) * (|x * (o.scalingDivisor.toNat * 10 ^ o.precision.toNat) / (o.scalingMultiplier.toNat * o.scalingBase.toNat)|
          + |(o.scalingOffset.toInt : Rat)|) := by
  rw [← pow2_eq, ← pow2_eq] at hx
  obtain ⟨q, h1, h2, h3⟩ := toActual_accuracy pow o x hs hm hb hov hp hx
  refine ⟨_, q, ?_, read_putLreal m (.fin q) h2, h3⟩
  unfold putEng
  rw [h1]

/-- C105. With a `float` the value is rounded once more: to the nearest `float`. -/
theorem C105_set_real (m : Mem) (pow : Nat → Rat) (o : ParameterObject) (e : Val) (v : Val) (h : toActual pow o e = .ok v) :
    ∃ bs, putEng pow .real o e = .ok bs ∧ readReal m bs = .ok (convert f32 v) := by
  refine ⟨_, ?_, read_putReal m _ (convert_isVal sound32 v)⟩
  unfold putEng
  rw [h]

/-! ## The hypotheses hold -/

/-- A hundredth of a unit, with an offset. -/
def hundredth : ParameterObject :=
  { thirds with scalingMultiplier := 1, scalingBase := 1, scalingDivisor := 10, scalingOffset := 5, precision := 1 }

example : hundredth.isScalable = true ∧ hundredth.scalingDivisor ≠ 0 ∧ hundredth.scalingMultiplier ≠ 0 ∧ hundredth.scalingBase ≠ 0 ∧
    hundredth.scalingMultiplier.toNat * hundredth.scalingBase.toNat < 2 ^ 31 := by decide +kernel

/-- 0.1f. -/
example (m : Mem) : readReal m (le 4 0x3dcccccd) = .ok (.fin (13421773 / 134217728)) := by
  rw [readReal_le m _ (by norm_num)]
  refine congrArg Outcome.ok ?_
  decide +kernel

/-- The engineering value of 0.1f is (0.1f + 5) / 100, rounded four times. -/
example (m : Mem) : getEng m exactPow .real hundredth (le 4 0x3dcccccd) = .ok (.fin (7349874594016133 / 144115188075855872)) := by
  have h : readReal m (le 4 0x3dcccccd) = .ok (.fin (13421773 / 134217728)) := by
    rw [readReal_le m _ (by norm_num)]
    refine congrArg Outcome.ok ?_
    decide +kernel
  unfold getEng actualOf
  simp only [h]
  refine congrArg Outcome.ok ?_
  decide +kernel

end Verif.Props
