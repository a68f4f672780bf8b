import Verif.Spec.Ieee
import Verif.Lemmas.Ieee
import Verif.Props.Double

/-!
# Property C105: `float` and `double` with infinities, NaN and gradual underflow
-/

namespace Verif.Props

open Verif Verif.Spec Verif.Double Verif.ParameterObject Verif.Ieee

/-! ## The rounding -/

/-- The formats of the program. -/
structure SoundFormat (F : Format) : Prop where
  prec : 2 ≤ F.prec
  ebits : 2 ≤ F.ebits
  emax : 1 ≤ F.emax

theorem sound32 : SoundFormat f32 := ⟨by decide, by decide, by decide⟩
theorem sound64 : SoundFormat f64 := ⟨by decide, by decide, by decide⟩

theorem number_pow {p : Nat} {b : Int} {x : Rat} (h : IsNumber p b x) :
    ∃ k j : Int, |k| < 2 ^ p ∧ 1 - b - (p - 1) ≤ j ∧ j ≤ b - (p - 1) ∧ x = k * pow2 j := by
  obtain ⟨k, j, h1, h2, h3, h4⟩ := h
  exact ⟨k, j, h1, h2, h3, by rw [pow2_eq]; exact h4⟩

theorem number_exact {F : Format} (hF : SoundFormat F) {x : Rat} (h : IsNumber F.prec F.emax x) : F.near x = x := by
  obtain ⟨k, j, h1, h2, h3, rfl⟩ := number_pow h
  exact F.near_exact (by have := hF.prec; omega) k j h1.le h2

theorem number_small {F : Format} {x : Rat} (h : IsNumber F.prec F.emax x) : |x| < pow2 (F.emax + 1) := by
  obtain ⟨k, j, h1, h2, h3, rfl⟩ := number_pow h
  rw [abs_mul, abs_of_pos (pow2_pos j), ← Int.cast_abs]
  have : ((|k| : Int) : Rat) < pow2 F.prec := by rw [Ieee.pow2_nat]; exact_mod_cast h1
  refine lt_of_lt_of_le (mul_lt_mul_of_pos_right this (pow2_pos j)) ?_
  rw [← pow2_add]
  exact pow2_mono (by omega)

theorem near_number {F : Format} (hF : SoundFormat F) {x : Rat} (h : |F.near x| < pow2 (F.emax + 1)) : IsNumber F.prec F.emax (F.near x) := by
  have hp := hF.prec
  have he := hF.emax
  by_cases hx : x = 0
  · rw [hx, F.near_zero]
    exact ⟨0, 1 - F.emax - (F.prec - 1), by simp, le_refl _, by omega, by simp⟩
  · have hno : ¬ pow2 (F.emax + 1) - pow2 (F.emax - F.prec) ≤ |x| := by
      rw [← F.near_over hp he x]; exact not_le.mpr h
    have hexp : exponent x ≤ F.emax := by
      refine exponent_le hx (lt_of_lt_of_le (not_le.mp hno) ?_)
      linarith [pow2_pos (F.emax - F.prec)]
    have hlast : F.last x ≤ F.emax - (F.prec - 1) := by unfold Format.last; omega
    have hb := F.near_bound hx
    have hge := F.last_ge x
    rw [F.near_eq hx] at h ⊢
    generalize nearest (x / pow2 (F.last x)) = i at h hb
    rcases lt_or_eq_of_le hb with hb | hb
    · exact ⟨i, F.last x, hb, hge, hlast, by rw [pow2_eq]⟩
    · have hlt : F.prec + F.last x < F.emax + 1 := by
        rw [abs_mul, abs_of_pos (pow2_pos _), ← Int.cast_abs, hb, ← Ieee.pow2_nat, ← pow2_add] at h
        exact pow2_lt h
      have hev : (2 : Int) ^ F.prec = 2 * 2 ^ (F.prec - 1) := by
        obtain ⟨n, hn⟩ : ∃ n, F.prec = n + 1 := ⟨F.prec - 1, by omega⟩
        rw [hn, Nat.add_sub_cancel, pow_succ]; ring
      have hpos : (0 : Int) < 2 ^ (F.prec - 1) := by positivity
      have hl : ((F.prec - 1 : Nat) : Int) = F.prec - 1 := by omega
      rcases abs_eq (by positivity : (0 : Int) ≤ 2 ^ F.prec) |>.mp hb with hi | hi
      · refine ⟨2 ^ (F.prec - 1), F.last x + 1, ?_, by omega, by omega, ?_⟩
        · rw [abs_of_pos hpos, hev]; omega
        · rw [← pow2_eq, pow2_succ, hi, hev]; push_cast; ring
      · refine ⟨-(2 ^ (F.prec - 1)), F.last x + 1, ?_, by omega, by omega, ?_⟩
        · rw [abs_neg, abs_of_pos hpos, hev]; omega
        · rw [← pow2_eq, pow2_succ, hi, hev]; push_cast; ring

theorem near_tie {F : Format} (hF : SoundFormat F) {x z : Rat} (hz : IsNearestNumber F.prec F.emax x z) (hy : IsNumber F.prec F.emax (F.near x))
    (hne : z ≠ F.near x) : IsEven F.prec F.emax (F.near x) := by
  have hp := hF.prec
  by_cases hx : x = 0
  · exact ⟨0, 2 - F.emax - (F.prec - 1), by simp, by omega, by rw [hx, F.near_zero]; simp⟩
  have hu := pow2_pos (F.last x)
  have hge := F.last_ge x
  have hbd := F.near_bound hx
  obtain ⟨k, j, h1, h2, h3, h4⟩ := number_pow hz.1
  have heq : |z - x| = |F.near x - x| :=
    le_antisymm (hz.2 _ hy) (by rw [h4]; exact F.near_best (by omega) x k j h1.le h2)
  have fin : ∀ i : Int, z = i * pow2 (F.last x) → IsEven F.prec F.emax (F.near x) := by
    intro i hi
    have h5 : ∀ a : Rat, |a * pow2 (F.last x) - x| = |a - x / pow2 (F.last x)| * pow2 (F.last x) := by
      intro a
      have : a * pow2 (F.last x) - x = (a - x / pow2 (F.last x)) * pow2 (F.last x) := by field_simp
      rw [this, abs_mul, abs_of_pos hu]
    rw [hi, F.near_eq hx] at hne
    rw [hi, F.near_eq hx, h5, h5] at heq
    have ht := nearest_tie _ i (fun e => hne (by rw [e])) (mul_right_cancel₀ hu.ne' heq)
    obtain ⟨c, hc⟩ := Int.dvd_of_emod_eq_zero ht
    refine ⟨c, F.last x + 1, ?_, by omega, ?_⟩
    · rw [hc, abs_mul] at hbd
      obtain ⟨n, hn⟩ : ∃ n, F.prec = n + 1 := ⟨F.prec - 1, by omega⟩
      rw [hn, pow_succ] at hbd
      rw [hn, Nat.add_sub_cancel]
      norm_num at hbd
      omega
    · rw [F.near_eq hx, hc, ← pow2_eq, pow2_succ]; push_cast; ring
  by_cases hlj : F.last x ≤ j
  · obtain ⟨i, hi⟩ := Format.grid_finer k j (F.last x) hlj
    exact fin i (by rw [h4, hi])
  · -- then the power of two next to `x` is nearer, or it is `z`
    have hl : F.last x = exponent x - (F.prec - 1) := by
      unfold Format.last at hlj ⊢
      rcases le_total (exponent x) (1 - F.emax) with h | h
      · rw [max_eq_right h] at hlj; omega
      · rw [max_eq_left h]
    have hE : pow2 (exponent x) = ((2 ^ (F.prec - 1) : Int) : Rat) * pow2 (F.last x) := by
      rw [← Ieee.pow2_nat, ← pow2_add, hl]; congr 1; omega
    have hzb : |z| ≤ pow2 (exponent x) := by
      rw [h4, abs_mul, abs_of_pos (pow2_pos j), ← Int.cast_abs]
      have h5 : ((|k| : Int) : Rat) ≤ ((2 ^ F.prec : Int) : Rat) := by exact_mod_cast h1.le
      rw [← Ieee.pow2_nat] at h5
      refine le_trans (mul_le_mul_of_nonneg_right h5 (pow2_pos j).le) ?_
      rw [← pow2_add]
      exact pow2_mono (by omega)
    have hb := (exponent_bounds hx).1
    have hzb' := abs_le.mp hzb
    rcases lt_or_gt_of_ne hx with hn | hpos
    · have h5 := F.near_grid hx (-(2 ^ (F.prec - 1)))
      rw [abs_of_neg hn] at hb
      have e : ((-(2 ^ (F.prec - 1)) : Int) : Rat) * pow2 (F.last x) = -pow2 (exponent x) := by rw [hE]; push_cast; ring
      rw [e, ← heq, abs_of_nonneg (by linarith [hzb'.1]), abs_of_nonneg (by linarith)] at h5
      exact fin (-(2 ^ (F.prec - 1))) (by rw [e]; linarith [hzb'.1])
    · have h5 := F.near_grid hx (2 ^ (F.prec - 1))
      rw [abs_of_pos hpos] at hb
      rw [← hE, ← heq, abs_of_nonpos (by linarith [hzb'.2]), abs_of_nonpos (by linarith)] at h5
      exact fin (2 ^ (F.prec - 1)) (by rw [← hE]; linarith [hzb'.2])

theorem round_spec {F : Format} (hF : SoundFormat F) (x : Rat) :
    (TooLarge F.prec F.emax x ∧ F.round x = .inf (decide (x < 0))) ∨
    ¬ TooLarge F.prec F.emax x ∧ ∃ y, F.round x = .fin y ∧ IsNearestNumber F.prec F.emax x y ∧
      ∀ z, IsNearestNumber F.prec F.emax x z → z ≠ y → IsEven F.prec F.emax y := by
  have key := F.near_over hF.prec hF.emax x
  unfold TooLarge
  rw [← pow2_eq, ← pow2_eq, ← key]
  unfold Format.round
  rw [abs_def]
  by_cases h : pow2 (F.emax + 1) ≤ |F.near x|
  · left; rw [if_pos h]; exact ⟨h, by congr⟩
  · right
    have hn := near_number hF (not_le.mp h)
    refine ⟨h, F.near x, by rw [if_neg h], ⟨hn, fun z hz => ?_⟩, fun z hz hne => near_tie hF hz hn hne⟩
    obtain ⟨k, j, h1, h2, h3, rfl⟩ := number_pow hz
    exact F.near_best (by have := hF.prec; omega) x k j h1.le h2

/-- C105. The rounding of `double`: infinite if the number is too large, else the nearest number of the
format, and of two the one whose last bit is zero. -/
theorem C105_double (x : Rat) :
    (TooLarge 53 1023 x ∧ f64.round x = .inf (decide (x < 0))) ∨
    ¬ TooLarge 53 1023 x ∧ ∃ y, f64.round x = .fin y ∧ IsNearestNumber 53 1023 x y ∧
      ∀ z, IsNearestNumber 53 1023 x z → z ≠ y → IsEven 53 1023 y := round_spec sound64 x

/-- C105. The same for `float`. -/
theorem C105_float (x : Rat) :
    (TooLarge 24 127 x ∧ f32.round x = .inf (decide (x < 0))) ∨
    ¬ TooLarge 24 127 x ∧ ∃ y, f32.round x = .fin y ∧ IsNearestNumber 24 127 x y ∧
      ∀ z, IsNearestNumber 24 127 x z → z ≠ y → IsEven 24 127 y := round_spec sound32 x

/-! ## Where the numbers of C104 are the ones of `double` -/

theorem last64 {x : Rat} (h : -1022 ≤ exponent x) : f64.last x = exponent x - 52 := by
  have e : f64.emax = 1023 := by decide
  have e2 : (f64.prec : Int) = 53 := rfl
  unfold Format.last
  omega

theorem near64 {x : Rat} (h : x = 0 ∨ -1022 ≤ exponent x) : f64.near x = binary64 x := by
  by_cases hx : x = 0
  · rw [hx, Format.near_zero]; rfl
  · rw [Format.near_eq _ hx, last64 (h.resolve_left hx), binary64_eq hx]

theorem binary64_abs_le (x : Rat) : |binary64 x| ≤ 2 * |x| := by
  have h := binary64_rel x
  have h3 := abs_add_le (binary64 x - x) x
  rw [sub_add_cancel] at h3
  have : pow2 (-53) ≤ 1 := by rw [pow2_eq]; norm_num
  nlinarith [abs_nonneg x]

theorem round_inRange {x : Rat} (h : InRange x) : f64.round x = .fin (binary64 x) := by
  have hn : f64.near x = binary64 x := by
    apply near64
    rcases h with h | h
    · exact Or.inl h
    · by_cases hx : x = 0
      · exact Or.inl hx
      · exact Or.inr (le_exponent hx (by rw [pow2_eq]; exact h.1))
  have hlt : |binary64 x| < pow2 1024 := by
    rcases h with h | h
    · rw [h, binary64_zero, abs_zero]; exact pow2_pos _
    · refine lt_of_le_of_lt (binary64_abs_le x) ?_
      rw [show (1024 : Int) = 1023 + 1 by norm_num, pow2_succ, pow2_eq]
      linarith [h.2]
  unfold Format.round
  rw [hn, abs_def, if_neg]
  exact not_le.mpr hlt

theorem encode_has {m : Mem} {T : IntType} {bs : List Byte} {v : Int} (h : encodeValue m T bs = .ok v) : T.has v := by
  obtain ⟨b, h⟩ : ∃ b, T.read m (Buffer.ofData bs) = .ok (v, b) := by
    unfold encodeValue Rd.from at h
    split at h
    · rename_i x b hx; cases h; exact ⟨b, hx⟩
    · cases h
    · cases h
  cases T
  all_goals
    obtain ⟨x, b1, hx, h⟩ := Rd.bind_inv h
    injection h with h
    injection h with h _
    subst h
    unfold IntType.has
  · have := x.isLt; simp only [IntType.range]; omega
  · have h1 := @BitVec.le_toInt 8 x; have h2 := @BitVec.toInt_lt 8 x; simp only [IntType.range]; omega
  · have := x.isLt; simp only [IntType.range]; omega
  · have h1 := @BitVec.le_toInt 16 x; have h2 := @BitVec.toInt_lt 16 x; simp only [IntType.range]; omega
  · have := x.isLt; simp only [IntType.range]; omega
  · have h1 := @BitVec.le_toInt 32 x; have h2 := @BitVec.toInt_lt 32 x; simp only [IntType.range]; omega
  · have := x.isLt; simp only [IntType.range]; omega
  · have h1 := @BitVec.le_toInt 64 x; have h2 := @BitVec.toInt_lt 64 x; simp only [IntType.range]; omega

theorem has_bound {T : IntType} {v : Int} (hv : T.has v) : |v| ≤ 2 ^ 64 := by
  obtain ⟨h0, h1⟩ := hv
  rw [abs_le]
  cases T <;> simp [IntType.range] at * <;> omega

/-- The conversion of an integer to `double` is an integer again, on the same side. -/
theorem int_rounded (v : Int) (hv : |v| ≤ 2 ^ 64) :
    ∃ w : Int, binary64 v = w ∧ |w| ≤ 2 ^ 65 ∧ (w = v ∨ 2 ^ 53 ≤ v ∧ 2 ^ 53 ≤ w ∨ v ≤ -2 ^ 53 ∧ w ≤ -2 ^ 53) := by
  by_cases h : |v| ≤ 2 ^ 53
  · exact ⟨v, binary64_int v h, by omega, Or.inl rfl⟩
  · have hv0 : (v : Rat) ≠ 0 := by
      intro e
      have : v = 0 := by exact_mod_cast e
      rw [this] at h; norm_num at h
    have hexp : 52 ≤ exponent (v : Rat) := by
      refine le_exponent hv0 ?_
      rw [show ((52 : Int)) = ((52 : Nat) : Int) from rfl, Ieee.pow2_nat, ← Int.cast_abs]
      exact_mod_cast (by omega : (2 : Int) ^ 52 ≤ |v|)
    obtain ⟨n, hn⟩ := Int.eq_ofNat_of_zero_le (show 0 ≤ exponent (v : Rat) - 52 by omega)
    have hw : binary64 (v : Rat) = ((nearest ((v : Rat) / pow2 (exponent (v : Rat) - 52)) * 2 ^ n : Int) : Rat) := by
      rw [binary64_eq hv0, Int.cast_mul, ← Ieee.pow2_nat, hn]
    generalize nearest ((v : Rat) / pow2 (exponent (v : Rat) - 52)) * 2 ^ n = w at hw
    have hle := binary64_abs_le (v : Rat)
    rw [hw, ← Int.cast_abs, ← Int.cast_abs] at hle
    have hle' : |w| ≤ 2 * |v| := by exact_mod_cast hle
    refine ⟨w, hw, by omega, Or.inr ?_⟩
    rcases abs_cases v with ⟨h1, h2⟩ | ⟨h1, h2⟩
    · left
      have : binary64 ((2 ^ 53 : Int) : Rat) ≤ binary64 (v : Rat) := binary64_mono (by exact_mod_cast (by omega : (2 : Int) ^ 53 ≤ v))
      rw [binary64_int _ (by norm_num), hw] at this
      exact ⟨by omega, by exact_mod_cast this⟩
    · right
      have : binary64 (v : Rat) ≤ binary64 ((-2 ^ 53 : Int) : Rat) := binary64_mono (by exact_mod_cast (by omega : v ≤ -2 ^ 53))
      rw [binary64_int (-2 ^ 53) (by norm_num), hw] at this
      exact ⟨by omega, by exact_mod_cast this⟩

theorem binary64_sign (x : Rat) : (binary64 x = 0 ↔ x = 0) ∧ (binary64 x < 0 ↔ x < 0) := by
  rcases lt_trichotomy x 0 with h | h | h
  · have h1 := (binade_neg h).2
    have h2 := pow2_pos (exponent x)
    exact ⟨⟨fun e => by linarith, fun e => by linarith⟩, ⟨fun _ => h, fun _ => by linarith⟩⟩
  · rw [h, binary64_zero]; simp
  · have h1 := (binade_pos h).1
    have h2 := pow2_pos (exponent x)
    exact ⟨⟨fun e => by linarith, fun e => by linarith⟩, ⟨fun _ => by linarith, fun _ => by linarith⟩⟩

theorem offset_mag (x : BitVec 16) : Mag 0 15 (x.toInt : Rat) := Mag.int _ 15 (offset_bound x)

theorem pow_mag {p : Rat} (h1 : 1 ≤ p) (h2 : p ≤ 2 ^ 850) : Mag 0 850 p := by
  refine Or.inr ⟨?_, ?_⟩ <;> rw [abs_of_pos (by linarith), pow2_eq]
  · simpa using h1
  · exact le_of_le_of_eq h2 (zpow_natCast (2 : Rat) 850).symm

/-- The numerator of `actualToEngValue` for an integer. -/
theorem numerator_int (o : ParameterObject) (v : Int) (hv : |v| ≤ 2 ^ 64) :
    ∃ n : Rat, mul (mul (add (f64.round v) (.fin o.scalingOffset.toInt)) (.fin o.scalingMultiplier.toNat)) (.fin o.scalingBase.toNat) = .fin n ∧
      n = binary64 (binary64 (binary64 (binary64 v + o.scalingOffset.toInt) * o.scalingMultiplier.toNat) * o.scalingBase.toNat) ∧
      Mag (-10) 110 n ∧ (n = 0 ↔ (v + o.scalingOffset.toInt) * o.scalingMultiplier.toNat * o.scalingBase.toNat = 0) ∧
      (n < 0 ↔ (v + o.scalingOffset.toInt) * o.scalingMultiplier.toNat * o.scalingBase.toNat < 0) := by
  obtain ⟨w, hw, hwb, hwv⟩ := int_rounded v hv
  have ho := offset_bound o.scalingOffset
  have ho' := abs_le.mp ho
  have h0 : f64.round (v : Rat) = .fin (w : Rat) := by
    rw [← hw]; exact round_inRange ((Mag.int v 64 hv).inRange (by norm_num) (by norm_num))
  have hS : |w + o.scalingOffset.toInt| ≤ 2 ^ 66 := le_trans (abs_add_le _ _) (by omega)
  have mS : Mag 0 66 ((w : Rat) + o.scalingOffset.toInt) := by
    have := Mag.int (w + o.scalingOffset.toInt) 66 hS
    push_cast at this; exact this
  have m1 := mS.rounded.times (Mag.nat16 o.scalingMultiplier)
  have m2 := m1.rounded.times (Mag.nat16 o.scalingBase)
  have ms := m2.rounded
  refine ⟨_, ?_, by rw [hw], ?_, ?_, ?_⟩
  · rw [h0]
    simp only [add, mul]
    rw [round_inRange (mS.inRange (by norm_num) (by norm_num))]
    simp only
    rw [round_inRange (m1.inRange (by norm_num) (by norm_num))]
    simp only
    rw [round_inRange (m2.inRange (by norm_num) (by norm_num))]
  · rcases ms with h | h
    · exact Or.inl h
    · exact Or.inr ⟨le_trans (pow2_mono (by norm_num)) h.1, le_trans h.2 (pow2_mono (by norm_num))⟩
  · rw [(binary64_sign _).1, mul_eq_zero, (binary64_sign _).1, mul_eq_zero, (binary64_sign _).1, mul_eq_zero, mul_eq_zero]
    have : (w : Rat) + o.scalingOffset.toInt = 0 ↔ v + o.scalingOffset.toInt = 0 := by
      rw [← Int.cast_add, Int.cast_eq_zero]; omega
    rw [this]
    norm_cast
  · have hM : (0 : Rat) ≤ o.scalingMultiplier.toNat := by positivity
    have hB : (0 : Rat) ≤ o.scalingBase.toNat := by positivity
    have hM' : (0 : Int) ≤ o.scalingMultiplier.toNat := by positivity
    have hB' : (0 : Int) ≤ o.scalingBase.toNat := by positivity
    have step : ∀ x c : Rat, 0 ≤ c → (x * c < 0 ↔ x < 0 ∧ c ≠ 0) := by
      intro x c hc
      rcases eq_or_lt_of_le hc with h | h
      · rw [← h]; simp
      · constructor
        · intro hh; exact ⟨by by_contra hn; push Not at hn; nlinarith, h.ne'⟩
        · intro ⟨hh, _⟩; nlinarith
    have step' : ∀ x c : Int, 0 ≤ c → (x * c < 0 ↔ x < 0 ∧ c ≠ 0) := by
      intro x c hc
      rcases eq_or_lt_of_le hc with h | h
      · rw [← h]; simp
      · constructor
        · intro hh; exact ⟨by by_contra hn; push Not at hn; nlinarith, h.ne'⟩
        · intro ⟨hh, _⟩; nlinarith
    rw [(binary64_sign _).2, step _ _ hB, (binary64_sign _).2, step _ _ hM, (binary64_sign _).2, step' _ _ hB', step' _ _ hM']
    have : (w : Rat) + o.scalingOffset.toInt < 0 ↔ v + o.scalingOffset.toInt < 0 := by
      rw [← Int.cast_add, Int.cast_lt_zero]; omega
    rw [this]
    norm_cast

theorem getEng_int (m : Mem) (pow : Nat → Rat) (T : IntType) (o : ParameterObject) (bs : List Byte) :
    getEng m pow (.int T) o bs = encodeValue m T bs >>= fun v => .ok (toEng pow o (f64.round v)) := by
  unfold getEng actualOf
  simp only
  generalize encodeValue m T bs = r
  cases r <;> rfl

theorem engOf_bind (m : Mem) (rnd : Rat → Rat) (pow : Nat → Rat) (T : IntType) (o : ParameterObject) (bs : List Byte) :
    engOf m rnd pow T o bs = encodeValue m T bs >>= fun v => .ok (actualToEng rnd pow o (rnd v)) := by
  unfold engOf
  generalize encodeValue m T bs = r
  cases r <;> rfl

/-- C105. Engineering values of integers, of 64 bits too, are never infinite and never NaN if the divisor
is not zero: they are the numbers of C104. -/
theorem C105_get (m : Mem) (pow : Nat → Rat) (T : IntType) (o : ParameterObject) (bs : List Byte)
    (hp1 : 1 ≤ pow o.precision.toNat) (hp2 : pow o.precision.toNat ≤ 2 ^ 850) (hd : o.scalingDivisor ≠ 0) :
    getEng m pow (.int T) o bs = engOf m binary64 pow T o bs >>= fun x => .ok (.fin x) := by
  rw [getEng_int, engOf_bind]
  generalize hv : encodeValue m T bs = r
  match r with
  | .ub => rfl
  | .throw e => rfl
  | .ok v =>
    have hb := has_bound (encode_has hv)
    refine congrArg Outcome.ok ?_
    unfold toEng actualToEng
    by_cases hs : o.isScalable = true
    · rw [if_pos hs, if_pos hs]
      obtain ⟨n, hn, hn2, hm, _, _⟩ := numerator_int o v hb
      have mD := (Mag.nat16 o.scalingDivisor).times (pow_mag hp1 hp2)
      have hDn : (o.scalingDivisor.toNat : Rat) ≠ 0 := cast_ne (fun e => hd (BitVec.eq_of_toNat_eq (by simpa using e)))
      have hDp : (o.scalingDivisor.toNat : Rat) * pow o.precision.toNat ≠ 0 := mul_ne_zero hDn (by linarith)
      have mE := hm.over mD.rounded
      rw [hn, ← hn2]
      simp only [mul]
      rw [round_inRange (mD.inRange (by norm_num) (by norm_num))]
      simp only [div]
      rw [if_neg (fun e => hDp ((binary64_sign _).1.mp e)), round_inRange (mE.inRange (by norm_num) (by norm_num))]
    · rw [if_neg hs, if_neg hs]
      exact round_inRange ((Mag.int v 64 hb).inRange (by norm_num) (by norm_num))

/-- C105. If the device reports a divisor of zero the engineering value is not a number of the
device: NaN if the scaled value is zero, else infinite with its sign. -/
theorem C105_divisor_zero_violated (m : Mem) (pow : Nat → Rat) (T : IntType) (o : ParameterObject) (bs : List Byte) (v : Int)
    (hbs : encodeValue m T bs = .ok v) (hs : o.isScalable = true) (hd : o.scalingDivisor = 0) :
    getEng m pow (.int T) o bs = .ok (
      if (v + o.scalingOffset.toInt) * o.scalingMultiplier.toNat * o.scalingBase.toNat = 0 then .nan
      else .inf (decide ((v + o.scalingOffset.toInt) * o.scalingMultiplier.toNat * o.scalingBase.toNat < 0))) := by
  rw [getEng_int, hbs]
  refine congrArg Outcome.ok ?_
  obtain ⟨n, hn, _, _, h0, h1⟩ := numerator_int o v (has_bound (encode_has hbs))
  unfold toEng
  rw [if_pos hs, hn, hd]
  have hz : mul (.fin ((0#16).toNat : Rat)) (.fin (pow o.precision.toNat)) = .fin 0 := by
    simp only [mul]
    rw [show (((0#16).toNat : Nat) : Rat) = 0 by simp, zero_mul]
    exact round_inRange (Or.inl rfl)
  rw [show (0 : BitVec 16) = 0#16 from rfl, hz]
  simp only [div]
  rw [if_pos trivial]
  by_cases hn0 : n = 0
  · rw [if_pos hn0, if_pos (h0.mp hn0)]
  · rw [if_neg hn0, if_neg (fun e => hn0 (h0.mpr e))]
    congr 1
    exact decide_eq_decide.mpr h1

/-! ## Setting limits -/

/-- A multiple of the smallest number. -/
def OnGrid (x : Rat) : Prop := ∃ i : Int, x = i * pow2 (-1074)

theorem OnGrid.of {k j : Int} (h : -1074 ≤ j) : OnGrid (k * pow2 j) := Format.grid_finer k j _ h

theorem OnGrid.int (k : Int) : OnGrid (k : Rat) := by
  have := OnGrid.of (k := k) (j := 0) (by norm_num)
  rwa [show pow2 0 = 1 from rfl, mul_one] at this

theorem OnGrid.mulNat {x : Rat} (h : OnGrid x) (n : Nat) : OnGrid (x * n) := by
  obtain ⟨i, rfl⟩ := h
  exact ⟨i * n, by push_cast; ring⟩

theorem OnGrid.addInt {x : Rat} (h : OnGrid x) (n : Int) : OnGrid (x + n) := by
  obtain ⟨i, rfl⟩ := h
  obtain ⟨j, hj⟩ := OnGrid.int n
  exact ⟨i + j, by rw [hj]; push_cast; ring⟩

/-- On the grid the lower limit of the exponents does not show. -/
theorem OnGrid.near {x : Rat} (h : OnGrid x) : f64.near x = binary64 x := by
  by_cases hx : x = 0
  · exact near64 (Or.inl hx)
  by_cases he : -1022 ≤ exponent x
  · exact near64 (Or.inr he)
  · obtain ⟨i, hi⟩ := h
    have hb : |x| < pow2 (-1022) := lt_of_lt_of_le (exponent_bounds hx).2 (pow2_mono (by omega))
    have hi2 : |(i : Rat)| < pow2 52 := by
      rw [hi, abs_mul, abs_of_pos (pow2_pos _), show (-1022 : Int) = 52 + -1074 by norm_num, pow2_add] at hb
      exact (mul_lt_mul_iff_left₀ (pow2_pos _)).mp hb
    have hi3 : |i| < 2 ^ 52 := by
      rw [show ((52 : Int)) = ((52 : Nat) : Int) from rfl, Ieee.pow2_nat, ← Int.cast_abs] at hi2
      exact_mod_cast hi2
    rw [hi, binary64_exact i _ (le_trans hi2.le (pow2_mono (by norm_num)))]
    exact f64.near_exact (by decide) i _ (by have : (2:Int) ^ 52 ≤ 2 ^ f64.prec := by decide
                                             omega) (by decide)

theorem OnGrid.rounded {x : Rat} (h : OnGrid x) : OnGrid (binary64 x) := by
  rw [← h.near]
  by_cases hx : x = 0
  · rw [hx, Format.near_zero]; exact OnGrid.int 0
  · rw [Format.near_eq _ hx]
    exact OnGrid.of (by have := f64.last_ge x; have e : 1 - f64.emax - (f64.prec - 1) = -1074 := by decide
                        omega)

theorem number_grid {x : Rat} (h : IsNumber 53 1023 x) : OnGrid x := by
  obtain ⟨k, j, _, h2, _, rfl⟩ := number_pow h
  exact OnGrid.of (by norm_num at h2; exact h2)

/-- The value is the number, or it is infinite and the number is large. -/
def Tracks (c : Int) (v : Val) (x : Rat) : Prop := v = .fin x ∨ ∃ s, v = .inf s ∧ pow2 c ≤ |x|

theorem round_tracks {x : Rat} (h : OnGrid x) : Tracks 1024 (f64.round x) (binary64 x) := by
  unfold Format.round
  rw [h.near, abs_def]
  by_cases hc : pow2 (f64.emax + 1) ≤ |binary64 x|
  · rw [if_pos hc]; exact Or.inr ⟨_, rfl, hc⟩
  · rw [if_neg hc]; exact Or.inl rfl

theorem binary64_large {x : Rat} {c : Int} (h : pow2 c ≤ |x|) : pow2 c ≤ |binary64 x| := by
  rcases abs_cases x with ⟨h1, h2⟩ | ⟨h1, h2⟩
  · rw [h1] at h
    have := binary64_mono h
    rw [binary64_pow2] at this
    rwa [abs_of_nonneg (binary64_nonneg h2)]
  · rw [h1] at h
    have := binary64_mono (show x ≤ -pow2 c by linarith)
    rw [binary64_neg_pow2] at this
    rw [abs_of_nonpos (binary64_nonpos h2.le)]; linarith

theorem castInt_small (T : IntType) {q : Rat} (h : |q| < 1) : castInt T q = .ok 0 := by
  have h' := abs_lt.mp h
  have hT : T.has 0 := by cases T <;> decide
  unfold castInt
  have : (if q < 0 then q.ceil else q.floor) = 0 := by
    split
    · rename_i hq
      apply le_antisymm
      · rw [Rat.ceil_le_iff]; push_cast; exact hq.le
      · have : (-1 : Int) < q.ceil := by rw [Rat.lt_ceil_iff]; push_cast; exact h'.1
        omega
    · rename_i hq
      apply le_antisymm
      · have : q.floor < 1 := by rw [Rat.floor_lt_iff]; push_cast; exact h'.2
        omega
      · rw [Rat.le_floor_iff]; push_cast; exact not_lt.mp hq
  simp only [this]
  rw [if_pos hT]

theorem castInt_large (T : IntType) {q : Rat} (h : pow2 65 ≤ |q|) : castInt T q = .ub := by
  rw [show ((65 : Int)) = ((65 : Nat) : Int) from rfl, Ieee.pow2_nat] at h
  unfold castInt
  refine if_neg ?_
  intro hT
  have hb := abs_le.mp (has_bound hT)
  split at hb
  · rename_i hq
    rw [abs_of_neg hq] at h
    have h1 := hb.1
    rw [← not_lt] at h1
    apply h1
    have : q.ceil ≤ -(2 ^ 65 : Int) := by rw [Rat.ceil_le_iff]; push_cast at h ⊢; linarith
    omega
  · rename_i hq
    rw [abs_of_nonneg (not_lt.mp hq)] at h
    have : (2 ^ 65 : Int) ≤ q.floor := by rw [Rat.le_floor_iff]; push_cast at h ⊢; linarith
    omega

theorem Tracks.cast {v : Val} {x : Rat} {c : Int} (h : Tracks c v x) (hc : 65 ≤ c) (T : IntType) : castVal T v = castInt T x := by
  rcases h with h | ⟨s, h, hl⟩
  · rw [h]; rfl
  · rw [h, castInt_large T (le_trans (pow2_mono hc) hl)]; rfl

/-- An integer plus almost nothing is rounded to the integer. -/
theorem add_tiny {n : Int} (hn : n ≠ 0) (hb : |n| ≤ 2 ^ 15) {t : Rat} (ht : |t| ≤ pow2 (-1000)) : binary64 (t + n) = n := by
  have hnq : (1 : Rat) ≤ |(n : Rat)| := by rw [← Int.cast_abs]; exact_mod_cast Int.one_le_abs hn
  have hdn : IsDouble (n : Rat) := ⟨n, 0, by omega, by simp⟩
  have h1 := binary64_best (t + n) n hdn
  have h2 : |(n : Rat) - (t + n)| = |t| := by rw [show (n : Rat) - (t + n) = -t by ring, abs_neg]
  rw [h2] at h1
  have h3 : |binary64 (t + n) - n| ≤ 2 * pow2 (-1000) := by
    have := abs_add_le (binary64 (t + n) - (t + n)) t
    rw [show binary64 (t + n) - (t + n) + t = binary64 (t + n) - n by ring] at this
    linarith
  have hsmall : 2 * pow2 (-1000) < pow2 (-53) := by
    rw [← pow2_succ]
    rw [pow2_eq, pow2_eq]
    exact zpow_lt_zpow_right₀ (by norm_num) (by norm_num)
  have h53 : pow2 (-53) ≤ 1 / 2 := by rw [pow2_eq]; norm_num
  have h4 : pow2 (-1) ≤ |binary64 (t + n)| := by
    have := abs_sub_abs_le_abs_sub (n : Rat) (binary64 (t + n))
    rw [abs_sub_comm] at this
    rw [show pow2 (-1) = 1 / 2 by rw [pow2_eq]; norm_num]
    linarith
  obtain ⟨i, hi⟩ := double_grid (binary64_double (t + n)) h4
  rw [show (-1 : Int) - 52 = -53 by norm_num] at hi
  have hnn : (n : Rat) = ((n * 2 ^ 53 : Int) : Rat) * pow2 (-53) := by rw [pow2_eq]; push_cast; norm_num; ring
  by_contra hne
  have hd : binary64 (t + n) - n = ((i - n * 2 ^ 53 : Int) : Rat) * pow2 (-53) := by
    rw [hi]
    conv_lhs => rw [hnn]
    push_cast; ring
  have hz : i - n * 2 ^ 53 ≠ 0 := by
    intro hz
    rw [hz, Int.cast_zero, zero_mul] at hd
    exact hne (sub_eq_zero.mp hd)
  rw [hd, abs_mul, abs_of_pos (pow2_pos _), ← Int.cast_abs] at h3
  have : (1 : Rat) ≤ ((|i - n * 2 ^ 53| : Int) : Rat) := by exact_mod_cast Int.one_le_abs hz
  nlinarith [pow2_pos (-53)]

theorem near_tiny {x : Rat} {c : Int} (h : |x| ≤ pow2 c) : |f64.near x| ≤ pow2 (c + 1) := by
  have := f64.near_best (by decide) x 0 (-1074) (by decide) (by decide)
  rw [Int.cast_zero, zero_mul, zero_sub, abs_neg] at this
  have h2 := abs_add_le (f64.near x - x) x
  rw [sub_add_cancel] at h2
  rw [pow2_succ]
  linarith

theorem tiny_one : pow2 (-1000) < 1 := by
  rw [show (1 : Rat) = pow2 0 from rfl, pow2_eq, pow2_eq]
  exact zpow_lt_zpow_right₀ (by norm_num) (by norm_num)

theorem round_tiny {x : Rat} {c : Int} (h : |x| ≤ pow2 c) (hc : c < 1000) : ∃ y, f64.round x = .fin y ∧ |y| ≤ pow2 (c + 1) := by
  have hn := near_tiny h
  refine ⟨f64.near x, ?_, hn⟩
  unfold Format.round
  rw [abs_def, if_neg]
  refine not_le.mpr (lt_of_le_of_lt hn ?_)
  rw [pow2_eq, pow2_eq]
  exact zpow_lt_zpow_right₀ (by norm_num) (by have : f64.emax = 1023 := by decide
                                              omega)

/-- The last two operations of `engToActualValue`. -/
theorem back_last (T : IntType) {v : Val} {x : Rat} (h : Tracks 1024 v x) (N : Nat) (hN : 1 ≤ N) (hN2 : N < 2 ^ 31)
    (off : BitVec 16) :
    castVal T (add (div v (.fin (N : Rat))) (neg (.fin off.toInt))) = castInt T (binary64 (binary64 (x / N) - off.toInt)) := by
  have hNq : (1 : Rat) ≤ N := by exact_mod_cast hN
  have hN0 : ((N : Nat) : Rat) ≠ 0 := by positivity
  have hoff := offset_bound off
  have hoffq : |(off.toInt : Rat)| ≤ 2 ^ 15 := by rw [← Int.cast_abs]; exact_mod_cast hoff
  have hlow : ∀ y : Rat, pow2 990 ≤ |y| → pow2 980 ≤ |y - off.toInt| := by
    intro y hy
    have h1 := abs_sub_abs_le_abs_sub y (off.toInt : Rat)
    have h2 : (2 : Rat) ^ 15 ≤ pow2 989 := by
      rw [show ((2 : Rat) ^ 15) = pow2 15 by rw [pow2_eq]; norm_num]
      exact pow2_mono (by norm_num)
    have h3 : pow2 990 = 2 * pow2 989 := by rw [show (990 : Int) = 989 + 1 by norm_num, pow2_succ]
    have h4 : pow2 980 ≤ pow2 989 := pow2_mono (by norm_num)
    linarith
  rcases h with h | ⟨s, h, hl⟩
  · subst h
    simp only [div, neg]
    rw [if_neg hN0, sub_eq_add_neg, ← Int.cast_neg]
    by_cases he : x / N = 0 ∨ -1022 ≤ exponent (x / N)
    · have hn := near64 he
      have hg2 : OnGrid (binary64 (x / N)) := by
        rw [← hn]
        by_cases hx : x / N = 0
        · rw [hx, Format.near_zero]; exact OnGrid.int 0
        · rw [Format.near_eq _ hx]
          exact OnGrid.of (by have := f64.last_ge (x / N); have e : 1 - f64.emax - (f64.prec - 1) = -1074 := by decide
                              omega)
      have hr : Tracks 1024 (f64.round (x / N)) (binary64 (x / N)) := by
        unfold Format.round
        rw [hn, abs_def]
        by_cases hc : pow2 (f64.emax + 1) ≤ |binary64 (x / N)|
        · rw [if_pos hc]; exact Or.inr ⟨_, rfl, hc⟩
        · rw [if_neg hc]; exact Or.inl rfl
      rcases hr with hr | ⟨s, hr, hl⟩
      · rw [hr]
        simp only [add]
        exact (round_tracks (hg2.addInt (-off.toInt))).cast (by norm_num) T
      · rw [hr]
        simp only [add]
        have := hlow _ (le_trans (pow2_mono (by norm_num)) hl)
        rw [sub_eq_add_neg, ← Int.cast_neg] at this
        rw [castInt_large T (le_trans (pow2_mono (by norm_num)) (binary64_large this))]
        rfl
    · -- almost zero
      push Not at he
      have hx : |x / N| ≤ pow2 (-1021) := le_trans (exponent_bounds he.1).2.le (pow2_mono (by omega))
      obtain ⟨y, hy, hyt⟩ := round_tiny hx (by norm_num)
      rw [show (-1021 : Int) + 1 = -1020 by norm_num] at hyt
      have hbt : |binary64 (x / N)| ≤ pow2 (-1020) := by
        refine le_trans (binary64_abs_le _) ?_
        rw [show (-1020 : Int) = -1021 + 1 by norm_num, pow2_succ]; linarith
      have hyt' : |y| ≤ pow2 (-1000) := le_trans hyt (pow2_mono (by norm_num))
      rw [hy]
      simp only [add]
      by_cases hz : off.toInt = 0
      · rw [hz]
        simp only [neg_zero, Int.cast_zero, add_zero]
        obtain ⟨y2, hy2, hyt2⟩ := round_tiny hyt (by norm_num)
        rw [hy2]
        have e1 : castVal T (.fin y2) = .ok 0 := castInt_small T (lt_of_le_of_lt (le_trans hyt2 (pow2_mono (by norm_num))) tiny_one)
        rw [e1, castInt_small T]
        refine lt_of_le_of_lt (binary64_abs_le _) ?_
        have h6 : pow2 (-1020) = 1 / 2 * pow2 (-1019) := by
          rw [show (-1019 : Int) = -1020 + 1 by norm_num, pow2_succ]; ring
        have h7 : pow2 (-1019) ≤ pow2 (-1000) := pow2_mono (by norm_num)
        linarith [tiny_one]
      · have hno : -off.toInt ≠ 0 := by omega
        have hnb : |-off.toInt| ≤ 2 ^ 15 := by rw [abs_neg]; exact hoff
        have hR : InRange (y + ((-off.toInt : Int) : Rat)) := by
          refine Or.inr ⟨?_, ?_⟩
          · have h1 := abs_sub_abs_le_abs_sub ((-off.toInt : Int) : Rat) (-y)
            rw [sub_neg_eq_add, add_comm, abs_neg] at h1
            have h2 : (1 : Rat) ≤ |((-off.toInt : Int) : Rat)| := by rw [← Int.cast_abs]; exact_mod_cast Int.one_le_abs hno
            have h3 : pow2 (-1000) ≤ 1 / 2 := by
              rw [show (1 / 2 : Rat) = pow2 (-1) by rw [pow2_eq]; norm_num]; exact pow2_mono (by norm_num)
            have h4 : (2 : Rat) ^ (-1022 : Int) ≤ 1 / 2 := by
              rw [← pow2_eq, show (1 / 2 : Rat) = pow2 (-1) by rw [pow2_eq]; norm_num]; exact pow2_mono (by norm_num)
            linarith
          · have h1 := abs_add_le y ((-off.toInt : Int) : Rat)
            rw [Int.cast_neg, abs_neg] at h1
            rw [Int.cast_neg]
            have h4 : (2 : Rat) ^ 16 ≤ (2 : Rat) ^ (1023 : Int) := by
              rw [← pow2_eq, show ((2 : Rat) ^ 16) = pow2 16 by rw [pow2_eq]; norm_num]; exact pow2_mono (by norm_num)
            have h5 := tiny_one
            have h6 : (2 : Rat) ^ 15 + 1 < 2 ^ 16 := by norm_num
            exact lt_of_lt_of_le (by linarith) h4
        rw [round_inRange hR, add_tiny hno hnb hyt', add_tiny hno hnb (le_trans hbt (pow2_mono (by norm_num)))]
        rfl
  · subst h
    have hq : pow2 990 ≤ |binary64 (x / N)| := by
      apply binary64_large
      rw [abs_div, abs_of_pos (by linarith : (0 : Rat) < N), le_div_iff₀ (by linarith)]
      refine le_trans ?_ hl
      have h1 : (N : Rat) ≤ pow2 31 := by
        rw [show ((31 : Int)) = ((31 : Nat) : Int) from rfl, Ieee.pow2_nat]; exact_mod_cast hN2.le
      calc pow2 990 * N ≤ pow2 990 * pow2 31 := mul_le_mul_of_nonneg_left h1 (pow2_pos _).le
        _ = pow2 1021 := by rw [← pow2_add]; norm_num
        _ ≤ pow2 1024 := pow2_mono (by norm_num)
    rw [castInt_large T (le_trans (pow2_mono (by norm_num)) (binary64_large (hlow _ hq)))]
    rfl

/-- C105. Setting a limit of an integer type to a number stores what C73 and C104 say, for every
`double` that is a number: neither overflow nor underflow on the way makes a difference. -/
theorem C105_set (pow : Nat → Rat) (T : IntType) (o : ParameterObject) (x : Rat) (hx : IsNumber 53 1023 x) (P : Nat) (hP : 0 < P)
    (hpow : pow o.precision.toNat = P) (hm : o.scalingMultiplier ≠ 0) (hb : o.scalingBase ≠ 0) :
    putEng pow (.int T) o (.fin x) = engBytes binary64 pow T o x := by
  unfold putEng engBytes toActual engToActual
  by_cases hs : o.isScalable = true
  · rw [if_pos hs, if_pos hs]
    by_cases hov : o.scalingMultiplier.toNat * o.scalingBase.toNat < 2 ^ 31
    · rw [if_pos hov, if_pos hov]
      simp only
      have nz : ∀ {x : BitVec 16}, x ≠ 0 → x.toNat ≠ 0 := fun h e => h (BitVec.eq_of_toNat_eq (by simpa using e))
      have hN : 1 ≤ o.scalingMultiplier.toNat * o.scalingBase.toNat := Nat.mul_pos (Nat.pos_of_ne_zero (nz hm)) (Nat.pos_of_ne_zero (nz hb))
      have g0 := number_grid hx
      have g1 := (g0.mulNat o.scalingDivisor.toNat)
      have g2 := g1.rounded.mulNat P
      have t2 : Tracks 1024 (mul (mul (.fin x) (.fin o.scalingDivisor.toNat)) (.fin (pow o.precision.toNat)))
          (binary64 (binary64 (x * o.scalingDivisor.toNat) * pow o.precision.toNat)) := by
        rw [hpow]
        have t1 := round_tracks g1
        simp only [mul]
        rcases t1 with t1 | ⟨s, t1, hl⟩
        · rw [t1]; exact round_tracks g2
        · rw [t1]
          have hPq : (1 : Rat) ≤ P := by exact_mod_cast hP
          simp only
          rw [if_neg (by positivity)]
          refine Or.inr ⟨_, rfl, binary64_large ?_⟩
          rw [abs_mul, abs_of_pos (by linarith : (0 : Rat) < P)]
          nlinarith [pow2_pos 1024]
      have key := back_last T t2 _ hN hov o.scalingOffset
      rw [key]
      rfl
    · rw [if_neg hov, if_neg hov]
  · rw [if_neg hs, if_neg hs]
    rfl

/-- C105. Setting a limit of an integer type to an infinite value or to NaN is undefined. -/
theorem C105_set_infinite_violated (pow : Nat → Rat) (T : IntType) (o : ParameterObject) (e : Val) (he : e = .nan ∨ ∃ s, e = .inf s)
    (hp : pow o.precision.toNat ≠ 0) :
    putEng pow (.int T) o e = .ub := by
  unfold putEng toActual
  have nan : ∀ x, mul .nan x = .nan := by intro x; cases x <;> rfl
  have nan1 : ∀ x, div .nan x = .nan := by intro x; cases x <;> rfl
  have nan2 : ∀ x, add .nan x = .nan := by intro x; cases x <;> rfl
  by_cases hs : o.isScalable = true
  · rw [if_pos hs]
    by_cases hov : o.scalingMultiplier.toNat * o.scalingBase.toNat < 2 ^ 31
    · rw [if_pos hov]
      rcases he with rfl | ⟨s, rfl⟩
      · simp only [nan, nan1, nan2, castVal]
      · simp only [mul]
        by_cases hD : (o.scalingDivisor.toNat : Rat) = 0
        · rw [if_pos hD]; simp only [nan1, nan2, castVal]
        · rw [if_neg hD]
          simp only
          rw [if_neg hp]
          simp only [div, neg, add, castVal]
    · rw [if_neg hov]
  · rw [if_neg hs]
    rcases he with rfl | ⟨s, rfl⟩ <;> rfl

/-- C105. If the device reports a multiplier or a base of zero, setting a limit of an integer type is
undefined, whatever the value: the division gives an infinite value or NaN, which is then converted. -/
theorem C105_multiplier_zero_violated (pow : Nat → Rat) (T : IntType) (o : ParameterObject) (e : Val) (hs : o.isScalable = true)
    (hz : o.scalingMultiplier = 0 ∨ o.scalingBase = 0) : putEng pow (.int T) o e = .ub := by
  have h0 : o.scalingMultiplier.toNat * o.scalingBase.toNat = 0 := by
    rcases hz with h | h <;> rw [h] <;> simp
  unfold putEng toActual
  rw [if_pos hs, h0, if_pos (by norm_num)]
  simp only
  generalize mul (mul e (.fin o.scalingDivisor.toNat)) (.fin (pow o.precision.toNat)) = v
  have : (∃ s, div v (.fin ((0 : Nat) : Rat)) = .inf s) ∨ div v (.fin ((0 : Nat) : Rat)) = .nan := by
    cases v with
    | nan => exact Or.inr rfl
    | inf a => exact Or.inl ⟨_, rfl⟩
    | fin x =>
      simp only [div]
      rw [if_pos (by simp)]
      split
      · exact Or.inr rfl
      · exact Or.inl ⟨_, rfl⟩
  rcases this with ⟨s, h⟩ | h <;> rw [h] <;> rfl

end Verif.Props
