import Verif.Lemmas.Double
import Verif.Model.Ieee

/-!
# Lemmas about rounding in a format of IEEE 754
-/

namespace Verif.Ieee

open Verif.Double

theorem nearest_closest (x : Rat) (i : Int) : |(nearest x : Rat) - x| ≤ |(i : Rat) - x| := by
  have h1 := Rat.floor_le x
  have h2 := Rat.lt_floor_add_one x
  push_cast at h2
  rcases le_or_gt i x.floor with h | h
  · have hi : (i : Rat) ≤ x.floor := by exact_mod_cast h
    rw [abs_of_nonpos (by linarith : (i : Rat) - x ≤ 0)]
    unfold nearest
    rw [half_eq]
    split
    · rw [abs_of_nonpos (by linarith)]; linarith
    · split
      · rw [abs_of_nonneg (by push_cast; linarith)]; push_cast; linarith
      · split
        · rw [abs_of_nonpos (by linarith)]; linarith
        · rw [abs_of_nonneg (by push_cast; linarith)]; push_cast; linarith
  · have hi : (x.floor : Rat) + 1 ≤ i := by exact_mod_cast h
    rw [abs_of_nonneg (by linarith : 0 ≤ (i : Rat) - x)]
    unfold nearest
    rw [half_eq]
    split
    · rw [abs_of_nonpos (by linarith)]; linarith
    · split
      · rw [abs_of_nonneg (by push_cast; linarith)]; push_cast; linarith
      · split
        · rw [abs_of_nonpos (by linarith)]; linarith
        · rw [abs_of_nonneg (by push_cast; linarith)]; push_cast; linarith

/-- Half below an even integer or more rounds to it or further. -/
theorem le_nearest_even {x : Rat} {n : Int} (hn : n % 2 = 0) : n ≤ nearest x ↔ (n : Rat) - 1 / 2 ≤ x := by
  have h1 := Rat.floor_le x
  have h2 := Rat.lt_floor_add_one x
  push_cast at h2
  constructor
  · intro h
    have h3 := (abs_le.mp (nearest_near x)).2
    have : (n : Rat) ≤ nearest x := by exact_mod_cast h
    linarith
  · intro h
    have hf : n - 1 ≤ x.floor := by
      rw [Rat.le_floor_iff]; push_cast; linarith
    unfold nearest
    rw [half_eq]
    split
    · rename_i h3
      by_contra hc
      have : x.floor = n - 1 := by omega
      have : (x.floor : Rat) = n - 1 := by exact_mod_cast this
      linarith
    · split
      · omega
      · split <;> omega

theorem nearest_neg (x : Rat) : nearest (-x) = -nearest x := by
  have h1 := Rat.floor_le x
  have h2 := Rat.lt_floor_add_one x
  push_cast at h2
  by_cases hx : x = x.floor
  · rw [hx, ← Int.cast_neg, nearest_int, nearest_int]
  · have h3 : (x.floor : Rat) < x := lt_of_le_of_ne h1 (fun e => hx e.symm)
    have hf : (-x).floor = -x.floor - 1 := by
      apply le_antisymm
      · have : (-x).floor < -x.floor := by
          rw [Rat.floor_lt_iff]; push_cast; linarith
        omega
      · rw [Rat.le_floor_iff]; push_cast; linarith
    unfold nearest
    rw [hf, half_eq]
    push_cast
    by_cases a : x - x.floor < 1 / 2
    · rw [if_neg (by linarith), if_pos (by linarith), if_pos a]; ring
    · by_cases b : 1 / 2 < x - x.floor
      · rw [if_pos (by linarith), if_neg a, if_pos b]; ring
      · rw [if_neg (by linarith), if_neg (by linarith), if_neg a, if_neg b]
        split <;> split <;> omega

theorem exponent_neg (x : Rat) : exponent (-x) = exponent x := by
  unfold exponent
  rw [abs_def, abs_def, abs_neg]
  simp

theorem pow2_nat (n : Nat) : pow2 n = ((2 ^ n : Int) : Rat) := by
  rw [pow2_eq]; push_cast; exact zpow_natCast 2 n

namespace Format

theorem last_neg (F : Format) (x : Rat) : F.last (-x) = F.last x := by unfold last; rw [exponent_neg]

theorem near_neg (F : Format) (x : Rat) : F.near (-x) = -F.near x := by
  unfold near
  by_cases h : x = 0
  · rw [h]; simp
  · rw [if_neg (neg_ne_zero.mpr h), if_neg h, last_neg, neg_div, nearest_neg]
    push_cast; ring

theorem near_eq (F : Format) {x : Rat} (hx : x ≠ 0) :
    F.near x = (nearest (x / pow2 (F.last x)) : Rat) * pow2 (F.last x) := by unfold near; rw [if_neg hx]

theorem near_zero (F : Format) : F.near 0 = 0 := by unfold near; rw [if_pos rfl]

theorem exponent_le_last (F : Format) (x : Rat) : exponent x ≤ F.last x + (F.prec - 1) := by unfold last; omega

theorem last_ge (F : Format) (x : Rat) : 1 - F.emax - (F.prec - 1) ≤ F.last x := by unfold last; omega

/-- In units of the last place there are at most `2^p`. -/
theorem near_bound (F : Format) {x : Rat} (hx : x ≠ 0) : |nearest (x / pow2 (F.last x))| ≤ 2 ^ F.prec := by
  have hu := pow2_pos (F.last x)
  have hb : |x| ≤ pow2 (F.prec + F.last x) :=
    le_trans (exponent_bounds hx).2.le (pow2_mono (by have := exponent_le_last F x; omega))
  rw [pow2_add, pow2_nat] at hb
  have hb' := abs_le.mp hb
  rw [abs_le]
  constructor
  · have := nearest_mono (show ((-(2 ^ F.prec) : Int) : Rat) ≤ x / pow2 (F.last x) by
      rw [le_div_iff₀ hu]; push_cast at hb' ⊢; linarith [hb'.1])
    rw [nearest_int] at this; exact this
  · have := nearest_mono (show x / pow2 (F.last x) ≤ ((2 ^ F.prec : Int) : Rat) by
      rw [div_le_iff₀ hu]; exact hb'.2)
    rw [nearest_int] at this; exact this

/-- A multiple of a power of two is a multiple of a smaller one. -/
theorem grid_finer (k j l : Int) (h : l ≤ j) : ∃ i : Int, (k : Rat) * pow2 j = i * pow2 l := by
  obtain ⟨n, hn⟩ := Int.eq_ofNat_of_zero_le (show 0 ≤ j - l by omega)
  refine ⟨k * 2 ^ n, ?_⟩
  have : ((2 ^ n : Int) : Rat) = pow2 (j - l) := by rw [hn]; exact (pow2_nat n).symm
  rw [Int.cast_mul, this, mul_assoc, ← pow2_add]
  congr 2; ring

/-- The rounded number is not further away than any multiple of the last place. -/
theorem near_grid (F : Format) {x : Rat} (hx : x ≠ 0) (i : Int) : |F.near x - x| ≤ |(i : Rat) * pow2 (F.last x) - x| := by
  have hu := pow2_pos (F.last x)
  have h1 := nearest_closest (x / pow2 (F.last x)) i
  have h2 : ∀ a : Rat, |a * pow2 (F.last x) - x| = |a - x / pow2 (F.last x)| * pow2 (F.last x) := by
    intro a
    have : a * pow2 (F.last x) - x = (a - x / pow2 (F.last x)) * pow2 (F.last x) := by field_simp
    rw [this, abs_mul, abs_of_pos hu]
  rw [near_eq F hx, h2, h2]
  exact mul_le_mul_of_nonneg_right h1 hu.le

/-- Nor than any number with `p` bits that is a multiple of the smallest number. -/
theorem near_best (F : Format) (hp : 1 ≤ F.prec) (x : Rat) (k j : Int) (hk : |k| ≤ 2 ^ F.prec) (hj : 1 - F.emax - (F.prec - 1) ≤ j) :
    |F.near x - x| ≤ |(k : Rat) * pow2 j - x| := by
  by_cases hx : x = 0
  · rw [hx, near_zero, sub_self, abs_zero]; exact abs_nonneg _
  by_cases hlj : F.last x ≤ j
  · obtain ⟨i, hi⟩ := grid_finer k j (F.last x) hlj
    rw [hi]; exact near_grid F hx i
  · have hl : F.last x = exponent x - (F.prec - 1) := by
      unfold last at hlj ⊢
      rcases le_total (exponent x) (1 - F.emax) with h | h
      · rw [max_eq_right h] at hlj; omega
      · rw [max_eq_left h]
    have hE : pow2 (exponent x) = ((2 ^ (F.prec - 1) : Int) : Rat) * pow2 (F.last x) := by
      rw [← pow2_nat, ← pow2_add, hl]; congr 1; omega
    have hz : |(k : Rat) * pow2 j| ≤ pow2 (exponent x) := by
      rw [abs_mul, abs_of_pos (pow2_pos j), ← Int.cast_abs]
      have h1 : ((|k| : Int) : Rat) ≤ ((2 ^ F.prec : Int) : Rat) := by exact_mod_cast hk
      rw [← pow2_nat] at h1
      refine le_trans (mul_le_mul_of_nonneg_right h1 (pow2_pos j).le) ?_
      rw [← pow2_add]
      exact pow2_mono (by omega)
    have hb := (exponent_bounds hx).1
    have hz' := abs_le.mp hz
    rcases lt_or_gt_of_ne hx with hn | hpos
    · refine le_trans (near_grid F hx (-(2 ^ (F.prec - 1)))) ?_
      rw [abs_of_neg hn] at hb
      have e : ((-(2 ^ (F.prec - 1)) : Int) : Rat) * pow2 (F.last x) = -pow2 (exponent x) := by rw [hE]; push_cast; ring
      rw [e, abs_of_nonneg (by linarith), abs_of_nonneg (by linarith [hz'.1])]
      linarith [hz'.1]
    · refine le_trans (near_grid F hx (2 ^ (F.prec - 1))) ?_
      rw [abs_of_pos hpos] at hb
      rw [← hE, abs_of_nonpos (by linarith), abs_of_nonpos (by linarith [hz'.2])]
      linarith [hz'.2]

/-- Such a number is not changed. -/
theorem near_exact (F : Format) (hp : 1 ≤ F.prec) (k j : Int) (hk : |k| ≤ 2 ^ F.prec) (hj : 1 - F.emax - (F.prec - 1) ≤ j) :
    F.near ((k : Rat) * pow2 j) = k * pow2 j := by
  have h := near_best F hp ((k : Rat) * pow2 j) k j hk hj
  rw [sub_self, abs_zero] at h
  exact sub_eq_zero.mp (abs_eq_zero.mp (le_antisymm h (abs_nonneg _)))

theorem near_nonneg (F : Format) {x : Rat} (hx : 0 < x) : 0 ≤ F.near x := by
  rw [near_eq F hx.ne']
  refine mul_nonneg ?_ (pow2_pos _).le
  have := nearest_mono (show ((0 : Int) : Rat) ≤ x / pow2 (F.last x) by
    rw [Int.cast_zero]; exact div_nonneg hx.le (pow2_pos _).le)
  rw [nearest_int] at this
  exact_mod_cast this

/-- When a positive number is rounded to one that is too large. -/
theorem near_over_pos (F : Format) (hp : 2 ≤ F.prec) (he : 1 ≤ F.emax) {x : Rat} (hx : 0 < x) :
    pow2 (F.emax + 1) ≤ F.near x ↔ pow2 (F.emax + 1) - pow2 (F.emax - F.prec) ≤ x := by
  have hb := exponent_bounds hx.ne'
  rw [abs_of_pos hx] at hb
  have hu := pow2_pos (F.last x)
  have hq := pow2_pos (F.emax - F.prec)
  rcases lt_trichotomy (exponent x) F.emax with h | h | h
  · have h1 : x < pow2 F.emax := lt_of_lt_of_le hb.2 (pow2_mono (by omega))
    have h2 : F.near x ≤ pow2 F.emax := by
      obtain ⟨n, hn⟩ := Int.eq_ofNat_of_zero_le (show 0 ≤ F.emax - F.last x by unfold last; omega)
      have e : pow2 F.emax = ((2 ^ n : Int) : Rat) * pow2 (F.last x) := by
        rw [← pow2_nat, ← pow2_add]; congr 1; omega
      rw [near_eq F hx.ne', e]
      refine mul_le_mul_of_nonneg_right ?_ hu.le
      have := nearest_mono (show x / pow2 (F.last x) ≤ ((2 ^ n : Int) : Rat) by rw [div_le_iff₀ hu, ← e]; exact h1.le)
      rw [nearest_int] at this
      exact_mod_cast this
    have h3 : pow2 (F.emax - F.prec) ≤ pow2 F.emax := pow2_mono (by omega)
    rw [pow2_succ]
    have := pow2_pos F.emax
    constructor
    · intro h; linarith
    · intro h; linarith
  · have hl : F.last x = F.emax + 1 - F.prec := by unfold last; omega
    have e1 : pow2 (F.emax + 1) = ((2 ^ F.prec : Int) : Rat) * pow2 (F.last x) := by
      rw [← pow2_nat, ← pow2_add, hl]; congr 1; omega
    have e2 : pow2 (F.emax - F.prec) = 1 / 2 * pow2 (F.last x) := by
      rw [hl, show F.emax + 1 - (F.prec : Int) = (F.emax - F.prec) + 1 by omega, pow2_succ]; ring
    have ev : (2 ^ F.prec : Int) % 2 = 0 := by
      obtain ⟨n, hn⟩ : ∃ n, F.prec = n + 1 := ⟨F.prec - 1, by omega⟩
      rw [hn, pow_succ]; omega
    have key := le_nearest_even (x := x / pow2 (F.last x)) ev
    rw [near_eq F hx.ne', e1, e2, mul_le_mul_iff_left₀ hu, Int.cast_le, key, le_div_iff₀ hu, sub_mul]
  · have h1 : pow2 (F.emax + 1) ≤ x := le_trans (pow2_mono (by omega)) hb.1
    have h2 : pow2 (exponent x) ≤ F.near x := by
      have hl : F.last x = exponent x - (F.prec - 1) := by unfold last; omega
      have e : pow2 (exponent x) = ((2 ^ (F.prec - 1) : Int) : Rat) * pow2 (F.last x) := by
        rw [← pow2_nat, ← pow2_add, hl]; congr 1; omega
      rw [near_eq F hx.ne', e]
      refine mul_le_mul_of_nonneg_right ?_ hu.le
      have := nearest_mono (show ((2 ^ (F.prec - 1) : Int) : Rat) ≤ x / pow2 (F.last x) by rw [le_div_iff₀ hu, ← e]; exact hb.1)
      rw [nearest_int] at this
      exact_mod_cast this
    have h3 : pow2 (F.emax + 1) ≤ pow2 (exponent x) := pow2_mono (by omega)
    exact ⟨fun _ => by linarith, fun _ => by linarith⟩

/-- When a number is rounded to one that is too large. -/
theorem near_over (F : Format) (hp : 2 ≤ F.prec) (he : 1 ≤ F.emax) (x : Rat) :
    pow2 (F.emax + 1) ≤ |F.near x| ↔ pow2 (F.emax + 1) - pow2 (F.emax - F.prec) ≤ |x| := by
  have hpos : ∀ y : Rat, 0 < y → (pow2 (F.emax + 1) ≤ |F.near y| ↔ pow2 (F.emax + 1) - pow2 (F.emax - F.prec) ≤ |y|) := by
    intro y hy
    rw [abs_of_pos hy, abs_of_nonneg (near_nonneg F hy)]
    exact near_over_pos F hp he hy
  rcases lt_trichotomy x 0 with h | h | h
  · have := hpos (-x) (by linarith)
    rwa [near_neg, abs_neg, abs_neg] at this
  · rw [h, near_zero, abs_zero]
    have h1 := pow2_pos (F.emax + 1)
    have h2 : pow2 (F.emax - F.prec) < pow2 (F.emax + 1) := by
      rw [pow2_succ]
      have : pow2 (F.emax - F.prec) ≤ pow2 F.emax := pow2_mono (by omega)
      linarith [pow2_pos F.emax]
    exact ⟨fun h => by linarith, fun h => by linarith⟩
  · exact hpos x h

/-! ## Bit patterns -/

theorem split_bits {P W q : Nat} (s : Nat) (hP : 0 < P) (hq : q < P * W) (hs : s < 2) :
    (s * (P * W) + q) % P = q % P ∧ (s * (P * W) + q) / P % W = q / P ∧ (s * (P * W) + q) / (P * W) % 2 = s := by
  have hW : 0 < W := Nat.pos_of_ne_zero (fun h => by rw [h] at hq; omega)
  refine ⟨?_, ?_, ?_⟩
  · rw [show s * (P * W) + q = q + P * (s * W) by ring, Nat.add_mul_mod_self_left]
  · rw [show s * (P * W) + q = q + P * (s * W) by ring, Nat.add_mul_div_left _ _ hP, Nat.add_mul_mod_self_right]
    exact Nat.mod_eq_of_lt (by rw [Nat.div_lt_iff_lt_mul hP, mul_comm]; exact hq)
  · rw [show s * (P * W) + q = q + (P * W) * s by ring, Nat.add_mul_div_left _ _ (by positivity), Nat.div_eq_of_lt hq, zero_add]
    exact Nat.mod_eq_of_lt hs

/-- The value of a pattern with a given sign and given fields. -/
theorem decode_fields (F : Format) (s ex frac : Nat) (hs : s < 2) (hex : ex < 2 ^ F.ebits) (hf : frac < 2 ^ (F.prec - 1)) :
    F.decode (s * (2 ^ (F.prec - 1) * 2 ^ F.ebits) + (ex * 2 ^ (F.prec - 1) + frac)) =
      if ex = 2 ^ F.ebits - 1 then if frac = 0 then .inf (decide (s = 1)) else .nan
      else if ex = 0 then .fin ((if s = 1 then -1 else 1) * frac * pow2 (1 - F.emax - (F.prec - 1)))
      else .fin ((if s = 1 then -1 else 1) * (2 ^ (F.prec - 1) + frac : Nat) * pow2 (ex - F.emax - (F.prec - 1))) := by
  have hP : 0 < 2 ^ (F.prec - 1) := by positivity
  obtain ⟨a, b, c⟩ := split_bits (P := 2 ^ (F.prec - 1)) (W := 2 ^ F.ebits) (q := ex * 2 ^ (F.prec - 1) + frac) s hP
    (by nlinarith) hs
  have a' : (ex * 2 ^ (F.prec - 1) + frac) % 2 ^ (F.prec - 1) = frac := by
    rw [mul_comm, Nat.mul_add_mod]; exact Nat.mod_eq_of_lt hf
  have b' : (ex * 2 ^ (F.prec - 1) + frac) / 2 ^ (F.prec - 1) = ex := by
    rw [mul_comm, Nat.mul_add_div hP, Nat.div_eq_of_lt hf, add_zero]
  unfold decode
  rw [a, a', b, b', pow_add, c]

theorem pattern_lt {P W s ex frac : Nat} (hs : s < 2) (hex : ex < W) (hf : frac < P) : s * (P * W) + (ex * P + frac) < 2 * (P * W) := by
  have h1 : ex * P + frac < P * W := by nlinarith
  have h2 : s * (P * W) ≤ 1 * (P * W) := Nat.mul_le_mul_right _ (by omega)
  omega

/-- What is stored for a number of the format is read back, and the pattern is not too long. -/
theorem decode_encode_fin (F : Format) (hp : 2 ≤ F.prec) (he : 2 ≤ F.ebits) (x : Rat) (hx : F.near x = x) (hm : |x| < pow2 (F.emax + 1)) :
    F.decode (F.encode (.fin x)) = .fin x ∧ F.encode (.fin x) < 2 * (2 ^ (F.prec - 1) * 2 ^ F.ebits) := by
  have hemax : (2 : Int) ^ F.ebits = 2 * (F.emax + 1) := by
    obtain ⟨n, hn⟩ : ∃ n, F.ebits = n + 1 := ⟨F.ebits - 1, by omega⟩
    unfold emax
    rw [hn, Nat.add_sub_cancel, pow_succ]; ring
  have hemax1 : 1 ≤ F.emax := by
    have : (2 : Int) ^ 1 ≤ 2 ^ (F.ebits - 1) := pow_le_pow_right₀ (by norm_num) (by omega)
    unfold emax; omega
  have hW : ((2 ^ F.ebits : Nat) : Int) = 2 * (F.emax + 1) := by push_cast; exact hemax
  by_cases h0 : x = 0
  · subst h0
    have := decode_fields F 0 0 0 (by norm_num) (by positivity) (by positivity)
    simp only [zero_mul, zero_add, Nat.add_zero] at this
    rw [show F.encode (.fin 0) = 0 from rfl, this, if_neg (by omega)]
    exact ⟨by simp, by positivity⟩
  · have hu := pow2_pos (F.last x)
    have hb := exponent_bounds h0
    have hexp : exponent x ≤ F.emax := exponent_le h0 hm
    rw [near_eq F h0] at hx
    generalize hi : nearest (x / pow2 (F.last x)) = i at hx
    have hq : (x / pow2 (F.last x)) = i := by rw [div_eq_iff hu.ne']; exact hx.symm
    have hn : (x / pow2 (F.last x)).abs.floor.toNat = i.natAbs := by
      rw [hq, abs_def, ← Int.cast_abs, Rat.floor_intCast]
      rw [Int.abs_eq_natAbs, Int.toNat_natCast]
    have hxi : |x| = (i.natAbs : Rat) * pow2 (F.last x) := by
      have h := congrArg abs hx
      rw [abs_mul, abs_of_pos hu, ← Int.cast_abs, Int.abs_eq_natAbs] at h
      rw [← h, Int.cast_natCast]
    have hsx : x = (if x < 0 then -1 else 1) * (i.natAbs : Rat) * pow2 (F.last x) := by
      rw [mul_assoc, ← hxi]
      split
      · rw [abs_of_neg ‹_›]; ring
      · rw [abs_of_nonneg (not_lt.mp ‹_›)]; ring
    have hlast : F.last x + (F.prec - 1) = max (exponent x) (1 - F.emax) := by unfold last; ring
    obtain ⟨E, hE⟩ := Int.eq_ofNat_of_zero_le (show 0 ≤ F.last x + (F.prec - 1) - (1 - F.emax) by rw [hlast]; omega)
    have hEb : (E : Int) ≤ 2 * F.emax - 1 := by
      have : max (exponent x) (1 - F.emax) ≤ F.emax := max_le hexp (by omega)
      omega
    have hpp : 2 ^ F.prec = 2 * 2 ^ (F.prec - 1) := by
      obtain ⟨n, hn⟩ : ∃ n, F.prec = n + 1 := ⟨F.prec - 1, by omega⟩
      rw [hn, Nat.add_sub_cancel, pow_succ]; ring
    -- less than 2^p units
    have hi1 : i.natAbs < 2 ^ F.prec := by
      have h1 : |x| < pow2 (F.prec + F.last x) := lt_of_lt_of_le hb.2 (pow2_mono (by have := exponent_le_last F x; omega))
      rw [hxi, pow2_add, mul_lt_mul_iff_left₀ hu, pow2_nat] at h1
      push_cast at h1
      exact_mod_cast h1
    have henc : F.encode (.fin x) = (if x < 0 then 1 else 0) * (2 ^ (F.prec - 1) * 2 ^ F.ebits) + (E * 2 ^ (F.prec - 1) + i.natAbs) := by
      unfold encode
      simp only
      rw [if_neg h0, hn, hE, pow_add]
      simp
    rw [henc]
    have hs2 : (if x < 0 then 1 else 0) < 2 := by split <;> omega
    have hsg : (if (if x < 0 then 1 else 0) = 1 then (-1 : Rat) else 1) = if x < 0 then -1 else 1 := by
      by_cases h : x < 0 <;> simp [h]
    by_cases hsub : i.natAbs < 2 ^ (F.prec - 1)
    · -- a small number
      have hE0 : E = 0 := by
        by_contra hne
        have hl : F.last x = exponent x - (F.prec - 1) := by omega
        have h1 := hb.1
        rw [show exponent x = ((F.prec - 1 : Nat) : Int) + F.last x by omega, hxi, pow2_add, mul_le_mul_iff_left₀ hu, pow2_nat] at h1
        push_cast at h1
        have : 2 ^ (F.prec - 1) ≤ i.natAbs := by exact_mod_cast h1
        omega
      have hl : F.last x = 1 - F.emax - (F.prec - 1) := by omega
      rw [hE0]
      refine ⟨?_, pattern_lt hs2 (by positivity) hsub⟩
      rw [decode_fields F _ 0 _ hs2 (by positivity) hsub, if_neg (by omega), if_pos rfl, hsg, ← hl, ← hsx]
    · obtain ⟨f, hf⟩ : ∃ f, i.natAbs = 2 ^ (F.prec - 1) + f := ⟨i.natAbs - 2 ^ (F.prec - 1), by omega⟩
      have hE1 : E + 1 < 2 ^ F.ebits - 1 := by omega
      have hl : F.last x = ((E + 1 : Nat) : Int) - F.emax - (F.prec - 1) := by push_cast; omega
      rw [show E * 2 ^ (F.prec - 1) + i.natAbs = (E + 1) * 2 ^ (F.prec - 1) + f by rw [hf]; ring]
      refine ⟨?_, pattern_lt hs2 (by omega) (by omega)⟩
      rw [decode_fields F _ (E + 1) f hs2 (by omega) (by omega), if_neg (by omega), if_neg (by omega), hsg, ← hl, ← hf, ← hsx]

theorem decode_encode_inf (F : Format) (neg : Bool) :
    F.decode (F.encode (.inf neg)) = .inf neg ∧ F.encode (.inf neg) < 2 * (2 ^ (F.prec - 1) * 2 ^ F.ebits) := by
  have hW : 0 < 2 ^ F.ebits := by positivity
  have := decode_fields F (if neg then 1 else 0) (2 ^ F.ebits - 1) 0 (by split <;> omega) (by omega) (by positivity)
  rw [if_pos rfl, if_pos rfl] at this
  unfold encode
  have e : (if neg = true then 2 ^ (F.prec - 1 + F.ebits) else 0) + (2 ^ F.ebits - 1) * 2 ^ (F.prec - 1) =
      (if neg = true then 1 else 0) * (2 ^ (F.prec - 1) * 2 ^ F.ebits) + ((2 ^ F.ebits - 1) * 2 ^ (F.prec - 1) + 0) := by
    rw [pow_add]; cases neg <;> simp
  simp only
  rw [e, this]
  refine ⟨by cases neg <;> simp, pattern_lt (by split <;> omega) (by omega) (by positivity)⟩

theorem decode_encode_nan (F : Format) (hp : 2 ≤ F.prec) : 
    F.decode (F.encode .nan) = .nan ∧ F.encode .nan < 2 * (2 ^ (F.prec - 1) * 2 ^ F.ebits) := by
  have hW : 0 < 2 ^ F.ebits := by positivity
  have hlt : 2 ^ (F.prec - 2) < 2 ^ (F.prec - 1) := Nat.pow_lt_pow_right (by norm_num) (by omega)
  have hne : 2 ^ (F.prec - 2) ≠ 0 := by positivity
  have := decode_fields F 0 (2 ^ F.ebits - 1) (2 ^ (F.prec - 2)) (by omega) (by omega) hlt
  rw [if_pos rfl, if_neg hne] at this
  have hl := pattern_lt (s := 0) (by omega) (show 2 ^ F.ebits - 1 < 2 ^ F.ebits by omega) hlt
  rw [zero_mul, zero_add] at this hl
  exact ⟨this, hl⟩

end Format

end Verif.Ieee
