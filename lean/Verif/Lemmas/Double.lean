import Mathlib.Algebra.Order.Field.Rat
import Mathlib.Algebra.Order.Field.Power
import Mathlib.Tactic.Linarith
import Mathlib.Tactic.Positivity
import Mathlib.Tactic.FieldSimp
import Mathlib.Tactic.Ring
import Mathlib.Tactic.NormNum
import Verif.Model.Double

/-!
# Lemmas about rounding to 53 bits
-/

namespace Verif.Double

theorem pow2_eq (e : Int) : pow2 e = (2 : Rat) ^ e := by
  match e with
  | .ofNat n => simp [pow2]
  | .negSucc n =>
    rw [pow2, zpow_negSucc, Rat.mkRat_eq_div]
    simp

theorem pow2_pos (e : Int) : 0 < pow2 e := by rw [pow2_eq]; positivity

theorem pow2_add (a b : Int) : pow2 (a + b) = pow2 a * pow2 b := by
  simp only [pow2_eq]; exact zpow_add₀ (by norm_num) a b

theorem pow2_one : pow2 1 = 2 := rfl

theorem pow2_succ (e : Int) : pow2 (e + 1) = 2 * pow2 e := by rw [pow2_add, pow2_one, mul_comm]

theorem pow2_mono {a b : Int} (h : a ≤ b) : pow2 a ≤ pow2 b := by
  simp only [pow2_eq]; exact zpow_le_zpow_right₀ (by norm_num) h

theorem pow2_lt {a b : Int} (h : pow2 a < pow2 b) : a < b := by
  by_contra hn
  exact absurd (pow2_mono (not_lt.mp hn)) (not_le.mpr h)

theorem abs_def (x : Rat) : x.abs = |x| := by
  unfold Rat.abs
  split
  · exact (abs_of_nonneg ‹_›).symm
  · exact (abs_of_neg (not_le.mp ‹_›)).symm

/-- Between powers of two. -/
theorem exponent_bounds {x : Rat} (hx : x ≠ 0) : pow2 (exponent x) ≤ |x| ∧ |x| < pow2 (exponent x + 1) := by
  have hn : x.num.natAbs ≠ 0 := by simpa using hx
  have h1 := Nat.log2_self_le hn
  have h2 := @Nat.lt_log2_self x.num.natAbs
  have h3 := Nat.log2_self_le x.den_nz
  have h4 := @Nat.lt_log2_self x.den
  have hd : (0 : Rat) < x.den := by exact_mod_cast x.den_pos
  have hxe : |x| = (x.num.natAbs : Rat) / x.den := by
    conv_lhs => rw [← Rat.num_div_den x]
    rw [abs_div, abs_of_pos hd]
    simp [Nat.cast_natAbs]
  have q1 : pow2 x.num.natAbs.log2 ≤ (x.num.natAbs : Rat) := by
    show (((2 ^ x.num.natAbs.log2 : Nat)) : Rat) ≤ _; exact_mod_cast h1
  have q2 : (x.num.natAbs : Rat) < pow2 (x.num.natAbs.log2 + 1) := by
    show _ < (((2 ^ (x.num.natAbs.log2 + 1) : Nat)) : Rat); exact_mod_cast h2
  have q3 : pow2 x.den.log2 ≤ (x.den : Rat) := by
    show (((2 ^ x.den.log2 : Nat)) : Rat) ≤ _; exact_mod_cast h3
  have q4 : (x.den : Rat) < pow2 (x.den.log2 + 1) := by
    show _ < (((2 ^ (x.den.log2 + 1) : Nat)) : Rat); exact_mod_cast h4
  have up : |x| < pow2 ((x.num.natAbs.log2 : Int) - x.den.log2 + 1) := by
    rw [hxe, div_lt_iff₀ hd]
    calc (x.num.natAbs : Rat) < pow2 (x.num.natAbs.log2 + 1) := q2
      _ = pow2 ((x.num.natAbs.log2 : Int) - x.den.log2 + 1) * pow2 x.den.log2 := by rw [← pow2_add]; congr 1; ring
      _ ≤ _ := mul_le_mul_of_nonneg_left q3 (pow2_pos _).le
  have low : pow2 ((x.num.natAbs.log2 : Int) - x.den.log2 - 1) ≤ |x| := by
    rw [hxe, le_div_iff₀ hd]
    calc pow2 ((x.num.natAbs.log2 : Int) - x.den.log2 - 1) * x.den
        ≤ pow2 ((x.num.natAbs.log2 : Int) - x.den.log2 - 1) * pow2 (x.den.log2 + 1) :=
          mul_le_mul_of_nonneg_left q4.le (pow2_pos _).le
      _ = pow2 x.num.natAbs.log2 := by rw [← pow2_add]; congr 1; ring
      _ ≤ _ := q1
  unfold exponent
  simp only [abs_def]
  split
  · exact ⟨‹_›, up⟩
  · refine ⟨low, ?_⟩
    rw [sub_add_cancel]
    exact not_le.mp ‹_›

theorem half_eq : mkRat 1 2 = (1 / 2 : Rat) := by rw [Rat.mkRat_eq_div]; norm_num

theorem nearest_near (x : Rat) : |(nearest x : Rat) - x| ≤ 1 / 2 := by
  have h1 := Rat.floor_le x
  have h2 := Rat.lt_floor_add_one x
  push_cast at h2
  unfold nearest
  rw [half_eq, abs_le]
  split
  · constructor <;> linarith
  · split
    · push_cast; constructor <;> linarith
    · split
      · constructor <;> linarith
      · push_cast; constructor <;> linarith

theorem nearest_int (k : Int) : nearest (k : Rat) = k := by
  unfold nearest
  rw [Rat.floor_intCast, half_eq, if_pos (by norm_num)]

theorem nearest_floor (x : Rat) : nearest x = x.floor ∨ nearest x = x.floor + 1 := by
  unfold nearest
  split
  · exact .inl rfl
  · split
    · exact .inr rfl
    · split
      · exact .inl rfl
      · exact .inr rfl

theorem nearest_mono {x y : Rat} (h : x ≤ y) : nearest x ≤ nearest y := by
  have hf := Rat.floor_monotone h
  rcases lt_or_eq_of_le hf with hl | he
  · rcases nearest_floor x with hx | hx <;> rcases nearest_floor y with hy | hy <;> omega
  · unfold nearest
    rw [← he]
    have : x - (x.floor : Rat) ≤ y - x.floor := by linarith
    split
    · split
      · exact le_refl _
      · split
        · omega
        · split <;> omega
    · rename_i h1
      split
      · rename_i h3
        rw [if_neg (by linarith), if_pos (by linarith)]
      · rename_i h3
        rw [if_neg (show ¬ y - (x.floor : Rat) < mkRat 1 2 by linarith)]
        split
        · split <;> omega
        · split <;> omega

/-- The rounded value in units of the last place. -/
theorem binary64_eq {x : Rat} (hx : x ≠ 0) :
    binary64 x = (nearest (x / pow2 (exponent x - 52)) : Rat) * pow2 (exponent x - 52) := by
  unfold binary64; rw [if_neg hx]

theorem binary64_zero : binary64 0 = 0 := rfl

/-- Half a unit in the last place. -/
theorem binary64_near {x : Rat} (hx : x ≠ 0) : |binary64 x - x| ≤ pow2 (exponent x - 53) := by
  have hu := pow2_pos (exponent x - 52)
  have h := nearest_near (x / pow2 (exponent x - 52))
  have h2 : pow2 (exponent x - 52) = 2 * pow2 (exponent x - 53) := by rw [← pow2_succ]; congr 1; ring
  rw [binary64_eq hx]
  have : (nearest (x / pow2 (exponent x - 52)) : Rat) * pow2 (exponent x - 52) - x =
      ((nearest (x / pow2 (exponent x - 52)) : Rat) - x / pow2 (exponent x - 52)) * pow2 (exponent x - 52) := by
    field_simp
  rw [this, abs_mul, abs_of_pos hu]
  calc _ ≤ 1 / 2 * pow2 (exponent x - 52) := mul_le_mul_of_nonneg_right h hu.le
    _ = _ := by rw [h2]; ring

/-- The relative error. -/
theorem binary64_rel (x : Rat) : |binary64 x - x| ≤ pow2 (-53) * |x| := by
  by_cases hx : x = 0
  · rw [hx, binary64_zero]; simp
  · refine le_trans (binary64_near hx) ?_
    rw [show exponent x - 53 = -53 + exponent x by ring, pow2_add]
    exact mul_le_mul_of_nonneg_left (exponent_bounds hx).1 (pow2_pos _).le

theorem exponent_le {x : Rat} (hx : x ≠ 0) {e : Int} (h : |x| < pow2 (e + 1)) : exponent x ≤ e := by
  have := pow2_lt (lt_of_le_of_lt (exponent_bounds hx).1 h)
  omega

theorem le_exponent {x : Rat} (hx : x ≠ 0) {e : Int} (h : pow2 e ≤ |x|) : e ≤ exponent x := by
  have := pow2_lt (lt_of_le_of_lt h (exponent_bounds hx).2)
  omega

/-- A multiple of `2^j` with at most 53 bits is a `double`. -/
theorem binary64_exact (k : Int) (j : Int) (hk : |(k : Rat)| ≤ pow2 53) : binary64 (k * pow2 j) = k * pow2 j := by
  have hj := pow2_pos j
  by_cases h0 : (k : Rat) * pow2 j = 0
  · rw [h0]; rfl
  · obtain ⟨i, hi⟩ : ∃ i : Int, (k : Rat) * pow2 j / pow2 (exponent (k * pow2 j) - 52) = i := by
      rcases lt_or_eq_of_le hk with hk | hk
      · have he : exponent ((k : Rat) * pow2 j) ≤ 52 + j := by
          refine exponent_le h0 ?_
          rw [abs_mul, abs_of_pos hj, show (52 + j + 1 : Int) = 53 + j by ring, pow2_add]
          exact mul_lt_mul_of_pos_right hk hj
        obtain ⟨n, hn⟩ := Int.eq_ofNat_of_zero_le (show 0 ≤ j - (exponent ((k : Rat) * pow2 j) - 52) by omega)
        refine ⟨k * 2 ^ n, ?_⟩
        rw [div_eq_iff (pow2_pos _).ne']
        push_cast
        have : (2 : Rat) ^ n = pow2 (j - (exponent ((k : Rat) * pow2 j) - 52)) := by
          rw [hn, pow2_eq]; simp
        rw [this, mul_assoc, ← pow2_add]
        congr 2; ring
      · have h53 : |(k : Rat) * pow2 j| = pow2 (53 + j) := by rw [abs_mul, abs_of_pos hj, hk, pow2_add]
        have he : exponent ((k : Rat) * pow2 j) = 53 + j := by
          have h1 := exponent_le h0 (e := 53 + j) (by rw [h53, pow2_succ]; have := pow2_pos (53 + j); linarith)
          have h2 := le_exponent h0 (e := 53 + j) h53.ge
          omega
        have hk2 : |k| = 2 ^ 53 := by
          have : pow2 53 = ((2 ^ 53 : Int) : Rat) := by rw [pow2_eq]; norm_num
          rw [this, ← Int.cast_abs] at hk
          exact_mod_cast hk
        rw [he]
        refine ⟨k / 2, ?_⟩
        have hd : (2 : Int) ∣ k := by
          rcases abs_eq (by norm_num : (0 : Int) ≤ 2 ^ 53) |>.mp hk2 with h | h <;> rw [h] <;> decide
        rw [div_eq_iff (pow2_pos _).ne']
        rw [Int.cast_div hd (by norm_num)]
        rw [show 53 + j - 52 = j + 1 by ring, pow2_succ]
        push_cast
        ring
    rw [binary64_eq h0, hi, nearest_int, ← hi]
    field_simp [(pow2_pos (exponent ((k : Rat) * pow2 j) - 52)).ne']

/-- Integers up to 2^53. -/
theorem binary64_int (k : Int) (hk : |k| ≤ 2 ^ 53) : binary64 (k : Rat) = k := by
  have := binary64_exact k 0 (by
    rw [show pow2 53 = ((2 ^ 53 : Int) : Rat) by rw [pow2_eq]; norm_num, ← Int.cast_abs]
    exact_mod_cast hk)
  rwa [show pow2 0 = 1 from rfl, mul_one] at this

theorem binary64_pow2 (e : Int) : binary64 (pow2 e) = pow2 e := by
  have := binary64_exact 1 e (by rw [Int.cast_one, abs_one, pow2_eq]; norm_num)
  simpa using this

theorem binary64_neg_pow2 (e : Int) : binary64 (-pow2 e) = -pow2 e := by
  have := binary64_exact (-1) e (by rw [pow2_eq]; norm_num)
  simpa using this

theorem near_same {x y : Rat} (hx : x ≠ 0) (hy : y ≠ 0) (he : exponent x = exponent y) (h : x ≤ y) :
    binary64 x ≤ binary64 y := by
  rw [binary64_eq hx, binary64_eq hy, he]
  refine mul_le_mul_of_nonneg_right ?_ (pow2_pos _).le
  exact_mod_cast nearest_mono (div_le_div_of_nonneg_right h (pow2_pos _).le)

/-- Within a binade the rounded value stays between its ends. -/
theorem binade_pos {x : Rat} (hx : 0 < x) :
    pow2 (exponent x) ≤ binary64 x ∧ binary64 x ≤ pow2 (exponent x + 1) := by
  have hb := exponent_bounds hx.ne'
  rw [abs_of_pos hx] at hb
  have hu := pow2_pos (exponent x - 52)
  have e1 : pow2 (exponent x) = ((2 ^ 52 : Int) : Rat) * pow2 (exponent x - 52) := by
    rw [show ((2 ^ 52 : Int) : Rat) = pow2 52 by rw [pow2_eq]; norm_num, ← pow2_add]; congr 1; ring
  have e2 : pow2 (exponent x + 1) = ((2 ^ 53 : Int) : Rat) * pow2 (exponent x - 52) := by
    rw [show ((2 ^ 53 : Int) : Rat) = pow2 53 by rw [pow2_eq]; norm_num, ← pow2_add]; congr 1; ring
  rw [binary64_eq hx.ne']
  constructor
  · rw [e1]
    refine mul_le_mul_of_nonneg_right ?_ hu.le
    have := nearest_mono (show (((2 ^ 52 : Int)) : Rat) ≤ x / pow2 (exponent x - 52) by
      rw [le_div_iff₀ hu, ← e1]; exact hb.1)
    rw [nearest_int] at this
    exact_mod_cast this
  · rw [e2]
    refine mul_le_mul_of_nonneg_right ?_ hu.le
    have := nearest_mono (show x / pow2 (exponent x - 52) ≤ (((2 ^ 53 : Int)) : Rat) by
      rw [div_le_iff₀ hu, ← e2]; exact hb.2.le)
    rw [nearest_int] at this
    exact_mod_cast this

theorem binade_neg {x : Rat} (hx : x < 0) :
    -pow2 (exponent x + 1) ≤ binary64 x ∧ binary64 x ≤ -pow2 (exponent x) := by
  have hb := exponent_bounds hx.ne
  rw [abs_of_neg hx] at hb
  have hu := pow2_pos (exponent x - 52)
  have e1 : pow2 (exponent x) = ((2 ^ 52 : Int) : Rat) * pow2 (exponent x - 52) := by
    rw [show ((2 ^ 52 : Int) : Rat) = pow2 52 by rw [pow2_eq]; norm_num, ← pow2_add]; congr 1; ring
  have e2 : pow2 (exponent x + 1) = ((2 ^ 53 : Int) : Rat) * pow2 (exponent x - 52) := by
    rw [show ((2 ^ 53 : Int) : Rat) = pow2 53 by rw [pow2_eq]; norm_num, ← pow2_add]; congr 1; ring
  rw [binary64_eq hx.ne]
  constructor
  · rw [e2, ← neg_mul]
    refine mul_le_mul_of_nonneg_right ?_ hu.le
    have := nearest_mono (show ((-(2 ^ 53) : Int) : Rat) ≤ x / pow2 (exponent x - 52) by
      rw [le_div_iff₀ hu]; push_cast at e2 ⊢; linarith [hb.2])
    rw [nearest_int] at this
    exact_mod_cast this
  · rw [e1, ← neg_mul]
    refine mul_le_mul_of_nonneg_right ?_ hu.le
    have := nearest_mono (show x / pow2 (exponent x - 52) ≤ ((-(2 ^ 52) : Int) : Rat) by
      rw [div_le_iff₀ hu]; push_cast at e1 ⊢; linarith [hb.1])
    rw [nearest_int] at this
    exact_mod_cast this

theorem binary64_nonneg {x : Rat} (hx : 0 ≤ x) : 0 ≤ binary64 x := by
  rcases eq_or_lt_of_le hx with h | h
  · rw [← h]; exact le_refl _
  · exact le_trans (pow2_pos _).le (binade_pos h).1

theorem binary64_nonpos {x : Rat} (hx : x ≤ 0) : binary64 x ≤ 0 := by
  rcases eq_or_lt_of_le hx with h | h
  · rw [h]; exact le_refl _
  · have := pow2_pos (exponent x)
    linarith [(binade_neg h).2]

theorem binary64_mono {x y : Rat} (h : x ≤ y) : binary64 x ≤ binary64 y := by
  rcases le_or_gt x 0 with hx | hx
  · rcases le_or_gt 0 y with hy | hy
    · exact le_trans (binary64_nonpos hx) (binary64_nonneg hy)
    · have hx' : x < 0 := lt_of_le_of_lt h hy
      have he : exponent y ≤ exponent x := by
        refine le_exponent hx'.ne ?_
        have := (exponent_bounds hy.ne).1
        rw [abs_of_neg hy] at this
        rw [abs_of_neg hx']
        linarith
      rcases lt_or_eq_of_le he with hl | heq
      · have h1 := (binade_neg hx').2
        have h2 := (binade_neg hy).1
        have h3 := pow2_mono (show exponent y + 1 ≤ exponent x by omega)
        linarith
      · exact near_same hx'.ne hy.ne heq.symm h
  · have hy : 0 < y := lt_of_lt_of_le hx h
    have he : exponent x ≤ exponent y := by
      refine le_exponent hy.ne' ?_
      have := (exponent_bounds hx.ne').1
      rw [abs_of_pos hx] at this
      rw [abs_of_pos hy]
      linarith
    rcases lt_or_eq_of_le he with hl | heq
    · have h1 := (binade_pos hx).2
      have h2 := (binade_pos hy).1
      have h3 := pow2_mono (show exponent x + 1 ≤ exponent y by omega)
      linarith
    · exact near_same hx.ne' hy.ne' heq h

end Verif.Double
