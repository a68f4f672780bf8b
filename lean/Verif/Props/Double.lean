import Verif.Spec.Double
import Verif.Lemmas.Double
import Verif.Props.Scaling

/-!
# Property C104: scaling in the arithmetic of `double`
-/

namespace Verif.Props

open Verif Verif.Spec Verif.Double Verif.ParameterObject

/-! ## The rounding -/

theorem nearest_best (x : Rat) (i : Int) : |(nearest x : Rat) - x| ≤ |(i : Rat) - x| := by
  have h1 := Rat.floor_le x
  have h2 := Rat.lt_floor_add_one x
  push_cast at h2
  have hn := nearest_near x
  rcases le_or_gt i x.floor with h | h
  · have hi : (i : Rat) ≤ x.floor := by exact_mod_cast h
    rw [abs_of_nonpos (by linarith : (i : Rat) - x ≤ 0)]
    unfold nearest
    split
    · rw [abs_of_nonpos (by linarith)]; linarith
    · rename_i h3
      rw [half_eq] at h3
      split
      · rw [abs_of_nonneg (by push_cast; linarith)]; push_cast; linarith
      · rename_i h4
        rw [half_eq] at h4
        split
        · rw [abs_of_nonpos (by linarith)]; linarith
        · rw [abs_of_nonneg (by push_cast; linarith)]; push_cast; linarith
  · have hi : (x.floor : Rat) + 1 ≤ i := by exact_mod_cast h
    rw [abs_of_nonneg (by linarith : 0 ≤ (i : Rat) - x)]
    unfold nearest
    split
    · rename_i h3
      rw [half_eq] at h3
      rw [abs_of_nonpos (by linarith)]; linarith
    · rename_i h3
      rw [half_eq] at h3
      split
      · rw [abs_of_nonneg (by push_cast; linarith)]; push_cast; linarith
      · rename_i h4
        rw [half_eq] at h4
        split
        · rw [abs_of_nonpos (by linarith)]; linarith
        · rw [abs_of_nonneg (by push_cast; linarith)]; push_cast; linarith

/-- A number with 53 bits that is not below a power of two is a multiple of the unit there. -/
theorem double_grid {y : Rat} (hy : IsDouble y) {e : Int} (he : pow2 e ≤ |y|) : ∃ i : Int, y = i * pow2 (e - 52) := by
  obtain ⟨k, j, hk, rfl⟩ := hy
  rw [← pow2_eq] at he ⊢
  rcases le_or_gt (e - 52) j with h | h
  · obtain ⟨n, hn⟩ := Int.eq_ofNat_of_zero_le (show 0 ≤ j - (e - 52) by omega)
    refine ⟨k * 2 ^ n, ?_⟩
    have : (2 : Rat) ^ n = pow2 (j - (e - 52)) := by rw [hn, pow2_eq]; simp
    push_cast
    rw [this, mul_assoc, ← pow2_add]
    congr 2; ring
  · have hj := pow2_pos j
    have hk' : |(k : Rat)| ≤ pow2 53 := by
      rw [show pow2 53 = ((2 ^ 53 : Int) : Rat) by rw [pow2_eq]; norm_num, ← Int.cast_abs]
      exact_mod_cast hk
    have h1 : |(k : Rat) * pow2 j| ≤ pow2 (53 + j) := by
      rw [abs_mul, abs_of_pos hj, pow2_add]
      exact mul_le_mul_of_nonneg_right hk' hj.le
    have h2 : pow2 (53 + j) ≤ pow2 e := pow2_mono (by omega)
    have h3 : |(k : Rat) * pow2 j| = pow2 e := le_antisymm (le_trans h1 h2) he
    have h4 : pow2 e = ((2 ^ 52 : Int) : Rat) * pow2 (e - 52) := by
      rw [show ((2 ^ 52 : Int) : Rat) = pow2 52 by rw [pow2_eq]; norm_num, ← pow2_add]; congr 1; ring
    rcases abs_eq (pow2_pos e).le |>.mp h3 with h5 | h5
    · exact ⟨2 ^ 52, by rw [h5, h4]⟩
    · exact ⟨-(2 ^ 52), by rw [h5, h4]; push_cast; ring⟩

theorem binary64_double (x : Rat) : IsDouble (binary64 x) := by
  by_cases hx : x = 0
  · exact ⟨0, 0, by norm_num, by rw [hx, binary64_zero]; simp⟩
  · refine ⟨nearest (x / pow2 (exponent x - 52)), exponent x - 52, ?_, by rw [binary64_eq hx, pow2_eq]⟩
    have hu := pow2_pos (exponent x - 52)
    have e2 : pow2 (exponent x + 1) = ((2 ^ 53 : Int) : Rat) * pow2 (exponent x - 52) := by
      rw [show ((2 ^ 53 : Int) : Rat) = pow2 53 by rw [pow2_eq]; norm_num, ← pow2_add]; congr 1; ring
    have h : |binary64 x| ≤ pow2 (exponent x + 1) := by
      rcases lt_or_gt_of_ne hx with h | h
      · rw [abs_of_nonpos (binary64_nonpos h.le)]; linarith [(binade_neg h).1]
      · rw [abs_of_nonneg (binary64_nonneg h.le)]; exact (binade_pos h).2
    rw [binary64_eq hx, abs_mul, abs_of_pos hu, e2] at h
    have := le_of_mul_le_mul_right h hu
    rw [← Int.cast_abs] at this
    exact_mod_cast this

theorem binary64_best (x z : Rat) (hz : IsDouble z) : |binary64 x - x| ≤ |z - x| := by
  by_cases hx : x = 0
  · rw [hx, binary64_zero]; simp
  · have hu := pow2_pos (exponent x - 52)
    have hb := (exponent_bounds hx).1
    have key : ∀ i : Int, |binary64 x - x| ≤ |(i : Rat) * pow2 (exponent x - 52) - x| := by
      intro i
      have h1 := nearest_best (x / pow2 (exponent x - 52)) i
      have h2 : ∀ a : Rat, |a * pow2 (exponent x - 52) - x| = |a - x / pow2 (exponent x - 52)| * pow2 (exponent x - 52) := by
        intro a
        have : a * pow2 (exponent x - 52) - x = (a - x / pow2 (exponent x - 52)) * pow2 (exponent x - 52) := by field_simp
        rw [this, abs_mul, abs_of_pos hu]
      rw [binary64_eq hx, h2, h2]
      exact mul_le_mul_of_nonneg_right h1 hu.le
    have h4 : pow2 (exponent x) = ((2 ^ 52 : Int) : Rat) * pow2 (exponent x - 52) := by
      rw [show ((2 ^ 52 : Int) : Rat) = pow2 52 by rw [pow2_eq]; norm_num, ← pow2_add]; congr 1; ring
    rcases le_or_gt (pow2 (exponent x)) |z| with h | h
    · obtain ⟨i, rfl⟩ := double_grid hz h
      exact key i
    · rcases lt_or_gt_of_ne hx with hn | hp
      · refine le_trans (key (-(2 ^ 52))) ?_
        rw [abs_of_neg hn] at hb
        have e : ((-(2 ^ 52) : Int) : Rat) * pow2 (exponent x - 52) = -pow2 (exponent x) := by rw [h4]; push_cast; ring
        have := (abs_lt.mp h).1
        rw [e, abs_of_nonneg (by linarith), abs_of_nonneg (by linarith)]
        linarith
      · refine le_trans (key (2 ^ 52)) ?_
        rw [abs_of_pos hp] at hb
        have := (abs_lt.mp h).2
        rw [← h4, abs_of_nonpos (by linarith), abs_of_nonpos (by linarith)]
        linarith

/-- C104. The rounding of the model is the one of binary64: the result has 53 significant bits and no
such number is nearer. -/
theorem C104_nearest (x : Rat) : IsNearest x (binary64 x) := ⟨binary64_double x, binary64_best x⟩

theorem nearest_tie (x : Rat) (i : Int) (hi : i ≠ nearest x) (h : |(i : Rat) - x| = |(nearest x : Rat) - x|) :
    nearest x % 2 = 0 := by
  have h1 := Rat.floor_le x
  have h2 := Rat.lt_floor_add_one x
  push_cast at h2
  unfold nearest at hi h ⊢
  split at h
  · rename_i h3
    rw [if_pos h3] at hi ⊢
    rw [half_eq] at h3
    exfalso
    rw [abs_of_nonpos (by linarith : (x.floor : Rat) - x ≤ 0)] at h
    have h4 := abs_le.mp h.le
    have a : (i : Rat) < x.floor + 1 := by linarith
    have b : (x.floor : Rat) < i + 1 := by linarith [h4.1]
    have a' : i < x.floor + 1 := by exact_mod_cast a
    have b' : x.floor < i + 1 := by exact_mod_cast b
    omega
  · rename_i h3
    rw [if_neg h3] at hi ⊢
    split at h
    · rename_i h4
      rw [if_pos h4] at hi ⊢
      rw [half_eq] at h4
      exfalso
      push_cast at h
      rw [abs_of_nonneg (by linarith : 0 ≤ (x.floor : Rat) + 1 - x)] at h
      have h5 := abs_le.mp h.le
      have a : (i : Rat) < x.floor + 2 := by linarith
      have b : (x.floor : Rat) < i := by linarith [h5.1]
      have a' : i < x.floor + 2 := by exact_mod_cast a
      have b' : x.floor < i := by exact_mod_cast b
      omega
    · rename_i h4
      rw [if_neg h4] at hi ⊢
      split <;> omega

/-- C104. Of two nearest numbers it takes the one with an even last bit. -/
theorem C104_tie (x y : Rat) (hy : IsNearest x y) (hne : y ≠ binary64 x) : LastBitZero (binary64 x) := by
  have heq : |y - x| = |binary64 x - x| := le_antisymm (hy.2 _ (binary64_double x)) (binary64_best x y hy.1)
  by_cases hx : x = 0
  · exact ⟨0, 0, by norm_num, by rw [hx, binary64_zero]; simp⟩
  have hu := pow2_pos (exponent x - 52)
  have hb := (exponent_bounds hx).1
  have h4 : pow2 (exponent x) = ((2 ^ 52 : Int) : Rat) * pow2 (exponent x - 52) := by
    rw [show ((2 ^ 52 : Int) : Rat) = pow2 52 by rw [pow2_eq]; norm_num, ← pow2_add]; congr 1; ring
  have hbd : ∀ s : Int, |s| ≤ 1 → IsDouble (s * pow2 (exponent x)) := fun s hs =>
    ⟨s, exponent x, le_trans hs (by norm_num), by rw [pow2_eq]⟩
  rcases le_or_gt (pow2 (exponent x)) |y| with h | h
  · obtain ⟨i, rfl⟩ := double_grid hy.1 h
    have h2 : ∀ a : Rat, |a * pow2 (exponent x - 52) - x| = |a - x / pow2 (exponent x - 52)| * pow2 (exponent x - 52) := by
      intro a
      have : a * pow2 (exponent x - 52) - x = (a - x / pow2 (exponent x - 52)) * pow2 (exponent x - 52) := by field_simp
      rw [this, abs_mul, abs_of_pos hu]
    rw [binary64_eq hx] at hne heq
    rw [h2, h2] at heq
    have he := mul_right_cancel₀ hu.ne' heq
    have ht := nearest_tie _ i (fun e => hne (by rw [e])) he
    obtain ⟨k, j, hk, hkj⟩ := binary64_double x
    obtain ⟨c, hc⟩ := Int.dvd_of_emod_eq_zero ht
    refine ⟨c, exponent x - 51, ?_, ?_⟩
    · have hk2 : |binary64 x| ≤ pow2 (exponent x + 1) := by
        rcases lt_or_gt_of_ne hx with h | h
        · rw [abs_of_nonpos (binary64_nonpos h.le)]; linarith [(binade_neg h).1]
        · rw [abs_of_nonneg (binary64_nonneg h.le)]; exact (binade_pos h).2
      have e2 : pow2 (exponent x + 1) = ((2 ^ 53 : Int) : Rat) * pow2 (exponent x - 52) := by
        rw [show ((2 ^ 53 : Int) : Rat) = pow2 53 by rw [pow2_eq]; norm_num, ← pow2_add]; congr 1; ring
      rw [binary64_eq hx, abs_mul, abs_of_pos hu, e2] at hk2
      have hk3 := le_of_mul_le_mul_right hk2 hu
      rw [← Int.cast_abs] at hk3
      have hk4 : |nearest (x / pow2 (exponent x - 52))| ≤ 2 ^ 53 := by exact_mod_cast hk3
      rw [hc, abs_mul] at hk4
      norm_num at hk4
      norm_num
      omega
    · rw [binary64_eq hx, hc, ← pow2_eq, show exponent x - 51 = (exponent x - 52) + 1 by ring, pow2_succ]
      push_cast; ring
  · exfalso
    rcases lt_or_gt_of_ne hx with hn | hp
    · have := hy.2 _ (hbd (-1) (by norm_num))
      rw [abs_of_neg hn] at hb
      have hl := (abs_lt.mp h).1
      push_cast at this
      rw [abs_of_nonneg (by linarith), abs_of_nonneg (by linarith)] at this
      linarith
    · have := hy.2 _ (hbd 1 (by norm_num))
      rw [abs_of_pos hp] at hb
      have hl := (abs_lt.mp h).2
      push_cast at this
      rw [abs_of_nonpos (by linarith), abs_of_nonpos (by linarith)] at this
      linarith

/-- C104. It keeps the order and zero, so everything proved for every rounding holds for it. -/
theorem C104_rounding : Rounding binary64 := ⟨fun _ _ h => binary64_mono h, rfl⟩

/-- C104. One operation is wrong by at most 2^-53 of the result, and not at all for integers up to 2^53. -/
theorem C104_error (x : Rat) (k : Int) (hk : |k| ≤ 2 ^ 53) :
    |binary64 x - x| ≤ (2 : Rat) ^ (-53 : Int) * |x| ∧ binary64 k = k :=
  ⟨by have := binary64_rel x; rwa [pow2_eq] at this, binary64_int k hk⟩

/-! ## Several operations -/

/-- The largest relative error of one operation. -/
def unit : Rat := 1 / 2 ^ 53

theorem unit_eq : pow2 (-53) = unit := by rw [pow2_eq, unit]; norm_num

theorem rel_form (x : Rat) : ∃ d, |d| ≤ unit ∧ binary64 x = x * (1 + d) := by
  by_cases hx : x = 0
  · exact ⟨0, by rw [abs_zero, unit]; positivity, by rw [hx, binary64_zero]; ring⟩
  · refine ⟨(binary64 x - x) / x, ?_, by field_simp; ring⟩
    have := binary64_rel x
    rw [unit_eq] at this
    rw [abs_div, div_le_iff₀ (abs_pos.mpr hx)]
    exact this

/-- A factor within `k` units of one. -/
def Near (k c : Rat) : Prop := |c - 1| ≤ k * unit

theorem Near.one {d : Rat} (h : |d| ≤ unit) : Near 1 (1 + d) := by
  unfold Near; rw [one_mul]; simpa using h

theorem Near.mul {k c d : Rat} (h : Near k c) (hk : 0 ≤ k) (hk2 : k ≤ 100) (hd : |d| ≤ unit) : Near (k + 2) (c * (1 + d)) := by
  unfold Near at *
  have e : c * (1 + d) - 1 = (c - 1) + d + (c - 1) * d := by ring
  rw [e]
  have hu : (0 : Rat) < unit := by unfold unit; positivity
  have hu1 : 100 * unit ≤ 1 := by unfold unit; norm_num
  have h1 := abs_add_le ((c - 1) + d) ((c - 1) * d)
  have h2 := abs_add_le (c - 1) d
  have h3 : |(c - 1) * d| ≤ unit := by
    rw [abs_mul]
    have : |c - 1| ≤ 1 := le_trans h (by nlinarith)
    nlinarith [abs_nonneg d, abs_nonneg (c - 1)]
  nlinarith

theorem Near.div {k c d : Rat} (h : Near k c) (hk : 0 ≤ k) (hk2 : k ≤ 100) (hd : |d| ≤ unit) : Near (k + 2) (c / (1 + d)) := by
  unfold Near at *
  have hu : (0 : Rat) < unit := by unfold unit; positivity
  have hu1 : 1000 * unit ≤ 1 := by unfold unit; norm_num
  have hd' := abs_le.mp hd
  have hp : 0 < 1 + d := by linarith [hd'.1]
  have e : c / (1 + d) - 1 = ((c - 1) - d) / (1 + d) := by field_simp; ring
  rw [e, abs_div, abs_of_pos hp, div_le_iff₀ hp]
  have h1 := abs_sub (c - 1) d
  have h2 : (k + 1) * unit ≤ (k + 2) * unit * (1 - unit) := by
    have h4 : (k + 2) * unit ≤ 1 := by nlinarith
    nlinarith
  have h3 : (k + 2) * unit * (1 - unit) ≤ (k + 2) * unit * (1 + d) := by
    apply mul_le_mul_of_nonneg_left (by linarith [hd'.1]) (by positivity)
  linarith

theorem Near.pos {k c : Rat} (h : Near k c) (hk : k ≤ 100) : 0 < c := by
  unfold Near at h
  have hu : (0 : Rat) < unit := by unfold unit; positivity
  have hu1 : 1000 * unit ≤ 1 := by unfold unit; norm_num
  have := (abs_le.mp h).1
  nlinarith

theorem Near.close {k c s : Rat} (h : Near k c) : |s * c - s| ≤ k * unit * |s| := by
  unfold Near at h
  have e : s * c - s = (c - 1) * s := by ring
  rw [e, abs_mul]
  exact mul_le_mul_of_nonneg_right h (abs_nonneg s)

/-- To engineering units: the exact value times a factor near one. -/
theorem toEng_near (s pw : Rat) (M B D : Rat) (hs : binary64 s = s) (hsM : binary64 (s * M) = s * M)
    (hD : D ≠ 0) (hp : pw ≠ 0) :
    ∃ c, Near 5 c ∧ binary64 (binary64 (binary64 (binary64 s * M) * B) / binary64 (D * pw)) = s * M * B / (D * pw) * c := by
  obtain ⟨d1, h1, e1⟩ := rel_form (s * M * B)
  obtain ⟨d2, h2, e2⟩ := rel_form (D * pw)
  obtain ⟨d3, h3, e3⟩ := rel_form (binary64 (s * M * B) / binary64 (D * pw))
  have n1 := Near.one h1
  have n2 := n1.div (by norm_num) (by norm_num) h2
  have n3 := n2.mul (by norm_num) (by norm_num) h3
  have hp2 := (Near.one h2).pos (by norm_num)
  refine ⟨(1 + d1) / (1 + d2) * (1 + d3), by norm_num at n3; exact n3, ?_⟩
  rw [hs, hsM, e3, e1, e2]
  field_simp

/-- To engineering units and back. -/
theorem back_near (s pw : Rat) (M B D : Rat) (hs : binary64 s = s) (hsM : binary64 (s * M) = s * M)
    (hD : D ≠ 0) (hp : pw ≠ 0) (hM : M ≠ 0) (hB : B ≠ 0) :
    ∃ c, Near 11 c ∧
      binary64 (binary64 (binary64 (binary64 (binary64 (binary64 (binary64 s * M) * B) / binary64 (D * pw)) * D) * pw) / (M * B)) = s * c := by
  obtain ⟨c, hc, e⟩ := toEng_near s pw M B D hs hsM hD hp
  rw [e]
  obtain ⟨d4, h4, e4⟩ := rel_form (s * M * B / (D * pw) * c * D)
  rw [e4]
  obtain ⟨d5, h5, e5⟩ := rel_form (s * M * B / (D * pw) * c * D * (1 + d4) * pw)
  rw [e5]
  obtain ⟨d6, h6, e6⟩ := rel_form (s * M * B / (D * pw) * c * D * (1 + d4) * pw * (1 + d5) / (M * B))
  rw [e6]
  have n := ((hc.mul (by norm_num) (by norm_num) h4).mul (by norm_num) (by norm_num) h5).mul (by norm_num) (by norm_num) h6
  refine ⟨c * (1 + d4) * (1 + d5) * (1 + d6), by norm_num at n; exact n, ?_⟩
  field_simp

/-- The types with at most 32 bits. -/
def Small (T : IntType) : Prop := size T ≤ 4

instance (T : IntType) : Decidable (Small T) := by unfold Small; infer_instance

theorem small_bound {T : IntType} (hT : Small T) {v : Int} (hv : T.has v) : |v| ≤ 2 ^ 32 := by
  obtain ⟨h0, h1⟩ := hv
  rw [abs_le]
  cases T <;> simp [IntType.range, Small, size] at * <;> omega

theorem offset_bound (x : BitVec 16) : |x.toInt| ≤ 2 ^ 15 := by
  have h0 := BitVec.le_toInt x
  have h1 := BitVec.toInt_lt (x := x)
  rw [abs_le]
  constructor <;> omega

/-- What the two conversions have to do with the offset. -/
theorem sum_exact (v : Int) (off : BitVec 16) (M : BitVec 16) (hv : |v| ≤ 2 ^ 32) :
    binary64 (v : Rat) = v ∧ binary64 ((v : Rat) + off.toInt) = ((v + off.toInt : Int) : Rat) ∧
      binary64 (((v + off.toInt : Int) : Rat) * M.toNat) = ((v + off.toInt : Int) : Rat) * M.toNat ∧ |v + off.toInt| ≤ 2 ^ 33 := by
  have ho := offset_bound off
  have hs : |v + off.toInt| ≤ 2 ^ 33 := le_trans (abs_add_le _ _) (by omega)
  have hM : (M.toNat : Int) ≤ 2 ^ 16 := by have := M.isLt; omega
  refine ⟨binary64_int v (by omega), ?_, ?_, hs⟩
  · rw [← Int.cast_add]; exact binary64_int _ (by omega)
  · have e : ((v + off.toInt : Int) : Rat) * M.toNat = (((v + off.toInt) * (M.toNat : Int) : Int) : Rat) := by push_cast; ring
    rw [e]
    refine binary64_int _ ?_
    rw [abs_mul]
    have h0 : |(M.toNat : Int)| ≤ 2 ^ 16 := by rw [abs_of_nonneg (by omega)]; exact hM
    calc |v + off.toInt| * |(M.toNat : Int)| ≤ 2 ^ 33 * 2 ^ 16 := by
          exact mul_le_mul hs h0 (abs_nonneg _) (by norm_num)
      _ ≤ 2 ^ 53 := by norm_num

theorem Near.div2 {k c d : Rat} (h : Near k c) (hk : 0 ≤ k) (hk2 : k ≤ 100) (hd : |d| ≤ 2 * unit) : Near (k + 3) (c * (1 / (1 + d))) := by
  unfold Near at *
  have hu : (0 : Rat) < unit := by unfold unit; positivity
  have hu1 : 1000 * unit ≤ 1 := by unfold unit; norm_num
  have hd' := abs_le.mp hd
  have hp : 0 < 1 + d := by linarith [hd'.1]
  have e : c * (1 / (1 + d)) - 1 = ((c - 1) - d) / (1 + d) := by field_simp; ring
  rw [e, abs_div, abs_of_pos hp, div_le_iff₀ hp]
  have h1 := abs_sub (c - 1) d
  have h2 : (k + 2) * unit ≤ (k + 3) * unit * (1 - 2 * unit) := by
    have h4 : (k + 3) * (2 * unit) ≤ 1 := by nlinarith
    nlinarith
  have h3 : (k + 3) * unit * (1 - 2 * unit) ≤ (k + 3) * unit * (1 + d) := by
    apply mul_le_mul_of_nonneg_left (by linarith [hd'.1]) (by positivity)
  linarith

/-- C104. The engineering value of a parameter of at most 32 bits is the one of the documented
formula, up to one part in 2^50, if `std::pow` is right to the last bit. -/
theorem C104_accuracy (m : Mem) (T : IntType) (hT : Small T) (o : ParameterObject) (bs : List Byte) (v : Int)
    (pow : Nat → Rat) (hp : |pow o.precision.toNat - 10 ^ o.precision.toNat| ≤ 10 ^ o.precision.toNat / 2 ^ 52)
    (hbs : encodeValue m T bs = .ok v) (hv : T.has v) (hs : o.isScalable = true) (hd : o.scalingDivisor ≠ 0) :
    ∃ e, engOf m binary64 pow T o bs = .ok e ∧
      |e - ((v : Rat) + o.scalingOffset.toInt) * o.scalingMultiplier.toNat * o.scalingBase.toNat
          / (o.scalingDivisor.toNat * 10 ^ o.precision.toNat)| ≤
        (1 / 2 ^ 50) * |((v : Rat) + o.scalingOffset.toInt) * o.scalingMultiplier.toNat * o.scalingBase.toNat
          / (o.scalingDivisor.toNat * 10 ^ o.precision.toNat)| := by
  obtain ⟨b1, b2, b3, _⟩ := sum_exact v o.scalingOffset o.scalingMultiplier (small_bound hT hv)
  have hdn : (o.scalingDivisor.toNat : Rat) ≠ 0 := cast_ne (fun e => hd (BitVec.eq_of_toNat_eq (by simpa using e)))
  have ht : (0 : Rat) < 10 ^ o.precision.toNat := by positivity
  generalize (10 : Rat) ^ o.precision.toNat = t at ht hp ⊢
  obtain ⟨d, hd2, hpw⟩ : ∃ d, |d| ≤ 2 * unit ∧ pow o.precision.toNat = t * (1 + d) := by
    refine ⟨(pow o.precision.toNat - t) / t, ?_, by field_simp; ring⟩
    rw [abs_div, abs_of_pos ht, div_le_iff₀ ht]
    refine le_trans hp (le_of_eq ?_)
    unfold unit; ring
  have hd3 : 0 < 1 + d := by
    have := (abs_le.mp hd2).1
    have hu1 : 1000 * unit ≤ 1 := by unfold unit; norm_num
    have hu : (0 : Rat) < unit := by unfold unit; positivity
    linarith
  refine ⟨actualToEng binary64 pow o (binary64 v), by unfold engOf; rw [hbs], ?_⟩
  obtain ⟨c, hc, e⟩ := toEng_near ((v + o.scalingOffset.toInt : Int) : Rat) (pow o.precision.toNat) o.scalingMultiplier.toNat
    o.scalingBase.toNat o.scalingDivisor.toNat (by rw [← Int.cast_add] at b2; exact b2) b3 hdn (by rw [hpw]; positivity)
  unfold actualToEng
  rw [if_pos hs, b1, b2]
  rw [← Int.cast_add] at b2 ⊢
  rw [b2] at e
  rw [e, hpw]
  have hc2 := (hc.div2 (by norm_num) (by norm_num) hd2).close (s := ((v + o.scalingOffset.toInt : Int) : Rat) * o.scalingMultiplier.toNat * o.scalingBase.toNat
      / (o.scalingDivisor.toNat * t))
  have e2 : ((v + o.scalingOffset.toInt : Int) : Rat) * o.scalingMultiplier.toNat * o.scalingBase.toNat
      / (o.scalingDivisor.toNat * t) * (c * (1 / (1 + d))) = ((v + o.scalingOffset.toInt : Int) : Rat) * o.scalingMultiplier.toNat * o.scalingBase.toNat
      / (o.scalingDivisor.toNat * (t * (1 + d))) * c := by field_simp
  rw [e2] at hc2
  refine le_trans hc2 (mul_le_mul_of_nonneg_right ?_ (abs_nonneg _))
  unfold unit; norm_num

/-- What comes back before the conversion to an integer: less than a quarter away. -/
theorem back_close (o : ParameterObject) (pow : Nat → Rat) (hp : 0 < pow o.precision.toNat) (v : Int) (hv : |v| ≤ 2 ^ 32)
    (hm : o.scalingMultiplier ≠ 0) (hb : o.scalingBase ≠ 0) (hd : o.scalingDivisor ≠ 0)
    (hov : o.scalingMultiplier.toNat * o.scalingBase.toNat < 2 ^ 31) :
    ∃ q, engToActual binary64 pow o (actualToEng binary64 pow o (binary64 v)) = .ok q ∧ |q - v| ≤ 1 / 4 := by
  obtain ⟨b1, b2, b3, b4⟩ := sum_exact v o.scalingOffset o.scalingMultiplier hv
  unfold engToActual actualToEng
  by_cases hs : o.isScalable = true
  · rw [if_pos hs, if_pos hs, if_pos hov]
    have ne : ∀ {x : BitVec 16}, x ≠ 0 → (x.toNat : Rat) ≠ 0 := fun h => cast_ne (fun e => h (BitVec.eq_of_toNat_eq (by simpa using e)))
    obtain ⟨c, hc, e⟩ := back_near ((v + o.scalingOffset.toInt : Int) : Rat) (pow o.precision.toNat) o.scalingMultiplier.toNat
      o.scalingBase.toNat o.scalingDivisor.toNat (by rw [← Int.cast_add] at b2; exact b2) b3 (ne hd) hp.ne' (ne hm) (ne hb)
    refine ⟨_, rfl, ?_⟩
    rw [b1, b2]
    rw [← Int.cast_add] at b2
    rw [b2] at e
    rw [Nat.cast_mul, e]
    have hcl := hc.close (s := ((v + o.scalingOffset.toInt : Int) : Rat))
    have hs33 : |((v + o.scalingOffset.toInt : Int) : Rat)| ≤ 2 ^ 33 := by rw [← Int.cast_abs]; exact_mod_cast b4
    have hv32 : |(v : Rat)| ≤ 2 ^ 32 := by rw [← Int.cast_abs]; exact_mod_cast hv
    have h8 : |((v + o.scalingOffset.toInt : Int) : Rat) * c - ((v + o.scalingOffset.toInt : Int) : Rat)| ≤ 1 / 8 := by
      refine le_trans hcl (le_trans (mul_le_mul_of_nonneg_left hs33 (by unfold unit; positivity)) ?_)
      unfold unit; norm_num
    have h9 : |(((v + o.scalingOffset.toInt : Int) : Rat) * c - o.scalingOffset.toInt) - v| ≤ 1 / 8 := by
      have e : (((v + o.scalingOffset.toInt : Int) : Rat) * c - o.scalingOffset.toInt) - v =
        ((v + o.scalingOffset.toInt : Int) : Rat) * c - ((v + o.scalingOffset.toInt : Int) : Rat) := by push_cast; ring
      rw [e]; exact h8
    generalize (((v + o.scalingOffset.toInt : Int) : Rat) * c - o.scalingOffset.toInt) = a at h9 ⊢
    have h10 := binary64_rel a
    rw [unit_eq] at h10
    have h11 : |a| ≤ 2 ^ 33 := by
      have := abs_add_le (a - v) v
      rw [sub_add_cancel] at this
      linarith
    have h12 : |binary64 a - a| ≤ 1 / 8 := by
      refine le_trans h10 (le_trans (mul_le_mul_of_nonneg_left h11 (by unfold unit; positivity)) ?_)
      unfold unit; norm_num
    have := abs_add_le (binary64 a - a) (a - v)
    rw [sub_add_sub_cancel] at this
    linarith
  · rw [if_neg hs, if_neg hs]
    exact ⟨_, rfl, by rw [b1, sub_self, abs_zero]; norm_num⟩

/-- C104. A limit of at most 32 bits, set to the engineering value of `v` and read back, is `v`
or the next integer toward zero; nothing else of the object is written and nothing is undefined. -/
theorem C104_limit (m : Mem) (T : IntType) (hT : Small T) (l : Limit) (o : ParameterObject) (v : Int) (hv : T.has v)
    (pow : Nat → Rat) (hp : 0 < pow o.precision.toNat) (hm : o.scalingMultiplier ≠ 0) (hb : o.scalingBase ≠ 0)
    (hd : o.scalingDivisor ≠ 0) (hov : o.scalingMultiplier.toNat * o.scalingBase.toNat < 2 ^ 31) :
    ∃ bs w, setEng binary64 pow T l o (actualToEng binary64 pow o (binary64 v)) = .ok (withLimit l o bs) ∧
      encodeValue m T bs = .ok w ∧ (w = v ∨ 0 < v ∧ w = v - 1 ∨ v < 0 ∧ w = v + 1) := by
  obtain ⟨q, hq, hc⟩ := back_close o pow hp v (small_bound hT hv) hm hb hd hov
  have hc' := abs_le.mp hc
  have key := (C73_set binary64 pow m T l o (actualToEng binary64 pow o (binary64 v))).1 q
  have has : ∀ w, w = v ∨ 0 < v ∧ w = v - 1 ∨ v < 0 ∧ w = v + 1 → T.has w := by
    intro w hw
    obtain ⟨h0, h1⟩ := hv
    have hr : T.range.1 ≤ 0 ∧ 0 ≤ T.range.2 := by cases T <;> simp [IntType.range]
    exact ⟨by omega, by omega⟩
  have fin : ∀ w, (w = v ∨ 0 < v ∧ w = v - 1 ∨ v < 0 ∧ w = v + 1) → (0 ≤ q → (w : Rat) ≤ q ∧ q < w + 1) →
      (q < 0 → (w : Rat) - 1 < q ∧ q ≤ w) →
      ∃ bs w, setEng binary64 pow T l o (actualToEng binary64 pow o (binary64 v)) = .ok (withLimit l o bs) ∧
        encodeValue m T bs = .ok w ∧ (w = v ∨ 0 < v ∧ w = v - 1 ∨ v < 0 ∧ w = v + 1) := by
    intro w hw h0 h1
    obtain ⟨bs, e1, e2⟩ := (key w hq h0 h1).1 (has w hw)
    exact ⟨bs, w, e1, e2, hw⟩
  rcases lt_trichotomy v 0 with h | h | h
  · have h' : (v : Rat) ≤ -1 := by exact_mod_cast (by omega : v ≤ -1)
    rcases le_or_gt q v with hle | hgt
    · exact fin v (Or.inl rfl) (fun _ => by exfalso; linarith) (fun _ => ⟨by linarith, hle⟩)
    · exact fin (v + 1) (Or.inr (Or.inr ⟨h, rfl⟩)) (fun _ => by exfalso; linarith) (fun _ => ⟨by push_cast; linarith, by push_cast; linarith⟩)
  · subst h
    push_cast at hc'
    exact fin 0 (Or.inl rfl) (fun _ => ⟨by push_cast; linarith, by push_cast; linarith⟩) (fun _ => ⟨by push_cast; linarith, by push_cast; linarith⟩)
  · have h' : (1 : Rat) ≤ v := by exact_mod_cast (by omega : 1 ≤ v)
    rcases le_or_gt (v : Rat) q with hle | hgt
    · exact fin v (Or.inl rfl) (fun _ => ⟨hle, by linarith⟩) (fun _ => by exfalso; linarith)
    · exact fin (v - 1) (Or.inr (Or.inl ⟨h, rfl⟩)) (fun _ => ⟨by push_cast; linarith, by push_cast; linarith⟩) (fun _ => by exfalso; linarith)

/-- A third of a unit, with one decimal. -/
def thirds : ParameterObject :=
  { scaled with scalingMultiplier := 1, scalingBase := 1, scalingDivisor := 3, scalingOffset := 0, precision := 1 }

/-- C104. It happens: with multiplier 1, divisor 3 and one decimal the limit set to the engineering
value of 11 is 10. -/
theorem C104_off_by_one_violated :
    ∃ bs, setEng binary64 exactPow .u16 .max thirds (actualToEng binary64 exactPow thirds (binary64 11)) = .ok (withLimit .max thirds bs) ∧
      encodeValue Mem.strict .u16 bs = .ok 10 := by
  refine ⟨[10, 0], ?_, by decide +kernel⟩
  decide +kernel

/-- C104. With 64 bits the largest value of an object without scaling cannot even be set to its own
engineering value: the conversion is undefined. -/
theorem C104_wide_violated (l : Limit) (o : ParameterObject) (h : o.isScalable = false) (pow : Nat → Rat) :
    setEng binary64 pow .i64 l o (actualToEng binary64 pow o (binary64 (2 ^ 63 - 1 : Int))) = .ub := by
  have e : binary64 ((2 ^ 63 - 1 : Int) : Rat) = ((2 ^ 63 : Int) : Rat) := by decide +kernel
  have he : engToActual binary64 pow o (actualToEng binary64 pow o (binary64 (2 ^ 63 - 1 : Int))) = .ok (2 ^ 63 : Int) := by
    unfold engToActual actualToEng
    rw [if_neg (by simp [h]), if_neg (by simp [h]), e]
  refine ((C73_set binary64 pow Mem.strict .i64 l o _).1 _ (2 ^ 63) he (fun _ => ⟨le_refl _, by linarith⟩) (fun h => ?_)).2 (by decide)
  exact ⟨by linarith, le_refl _⟩

/-- C104. If the engineering value is a whole number and the products fit into 53 bits, nothing is
rounded: the value is the one of the formula, and a limit set to it reads back as it was. -/
theorem C104_exact (m : Mem) (T : IntType) (hT : Small T) (l : Limit) (o : ParameterObject) (v k : Int) (hv : T.has v)
    (hs : o.isScalable = true) (hm : o.scalingMultiplier ≠ 0) (hb : o.scalingBase ≠ 0)
    (hd : o.scalingDivisor ≠ 0) (hov : o.scalingMultiplier.toNat * o.scalingBase.toNat < 2 ^ 31)
    (hk : (v + o.scalingOffset.toInt) * o.scalingMultiplier.toNat * o.scalingBase.toNat = k * (o.scalingDivisor.toNat * 10 ^ o.precision.toNat))
    (h1 : |(v + o.scalingOffset.toInt) * o.scalingMultiplier.toNat * o.scalingBase.toNat| ≤ 2 ^ 53)
    (h2 : o.scalingDivisor.toNat * 10 ^ o.precision.toNat ≤ 2 ^ 53) :
    actualToEng binary64 exactPow o (binary64 v) = k ∧
    ∃ bs, setEng binary64 exactPow T l o k = .ok (withLimit l o bs) ∧ encodeValue m T bs = .ok v := by
  obtain ⟨b1, b2, b3, _⟩ := sum_exact v o.scalingOffset o.scalingMultiplier (small_bound hT hv)
  have nz : ∀ {x : BitVec 16}, x ≠ 0 → x.toNat ≠ 0 := fun h e => h (BitVec.eq_of_toNat_eq (by simpa using e))
  have hm0 := nz hm
  have hb0 := nz hb
  have hd0 := nz hd
  generalize hM : o.scalingMultiplier.toNat = M at *
  generalize hB : o.scalingBase.toNat = B at *
  generalize hD : o.scalingDivisor.toNat = D at *
  generalize hO : o.scalingOffset.toInt = off at *
  have hP : exactPow o.precision.toNat = ((10 ^ o.precision.toNat : Nat) : Rat) := by simp [exactPow]
  have hp0 : 10 ^ o.precision.toNat ≠ 0 := by positivity
  have hP' : ((10 : Int) ^ o.precision.toNat) = ((10 ^ o.precision.toNat : Nat) : Int) := by push_cast; rfl
  rw [hP'] at hk
  generalize hPw : 10 ^ o.precision.toNat = P at *
  have hDP : (1 : Int) ≤ (D : Int) * P := by have := Nat.mul_pos (Nat.pos_of_ne_zero hd0) (Nat.pos_of_ne_zero hp0); exact_mod_cast this
  have hkb : |k| ≤ 2 ^ 53 := by
    refine le_trans ?_ h1
    rw [hk, abs_mul, abs_of_pos (by omega : (0 : Int) < (D : Int) * P)]
    nlinarith [abs_nonneg k]
  have hkD : |k * D| ≤ 2 ^ 53 := by
    refine le_trans ?_ h1
    rw [hk, ← mul_assoc, abs_mul (k * D)]
    have : (1 : Int) ≤ |(P : Int)| := by rw [abs_of_nonneg (by omega)]; omega
    nlinarith [abs_nonneg (k * D)]
  have hq : ((v + off : Int) : Rat) * M * B = (k : Rat) * (D * P) := by exact_mod_cast hk
  have hMq : (M : Rat) ≠ 0 := by exact_mod_cast hm0
  have hBq : (B : Rat) ≠ 0 := by exact_mod_cast hb0
  have hDq : (D : Rat) ≠ 0 := by exact_mod_cast hd0
  have hPq : (P : Rat) ≠ 0 := by exact_mod_cast hp0
  have r1 : binary64 (((v + off : Int) : Rat) * M * B) = (k : Rat) * (D * P) := by
    rw [← hq]
    have := binary64_int _ h1
    push_cast at this ⊢
    exact this
  have r2 : binary64 ((D : Rat) * P) = D * P := by
    have := binary64_int ((D : Int) * P) (by rw [abs_of_pos (by omega)]; exact_mod_cast h2)
    push_cast at this
    exact this
  have r3 : binary64 ((k : Rat) * D) = k * D := by
    have := binary64_int _ hkD
    push_cast at this
    exact this
  have r4 : binary64 ((k : Rat) * D * P) = k * (D * P) := by
    rw [mul_assoc, ← hq]
    have := binary64_int _ h1
    push_cast at this ⊢
    exact this
  have r5 : (k : Rat) * (D * P) / ((M : Rat) * B) = ((v + off : Int) : Rat) := by rw [← hq]; field_simp
  have b2' : binary64 ((v + off : Int) : Rat) = ((v + off : Int) : Rat) := by rw [← Int.cast_add] at b2; exact b2
  have e1 : actualToEng binary64 exactPow o (binary64 v) = k := by
    unfold actualToEng
    rw [if_pos hs, hM, hB, hD, hO, hP, b1, b2, b3, r1, r2]
    rw [show (k : Rat) * (D * P) / (D * P) = k by field_simp]
    exact binary64_int k hkb
  have e2 : engToActual binary64 exactPow o k = .ok v := by
    unfold engToActual
    rw [if_pos hs, hM, hB, hD, hO, hP, if_pos hov, r3, r4, Nat.cast_mul, r5, b2']
    rw [show ((v + off : Int) : Rat) - off = v by push_cast; ring, b1]
  refine ⟨e1, ?_⟩
  exact ((C73_set binary64 exactPow m T l o k).1 v v e2 (fun _ => ⟨le_refl _, by linarith⟩) (fun _ => ⟨by linarith, le_refl _⟩)).1 hv

/-! ## The range of the exponents -/

/-- Zero or of a magnitude between two powers of two. -/
def Mag (a b : Int) (x : Rat) : Prop := x = 0 ∨ pow2 a ≤ |x| ∧ |x| ≤ pow2 b

theorem Mag.inRange {a b : Int} {x : Rat} (h : Mag a b x) (ha : -1022 ≤ a) (hb : b ≤ 1022) : InRange x := by
  rcases h with h | ⟨h1, h2⟩
  · exact Or.inl h
  · refine Or.inr ⟨?_, ?_⟩
    · rw [← pow2_eq]; exact le_trans (pow2_mono ha) h1
    · rw [← pow2_eq]
      refine lt_of_le_of_lt (le_trans h2 (pow2_mono hb)) ?_
      rw [show (1023 : Int) = 1022 + 1 by norm_num, pow2_succ]
      linarith [pow2_pos 1022]

theorem Mag.int (k : Int) (b : Nat) (h : |k| ≤ 2 ^ b) : Mag 0 b (k : Rat) := by
  by_cases hk : k = 0
  · exact Or.inl (by rw [hk]; rfl)
  · refine Or.inr ⟨?_, ?_⟩
    · rw [← Int.cast_abs, show pow2 0 = ((1 : Int) : Rat) by rw [pow2_eq]; norm_num]
      exact_mod_cast Int.one_le_abs hk
    · rw [← Int.cast_abs, show pow2 b = ((2 ^ b : Int) : Rat) by rw [pow2_eq]; push_cast; exact zpow_natCast 2 b]
      exact_mod_cast h

theorem Mag.rounded {a b : Int} {x : Rat} (h : Mag a b x) : Mag (a - 1) (b + 1) (binary64 x) := by
  rcases h with h | ⟨h1, h2⟩
  · exact Or.inl (by rw [h, binary64_zero])
  · have hr := binary64_rel x
    rw [unit_eq] at hr
    have hu : unit * |x| ≤ |x| / 2 := by
      have : unit ≤ 1 / 2 := by unfold unit; norm_num
      nlinarith [abs_nonneg x]
    have h3 := abs_add_le (binary64 x - x) x
    rw [sub_add_cancel] at h3
    have h4 := abs_sub_abs_le_abs_sub x (binary64 x)
    rw [abs_sub_comm x] at h4
    have e : pow2 a = 2 * pow2 (a - 1) := by rw [← pow2_succ]; congr 1; ring
    exact Or.inr ⟨by linarith, by rw [pow2_succ]; linarith⟩

theorem Mag.times {a b c d : Int} {x y : Rat} (h : Mag a b x) (h' : Mag c d y) : Mag (a + c) (b + d) (x * y) := by
  rcases h with h | ⟨h1, h2⟩
  · exact Or.inl (by rw [h, zero_mul])
  · rcases h' with h' | ⟨h1', h2'⟩
    · exact Or.inl (by rw [h', mul_zero])
    · refine Or.inr ?_
      rw [abs_mul, pow2_add, pow2_add]
      exact ⟨mul_le_mul h1 h1' (pow2_pos _).le (abs_nonneg _), mul_le_mul h2 h2' (abs_nonneg _) (pow2_pos _).le⟩

theorem Mag.over {a b c d : Int} {x y : Rat} (h : Mag a b x) (h' : Mag c d y) : Mag (a - d) (b - c) (x / y) := by
  rcases h' with h' | ⟨h1', h2'⟩
  · exact Or.inl (by rw [h', div_zero])
  · have hy : 0 < |y| := lt_of_lt_of_le (pow2_pos _) h1'
    rcases h with h | ⟨h1, h2⟩
    · exact Or.inl (by rw [h, zero_div])
    · refine Or.inr ?_
      rw [abs_div]
      constructor
      · rw [le_div_iff₀ hy]
        refine le_trans (mul_le_mul_of_nonneg_left h2' (pow2_pos _).le) ?_
        rw [← pow2_add, sub_add_cancel]; exact h1
      · rw [div_le_iff₀ hy]
        refine le_trans ?_ (mul_le_mul_of_nonneg_left h1' (pow2_pos _).le)
        rw [← pow2_add, sub_add_cancel]; exact h2

theorem Mag.nat16 (x : BitVec 16) : Mag 0 16 (x.toNat : Rat) := by
  have := Mag.int (x.toNat : Int) 16 (by rw [abs_of_nonneg (by omega)]; have := x.isLt; omega)
  exact_mod_cast this

/-- C104. None of the operations overflows or gets near zero: an arithmetic that rounds as `binary64`
in the normal range of `double`, whatever it does elsewhere, gives the same results. -/
theorem C104_range (rnd : Rat → Rat) (hr : ∀ x, InRange x → rnd x = binary64 x) (T : IntType) (hT : Small T)
    (o : ParameterObject) (v : Int) (hv : T.has v) (pow : Nat → Rat)
    (hp1 : 1 ≤ pow o.precision.toNat) (hp2 : pow o.precision.toNat ≤ 2 ^ 850)
    (hm : o.scalingMultiplier ≠ 0) (hb : o.scalingBase ≠ 0) (hd : o.scalingDivisor ≠ 0) :
    actualToEng rnd pow o (rnd v) = actualToEng binary64 pow o (binary64 v) ∧
    engToActual rnd pow o (actualToEng binary64 pow o (binary64 v)) =
      engToActual binary64 pow o (actualToEng binary64 pow o (binary64 v)) := by
  have hv32 := small_bound hT hv
  obtain ⟨b1, b2, b3, b4⟩ := sum_exact v o.scalingOffset o.scalingMultiplier hv32
  have hrv : rnd v = v := by rw [hr _ ((Mag.int v 32 hv32).inRange (by norm_num) (by norm_num)), b1]
  rw [hrv, b1]
  have ne : ∀ {x : BitVec 16}, x ≠ 0 → (x.toNat : Rat) ≠ 0 := fun h => cast_ne (fun e => h (BitVec.eq_of_toNat_eq (by simpa using e)))
  have hpm : Mag 0 850 (pow o.precision.toNat) := by
    refine Or.inr ⟨?_, ?_⟩ <;> rw [abs_of_pos (by linarith), pow2_eq]
    · simpa using hp1
    · exact le_of_le_of_eq hp2 (zpow_natCast (2 : Rat) 850).symm
  have mS : Mag 0 33 ((v + o.scalingOffset.toInt : Int) : Rat) := Mag.int _ 33 b4
  have r1 : rnd ((v : Rat) + o.scalingOffset.toInt) = ((v + o.scalingOffset.toInt : Int) : Rat) := by
    rw [← b2]; exact hr _ (by rw [← Int.cast_add]; exact mS.inRange (by norm_num) (by norm_num))
  have mM := mS.times (Mag.nat16 o.scalingMultiplier)
  have r2 : rnd (((v + o.scalingOffset.toInt : Int) : Rat) * o.scalingMultiplier.toNat) = ((v + o.scalingOffset.toInt : Int) : Rat) * o.scalingMultiplier.toNat := by
    rw [hr _ (mM.inRange (by norm_num) (by norm_num)), b3]
  have mB := mM.times (Mag.nat16 o.scalingBase)
  have mD := (Mag.nat16 o.scalingDivisor).times hpm
  have mE := mB.rounded.over mD.rounded
  have eng : (if o.isScalable = true then rnd (rnd (rnd (rnd ((v : Rat) + o.scalingOffset.toInt) * o.scalingMultiplier.toNat) * o.scalingBase.toNat)
      / rnd (o.scalingDivisor.toNat * pow o.precision.toNat)) else (v : Rat)) = actualToEng binary64 pow o v := by
    unfold actualToEng
    split
    · rw [r1, r2, b2, b3, hr _ (mB.inRange (by norm_num) (by norm_num)), hr _ (mD.inRange (by norm_num) (by norm_num)),
        hr _ (mE.inRange (by norm_num) (by norm_num))]
    · rfl
  refine ⟨eng, ?_⟩
  unfold engToActual actualToEng
  by_cases hs : o.isScalable = true
  · rw [if_pos hs, if_pos hs, if_pos hs]
    by_cases hov : o.scalingMultiplier.toNat * o.scalingBase.toNat < 2 ^ 31
    · rw [if_pos hov, if_pos hov]
      have b2' : binary64 ((v + o.scalingOffset.toInt : Int) : Rat) = ((v + o.scalingOffset.toInt : Int) : Rat) := by
        rw [← Int.cast_add] at b2; exact b2
      obtain ⟨c, hc, e⟩ := back_near ((v + o.scalingOffset.toInt : Int) : Rat) (pow o.precision.toNat) o.scalingMultiplier.toNat
        o.scalingBase.toNat o.scalingDivisor.toNat b2' b3 (ne hd) (by linarith) (ne hm) (ne hb)
      rw [b2, b3]
      rw [b2', b3] at e
      have m1 := mE.rounded.times (Mag.nat16 o.scalingDivisor)
      have m2 := m1.rounded.times hpm
      have hMB : Mag 0 31 (((o.scalingMultiplier.toNat * o.scalingBase.toNat : Nat) : Rat)) := by
        have := Mag.int ((o.scalingMultiplier.toNat * o.scalingBase.toNat : Nat) : Int) 31 (by rw [abs_of_nonneg (by omega)]; omega)
        exact_mod_cast this
      have m3 := m2.rounded.over hMB
      rw [hr _ (m1.inRange (by norm_num) (by norm_num)), hr _ (m2.inRange (by norm_num) (by norm_num)),
        hr _ (m3.inRange (by norm_num) (by norm_num))]
      refine congrArg Outcome.ok (hr _ ?_)
      rw [Nat.cast_mul, e]
      -- the last operation is a subtraction of numbers that may be close to each other
      by_cases h0 : v + o.scalingOffset.toInt = 0
      · rw [h0, Int.cast_zero, zero_mul, zero_sub, ← Int.cast_neg]
        exact (Mag.int _ 15 (by rw [abs_neg]; exact offset_bound _)).inRange (by norm_num) (by norm_num)
      · have h1 : (1 : Rat) ≤ |((v + o.scalingOffset.toInt : Int) : Rat)| := by
          rw [← Int.cast_abs]; exact_mod_cast Int.one_le_abs h0
        have h33 : |((v + o.scalingOffset.toInt : Int) : Rat)| ≤ 2 ^ 33 := by rw [← Int.cast_abs]; exact_mod_cast b4
        have hcl := hc.close (s := ((v + o.scalingOffset.toInt : Int) : Rat))
        have hdb := binary64_double (binary64 (binary64 (binary64 (binary64 (((v + o.scalingOffset.toInt : Int) : Rat) * o.scalingMultiplier.toNat * o.scalingBase.toNat)
          / binary64 (o.scalingDivisor.toNat * pow o.precision.toNat)) * o.scalingDivisor.toNat) * pow o.precision.toNat) / (o.scalingMultiplier.toNat * o.scalingBase.toNat))
        rw [e] at hdb
        generalize ((v + o.scalingOffset.toInt : Int) : Rat) = s at h1 h33 hcl hdb
        have hu : 11 * unit ≤ 1 / 4 := by unfold unit; norm_num
        have hcl2 : |s * c - s| ≤ |s| / 4 := by nlinarith [abs_nonneg s]
        generalize s * c = a at hcl2 hdb
        have l1 := abs_sub_abs_le_abs_sub s a
        rw [abs_sub_comm s] at l1
        have l2 := abs_sub_abs_le_abs_sub a s
        obtain ⟨i, hi⟩ := double_grid hdb (e := -1) (by rw [show pow2 (-1) = 1 / 2 by rw [pow2_eq]; norm_num]; linarith)
        have ha : |a| ≤ 2 ^ 34 := by linarith
        have ho : |(o.scalingOffset.toInt : Rat)| ≤ 2 ^ 15 := by rw [← Int.cast_abs]; exact_mod_cast offset_bound o.scalingOffset
        have hdiff : a - o.scalingOffset.toInt = ((i - o.scalingOffset.toInt * 2 ^ 53 : Int) : Rat) * pow2 (-53) := by
          rw [hi]; push_cast
          have e53' : (9007199254740992 : Rat) * pow2 (-53) = 1 := by rw [pow2_eq]; norm_num
          rw [sub_mul, mul_assoc (o.scalingOffset.toInt : Rat)]
          norm_num
          rw [e53', mul_one]
        have hub := abs_sub a (o.scalingOffset.toInt : Rat)
        have hM : Mag (-53) 35 (a - o.scalingOffset.toInt) := by
          by_cases hz : i - o.scalingOffset.toInt * 2 ^ 53 = 0
          · exact Or.inl (by rw [hdiff, hz, Int.cast_zero, zero_mul])
          · refine Or.inr ⟨?_, ?_⟩
            · rw [hdiff, abs_mul, abs_of_pos (pow2_pos _), ← Int.cast_abs]
              have : (1 : Rat) ≤ ((|i - o.scalingOffset.toInt * 2 ^ 53| : Int) : Rat) := by exact_mod_cast Int.one_le_abs hz
              nlinarith [pow2_pos (-53)]
            · rw [show pow2 35 = 2 ^ 35 by rw [pow2_eq]; norm_num]
              linarith
        exact hM.inRange (by norm_num) (by norm_num)
    · rw [if_neg hov, if_neg hov]
  · simp [hs]

/-! ## The hypotheses are met -/

example : IsNearest (1 / 10) (binary64 (1 / 10)) := C104_nearest _

/-- 2^53 + 1 lies between two neighbours. -/
example : LastBitZero (binary64 ((2 ^ 53 + 1 : Int) : Rat)) := by
  have e : binary64 ((2 ^ 53 + 1 : Int) : Rat) = (2 ^ 53 : Int) := by decide +kernel
  refine C104_tie _ ((2 ^ 53 + 2 : Int) : Rat) ⟨⟨2 ^ 52 + 1, 1, by norm_num, by norm_num⟩, fun z hz => ?_⟩ (by rw [e]; norm_num)
  have := binary64_best ((2 ^ 53 + 1 : Int) : Rat) z hz
  rw [e] at this
  refine le_trans (le_of_eq ?_) this
  norm_num

example (bs : List Byte) (h : encodeValue Mem.strict .u16 bs = .ok 11) :
    ∃ e, engOf Mem.strict binary64 exactPow .u16 thirds bs = .ok e ∧ |e - 11 / 30| ≤ (1 / 2 ^ 50) * (11 / 30) := by
  obtain ⟨e, h1, h2⟩ := C104_accuracy Mem.strict .u16 (by decide) thirds bs 11 exactPow (by simp [exactPow]; positivity) h (by decide) rfl (by decide)
  refine ⟨e, h1, ?_⟩
  have e2 : ((11 : Int) + thirds.scalingOffset.toInt : Rat) * thirds.scalingMultiplier.toNat * thirds.scalingBase.toNat
      / (thirds.scalingDivisor.toNat * 10 ^ thirds.precision.toNat) = 11 / 30 := by decide +kernel
  rw [e2, abs_of_pos (show (0 : Rat) < 11 / 30 by norm_num)] at h2
  exact h2

example (v : Int) (hv : IntType.u16.has v) : ∃ bs w, setEng binary64 exactPow .u16 .min thirds (actualToEng binary64 exactPow thirds (binary64 v)) =
    .ok (withLimit .min thirds bs) ∧ encodeValue Mem.strict .u16 bs = .ok w ∧ (w = v ∨ 0 < v ∧ w = v - 1 ∨ v < 0 ∧ w = v + 1) :=
  C104_limit Mem.strict .u16 (by decide) .min thirds v hv exactPow (by decide +kernel) (by decide) (by decide) (by decide) (by decide)

/-- 30 thirds of a tenth are one. -/
example : actualToEng binary64 exactPow thirds (binary64 30) = 1 := by
  exact_mod_cast (C104_exact Mem.strict .u16 (by decide) .min thirds 30 1 (by decide) rfl (by decide) (by decide) (by decide) (by decide)
    (by decide) (by decide) (by decide)).1

example (v : Int) (hv : IntType.u16.has v) (rnd : Rat → Rat) (hr : ∀ x, InRange x → rnd x = binary64 x) :
    actualToEng rnd exactPow thirds (rnd v) = actualToEng binary64 exactPow thirds (binary64 v) :=
  (C104_range rnd hr .u16 (by decide) thirds v hv exactPow (by decide +kernel) (by decide +kernel) (by decide) (by decide) (by decide)).1

end Verif.Props
