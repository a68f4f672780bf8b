import Verif.Model.Parameter
import Verif.Lemmas.Invert
import Verif.Spec.Object

/-!
# Properties C56, C57, C73, C74: scaling and typed access of parameters
-/

namespace Verif.Props

open Verif Verif.Spec

open ParameterObject

/-- Exact arithmetic. -/
def exactPow (n : Nat) : Rat := 10 ^ n

/-- The documented formula: (actual + offset) * multiplier * base / (divisor * 10^precision). -/
theorem C56_formula (o : ParameterObject) (a : Rat) (h : o.isScalable = true) :
    actualToEng id exactPow o a =
      (a + o.scalingOffset.toInt) * o.scalingMultiplier.toNat * o.scalingBase.toNat
        / (o.scalingDivisor.toNat * 10 ^ o.precision.toNat) := by
  unfold actualToEng exactPow
  rw [if_pos h]
  rfl

theorem pow_ne (n : Nat) : (10 : Rat) ^ n ≠ 0 := by
  induction n with
  | zero => simp
  | succ n ih => rw [Rat.pow_succ]; grind

theorem cast_ne {n : Nat} (h : n ≠ 0) : ((n : Nat) : Rat) ≠ 0 := by
  simpa using h

/-- C56. From actual to engineering units and back. -/
theorem C56_inverse (o : ParameterObject) (hm : o.scalingMultiplier ≠ 0) (hb : o.scalingBase ≠ 0)
    (hd : o.scalingDivisor ≠ 0) (hov : o.scalingMultiplier.toNat * o.scalingBase.toNat < 2 ^ 31) (a : Rat) :
    engToActual id exactPow o (actualToEng id exactPow o a) = .ok a := by
  unfold engToActual actualToEng exactPow
  by_cases h : o.isScalable = true
  · rw [if_pos h, if_pos h, if_pos hov]
    have h1 := pow_ne o.precision.toNat
    have h2 : ((o.scalingMultiplier.toNat : Nat) : Rat) ≠ 0 := cast_ne (fun e => hm (BitVec.eq_of_toNat_eq e))
    have h3 : ((o.scalingBase.toNat : Nat) : Rat) ≠ 0 := cast_ne (fun e => hb (BitVec.eq_of_toNat_eq e))
    have h4 : ((o.scalingDivisor.toNat : Nat) : Rat) ≠ 0 := cast_ne (fun e => hd (BitVec.eq_of_toNat_eq e))
    simp only [id]
    congr 1
    push_cast
    grind
  · rw [if_neg h, if_neg h]

/-- C56. From engineering units to actual and back. -/
theorem C56_inverse_back (o : ParameterObject) (hm : o.scalingMultiplier ≠ 0) (hb : o.scalingBase ≠ 0)
    (hd : o.scalingDivisor ≠ 0) (hov : o.scalingMultiplier.toNat * o.scalingBase.toNat < 2 ^ 31) (e : Rat) :
    ∃ a, engToActual id exactPow o e = .ok a ∧ actualToEng id exactPow o a = e := by
  unfold engToActual actualToEng exactPow
  by_cases h : o.isScalable = true
  · rw [if_pos h, if_pos hov]
    refine ⟨_, rfl, ?_⟩
    rw [if_pos h]
    have h1 := pow_ne o.precision.toNat
    have h2 : ((o.scalingMultiplier.toNat : Nat) : Rat) ≠ 0 := cast_ne (fun e => hm (BitVec.eq_of_toNat_eq e))
    have h3 : ((o.scalingBase.toNat : Nat) : Rat) ≠ 0 := cast_ne (fun e => hb (BitVec.eq_of_toNat_eq e))
    have h4 : ((o.scalingDivisor.toNat : Nat) : Rat) ≠ 0 := cast_ne (fun e => hd (BitVec.eq_of_toNat_eq e))
    simp only [id]
    push_cast
    grind
  · rw [if_neg h]
    exact ⟨e, rfl, by rw [if_neg h]⟩

/-- A rounding: it keeps the order and zero.  Rounding to nearest, toward zero and so on
are of this kind as long as nothing overflows. -/
structure Rounding (rnd : Rat → Rat) : Prop where
  mono : ∀ x y, x ≤ y → rnd x ≤ rnd y
  zero : rnd 0 = 0

theorem Rounding.nonneg {rnd : Rat → Rat} (h : Rounding rnd) {x : Rat} (hx : 0 ≤ x) : 0 ≤ rnd x := by
  have := h.mono 0 x hx
  rwa [h.zero] at this

theorem cast_nonneg (n : Nat) : (0 : Rat) ≤ (n : Rat) := Rat.natCast_nonneg

theorem div_mono {x y z : Rat} (h : x ≤ y) (hz : 0 ≤ z) : x / z ≤ y / z := by
  rw [Rat.div_def, Rat.div_def]
  refine Rat.mul_le_mul_of_nonneg_right h ?_
  by_cases h0 : z = 0
  · rw [h0, Rat.inv_zero]; exact Rat.le_refl
  · exact Rat.le_of_lt (Rat.inv_pos.mpr (by grind))

/-- C56. Whatever the rounding and whatever `pow` returns (not negative), a larger
actual value never has a smaller engineering value.  (Without the hypothesis on the
divisor the program divides by zero, which the model of `double` does not cover.) -/
theorem C56_monotone (rnd : Rat → Rat) (hr : Rounding rnd) (pow : Nat → Rat) (hp : ∀ n, 0 ≤ pow n) (o : ParameterObject)
    (_hd : rnd (o.scalingDivisor.toNat * pow o.precision.toNat) ≠ 0) (a b : Rat) (hab : a ≤ b) : actualToEng rnd pow o a ≤ actualToEng rnd pow o b := by
  unfold actualToEng
  by_cases h : o.isScalable = true
  · rw [if_pos h, if_pos h]
    refine hr.mono _ _ (div_mono (hr.mono _ _ (Rat.mul_le_mul_of_nonneg_right (hr.mono _ _
      (Rat.mul_le_mul_of_nonneg_right (hr.mono _ _ ?_) (cast_nonneg _))) (cast_nonneg _))) (hr.nonneg (Rat.mul_nonneg (cast_nonneg _) (hp _))))
    exact Rat.add_le_add_right.mpr hab
  · rw [if_neg h, if_neg h]; exact hab

/-- C56. The same in the other direction. -/
theorem C56_monotone_back (rnd : Rat → Rat) (hr : Rounding rnd) (pow : Nat → Rat) (hp : ∀ n, 0 ≤ pow n) (o : ParameterObject)
    (_hm : o.scalingMultiplier ≠ 0) (_hb : o.scalingBase ≠ 0) (a b : Rat) (hab : a ≤ b) (x y : Rat) (hx : engToActual rnd pow o a = .ok x) (hy : engToActual rnd pow o b = .ok y) :
    x ≤ y := by
  unfold engToActual at hx hy
  by_cases h : o.isScalable = true
  · rw [if_pos h] at hx hy
    split at hx
    case isFalse => cases hx
    rename_i hov
    rw [if_pos hov] at hy
    injection hx with hx
    injection hy with hy
    rw [← hx, ← hy]
    refine hr.mono _ _ ?_
    rw [Rat.sub_eq_add_neg, Rat.sub_eq_add_neg]
    refine Rat.add_le_add_right.mpr (hr.mono _ _ (div_mono (hr.mono _ _ (Rat.mul_le_mul_of_nonneg_right (hr.mono _ _
      (Rat.mul_le_mul_of_nonneg_right hab (cast_nonneg _))) (hp _))) (cast_nonneg _)))
  · rw [if_neg h] at hx hy
    injection hx with hx
    injection hy with hy
    rw [← hx, ← hy]; exact hab

/-- C57. The conversion to actual values is undefined exactly if the parameter is
scalable and multiplier times base is 2^31 or more. -/
theorem C57_overflow_violated (rnd : Rat → Rat) (pow : Nat → Rat) (o : ParameterObject) (e : Rat) :
    engToActual rnd pow o e = .ub ↔ o.isScalable = true ∧ 2 ^ 31 ≤ o.scalingMultiplier.toNat * o.scalingBase.toNat := by
  unfold engToActual
  by_cases h : o.isScalable = true
  · rw [if_pos h]
    by_cases h2 : o.scalingMultiplier.toNat * o.scalingBase.toNat < 2 ^ 31
    · rw [if_pos h2]; simp [h]; omega
    · rw [if_neg h2]; simp [h]; omega
  · rw [if_neg h]; simp [h]

/-! ## C74: typed access -/

/-- Number of bytes of a type. -/
def size : IntType → Nat
  | .u8 | .i8 => 1
  | .u16 | .i16 => 2
  | .u32 | .i32 => 4
  | .u64 | .i64 => 8

/-- Is the type signed? -/
def signed : IntType → Bool
  | .i8 | .i16 | .i32 | .i64 => true
  | _ => false

theorem intAt_unsigned (n w : Nat) (hw : 256 ^ n = 2 ^ w) (data : List Byte) :
    (((BitVec.ofNat w (field data 0 n)).toNat : Nat) : Int) = intAt n false data := by
  have := field_lt data 0 n
  rw [hw] at this
  rw [BitVec.toNat_ofNat, Nat.mod_eq_of_lt this]
  simp [intAt]

theorem intAt_signed (n w : Nat) (hw : 256 ^ n = 2 ^ w) (data : List Byte) :
    (BitVec.ofNat w (field data 0 n)).toInt = intAt n true data := by
  have := field_lt data 0 n
  rw [BitVec.toInt_eq_toNat_cond, BitVec.toNat_ofNat, Nat.mod_eq_of_lt (hw ▸ this)]
  unfold intAt
  have e : (256 : Int) ^ n = ((2 ^ w : Nat) : Int) := by rw [← hw]; simp
  simp only [hw, e]
  by_cases hc : 2 * field data 0 n < 2 ^ w
  · rw [if_pos hc, if_neg (by simp; omega)]
  · rw [if_neg hc, if_pos ⟨trivial, by omega⟩]

/-- C74. A typed getter is the little-endian number at the start of the stored bytes if
they are enough for the type. -/
theorem C74_reads (m : Mem) (T : IntType) (data : List Byte) (h : size T ≤ data.length) :
    encodeValue m T data = .ok (intAt (size T) (signed T) data) := by
  have hb : ∀ n, n ≤ data.length → (Buffer.ofData data).pos + n ≤ (Buffer.ofData data).bytes.length := by
    intro n hn; simpa [Buffer.ofData] using hn
  cases T with
  | u8 =>
    refine (Rd.from_ok (Rd.bind_ok (u8_at m (Buffer.ofData data) (hb 1 h)))).trans ?_
    exact congrArg Outcome.ok (intAt_unsigned 1 8 rfl data)
  | i8 =>
    refine (Rd.from_ok (Rd.bind_ok (u8_at m (Buffer.ofData data) (hb 1 h)))).trans ?_
    exact congrArg Outcome.ok (intAt_signed 1 8 rfl data)
  | u16 =>
    refine (Rd.from_ok (Rd.bind_ok (u16_at m (Buffer.ofData data) (hb 2 h)))).trans ?_
    exact congrArg Outcome.ok (intAt_unsigned 2 16 rfl data)
  | i16 =>
    refine (Rd.from_ok (Rd.bind_ok (u16_at m (Buffer.ofData data) (hb 2 h)))).trans ?_
    exact congrArg Outcome.ok (intAt_signed 2 16 rfl data)
  | u32 =>
    refine (Rd.from_ok (Rd.bind_ok (u32_at m (Buffer.ofData data) (hb 4 h)))).trans ?_
    exact congrArg Outcome.ok (intAt_unsigned 4 32 rfl data)
  | i32 =>
    refine (Rd.from_ok (Rd.bind_ok (u32_at m (Buffer.ofData data) (hb 4 h)))).trans ?_
    exact congrArg Outcome.ok (intAt_signed 4 32 rfl data)
  | u64 =>
    refine (Rd.from_ok (Rd.bind_ok (u64_at m (Buffer.ofData data) (hb 8 h)))).trans ?_
    exact congrArg Outcome.ok (intAt_unsigned 8 64 rfl data)
  | i64 =>
    refine (Rd.from_ok (Rd.bind_ok (u64_at m (Buffer.ofData data) (hb 8 h)))).trans ?_
    exact congrArg Outcome.ok (intAt_signed 8 64 rfl data)

/-- C74. With fewer bytes it reads out of bounds. -/
theorem C74_short_violated (T : IntType) (data : List Byte) (h : data.length < size T) :
    encodeValue Mem.strict T data = .ub := by
  have hb : ∀ n, data.length < n → (Buffer.ofData data).bytes.length < (Buffer.ofData data).pos + n := by
    intro n hn; simpa [Buffer.ofData] using hn
  refine Rd.from_ub ?_
  cases T with
  | u8 | i8 => exact Rd.bind_ub (Sized.u8.short _ (Nat.zero_le _) (hb _ h))
  | u16 | i16 => exact Rd.bind_ub (Sized.u16.short _ (Nat.zero_le _) (hb _ h))
  | u32 | i32 => exact Rd.bind_ub (Sized.u32.short _ (Nat.zero_le _) (hb _ h))
  | u64 | i64 => exact Rd.bind_ub (Sized.u64.short _ (Nat.zero_le _) (hb _ h))

/-! ## C73: limits in engineering units -/

theorem write_unsigned (w : Nat) (v : Int) (h0 : 0 ≤ v) (h1 : v < 2 ^ w) : (((BitVec.ofInt w v).toNat : Nat) : Int) = v := by
  rw [BitVec.toNat_ofInt, Int.emod_eq_of_lt h0 (by simpa using h1)]
  omega

theorem write_signed (w : Nat) (hw : 0 < w) (v : Int) (h0 : -(2 ^ (w - 1)) ≤ v) (h1 : v < 2 ^ (w - 1)) : (BitVec.ofInt w v).toInt = v := by
  rw [BitVec.toInt_ofInt]
  have e : (2 ^ w : Nat) = 2 * 2 ^ (w - 1) := by
    conv => lhs; rw [show w = w - 1 + 1 by omega, Nat.pow_succ, Nat.mul_comm]
  refine Int.bmod_eq_of_le ?_ ?_ <;> rw [e] <;> push_cast <;> omega

/-- What is stored is read back. -/
theorem decode_encode (m : Mem) (T : IntType) (v : Int) (h : T.has v) : encodeValue m T (decodeValue T v) = .ok v := by
  obtain ⟨h0, h1⟩ := h
  cases T with
  | u8 =>
    refine (Rd.from_ok ((Reads.u8 _).map_pure _ |>.all m)).trans (congrArg Outcome.ok ?_)
    exact write_unsigned 8 v h0 (by simp [IntType.range] at h1; omega)
  | i8 =>
    refine (Rd.from_ok ((Reads.u8 _).map_pure _ |>.all m)).trans (congrArg Outcome.ok ?_)
    exact write_signed 8 (by decide) v (by simpa [IntType.range] using h0) (by simp [IntType.range] at h1; omega)
  | u16 =>
    refine (Rd.from_ok ((((Reads.u16 _).map_pure _).cast (put2_eq _).symm rfl) |>.all m)).trans (congrArg Outcome.ok ?_)
    exact write_unsigned 16 v h0 (by simp [IntType.range] at h1; omega)
  | i16 =>
    refine (Rd.from_ok ((((Reads.u16 _).map_pure _).cast (put2_eq _).symm rfl) |>.all m)).trans (congrArg Outcome.ok ?_)
    exact write_signed 16 (by decide) v (by simpa [IntType.range] using h0) (by simp [IntType.range] at h1; omega)
  | u32 =>
    refine (Rd.from_ok ((((Reads.u32 _).map_pure _).cast (put4_eq _).symm rfl) |>.all m)).trans (congrArg Outcome.ok ?_)
    exact write_unsigned 32 v h0 (by simp [IntType.range] at h1; omega)
  | i32 =>
    refine (Rd.from_ok ((((Reads.u32 _).map_pure _).cast (put4_eq _).symm rfl) |>.all m)).trans (congrArg Outcome.ok ?_)
    exact write_signed 32 (by decide) v (by simpa [IntType.range] using h0) (by simp [IntType.range] at h1; omega)
  | u64 =>
    refine (Rd.from_ok ((((Reads.u64 _).map_pure _).cast (put8_eq _).symm rfl) |>.all m)).trans (congrArg Outcome.ok ?_)
    exact write_unsigned 64 v h0 (by simp [IntType.range] at h1; omega)
  | i64 =>
    refine (Rd.from_ok ((((Reads.u64 _).map_pure _).cast (put8_eq _).symm rfl) |>.all m)).trans (congrArg Outcome.ok ?_)
    exact write_signed 64 (by decide) v (by simpa [IntType.range] using h0) (by simp [IntType.range] at h1; omega)

theorem castInt_cast (T : IntType) (v : Int) (h : T.has v) : castInt T v = .ok v := by
  unfold castInt
  simp only [Rat.floor_intCast, Rat.ceil_intCast, ite_self]
  rw [if_pos h]

/-- The three limits of a parameter. -/
inductive Limit where
  | min | max | dflt

/-- The setter of a limit in engineering units. -/
def setEng (rnd : Rat → Rat) (pow : Nat → Rat) (T : IntType) : Limit → ParameterObject → Rat → Outcome ParameterObject
  | .min => setEngMin rnd pow T
  | .max => setEngMax rnd pow T
  | .dflt => setEngDefault rnd pow T

/-- The bytes of a limit. -/
def limitOf : Limit → ParameterObject → List Byte
  | .min => (·.minValue)
  | .max => (·.maxValue)
  | .dflt => (·.defaultValue)

/-- The object with the bytes of one limit replaced. -/
def withLimit : Limit → ParameterObject → List Byte → ParameterObject
  | .min => fun o bs => { o with minValue := bs }
  | .max => fun o bs => { o with maxValue := bs }
  | .dflt => fun o bs => { o with defaultValue := bs }

theorem setEng_eq (rnd : Rat → Rat) (pow : Nat → Rat) (T : IntType) (l : Limit) (o : ParameterObject) (e : Rat) :
    setEng rnd pow T l o e = match engBytes rnd pow T o e with
      | .ub => .ub
      | .throw x => .throw x
      | .ok bs => .ok (withLimit l o bs) := by
  cases l <;> rfl

/-- C73. The values of a type are exactly those that can be read as it. -/
theorem C73_values (T : IntType) (v : Int) : T.has v ↔ ∃ bs, encodeValue Mem.strict T bs = .ok v := by
  refine ⟨fun h => ⟨_, decode_encode Mem.strict T v h⟩, ?_⟩
  rintro ⟨bs, h⟩
  obtain ⟨b, h⟩ : ∃ b, T.read Mem.strict (Buffer.ofData bs) = .ok (v, b) := by
    unfold encodeValue Rd.from at h
    split at h
    · rename_i x b hx; cases h; exact ⟨b, hx⟩
    · cases h
    · cases h
  cases T
  all_goals
    obtain ⟨x, b1, hx, h⟩ := Rd.bind_inv h
    injection h with h
    injection h with h _
    subst h
    unfold IntType.has
  · have := x.isLt; simp only [IntType.range]; omega
  · have h1 := @BitVec.le_toInt 8 x; have h2 := @BitVec.toInt_lt 8 x; simp only [IntType.range]; omega
  · have := x.isLt; simp only [IntType.range]; omega
  · have h1 := @BitVec.le_toInt 16 x; have h2 := @BitVec.toInt_lt 16 x; simp only [IntType.range]; omega
  · have := x.isLt; simp only [IntType.range]; omega
  · have h1 := @BitVec.le_toInt 32 x; have h2 := @BitVec.toInt_lt 32 x; simp only [IntType.range]; omega
  · have := x.isLt; simp only [IntType.range]; omega
  · have h1 := @BitVec.le_toInt 64 x; have h2 := @BitVec.toInt_lt 64 x; simp only [IntType.range]; omega

/-- C73. Setting a limit to the engineering value of an actual value `v` of the type, in
exact arithmetic: only that limit changes, and it reads back as `v`, and as the same
engineering value. -/
theorem C73_set_get (m : Mem) (T : IntType) (l : Limit) (o : ParameterObject) (v : Int) (hv : T.has v)
    (hm : o.scalingMultiplier ≠ 0) (hb : o.scalingBase ≠ 0)
    (hd : o.scalingDivisor ≠ 0) (hov : o.scalingMultiplier.toNat * o.scalingBase.toNat < 2 ^ 31) :
    ∃ o', setEng id exactPow T l o (actualToEng id exactPow o v) = .ok o' ∧
      (∃ bs, o' = withLimit l o bs) ∧
      encodeValue m T (limitOf l o') = .ok v ∧
      engOf m id exactPow T o' (limitOf l o') = .ok (actualToEng id exactPow o v) := by
  have h1 : engBytes id exactPow T o (actualToEng id exactPow o v) = .ok (decodeValue T v) := by
    unfold engBytes
    rw [C56_inverse o hm hb hd hov]
    simp only
    rw [castInt_cast T v hv]
  have h2 := decode_encode m T v hv
  refine ⟨withLimit l o (decodeValue T v), ?_, ⟨_, rfl⟩, ?_, ?_⟩
  · rw [setEng_eq, h1]
  · cases l <;> exact h2
  · cases l <;> (simp only [withLimit, limitOf]; unfold engOf; rw [h2]; rfl)

theorem trunc_eq {q : Rat} {v : Int} (h0 : 0 ≤ q → (v : Rat) ≤ q ∧ q < v + 1)
    (h1 : q < 0 → (v : Rat) - 1 < q ∧ q ≤ v) : (if q < 0 then q.ceil else q.floor) = v := by
  split
  · rename_i h
    obtain ⟨a, b⟩ := h1 h
    apply Int.le_antisymm
    · exact Rat.ceil_le_iff.mpr b
    · have : v - 1 < q.ceil := by
        have := @Rat.le_ceil q
        have h3 : ((v - 1 : Int) : Rat) < (q.ceil : Rat) := by
          rw [Rat.intCast_sub]
          grind
        exact_mod_cast h3
      omega
  · rename_i h
    obtain ⟨a, b⟩ := h0 (by grind)
    apply Int.le_antisymm
    · have : q.floor < v + 1 := by
        have := @Rat.floor_le q
        have h3 : (q.floor : Rat) < ((v + 1 : Int) : Rat) := by
          rw [Rat.intCast_add]
          grind
        exact_mod_cast h3
      omega
    · exact Rat.le_floor_iff.mpr a

/-- C73. In general, for every rounding: what is stored is the converted value without
its fraction, and nothing else changes; if that is no value of the type, or the
conversion overflows, the call is undefined. -/
theorem C73_set (rnd : Rat → Rat) (pow : Nat → Rat) (m : Mem) (T : IntType) (l : Limit)
    (o : ParameterObject) (e : Rat) :
    (∀ (q : Rat) (v : Int), engToActual rnd pow o e = .ok q →
      (0 ≤ q → (v : Rat) ≤ q ∧ q < v + 1) → (q < 0 → (v : Rat) - 1 < q ∧ q ≤ v) →
      (T.has v → ∃ bs, setEng rnd pow T l o e = .ok (withLimit l o bs) ∧ encodeValue m T bs = .ok v) ∧
      (¬ T.has v → setEng rnd pow T l o e = .ub)) ∧
    (engToActual rnd pow o e = .ub → setEng rnd pow T l o e = .ub) := by
  rw [setEng_eq]
  refine ⟨?_, ?_⟩
  · intro q v hq h0 h1
    have hv := trunc_eq h0 h1
    constructor
    · intro hh
      refine ⟨decodeValue T v, ?_, decode_encode m T v hh⟩
      unfold engBytes castInt
      rw [hq]
      simp only
      rw [hv, if_pos hh]
    · intro hh
      unfold engBytes castInt
      rw [hq]
      simp only
      rw [hv, if_neg hh]
  · intro h
    unfold engBytes
    rw [h]

/-! ## Concrete cases -/

/-- A parameter with multiplier 3, divisor 2, base 5, offset -4 and precision 1. -/
def scaled : ParameterObject :=
  { instanceId := 1
    hasFullAttributes := true
    isScalable := true
    scalingMultiplier := 3
    scalingDivisor := 2
    scalingBase := 5
    scalingOffset := 0xfffc
    precision := 1 }

/-- C56: the hypotheses of the round trips hold, and 10 is 4.5 in engineering units. -/
example : scaled.scalingMultiplier ≠ 0 ∧ scaled.scalingBase ≠ 0 ∧ scaled.scalingDivisor ≠ 0 ∧
    scaled.scalingMultiplier.toNat * scaled.scalingBase.toNat < 2 ^ 31 ∧
    actualToEng id exactPow scaled 10 = 9 / 2 ∧ engToActual id exactPow scaled (9 / 2) = .ok 10 := by
  refine ⟨by decide, by decide, by decide, by decide, ?_, ?_⟩ <;> decide +kernel

/-- C56: rounding down to integers is a rounding that changes values. -/
example : Rounding (fun q => (q.floor : Rat)) ∧
    actualToEng (fun q => (q.floor : Rat)) exactPow scaled 10 = 4 ∧
    actualToEng (fun q => (q.floor : Rat)) exactPow scaled 11 = 5 := by
  refine ⟨⟨fun x y h => ?_, by decide +kernel⟩, by decide +kernel, by decide +kernel⟩
  exact Rat.intCast_le_intCast.mpr (Rat.le_floor_iff.mpr (Rat.le_trans (Rat.floor_le x) h))

/-- C57: settings a device can report. -/
example : engToActual id exactPow { scaled with scalingMultiplier := 0xffff, scalingBase := 0x8001 } 1 = .ub := by
  decide +kernel

/-- C73: 4.5 is the actual value 10 and -4.5 is -2; 120 is 164, no signed byte, and -2
is no unsigned byte. -/
example : IntType.i8.has 10 ∧ setEngMax id exactPow .i8 scaled (9 / 2) = .ok { scaled with maxValue := [10] } ∧
    setEngMin id exactPow .i8 scaled (-9 / 2) = .ok { scaled with minValue := [0xfe] } ∧
    setEngMin id exactPow .i8 scaled 120 = .ub ∧ setEngDefault id exactPow .u8 scaled (-9 / 2) = .ub := by
  decide +kernel

/-- C74: the same bytes as three types. -/
example : encodeValue Mem.strict .u8 [0xfe, 0xff] = .ok 254 ∧ encodeValue Mem.strict .i16 [0xfe, 0xff] = .ok (-2) ∧
    encodeValue Mem.strict .u16 [0xfe, 0xff] = .ok 65534 ∧ encodeValue Mem.strict .u32 [0xfe, 0xff] = .ub := by
  decide +kernel

end Verif.Props
