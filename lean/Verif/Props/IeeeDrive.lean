import Verif.Props.IeeeReal
import Verif.Model.PowerFlex
import Verif.Spec.PowerFlex

/-!
# C105: order, and the measured values of a drive
-/

namespace Verif.Props

open Verif Verif.Spec Ieee Double ParameterObject PowerFlex

/-- C105. A larger stored integer never has a smaller engineering value. -/
theorem C105_monotone (m : Mem) (pow : Nat → Rat) (hp : ∀ n, 1 ≤ pow n ∧ pow n ≤ 2 ^ 850) (T : IntType) (o : ParameterObject)
    (hd : o.scalingDivisor ≠ 0) (as bs : List Byte) (v w : Int) (hv : encodeValue m T as = .ok v) (hw : encodeValue m T bs = .ok w)
    (hvw : v ≤ w) :
    ∃ x y, getEng m pow (.int T) o as = .ok (.fin x) ∧ getEng m pow (.int T) o bs = .ok (.fin y) ∧ x ≤ y := by
  refine ⟨actualToEng binary64 pow o (binary64 v), actualToEng binary64 pow o (binary64 w), ?_, ?_, ?_⟩
  · rw [C105_get m pow T o as (hp _).1 (hp _).2 hd, engOf_bind, hv]; rfl
  · rw [C105_get m pow T o bs (hp _).1 (hp _).2 hd, engOf_bind, hw]; rfl
  · have hDn : (o.scalingDivisor.toNat : Rat) ≠ 0 := cast_ne (fun e => hd (BitVec.eq_of_toNat_eq (by simpa using e)))
    refine C56_monotone binary64 C104_rounding pow (fun n => by linarith [(hp n).1]) o ?_ _ _
      (binary64_mono (by exact_mod_cast hvw))
    rw [Ne, (binary64_sign _).1]
    exact mul_ne_zero hDn (by linarith [(hp o.precision.toNat).1])

/-- `double` meets what C63 and C64 ask of the arithmetic. -/
theorem C105_sane (pow : Nat → Rat) (h0 : pow 0 = 1) (h2 : pow 2 = 100) : SaneArithmetic binary64 pow :=
  ⟨fun n hn => by
    have := binary64_int (n : Int) (by rw [Nat.abs_cast]; omega)
    exact_mod_cast this, h0, h2⟩

theorem drive_eng (pow : Nat → Rat) (param : BitVec 16) (prec : BitVec 8) (n : BitVec 16) (t : Nat) (ht : 1 ≤ t) (ht2 : t ≤ 100)
    (hp : pow prec.toNat = t) :
    toEng pow (PowerFlex.scaled param prec) (.fin n.toNat) = f64.round (n.toNat / t) := by
  have hn := n.isLt
  have r : ∀ k : Nat, k ≤ 2 ^ 16 → f64.round (k : Rat) = .fin k := by
    intro k hk
    have h : IsNumber f64.prec f64.emax (k : Rat) := by
      refine ⟨k, 0, ?_, by decide, by decide, by simp⟩
      rw [Nat.abs_cast, show f64.prec = 53 from rfl]; omega
    exact round_exact sound64 h
  have ht0 : ((t : Nat) : Rat) ≠ 0 := cast_ne (by omega)
  unfold toEng PowerFlex.scaled
  simp only [if_true, add, mul]
  rw [hp]
  have e1 : ((n.toNat : Nat) : Rat) + (((0 : BitVec 16).toInt : Int) : Rat) = ((n.toNat : Nat) : Rat) := by simp
  have e2 : ((n.toNat : Nat) : Rat) * (((1 : BitVec 16).toNat : Nat) : Rat) = ((n.toNat : Nat) : Rat) := by simp
  have e3 : (((1 : BitVec 16).toNat : Nat) : Rat) * ((t : Nat) : Rat) = ((t : Nat) : Rat) := by simp
  rw [e1, r _ (by omega)]
  simp only
  rw [e2, r _ (by omega)]
  simp only
  rw [e2, r _ (by omega), e3, r _ (by omega)]
  simp only [div]
  rw [if_neg ht0]

/-- C105. What the fault manager of the drives reports: the bus voltage is the number read, current and
frequency are the doubles nearest to a hundredth of it. -/
theorem C105_drive (pow : Nat → Rat) (h0 : pow 0 = 1) (h2 : pow 2 = 100) (param n : BitVec 16) :
    processVolts binary64 pow n param = n.toNat ∧
    IsNearestNumber 53 1023 ((n.toNat : Rat) / 100) (processCurrent binary64 pow n param) ∧
    IsNearestNumber 53 1023 ((n.toNat : Rat) / 100) (processFrequency binary64 pow n param) ∧
    toEng pow (PowerFlex.scaled param 0) (.fin n.toNat) = .fin (processVolts binary64 pow n param) ∧
    toEng pow (PowerFlex.scaled param 2) (.fin n.toNat) = .fin (processCurrent binary64 pow n param) := by
  obtain ⟨hs, _, _⟩ := C105_sane pow h0 h2
  have hn := n.isLt
  have hN := hs n.toNat hn
  have h1 : binary64 1 = 1 := by simpa using hs 1 (by omega)
  have h100 : binary64 100 = 100 := by simpa using hs 100 (by omega)
  have hv : processVolts binary64 pow n param = n.toNat := by
    unfold processVolts actualToEng PowerFlex.scaled
    simp only [if_true]
    rw [show (0 : BitVec 8).toNat = 0 from rfl, h0]
    simp [hN, h1]
  have hc : processCurrent binary64 pow n param = binary64 (n.toNat / 100) := by
    unfold processCurrent actualToEng PowerFlex.scaled
    simp only [if_true]
    rw [show (2 : BitVec 8).toNat = 2 from rfl, h2]
    simp [hN, h100]
  have hrange : InRange ((n.toNat : Rat) / 100) := by
    have := (Mag.nat16 n).over (show Mag 0 7 (100 : Rat) from Or.inr (by rw [pow2_eq, pow2_eq]; norm_num))
    exact this.inRange (by norm_num) (by norm_num)
  have hr := round_inRange hrange
  have hf : processFrequency binary64 pow n param = processCurrent binary64 pow n param := rfl
  have hnear : IsNearestNumber 53 1023 ((n.toNat : Rat) / 100) (processCurrent binary64 pow n param) := by
    rw [hc]
    rcases C105_double ((n.toNat : Rat) / 100) with ⟨_, h⟩ | ⟨_, y, h, hy, _⟩
    · rw [hr] at h; cases h
    · rw [hr] at h; cases h; exact hy
  refine ⟨hv, hnear, hf ▸ hnear, ?_, ?_⟩
  · rw [hv, drive_eng pow param 0 n 1 (by norm_num) (by norm_num) (by simpa using h0)]
    simp only [Nat.cast_one, div_one]
    have h : IsNumber f64.prec f64.emax (n.toNat : Rat) := by
      refine ⟨n.toNat, 0, ?_, by decide, by decide, by simp⟩
      rw [Nat.abs_cast, show f64.prec = 53 from rfl]; omega
    exact round_exact sound64 h
  · rw [hc, drive_eng pow param 2 n 100 (by norm_num) (by norm_num) (by simpa using h2)]
    exact hr

/-- 1234 hundredths. -/
example : processCurrent binary64 exactPow 1234 641 = 3473401212609495 / 281474976710656 := by decide +kernel

end Verif.Props
