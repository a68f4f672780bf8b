import Verif.Spec.Wire

/-! Lemmas about the wire specification (no model code). -/

namespace Verif.Spec

@[simp] theorem le_length (n v : Nat) : (le n v).length = n := by
  induction n generalizing v with
  | zero => rfl
  | succ n ih => simp [le, ih]

@[simp] theorem be_length (n v : Nat) : (be n v).length = n := by simp [be]

theorem ofLe_le (n v : Nat) (h : v < 256 ^ n) : ofLe (le n v) = v := by
  induction n generalizing v with
  | zero => simp at h; simp [le, ofLe, h]
  | succ n ih =>
    have h2 : v / 256 < 256 ^ n := by
      rw [Nat.pow_succ] at h
      exact Nat.div_lt_of_lt_mul (by omega)
    simp only [le, ofLe, ih _ h2, BitVec.toNat_ofNat]
    omega

theorem ofLe_lt (bs : List (BitVec 8)) : ofLe bs < 256 ^ bs.length := by
  induction bs with
  | nil => simp [ofLe]
  | cons b bs ih =>
    have := b.isLt
    simp only [ofLe, List.length_cons, Nat.pow_succ]
    omega

theorem le_ofLe (bs : List (BitVec 8)) : le bs.length (ofLe bs) = bs := by
  induction bs with
  | nil => rfl
  | cons b bs ih =>
    have := b.isLt
    have e1 : (b.toNat + 256 * ofLe bs) % 256 = b.toNat := by omega
    have e2 : (b.toNat + 256 * ofLe bs) / 256 = ofLe bs := by omega
    simp only [List.length_cons, ofLe, le, e1, e2, ih]
    simp

theorem le_inj (n v w : Nat) (hv : v < 256 ^ n) (hw : w < 256 ^ n) (h : le n v = le n w) : v = w := by
  rw [← ofLe_le n v hv, ← ofLe_le n w hw, h]

end Verif.Spec
