import Verif.Lemmas.Link

/-!
# Inverting successful reads

Under strict memory, what a successful read says about the bytes that were left.
-/

namespace Verif

open Spec

/-- `r` is what is left to read. -/
def Rest (b : Buffer) (r : List Byte) : Prop := b.pos ≤ b.bytes.length ∧ b.bytes.drop b.pos = r

theorem Rest.ofData (d : List Byte) : Rest (Buffer.ofData d) d := ⟨Nat.zero_le _, rfl⟩

theorem Rd.bind_inv {x : Rd α} {f : α → Rd β} {m : Mem} {b : Buffer} {r : β × Buffer} (h : (x >>= f) m b = .ok r) :
    ∃ a b', x m b = .ok (a, b') ∧ f a m b' = .ok r := by
  rw [Rd.bind_run] at h
  match hx : x m b, h with
  | .ok (a, b'), h => exact ⟨a, b', rfl, h⟩

theorem Rd.pure_inv {a c : α} {m : Mem} {b b' : Buffer} (h : (pure a : Rd α) m b = .ok (c, b')) : c = a ∧ b' = b := by
  injection h with h
  injection h with h1 h2
  exact ⟨h1.symm, h2.symm⟩

theorem Rest.next {b : Buffer} {r : List Byte} (hr : Rest b r) (n : Nat) (h : b.pos + n ≤ b.bytes.length) :
    Rest ⟨b.bytes, b.pos + n⟩ (r.drop n) := by
  refine ⟨h, ?_⟩
  rw [← hr.2, List.drop_drop]

theorem Sized.inv {x : Rd α} {n : Nat} (hx : Sized x n) {b b' : Buffer} {r : List Byte} {v : α} (hr : Rest b r)
    (h : x Mem.strict b = .ok (v, b')) : b.pos + n ≤ b.bytes.length ∧ b' = ⟨b.bytes, b.pos + n⟩ := by
  by_cases hn : b.pos + n ≤ b.bytes.length
  · refine ⟨hn, ?_⟩
    obtain ⟨a, ha⟩ := hx.enough Mem.strict b hn
    rw [ha] at h
    injection h with h
    injection h with _ h
    exact h.symm
  · rw [hx.short b hr.1 (by omega)] at h
    cases h

theorem bytes_inv {n : Nat} {b b' : Buffer} {r v : List Byte} (hr : Rest b r) (h : Rd.bytes n Mem.strict b = .ok (v, b')) :
    ∃ r', Rest b' r' ∧ r = v ++ r' ∧ v.length = n := by
  obtain ⟨hn, rfl⟩ := (Sized.bytes n).inv hr h
  rw [bytes_eq Mem.strict n b hn] at h
  injection h with h
  injection h with h _
  refine ⟨_, hr.next n hn, ?_, ?_⟩
  · rw [← h, hr.2, List.take_append_drop]
  · rw [← h]; simp; omega

theorem u8_inv {b b' : Buffer} {r : List Byte} {v : BitVec 8} (hr : Rest b r) (h : Rd.u8 Mem.strict b = .ok (v, b')) :
    ∃ r', Rest b' r' ∧ r = le 1 v.toNat ++ r' := by
  obtain ⟨hn, rfl⟩ := Sized.u8.inv hr h
  rw [u8_at Mem.strict b hn] at h
  injection h with h
  injection h with h _
  refine ⟨_, hr.next 1 hn, ?_⟩
  rw [← h, toNat_field8, ← (take_eq_le b.bytes b.pos 1 hn).1, hr.2, List.take_append_drop]

theorem u16_inv {b b' : Buffer} {r : List Byte} {v : BitVec 16} (hr : Rest b r) (h : Rd.u16 Mem.strict b = .ok (v, b')) :
    ∃ r', Rest b' r' ∧ r = le 2 v.toNat ++ r' := by
  obtain ⟨hn, rfl⟩ := Sized.u16.inv hr h
  rw [u16_at Mem.strict b hn] at h
  injection h with h
  injection h with h _
  refine ⟨_, hr.next 2 hn, ?_⟩
  rw [← h, toNat_field16, ← (take_eq_le b.bytes b.pos 2 hn).1, hr.2, List.take_append_drop]

theorem u32_inv {b b' : Buffer} {r : List Byte} {v : BitVec 32} (hr : Rest b r) (h : Rd.u32 Mem.strict b = .ok (v, b')) :
    ∃ r', Rest b' r' ∧ r = le 4 v.toNat ++ r' := by
  obtain ⟨hn, rfl⟩ := Sized.u32.inv hr h
  rw [u32_at Mem.strict b hn] at h
  injection h with h
  injection h with h _
  refine ⟨_, hr.next 4 hn, ?_⟩
  rw [← h, toNat_field32, ← (take_eq_le b.bytes b.pos 4 hn).1, hr.2, List.take_append_drop]

theorem u64_inv {b b' : Buffer} {r : List Byte} {v : BitVec 64} (hr : Rest b r) (h : Rd.u64 Mem.strict b = .ok (v, b')) :
    ∃ r', Rest b' r' ∧ r = le 8 v.toNat ++ r' := by
  obtain ⟨hn, rfl⟩ := Sized.u64.inv hr h
  rw [u64_at Mem.strict b hn] at h
  injection h with h
  injection h with h _
  refine ⟨_, hr.next 8 hn, ?_⟩
  rw [← h, toNat_field64, ← (take_eq_le b.bytes b.pos 8 hn).1, hr.2, List.take_append_drop]

theorem shortString_inv {b b' : Buffer} {r : List Byte} {s : CipShortString} (hr : Rest b r)
    (h : Rd.shortString Mem.strict b = .ok (s, b')) :
    ∃ r', Rest b' r' ∧ r = le 1 s.data.length ++ (s.data ++ r') ∧ s.data.length < 256 := by
  obtain ⟨n, b1, h1, h⟩ := Rd.bind_inv h
  obtain ⟨d, b2, h2, h⟩ := Rd.bind_inv h
  obtain ⟨rfl, rfl⟩ := Rd.pure_inv h
  obtain ⟨r1, hr1, rfl⟩ := u8_inv hr h1
  obtain ⟨r2, hr2, rfl, hl⟩ := bytes_inv hr1 h2
  refine ⟨r2, hr2, ?_, ?_⟩
  · simp only [CipString.ofBytes]; rw [hl]
  · simp only [CipString.ofBytes]; rw [hl]; exact n.isLt

theorem Rd.from_inv {m : Mem} {x : Rd α} {data : List Byte} {a : α} (h : x.from m data = .ok a) :
    ∃ b, x m (Buffer.ofData data) = .ok (a, b) := by
  unfold Rd.from at h
  match hx : x m (Buffer.ofData data), h with
  | .ok (a', b), h => injection h with h; subst h; exact ⟨b, rfl⟩

end Verif
