import Verif.Model.Buffer
import Verif.Lemmas.Wire

/-!
# Lemmas about buffer readers

* `Reads x bs a`: `x` consumes exactly the bytes `bs` and returns `a`, whatever
  surrounds them and whatever stray reads would return.
* `Sized x n`: `x` always needs exactly `n` bytes.
* `Tame x`: under the strict memory `x` stays inside the buffer.
* `Mono x`: unless it is undefined, the result of `x` does not depend on memory
  outside the buffer.
-/

namespace Verif

open Spec

/-! ## Unfolding -/

namespace Rd

@[simp] theorem pure_run (a : α) (m : Mem) (b : Buffer) : (pure a : Rd α) m b = .ok (a, b) := rfl

theorem bind_run (x : Rd α) (f : α → Rd β) (m : Mem) (b : Buffer) :
    (x >>= f) m b = match x m b with
      | .ok (a, b') => f a m b'
      | .throw e => .throw e
      | .ub => .ub := rfl

theorem bind_ok {x : Rd α} {f : α → Rd β} {m : Mem} {b b' : Buffer} {a : α}
    (h : x m b = .ok (a, b')) : (x >>= f) m b = f a m b' := by
  rw [bind_run, h]

theorem bind_ub {x : Rd α} {f : α → Rd β} {m : Mem} {b : Buffer}
    (h : x m b = .ub) : (x >>= f) m b = .ub := by
  rw [bind_run, h]

theorem bind_throw {x : Rd α} {f : α → Rd β} {m : Mem} {b : Buffer} {e : Exn}
    (h : x m b = .throw e) : (x >>= f) m b = .throw e := by
  rw [bind_run, h]

@[simp] theorem throw_run (e : Exn) (m : Mem) (b : Buffer) : (throw e : Rd α) m b = .throw e := rfl
@[simp] theorem get_run (m : Mem) (b : Buffer) : get m b = .ok (b, b) := rfl

theorem ite_run (c : Prop) [Decidable c] (x y : Rd α) (m : Mem) (b : Buffer) :
    (if c then x else y) m b = if c then x m b else y m b := by split <;> rfl

end Rd

/-! ## `Reads` -/

/-- `x` reads exactly `bs`, returns `a` and leaves the position just behind. -/
def Reads (x : Rd α) (bs : List Byte) (a : α) : Prop :=
  ∀ (m : Mem) (pre post : List Byte),
    x m ⟨pre ++ (bs ++ post), pre.length⟩ =
      .ok (a, ⟨pre ++ (bs ++ post), pre.length + bs.length⟩)

theorem Reads.pure (a : α) : Reads (Pure.pure a : Rd α) [] a := by
  intro m pre post; simp

theorem Reads.bind {x : Rd α} {f : α → Rd β} {bs cs : List Byte} {a : α} {c : β}
    (hx : Reads x bs a) (hf : Reads (f a) cs c) : Reads (x >>= f) (bs ++ cs) c := by
  intro m pre post
  have h1 := hx m pre (cs ++ post)
  have h2 := hf m (pre ++ bs) post
  rw [List.append_assoc bs cs post, Rd.bind_ok h1]
  simp only [List.append_assoc, List.length_append] at h2 ⊢
  rw [h2, Nat.add_assoc]

theorem Reads.u8 (v : BitVec 8) : Reads Rd.u8 [v] v := by
  intro m pre post
  simp [Rd.u8]

/-- Apply `Reads` at the start of a buffer. -/
theorem Reads.start {x : Rd α} {bs post : List Byte} {a : α} (h : Reads x bs a) (m : Mem) :
    x m (Buffer.ofData (bs ++ post)) = .ok (a, ⟨bs ++ post, bs.length⟩) := by
  have := h m [] post
  simpa [Buffer.ofData] using this

theorem Reads.all {x : Rd α} {bs : List Byte} {a : α} (h : Reads x bs a) (m : Mem) :
    x m (Buffer.ofData bs) = .ok (a, ⟨bs, bs.length⟩) := by
  have := h m [] []
  simpa [Buffer.ofData] using this

theorem Reads.cast {x : Rd α} {bs cs : List Byte} {a c : α} (h : Reads x bs a) (hb : bs = cs)
    (ha : a = c) : Reads x cs c := by subst hb; subst ha; exact h

theorem Reads.map_pure {x : Rd α} {bs : List Byte} {a : α} (h : Reads x bs a) (g : α → β) :
    Reads (x >>= fun v => Pure.pure (g v)) bs (g a) := by
  have := h.bind (f := fun v => (Pure.pure (g v) : Rd β)) (Reads.pure (g a))
  exact this.cast (by simp) rfl

/-! ## Integers: shifts against digits -/

theorem le_one (v : BitVec 8) : le 1 v.toNat = [v] := by
  have := v.isLt
  simp only [le, Nat.mod_eq_of_lt this]
  simp

theorem put2_eq (v : BitVec 16) : [v.setWidth 8, (v >>> 8).setWidth 8] = le 2 v.toNat := by
  simp only [le, List.cons.injEq, and_true]
  refine ⟨?_, ?_⟩ <;> apply BitVec.eq_of_toNat_eq <;>
    simp [BitVec.toNat_ushiftRight, Nat.shiftRight_eq_div_pow]

theorem put4_eq (v : BitVec 32) :
    [v.setWidth 8, (v >>> 8).setWidth 8, (v >>> 16).setWidth 8, (v >>> 24).setWidth 8]
      = le 4 v.toNat := by
  simp only [le, List.cons.injEq, and_true]
  refine ⟨?_, ?_, ?_, ?_⟩ <;> apply BitVec.eq_of_toNat_eq <;>
    simp [BitVec.toNat_ushiftRight, Nat.shiftRight_eq_div_pow, Nat.div_div_eq_div_mul]

theorem put8_eq (v : BitVec 64) :
    [v.setWidth 8, (v >>> 8).setWidth 8, (v >>> 16).setWidth 8, (v >>> 24).setWidth 8,
       (v >>> 32).setWidth 8, (v >>> 40).setWidth 8, (v >>> 48).setWidth 8, (v >>> 56).setWidth 8]
      = le 8 v.toNat := by
  simp only [le, List.cons.injEq, and_true]
  refine ⟨?_, ?_, ?_, ?_, ?_, ?_, ?_, ?_⟩ <;> apply BitVec.eq_of_toNat_eq <;>
    simp [BitVec.toNat_ushiftRight, Nat.shiftRight_eq_div_pow, Nat.div_div_eq_div_mul]

theorem get2_toNat (b0 b1 : Byte) :
    (b0.setWidth 16 + (b1.setWidth 32 <<< 8).setWidth 16 : BitVec 16).toNat = ofLe [b0, b1] := by
  have := b0.isLt; have := b1.isLt
  simp [ofLe, BitVec.toNat_add, BitVec.toNat_shiftLeft, Nat.shiftLeft_eq]
  omega

theorem get2s_toNat (b0 b1 : Byte) :
    ((((b0.setWidth 16 : BitVec 16).setWidth 32 +
      (((b1.setWidth 32 <<< 8).setWidth 16 : BitVec 16).signExtend 32)) : BitVec 32).setWidth 16 : BitVec 16).toNat
      = ofLe [b0, b1] := by
  have := b0.isLt; have := b1.isLt
  have e : (((b1.setWidth 32 <<< 8).setWidth 16 : BitVec 16).signExtend 32).setWidth 16
      = ((b1.setWidth 32 <<< 8).setWidth 16 : BitVec 16) := by
    apply BitVec.eq_of_getLsbD_eq
    intro i hi
    simp [BitVec.getLsbD_signExtend]
    grind
  rw [BitVec.setWidth_add _ _ (by decide), e]
  simp [ofLe, BitVec.toNat_add, BitVec.toNat_shiftLeft, Nat.shiftLeft_eq]
  omega

theorem get4_toNat (b0 b1 b2 b3 : Byte) :
    (b0.setWidth 32 + b1.setWidth 32 <<< 8 + b2.setWidth 32 <<< 16 + b3.setWidth 32 <<< 24 : BitVec 32).toNat
      = ofLe [b0, b1, b2, b3] := by
  have := b0.isLt; have := b1.isLt; have := b2.isLt; have := b3.isLt
  simp [ofLe, BitVec.toNat_add, BitVec.toNat_shiftLeft, Nat.shiftLeft_eq]
  omega

theorem get8_toNat (b0 b1 b2 b3 b4 b5 b6 b7 : Byte) :
    (b0.setWidth 64 + b1.setWidth 64 <<< 8 + b2.setWidth 64 <<< 16 + b3.setWidth 64 <<< 24
    + b4.setWidth 64 <<< 32 + b5.setWidth 64 <<< 40 + b6.setWidth 64 <<< 48 + b7.setWidth 64 <<< 56 : BitVec 64).toNat
      = ofLe [b0, b1, b2, b3, b4, b5, b6, b7] := by
  have := b0.isLt; have := b1.isLt; have := b2.isLt; have := b3.isLt
  have := b4.isLt; have := b5.isLt; have := b6.isLt; have := b7.isLt
  simp [ofLe, BitVec.toNat_add, BitVec.toNat_shiftLeft, Nat.shiftLeft_eq]
  omega

/-! ## `Reads` for the typed readers -/

theorem Reads.u16_raw (b0 b1 : Byte) : Reads Rd.u16 [b0, b1] (BitVec.ofNat 16 (ofLe [b0, b1])) := by
  have h := (Reads.u8 b0).bind (f := fun x0 => do
    let b1 ← Rd.u8
    Pure.pure (x0.setWidth 16 + (b1.setWidth 32 <<< 8).setWidth 16 : BitVec 16))
    ((Reads.u8 b1).map_pure (fun b1 => (b0.setWidth 16 + (b1.setWidth 32 <<< 8).setWidth 16 : BitVec 16)))
  refine h.cast rfl ?_
  apply BitVec.eq_of_toNat_eq
  rw [get2_toNat]
  have := ofLe_lt [b0, b1]
  simp at this
  simp; omega

theorem Reads.u32_raw (b0 b1 b2 b3 : Byte) :
    Reads Rd.u32 [b0, b1, b2, b3] (BitVec.ofNat 32 (ofLe [b0, b1, b2, b3])) := by
  have h : Reads Rd.u32 ([b0] ++ ([b1] ++ ([b2] ++ ([b3] ++ [])))) _ :=
    (Reads.u8 b0).bind ((Reads.u8 b1).bind ((Reads.u8 b2).bind ((Reads.u8 b3).bind (Reads.pure _))))
  refine h.cast rfl ?_
  apply BitVec.eq_of_toNat_eq
  rw [get4_toNat]
  have := ofLe_lt [b0, b1, b2, b3]
  simp at this
  simp; omega

theorem Reads.u64_raw (b0 b1 b2 b3 b4 b5 b6 b7 : Byte) :
    Reads Rd.u64 [b0, b1, b2, b3, b4, b5, b6, b7]
      (BitVec.ofNat 64 (ofLe [b0, b1, b2, b3, b4, b5, b6, b7])) := by
  have h : Reads Rd.u64 ([b0] ++ ([b1] ++ ([b2] ++ ([b3] ++ ([b4] ++ ([b5] ++ ([b6] ++ ([b7] ++ [])))))))) _ :=
    (Reads.u8 b0).bind ((Reads.u8 b1).bind ((Reads.u8 b2).bind ((Reads.u8 b3).bind
    ((Reads.u8 b4).bind ((Reads.u8 b5).bind ((Reads.u8 b6).bind ((Reads.u8 b7).bind (Reads.pure _))))))))
  refine h.cast rfl ?_
  apply BitVec.eq_of_toNat_eq
  rw [get8_toNat]
  have := ofLe_lt [b0, b1, b2, b3, b4, b5, b6, b7]
  simp at this
  simp; omega

theorem Reads.u16 (v : BitVec 16) : Reads Rd.u16 (le 2 v.toNat) v := by
  have h := Reads.u16_raw (BitVec.ofNat 8 (v.toNat % 256)) (BitVec.ofNat 8 (v.toNat / 256 % 256))
  refine h.cast rfl ?_
  have : ofLe (le 2 v.toNat) = v.toNat := ofLe_le 2 v.toNat v.isLt
  simp only [le] at this
  rw [this]; simp

theorem Reads.u32 (v : BitVec 32) : Reads Rd.u32 (le 4 v.toNat) v := by
  have h := Reads.u32_raw (BitVec.ofNat 8 (v.toNat % 256)) (BitVec.ofNat 8 (v.toNat / 256 % 256))
    (BitVec.ofNat 8 (v.toNat / 256 / 256 % 256)) (BitVec.ofNat 8 (v.toNat / 256 / 256 / 256 % 256))
  refine h.cast rfl ?_
  have : ofLe (le 4 v.toNat) = v.toNat := ofLe_le 4 v.toNat v.isLt
  simp only [le] at this
  rw [this]; simp

theorem Reads.u64 (v : BitVec 64) : Reads Rd.u64 (le 8 v.toNat) v := by
  have h := Reads.u64_raw (BitVec.ofNat 8 (v.toNat % 256)) (BitVec.ofNat 8 (v.toNat / 256 % 256))
    (BitVec.ofNat 8 (v.toNat / 256 / 256 % 256)) (BitVec.ofNat 8 (v.toNat / 256 / 256 / 256 % 256))
    (BitVec.ofNat 8 (v.toNat / 256 / 256 / 256 / 256 % 256))
    (BitVec.ofNat 8 (v.toNat / 256 / 256 / 256 / 256 / 256 % 256))
    (BitVec.ofNat 8 (v.toNat / 256 / 256 / 256 / 256 / 256 / 256 % 256))
    (BitVec.ofNat 8 (v.toNat / 256 / 256 / 256 / 256 / 256 / 256 / 256 % 256))
  refine h.cast rfl ?_
  have : ofLe (le 8 v.toNat) = v.toNat := ofLe_le 8 v.toNat v.isLt
  simp only [le] at this
  rw [this]; simp

theorem Reads.bytes (bs : List Byte) : Reads (Rd.bytes bs.length) bs bs := by
  induction bs with
  | nil => exact Reads.pure []
  | cons b bs ih => exact (Reads.u8 b).bind ((ih.map_pure (fun t => b :: t)))

theorem Reads.bytes' {n : Nat} {bs : List Byte} (h : bs.length = n) : Reads (Rd.bytes n) bs bs := by
  subst h; exact Reads.bytes bs

theorem Reads.skip {n : Nat} {bs : List Byte} (h : bs.length = n) : Reads (Rd.skip n) bs () :=
  (Reads.bytes' h).map_pure (fun _ => ())

/-- Little-endian words, one after the other. -/
def leWords (vs : List (BitVec 16)) : List Byte := vs.flatMap (fun v => le 2 v.toNat)

theorem Reads.word (v : BitVec 16) :
    Reads (Rd.words 1) (le 2 v.toNat) [v] := by
  have h : Reads (Rd.words 1) ([BitVec.ofNat 8 (v.toNat % 256)] ++ ([BitVec.ofNat 8 (v.toNat / 256 % 256)] ++ [])) _ :=
    (Reads.u8 _).bind ((Reads.u8 _).bind ((Reads.pure _).map_pure (fun t => _ :: t)))
  refine h.cast rfl ?_
  congr 1
  apply BitVec.eq_of_toNat_eq
  rw [get2s_toNat]
  exact ofLe_le 2 v.toNat v.isLt

theorem Reads.words (vs : List (BitVec 16)) : Reads (Rd.words vs.length) (leWords vs) vs := by
  induction vs with
  | nil => exact Reads.pure []
  | cons v vs ih =>
    have h : Reads (Rd.words (vs.length + 1))
        ([BitVec.ofNat 8 (v.toNat % 256)] ++ ([BitVec.ofNat 8 (v.toNat / 256 % 256)] ++ leWords vs)) _ :=
      (Reads.u8 _).bind ((Reads.u8 _).bind (ih.map_pure (fun t => _ :: t)))
    refine h.cast (by simp [leWords, le]) ?_
    congr 1
    apply BitVec.eq_of_toNat_eq
    rw [get2s_toNat]
    exact ofLe_le 2 v.toNat v.isLt

theorem Reads.words' {n : Nat} {vs : List (BitVec 16)} (h : vs.length = n) :
    Reads (Rd.words n) (leWords vs) vs := by subst h; exact Reads.words vs

theorem Reads.revision (r : CipRevision) : Reads Rd.revision [r.major, r.minor] r :=
  (Reads.u8 r.major).bind ((Reads.u8 r.minor).map_pure (fun m => (⟨r.major, m⟩ : CipRevision)))

theorem Reads.shortString (data : List Byte) (h : data.length < 256) :
    Reads Rd.shortString (BitVec.ofNat 8 data.length :: data) (CipString.ofBytes 8 data) :=
  (Reads.u8 _).bind ((Reads.bytes' (by simp; omega)).map_pure (fun d => CipString.ofBytes 8 d))

theorem Reads.longString (data : List Byte) (h : data.length < 65536) :
    Reads Rd.longString (le 2 data.length ++ data) (CipString.ofBytes 16 data) := by
  have h1 := Reads.u16 (BitVec.ofNat 16 data.length)
  have e : (BitVec.ofNat 16 data.length).toNat = data.length := by simp; omega
  rw [e] at h1
  exact h1.bind ((Reads.bytes' e.symm).map_pure (fun d => CipString.ofBytes 16 d))

/-! ## `Sized` -/

/-- `x` needs exactly `n` bytes: with `n` bytes left it succeeds, with fewer it is
undefined, and if stray reads return something it still advances by `n`. -/
structure Sized (x : Rd α) (n : Nat) : Prop where
  enough : ∀ (m : Mem) (b : Buffer), b.pos + n ≤ b.bytes.length →
    ∃ a, x m b = .ok (a, ⟨b.bytes, b.pos + n⟩)
  short : ∀ (b : Buffer), b.pos ≤ b.bytes.length → b.bytes.length < b.pos + n → x Mem.strict b = .ub
  lenient : ∀ (m : Mem), m.Lenient → ∀ b : Buffer, ∃ a, x m b = .ok (a, ⟨b.bytes, b.pos + n⟩)

theorem Sized.pure (a : α) : Sized (Pure.pure a : Rd α) 0 :=
  ⟨fun _ b _ => ⟨a, rfl⟩, fun b h1 h2 => by omega, fun _ _ b => ⟨a, rfl⟩⟩

theorem Sized.u8 : Sized Rd.u8 1 := by
  refine ⟨?_, ?_, ?_⟩
  · intro m b h
    have : b.pos < b.bytes.length := by omega
    exact ⟨b.bytes[b.pos], by simp [Rd.u8, List.getElem?_eq_getElem this]⟩
  · intro b h1 h2
    have : b.bytes[b.pos]? = none := List.getElem?_eq_none (by omega)
    simp [Rd.u8, this, Mem.strict]
  · intro m hm b
    obtain ⟨v, hv⟩ := hm b.pos
    cases e : b.bytes[b.pos]? with
    | none => exact ⟨v, by simp [Rd.u8, e, hv]⟩
    | some w => exact ⟨w, by simp [Rd.u8, e]⟩

theorem Sized.bind {x : Rd α} {f : α → Rd β} {n k : Nat} (hx : Sized x n) (hf : ∀ a, Sized (f a) k) :
    Sized (x >>= f) (n + k) := by
  refine ⟨?_, ?_, ?_⟩
  · intro m b h
    obtain ⟨a, ha⟩ := hx.enough m b (by omega)
    obtain ⟨c, hc⟩ := (hf a).enough m ⟨b.bytes, b.pos + n⟩ (by simp; omega)
    exact ⟨c, by rw [Rd.bind_ok ha, hc]; simp [Nat.add_assoc]⟩
  · intro b h1 h2
    by_cases h : b.pos + n ≤ b.bytes.length
    · obtain ⟨a, ha⟩ := hx.enough Mem.strict b h
      rw [Rd.bind_ok ha]
      exact (hf a).short _ h (by simp; omega)
    · exact Rd.bind_ub (hx.short b h1 (by omega))
  · intro m hm b
    obtain ⟨a, ha⟩ := hx.lenient m hm b
    obtain ⟨c, hc⟩ := (hf a).lenient m hm ⟨b.bytes, b.pos + n⟩
    exact ⟨c, by rw [Rd.bind_ok ha, hc]; simp [Nat.add_assoc]⟩

theorem Sized.map {x : Rd α} {n : Nat} (hx : Sized x n) (g : α → β) :
    Sized (x >>= fun a => Pure.pure (g a)) n := by
  have := hx.bind (fun a => Sized.pure (g a))
  simpa using this

theorem Sized.cast {x : Rd α} {n k : Nat} (h : Sized x n) (e : n = k) : Sized x k := e ▸ h

theorem Sized.u16 : Sized Rd.u16 2 := Sized.u8.bind (fun _ => Sized.u8.map _)
theorem Sized.u32 : Sized Rd.u32 4 :=
  Sized.u8.bind (fun _ => Sized.u8.bind (fun _ => Sized.u8.bind (fun _ => Sized.u8.map _)))
theorem Sized.u64 : Sized Rd.u64 8 :=
  Sized.u8.bind (fun _ => Sized.u8.bind (fun _ => Sized.u8.bind (fun _ => Sized.u8.bind (fun _ =>
  Sized.u8.bind (fun _ => Sized.u8.bind (fun _ => Sized.u8.bind (fun _ => Sized.u8.map _)))))))

theorem Sized.bytes (n : Nat) : Sized (Rd.bytes n) n := by
  induction n with
  | zero => exact Sized.pure []
  | succ n ih => exact (Sized.u8.bind (fun _ => ih.map _)).cast (by omega)

theorem Sized.skip (n : Nat) : Sized (Rd.skip n) n := (Sized.bytes n).map _

theorem Sized.words (n : Nat) : Sized (Rd.words n) (2 * n) := by
  induction n with
  | zero => exact Sized.pure []
  | succ n ih => exact (Sized.u8.bind (fun _ => Sized.u8.bind (fun _ => ih.map _))).cast (by omega)

theorem Sized.revision : Sized Rd.revision 2 := Sized.u8.bind (fun _ => Sized.u8.map _)
theorem Sized.sockAddr : Sized Rd.sockAddr 16 :=
  Sized.u16.bind (fun _ => Sized.u16.bind (fun _ => Sized.u32.bind (fun _ => (Sized.bytes 8).map _)))

/-! ## `Tame` -/

/-- Under strict memory, a defined result keeps the bytes and stays in bounds. -/
def Tame (x : Rd α) : Prop :=
  ∀ (b : Buffer) (a : α) (b' : Buffer), b.pos ≤ b.bytes.length → x Mem.strict b = .ok (a, b') →
    b'.bytes = b.bytes ∧ b.pos ≤ b'.pos ∧ b'.pos ≤ b'.bytes.length

theorem Tame.of_sized {x : Rd α} {n : Nat} (h : Sized x n) : Tame x := by
  intro b a b' hb hx
  by_cases hn : b.pos + n ≤ b.bytes.length
  · obtain ⟨c, hc⟩ := h.enough Mem.strict b hn
    rw [hc] at hx
    injection hx with hx
    injection hx with _ hx
    subst hx
    exact ⟨rfl, by simp, by simpa using hn⟩
  · rw [h.short b hb (by omega)] at hx
    cases hx

theorem Tame.bind {x : Rd α} {f : α → Rd β} (hx : Tame x) (hf : ∀ a, Tame (f a)) : Tame (x >>= f) := by
  intro b c b'' hb h
  cases e : x Mem.strict b with
  | ok p =>
    obtain ⟨a, b'⟩ := p
    rw [Rd.bind_ok e] at h
    obtain ⟨h1, h2, h3⟩ := hx b a b' hb e
    obtain ⟨k1, k2, k3⟩ := hf a b' c b'' h3 h
    exact ⟨k1.trans h1, Nat.le_trans h2 k2, k3⟩
  | throw e' => rw [Rd.bind_throw e] at h; cases h
  | ub => rw [Rd.bind_ub e] at h; cases h

theorem Tame.pure (a : α) : Tame (Pure.pure a : Rd α) := Tame.of_sized (Sized.pure a)
theorem Tame.get : Tame Rd.get := by
  intro b a b' hb h
  simp at h
  obtain ⟨_, rfl⟩ := h
  exact ⟨rfl, Nat.le_refl _, hb⟩
theorem Tame.throw (e : Exn) : Tame (Rd.throw e : Rd α) := by
  intro b a b' hb h; simp at h

/-! ## `Mono` -/

/-- Either undefined under strict memory, or independent of memory. -/
def Mono (x : Rd α) : Prop := ∀ b : Buffer, x Mem.strict b = .ub ∨ ∀ m, x m b = x Mem.strict b

theorem Mono.pure (a : α) : Mono (Pure.pure a : Rd α) := fun _ => .inr fun _ => rfl
theorem Mono.throw (e : Exn) : Mono (Rd.throw e : Rd α) := fun _ => .inr fun _ => rfl
theorem Mono.get : Mono Rd.get := fun _ => .inr fun _ => rfl
theorem Mono.u8 : Mono Rd.u8 := by
  intro b
  cases e : b.bytes[b.pos]? with
  | none => left; simp [Rd.u8, e, Mem.strict]
  | some v => right; intro m; simp [Rd.u8, e]
theorem Mono.bind {x : Rd α} {f : α → Rd β} (hx : Mono x) (hf : ∀ a, Mono (f a)) : Mono (x >>= f) := by
  intro b
  rcases hx b with h | h
  · exact .inl (Rd.bind_ub h)
  · cases e : x Mem.strict b with
    | ok p =>
      obtain ⟨a, b'⟩ := p
      rcases hf a b' with k | k
      · left; rw [Rd.bind_ok e]; exact k
      · right; intro m
        rw [Rd.bind_ok e, Rd.bind_ok ((h m).trans e)]; exact k m
    | throw ex => right; intro m; rw [Rd.bind_throw e, Rd.bind_throw ((h m).trans e)]
    | ub => exact .inl (Rd.bind_ub e)
theorem Mono.map {x : Rd α} (hx : Mono x) (g : α → β) : Mono (x >>= fun a => Pure.pure (g a)) :=
  hx.bind fun a => Mono.pure (g a)
theorem Mono.u16 : Mono Rd.u16 := Mono.u8.bind fun _ => Mono.u8.map _
theorem Mono.u32 : Mono Rd.u32 :=
  Mono.u8.bind fun _ => Mono.u8.bind fun _ => Mono.u8.bind fun _ => Mono.u8.map _
theorem Mono.u64 : Mono Rd.u64 :=
  Mono.u8.bind fun _ => Mono.u8.bind fun _ => Mono.u8.bind fun _ => Mono.u8.bind fun _ =>
  Mono.u8.bind fun _ => Mono.u8.bind fun _ => Mono.u8.bind fun _ => Mono.u8.map _
theorem Mono.bytes (n : Nat) : Mono (Rd.bytes n) := by
  induction n with
  | zero => exact Mono.pure _
  | succ n ih => exact Mono.u8.bind fun _ => ih.map _
theorem Mono.skip (n : Nat) : Mono (Rd.skip n) := (Mono.bytes n).map _
theorem Mono.words (n : Nat) : Mono (Rd.words n) := by
  induction n with
  | zero => exact Mono.pure _
  | succ n ih => exact Mono.u8.bind fun _ => Mono.u8.bind fun _ => ih.map _
theorem Mono.revision : Mono Rd.revision := Mono.u8.bind fun _ => Mono.u8.map _
theorem Mono.shortString : Mono Rd.shortString := Mono.u8.bind fun _ => (Mono.bytes _).map _
theorem Mono.longString : Mono Rd.longString := Mono.u16.bind fun _ => (Mono.bytes _).map _
theorem Mono.sockAddr : Mono Rd.sockAddr :=
  Mono.u16.bind fun _ => Mono.u16.bind fun _ => Mono.u32.bind fun _ => (Mono.bytes _).map _

/-! ## What a read returns, in terms of the remaining bytes -/

theorem u8_eq (m : Mem) (b : Buffer) (h : b.pos < b.bytes.length) :
    Rd.u8 m b = .ok (b.bytes[b.pos], ⟨b.bytes, b.pos + 1⟩) := by
  simp [Rd.u8, List.getElem?_eq_getElem h]

/-- Any buffer with enough bytes left can be split so that `Reads` applies. -/
theorem Reads.at {x : Rd α} {bs : List Byte} {a : α} (h : Reads x bs a) (m : Mem) (b : Buffer)
    (hpos : b.pos ≤ b.bytes.length) (hb : (b.bytes.drop b.pos).take bs.length = bs) :
    x m b = .ok (a, ⟨b.bytes, b.pos + bs.length⟩) := by
  have e : b.bytes = b.bytes.take b.pos ++ (bs ++ (b.bytes.drop b.pos).drop bs.length) := by
    conv => lhs; rw [← List.take_append_drop b.pos b.bytes]
    congr 1
    conv => lhs; rw [← List.take_append_drop bs.length (b.bytes.drop b.pos), hb]
  have hl : (b.bytes.take b.pos).length = b.pos := by simp; omega
  have := h m (b.bytes.take b.pos) ((b.bytes.drop b.pos).drop bs.length)
  rw [← e, hl] at this
  exact this

theorem bytes_eq (m : Mem) (n : Nat) (b : Buffer) (h : b.pos + n ≤ b.bytes.length) :
    Rd.bytes n m b = .ok ((b.bytes.drop b.pos).take n, ⟨b.bytes, b.pos + n⟩) := by
  have hl : ((b.bytes.drop b.pos).take n).length = n := by simp; omega
  have := (Reads.bytes' hl).at m b (by omega) (by rw [hl])
  rw [hl] at this
  exact this

theorem take_eq_le (bs : List Byte) (off n : Nat) (h : off + n ≤ bs.length) :
    (bs.drop off).take n = le n (field bs off n) ∧ field bs off n < 256 ^ n := by
  have hl : ((bs.drop off).take n).length = n := by simp; omega
  have h1 := le_ofLe ((bs.drop off).take n)
  have h2 := ofLe_lt ((bs.drop off).take n)
  rw [hl] at h1 h2
  exact ⟨h1.symm, h2⟩

theorem u8_at (m : Mem) (b : Buffer) (h : b.pos + 1 ≤ b.bytes.length) :
    Rd.u8 m b = .ok (BitVec.ofNat 8 (field b.bytes b.pos 1), ⟨b.bytes, b.pos + 1⟩) := by
  obtain ⟨h1, h2⟩ := take_eq_le b.bytes b.pos 1 h
  have hr := (Reads.u8 (BitVec.ofNat 8 (field b.bytes b.pos 1))).at m b (by omega) (by
    rw [← le_one, BitVec.toNat_ofNat, Nat.mod_eq_of_lt (by simpa using h2)]; simpa using h1)
  simpa using hr

theorem u16_at (m : Mem) (b : Buffer) (h : b.pos + 2 ≤ b.bytes.length) :
    Rd.u16 m b = .ok (BitVec.ofNat 16 (field b.bytes b.pos 2), ⟨b.bytes, b.pos + 2⟩) := by
  obtain ⟨h1, h2⟩ := take_eq_le b.bytes b.pos 2 h
  have hr := (Reads.u16 (BitVec.ofNat 16 (field b.bytes b.pos 2))).at m b (by omega) (by
    rw [BitVec.toNat_ofNat, Nat.mod_eq_of_lt (by simpa using h2)]; simpa using h1)
  simpa using hr

theorem u32_at (m : Mem) (b : Buffer) (h : b.pos + 4 ≤ b.bytes.length) :
    Rd.u32 m b = .ok (BitVec.ofNat 32 (field b.bytes b.pos 4), ⟨b.bytes, b.pos + 4⟩) := by
  obtain ⟨h1, h2⟩ := take_eq_le b.bytes b.pos 4 h
  have hr := (Reads.u32 (BitVec.ofNat 32 (field b.bytes b.pos 4))).at m b (by omega) (by
    rw [BitVec.toNat_ofNat, Nat.mod_eq_of_lt (by simpa using h2)]; simpa using h1)
  simpa using hr

theorem u64_at (m : Mem) (b : Buffer) (h : b.pos + 8 ≤ b.bytes.length) :
    Rd.u64 m b = .ok (BitVec.ofNat 64 (field b.bytes b.pos 8), ⟨b.bytes, b.pos + 8⟩) := by
  obtain ⟨h1, h2⟩ := take_eq_le b.bytes b.pos 8 h
  have hr := (Reads.u64 (BitVec.ofNat 64 (field b.bytes b.pos 8))).at m b (by omega) (by
    rw [BitVec.toNat_ofNat, Nat.mod_eq_of_lt (by simpa using h2)]; simpa using h1)
  simpa using hr

theorem field_lt (bs : List Byte) (off n : Nat) : field bs off n < 256 ^ n := by
  have h := ofLe_lt ((bs.drop off).take n)
  refine Nat.lt_of_lt_of_le h (Nat.pow_le_pow_right (by decide) ?_)
  simp; omega

theorem toNat_field8 (bs : List Byte) (off : Nat) : (BitVec.ofNat 8 (field bs off 1)).toNat = field bs off 1 := by
  have := field_lt bs off 1
  simp; omega
theorem toNat_field16 (bs : List Byte) (off : Nat) : (BitVec.ofNat 16 (field bs off 2)).toNat = field bs off 2 := by
  have := field_lt bs off 2
  simp; omega
theorem toNat_field32 (bs : List Byte) (off : Nat) : (BitVec.ofNat 32 (field bs off 4)).toNat = field bs off 4 := by
  have := field_lt bs off 4
  simp; omega
theorem toNat_field64 (bs : List Byte) (off : Nat) : (BitVec.ofNat 64 (field bs off 8)).toNat = field bs off 8 := by
  have := field_lt bs off 8
  simp; omega

/-- `x` is undefined whenever fewer than `n` bytes are left. -/
def Needs (x : Rd α) (n : Nat) : Prop :=
  ∀ b : Buffer, b.pos ≤ b.bytes.length → b.bytes.length < b.pos + n → x Mem.strict b = .ub

theorem Needs.zero (x : Rd α) : Needs x 0 := fun b h1 h2 => by omega

theorem Needs.bind {x : Rd α} {f : α → Rd β} {n k : Nat} (hx : Sized x n) (hf : ∀ a, Needs (f a) k) :
    Needs (x >>= f) (n + k) := by
  intro b h1 h2
  by_cases h : b.pos + n ≤ b.bytes.length
  · obtain ⟨a, ha⟩ := hx.enough Mem.strict b h
    rw [Rd.bind_ok ha]
    exact hf a _ h (by simp; omega)
  · exact Rd.bind_ub (hx.short b h1 (by omega))

theorem field_skip (k v off n : Nat) (b : List Byte) (h : k ≤ off) :
    field (le k v ++ b) off n = field b (off - k) n := by
  unfold field
  rw [List.drop_append, List.drop_eq_nil_of_le (by simpa using h)]
  simp

theorem field_here (n v : Nat) (b : List Byte) (h : v < 256 ^ n) : field (le n v ++ b) 0 n = v := by
  unfold field
  rw [List.drop_zero, List.take_append_of_le_length (by simp), List.take_of_length_le (by simp), ofLe_le n v h]

theorem field8 (v : BitVec 8) (b : List Byte) : field (le 1 v.toNat ++ b) 0 1 = v.toNat :=
  field_here 1 _ b (by simpa using v.isLt)
theorem field16 (v : BitVec 16) (b : List Byte) : field (le 2 v.toNat ++ b) 0 2 = v.toNat :=
  field_here 2 _ b (by simpa using v.isLt)
theorem field32 (v : BitVec 32) (b : List Byte) : field (le 4 v.toNat ++ b) 0 4 = v.toNat :=
  field_here 4 _ b (by simpa using v.isLt)

theorem drop_skip (k v off : Nat) (b : List Byte) (h : k ≤ off) :
    (le k v ++ b).drop off = b.drop (off - k) := by
  rw [List.drop_append, List.drop_eq_nil_of_le (by simpa using h)]
  simp

theorem field_after (a b : List Byte) (off n : Nat) (h : a.length ≤ off) :
    field (a ++ b) off n = field b (off - a.length) n := by
  unfold field
  rw [List.drop_append, List.drop_eq_nil_of_le h, List.nil_append]

end Verif
