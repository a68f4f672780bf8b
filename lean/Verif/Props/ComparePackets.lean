import Verif.Props.Encaps
import Verif.Lemmas.Invert

/-!
# Property C92: comparing packets, items and revisions
-/

namespace Verif.Props

open Verif Verif.Spec

theorem packet_eq_iff (p q : EncapsPacket) : p.eq q = true ↔ p = q := by
  obtain ⟨a, b, c, d, e, f, g⟩ := p
  obtain ⟨a', b', c', d', e', f', g'⟩ := q
  simp [EncapsPacket.eq, Bool.and_eq_true, and_assoc]

/-- The packets a user can have: made empty, changed by the setters, or decoded. -/
inductive Obtained : EncapsPacket → Prop
  | default : Obtained EncapsPacket.default
  | setCommand {p} (c : BitVec 16) : Obtained p → Obtained (p.setCommand c)
  | setSessionHandle {p} (h : BitVec 32) : Obtained p → Obtained (p.setSessionHandle h)
  | setStatusCode {p} (s : BitVec 32) : Obtained p → Obtained (p.setStatusCode s)
  | setData {p} (d : List (BitVec 8)) : Obtained p → Obtained (p.setData d)
  | expand {p q} (m : Mem) (d : List (BitVec 8)) : Obtained p → p.expand m d = .ok q () → Obtained q

theorem bytes_count (m : Mem) (n : Nat) (b b' : Buffer) (bs : List Byte) (h : Rd.bytes n m b = .ok (bs, b')) : bs.length = n := by
  induction n generalizing b bs b' with
  | zero => injection h with h; injection h with h _; subst h; rfl
  | succ n ih =>
    obtain ⟨v, b1, h1, h⟩ := Rd.bind_inv h
    obtain ⟨vs, b2, h2, h⟩ := Rd.bind_inv h
    injection h with h
    injection h with h _
    subst h
    simp [ih _ _ _ h2]

theorem obtained_context {p : EncapsPacket} (h : Obtained p) : p.context.length = 8 := by
  induction h with
  | default => rfl
  | setCommand c _ ih => exact ih
  | setSessionHandle c _ ih => exact ih
  | setStatusCode c _ ih => exact ih
  | setData c _ ih => exact ih
  | @expand p q m d _ he ih =>
    unfold EncapsPacket.expand at he
    split at he
    · cases he
    · cases hh : EncapsPacket.header p.context.length m (Buffer.ofData d) with
      | ub => rw [hh] at he; cases he
      | throw e => rw [hh] at he; cases he
      | ok x =>
        obtain ⟨⟨c, l, s, st, ctx, o⟩, b⟩ := x
        rw [hh] at he
        simp only at he
        have hctx : ctx.length = p.context.length := by
          obtain ⟨_, _, _, hh⟩ := Rd.bind_inv hh
          obtain ⟨_, _, _, hh⟩ := Rd.bind_inv hh
          obtain ⟨_, _, _, hh⟩ := Rd.bind_inv hh
          obtain ⟨_, _, _, hh⟩ := Rd.bind_inv hh
          obtain ⟨_, _, hc, hh⟩ := Rd.bind_inv hh
          obtain ⟨_, _, _, hh⟩ := Rd.bind_inv hh
          injection hh with hh
          injection hh with hh _
          injection hh with _ hh
          injection hh with _ hh
          injection hh with _ hh
          injection hh with _ hh
          injection hh with hh _
          subst hh
          exact bytes_count m _ _ _ _ hc
        split at he
        · cases he
        · cases hb : Rd.bytes l.toNat m b with
          | ub => rw [hb] at he; cases he
          | throw e => rw [hb] at he; cases he
          | ok x =>
            rw [hb] at he
            injection he with he _
            subst he
            simp only
            omega

theorem le_append_inj {n v w : Nat} {x y : List Byte} (hv : v < 256 ^ n) (hw : w < 256 ^ n) (h : le n v ++ x = le n w ++ y) :
    v = w ∧ x = y := by
  obtain ⟨h1, h2⟩ := List.append_inj h (by simp)
  exact ⟨le_inj n v w hv hw h1, h2⟩

theorem pack_inj {p q : EncapsPacket} (hp : p.context.length = 8) (hq : q.context.length = 8) (h : p.pack = q.pack) : p = q := by
  obtain ⟨a, b, c, d, e, f, g⟩ := p
  obtain ⟨a', b', c', d', e', f', g'⟩ := q
  rw [encaps_pack_eq, encaps_pack_eq] at h
  simp only at h hp hq
  obtain ⟨h1, h⟩ := le_append_inj a.isLt a'.isLt h
  obtain ⟨h2, h⟩ := le_append_inj b.isLt b'.isLt h
  obtain ⟨h3, h⟩ := le_append_inj c.isLt c'.isLt h
  obtain ⟨h4, h⟩ := le_append_inj d.isLt d'.isLt h
  obtain ⟨h5, h⟩ := List.append_inj h (by omega)
  obtain ⟨h6, h⟩ := le_append_inj f.isLt f'.isLt h
  rw [BitVec.eq_of_toNat_eq h1, BitVec.eq_of_toNat_eq h2, BitVec.eq_of_toNat_eq h3, BitVec.eq_of_toNat_eq h4, h5, BitVec.eq_of_toNat_eq h6, h]

/-- C92. Packets compare equal exactly if they are the same bytes on the wire, and unequal exactly if not. -/
theorem C92_packet (p q : EncapsPacket) (hp : Obtained p) (hq : Obtained q) :
    (p.eq q = true ↔ p.pack = q.pack) ∧ (p.ne q = true ↔ p.pack ≠ q.pack) := by
  have h : p.eq q = true ↔ p.pack = q.pack :=
    ⟨fun h => by rw [(packet_eq_iff p q).1 h], fun h => (packet_eq_iff p q).2 (pack_inj (obtained_context hp) (obtained_context hq) h)⟩
  refine ⟨h, ?_⟩
  rw [EncapsPacket.ne, Bool.not_eq_true', ← Bool.not_eq_true, packet_eq_iff, eq_comm, ← packet_eq_iff]
  exact not_congr h

theorem item_eq_iff (i j : CommonPacketItem) : i.eq j = true ↔ i = j := by
  obtain ⟨a, b, c⟩ := i
  obtain ⟨a', b', c'⟩ := j
  simp [CommonPacketItem.eq, Bool.and_eq_true, and_assoc]

theorem item_pack_eq (i : CommonPacketItem) :
    i.pack = le 2 i.typeId.toNat ++ (le 2 i.length.toNat ++ if i.length > 0#16 then i.data else []) := by
  unfold CommonPacketItem.pack
  split <;> simp [C02_little_endian, Buffer.putBytes, Buffer.empty]

/-- C92. Items with less than 65536 bytes compare equal exactly if they are the same bytes on the wire. -/
theorem C92_item (t u : BitVec 16) (d e : List (BitVec 8)) (hd : d.length < 65536) (he : e.length < 65536) :
    ((CommonPacketItem.mk' t d).eq (.mk' u e) = true ↔ (CommonPacketItem.mk' t d).pack = (CommonPacketItem.mk' u e).pack) ∧
    ((CommonPacketItem.mk' t d).ne (.mk' u e) = true ↔ (CommonPacketItem.mk' t d).pack ≠ (CommonPacketItem.mk' u e).pack) := by
  have hdata : ∀ (t : BitVec 16) (d : List Byte), d.length < 65536 →
      (if (CommonPacketItem.mk' t d).length > 0#16 then (CommonPacketItem.mk' t d).data else []) = d := by
    intro t d hd
    split
    · rfl
    · rename_i h
      simp only [CommonPacketItem.mk', gt_iff_lt, BitVec.lt_def, BitVec.toNat_ofNat] at h
      have : d.length = 0 := by omega
      rw [List.eq_nil_of_length_eq_zero this]
  have h : (CommonPacketItem.mk' t d).eq (.mk' u e) = true ↔ (CommonPacketItem.mk' t d).pack = (CommonPacketItem.mk' u e).pack := by
    rw [item_eq_iff]
    refine ⟨fun h => by rw [h], fun h => ?_⟩
    rw [item_pack_eq, item_pack_eq, hdata t d hd, hdata u e he] at h
    obtain ⟨h1, h⟩ := le_append_inj (BitVec.isLt _) (BitVec.isLt _) h
    obtain ⟨-, h⟩ := le_append_inj (BitVec.isLt _) (BitVec.isLt _) h
    have h1 : t = u := BitVec.eq_of_toNat_eq h1
    rw [h1, h]
  refine ⟨h, ?_⟩
  rw [CommonPacketItem.ne, Bool.not_eq_true', ← Bool.not_eq_true, item_eq_iff, eq_comm, ← item_eq_iff]
  exact not_congr h

/-- C92. Without the bound that is false: an item with a multiple of 65536 bytes compares unequal to the empty item of
its type, and is the same bytes on the wire. -/
theorem C92_item_violated (t : BitVec 16) (k : Nat) (d : List (BitVec 8)) (hd : d.length = 65536 * (k + 1)) :
    (CommonPacketItem.mk' t d).eq (.mk' t []) = false ∧ (CommonPacketItem.mk' t d).pack = (CommonPacketItem.mk' t []).pack := by
  have hl : BitVec.ofNat 16 d.length = 0#16 := by
    apply BitVec.eq_of_toNat_eq
    rw [BitVec.toNat_ofNat, hd]
    simp
  refine ⟨?_, ?_⟩
  · rw [← Bool.not_eq_true, item_eq_iff]
    intro h
    have := congrArg (fun i => i.data.length) h
    simp [CommonPacketItem.mk'] at this
    rw [this] at hd
    simp at hd
  · rw [item_pack_eq, item_pack_eq]
    simp [CommonPacketItem.mk', hl]

/-! ## Revisions -/

/-- The number of a list of digits. -/
def digitsValue (cs : List Char) : Nat := cs.foldl (fun n c => n * 10 + (c.toNat - 48)) 0

theorem byte_text : ∀ n : Fin 256, digitsValue (toString n.val).toList = n.val ∧ '.' ∉ (toString n.val).toList := by decide +kernel

theorem dot_split {a b c d : List Char} (ha : '.' ∉ a) (hc : '.' ∉ c) (h : a ++ '.' :: b = c ++ '.' :: d) : a = c ∧ b = d := by
  induction a generalizing c with
  | nil =>
    cases c with
    | nil => simpa using h
    | cons x c => simp at h; exact absurd (by rw [h.1]; exact List.mem_cons_self) hc
  | cons x a ih =>
    cases c with
    | nil => simp at h; exact absurd (by rw [h.1]; exact List.mem_cons_self) ha
    | cons y c =>
      simp at h ha hc
      obtain ⟨e1, e2⟩ := ih ha.2 hc.2 h.2
      exact ⟨by rw [h.1, e1], e2⟩

/-- C92. Revisions compare equal exactly if they have the same major and minor number, that is if they are shown
as the same text. -/
theorem C92_revision (r s : CipRevision) :
    (r.eq s = true ↔ r.major = s.major ∧ r.minor = s.minor) ∧ (r.eq s = true ↔ r.toStr = s.toStr) := by
  have h1 : r.eq s = true ↔ r.major = s.major ∧ r.minor = s.minor := by simp [CipRevision.eq]
  refine ⟨h1, h1.trans ⟨fun h => by simp only [CipRevision.toStr, h.1, h.2], fun h => ?_⟩⟩
  have h := congrArg String.toList h
  simp only [CipRevision.toStr, String.toList_append, List.append_assoc] at h
  have ra := byte_text ⟨r.major.toNat, r.major.isLt⟩
  have rb := byte_text ⟨r.minor.toNat, r.minor.isLt⟩
  have sa := byte_text ⟨s.major.toNat, s.major.isLt⟩
  have sb := byte_text ⟨s.minor.toNat, s.minor.isLt⟩
  obtain ⟨e1, e2⟩ := dot_split ra.2 sa.2 h
  refine ⟨BitVec.eq_of_toNat_eq ?_, BitVec.eq_of_toNat_eq ?_⟩
  · exact ra.1.symm.trans ((congrArg digitsValue e1).trans sa.1)
  · exact rb.1.symm.trans ((congrArg digitsValue e2).trans sb.1)

/-- A revision as a user reads it. -/
example : (⟨32#8, 1#8⟩ : CipRevision).toStr = "32.1" ∧ (⟨3#8, 21#8⟩ : CipRevision).toStr ≠ (⟨32#8, 1#8⟩ : CipRevision).toStr := by decide +kernel

/-- Two packets that differ only in a byte of the context, both obtained by decoding. -/
example : ∃ p q, Obtained p ∧ Obtained q ∧ p.eq q = false ∧ p.length = q.length ∧ p.data = q.data ∧ p.context ≠ q.context := by
  refine ⟨EncapsPacket.default, { EncapsPacket.default with context := 1#8 :: List.replicate 7 0#8 }, .default,
    .expand Mem.strict ({ EncapsPacket.default with context := 1#8 :: List.replicate 7 0#8 } : EncapsPacket).pack .default ?_, ?_⟩
  · decide +kernel
  · decide +kernel

/-- Items of 65536 bytes exist. -/
example : (CommonPacketItem.mk' 0xB2#16 (List.replicate 65536 0#8)).pack = (CommonPacketItem.mk' 0xB2#16 []).pack :=
  (C92_item_violated 0xB2#16 0 _ (by rw [List.length_replicate])).2

end Verif.Props
