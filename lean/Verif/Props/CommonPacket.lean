import Verif.Model.Eip
import Verif.Spec.Eip
import Verif.Lemmas.Reader
import Verif.Props.Buffer

/-!
# Properties C08, C09 (common packets)
-/

namespace Verif.Props

open Verif Verif.Spec

/-- What an item is to a user: its type and its data. -/
def itemView (i : CommonPacketItem) : Nat × List Byte := (i.typeId.toNat, i.data)

theorem item_pack (t : ItemId) (d : List Byte) (h : d.length < 65536) :
    (CommonPacketItem.mk' t d).pack = cpfItem t.toNat d := by
  unfold CommonPacketItem.pack CommonPacketItem.mk'
  have e : (BitVec.ofNat 16 d.length).toNat = d.length := by simp; omega
  by_cases h0 : d = []
  · subst h0
    simp [C02_little_endian, Buffer.empty, cpfItem]
  · have : BitVec.ofNat 16 d.length > 0#16 := by
      have : 0 < d.length := List.length_pos_iff.mpr h0
      simp only [gt_iff_lt, BitVec.lt_def, e]
      simpa using this
    simp [this, C02_little_endian, Buffer.empty, Buffer.putBytes, cpfItem, Nat.mod_eq_of_lt h]

theorem packItems_eq (b : Buffer) (is : List CommonPacketItem) :
    (CommonPacket.packItems b is).bytes = b.bytes ++ is.flatMap CommonPacketItem.pack := by
  induction is generalizing b with
  | nil => simp [CommonPacket.packItems]
  | cons i is ih => simp [CommonPacket.packItems, ih, Buffer.putBytes]

/-- C08. The packed bytes follow the common packet format. -/
theorem C08_layout (items : List (ItemId × List Byte))
    (hfit : items.length < 65536 ∧ ∀ i ∈ items, i.2.length < 65536) :
    CommonPacket.pack (items.map fun i => CommonPacketItem.mk' i.1 i.2)
      = cpf (items.map fun i => (i.1.toNat, i.2)) := by
  unfold CommonPacket.pack cpf
  rw [packItems_eq]
  have e : (BitVec.ofNat 16 items.length).toNat = items.length := by simp; omega
  simp only [List.length_map, C02_little_endian, e, Buffer.empty, List.nil_append]
  congr 1
  have : ∀ l : List (ItemId × List Byte), (∀ i ∈ l, i.2.length < 65536) →
      (l.map fun i => CommonPacketItem.mk' i.1 i.2).flatMap CommonPacketItem.pack
      = (l.map fun i => (i.1.toNat, i.2)).flatMap fun i => cpfItem i.1 i.2 := by
    intro l hl
    induction l with
    | nil => rfl
    | cons i l ih =>
      simp only [List.map_cons, List.flatMap_cons]
      rw [item_pack _ _ (hl i (by simp)), ih (fun j hj => hl j (by simp [hj]))]
  exact this items hfit.2

theorem reads_item (t : ItemId) (d : List Byte) (h : d.length < 65536) :
    Reads CommonPacket.expandItem (cpfItem t.toNat d) (CommonPacketItem.mk' t d) := by
  have e : (BitVec.ofNat 16 d.length).toNat = d.length := by simp; omega
  have hl := Reads.u16 (BitVec.ofNat 16 d.length)
  rw [e] at hl
  have hd : Reads (do
      let itemData ← Rd.bytes (BitVec.ofNat 16 d.length).toNat
      let b ← Rd.get
      if b.isValid then pure (CommonPacketItem.mk' t itemData)
      else Rd.throw (.runtime "Wrong Common Packet format")) d (CommonPacketItem.mk' t d) := by
    intro m pre post
    have h1 := (Reads.bytes' e.symm) m pre post
    rw [Rd.bind_ok h1, Rd.bind_ok (Rd.get_run _ _), Rd.ite_run, if_pos (by simp [Buffer.isValid])]
    rfl
  have := (Reads.u16 t).bind (f := fun t' => do
      let length ← Rd.u16
      let itemData ← Rd.bytes length.toNat
      let b ← Rd.get
      if b.isValid then pure (CommonPacketItem.mk' t' itemData)
      else Rd.throw (.runtime "Wrong Common Packet format")) (hl.bind hd)
  exact this.cast (by simp [cpfItem]) rfl

/-- Items of a list followed by anything. -/
theorem expandItems_ok (is : List (ItemId × List Byte)) (hl : ∀ i ∈ is, i.2.length < 65536) (n : Nat)
    (hn : is.length ≤ n) (m : Mem) (pre tail : List Byte) (ht : is.length = n ∨ tail = []) :
    CommonPacket.expandItems n m
      ⟨pre ++ (is.flatMap (fun i => cpfItem i.1.toNat i.2) ++ tail), pre.length⟩ =
    .ok (is.map fun i => CommonPacketItem.mk' i.1 i.2,
      ⟨pre ++ (is.flatMap (fun i => cpfItem i.1.toNat i.2) ++ tail),
        pre.length + (is.flatMap (fun i => cpfItem i.1.toNat i.2)).length⟩) := by
  induction n generalizing is pre with
  | zero =>
    have : is = [] := List.length_eq_zero_iff.mp (by omega)
    subst this
    simp [CommonPacket.expandItems]
  | succ n ih =>
    cases is with
    | nil =>
      rcases ht with h | h
      · simp at h
      · subst h
        simp [CommonPacket.expandItems, Rd.bind_run, Buffer.isEmpty]
    | cons i is =>
      unfold CommonPacket.expandItems
      rw [Rd.bind_ok (Rd.get_run _ _), Rd.ite_run, if_neg (by simp [Buffer.isEmpty, cpfItem]; omega)]
      have h1 := (reads_item i.1 i.2 (hl i (by simp))) m pre
        (is.flatMap (fun i => cpfItem i.1.toNat i.2) ++ tail)
      have h2 := ih is (fun j hj => hl j (by simp [hj])) (by simpa using hn)
        (pre ++ cpfItem i.1.toNat i.2) (by rcases ht with h | h; (· left; simpa using h); exact .inr h)
      simp only [List.flatMap_cons, List.append_assoc] at h1 h2 ⊢
      rw [Rd.bind_ok h1]
      simp only [List.length_append] at h2 ⊢
      rw [Rd.bind_ok h2]
      simp [Nat.add_assoc]

/-- Decoding a count and complete items. -/
theorem expand_ok (count : BitVec 16) (is : List (ItemId × List Byte)) (hl : ∀ i ∈ is, i.2.length < 65536)
    (hn : is.length ≤ count.toNat) (m : Mem) (tail : List Byte) (ht : is.length = count.toNat ∨ tail = []) :
    CommonPacket.expand m (le 2 count.toNat ++ (is.flatMap (fun i => cpfItem i.1.toNat i.2) ++ tail)) =
      .ok (is.map fun i => CommonPacketItem.mk' i.1 i.2) := by
  have h1 := (Reads.u16 count).start (post := is.flatMap (fun i => cpfItem i.1.toNat i.2) ++ tail) m
  have h2 := expandItems_ok is hl count.toNat hn m (le 2 count.toNat) tail ht
  unfold CommonPacket.expand CommonPacket.expandRd
  rw [Rd.bind_ok h1, h2]

/-- C08. Packing a list of items and expanding the bytes gives the same items in
the same order, within the limits of the format. -/
theorem C08_roundtrip (items : List (ItemId × List Byte))
    (hfit : items.length < 65536 ∧ ∀ i ∈ items, i.2.length < 65536) (m : Mem) :
    CommonPacket.expand m (CommonPacket.pack (items.map fun i => CommonPacketItem.mk' i.1 i.2))
      = .ok (items.map fun i => CommonPacketItem.mk' i.1 i.2) := by
  have e : (BitVec.ofNat 16 items.length).toNat = items.length := by simp; omega
  have h := expand_ok (BitVec.ofNat 16 items.length) items hfit.2 (by omega) m [] (.inr rfl)
  rw [e, List.append_nil] at h
  rw [C08_layout items hfit, cpf]
  simpa [List.flatMap_map] using h

/-- C08. The data and type of a decoded item are those that were put in. -/
theorem C08_item_view (t : ItemId) (d : List Byte) :
    itemView (CommonPacketItem.mk' t d) = (t.toNat, d) := rfl

example : ([(0xB1#16, [1#8, 2#8, 3#8]), (0x8002#16, [])] : List (ItemId × List Byte)).length < 65536 ∧
    ∀ i ∈ ([(0xB1#16, [1#8, 2#8, 3#8]), (0x8002#16, [])] : List (ItemId × List Byte)), i.2.length < 65536 := by
  simp

/-- C08. What is written for any list of items: the number of items and the length of each are reduced modulo 65536, and
the data of an item is written whole, or not at all if its length is a multiple of 65536. -/
theorem C08_truncated (items : List (ItemId × List Byte)) :
    CommonPacket.pack (items.map fun i => CommonPacketItem.mk' i.1 i.2) =
      le 2 (items.length % 65536) ++ items.flatMap fun i =>
        le 2 i.1.toNat ++ le 2 (i.2.length % 65536) ++ (if i.2.length % 65536 = 0 then [] else i.2) := by
  have one : ∀ i : ItemId × List Byte, (CommonPacketItem.mk' i.1 i.2).pack =
      le 2 i.1.toNat ++ le 2 (i.2.length % 65536) ++ (if i.2.length % 65536 = 0 then [] else i.2) := by
    intro i
    unfold CommonPacketItem.pack CommonPacketItem.mk'
    have e : (BitVec.ofNat 16 i.2.length).toNat = i.2.length % 65536 := by simp
    by_cases h0 : i.2.length % 65536 = 0
    · have : ¬ BitVec.ofNat 16 i.2.length > 0#16 := by simp [BitVec.lt_def, h0]
      simp only [if_neg this, if_pos h0, C02_little_endian, Buffer.empty, e]
      simp
    · have : BitVec.ofNat 16 i.2.length > 0#16 := by simp [BitVec.lt_def]; omega
      simp only [if_pos this, if_neg h0, C02_little_endian, Buffer.empty, Buffer.putBytes, e]
      simp
  unfold CommonPacket.pack
  rw [packItems_eq]
  simp only [List.length_map, C02_little_endian, Buffer.empty, List.nil_append, List.flatMap_map, one, BitVec.toNat_ofNat]

/-- C08. At the limit the law fails: an item with exactly 65536 bytes is packed
with length 0 and no data at all. -/
theorem C08_oversized_item_loses_data (t : ItemId) (d : List Byte) (h : d.length % 65536 = 0) :
    (CommonPacketItem.mk' t d).pack = cpfItem t.toNat [] := by
  unfold CommonPacketItem.pack CommonPacketItem.mk'
  have e : BitVec.ofNat 16 d.length = 0#16 := by
    apply BitVec.eq_of_toNat_eq; simpa using h
  simp [e, C02_little_endian, Buffer.empty, cpfItem]

example : (List.replicate 65536 7#8 : List Byte).length % 65536 = 0 := by
  rw [List.length_replicate]

/-- C08. A packet with exactly 65536 items is decoded as an empty packet. -/
theorem C08_too_many_items_lost (items : List CommonPacketItem) (h : items.length % 65536 = 0) (m : Mem) :
    CommonPacket.expand m (CommonPacket.pack items) = .ok [] := by
  have e : BitVec.ofNat 16 items.length = 0#16 := by
    apply BitVec.eq_of_toNat_eq; simpa using h
  unfold CommonPacket.pack
  rw [packItems_eq, e]
  have h1 := (Reads.u16 0#16).start (post := items.flatMap CommonPacketItem.pack) m
  simp only [C02_little_endian, Buffer.empty, List.nil_append]
  unfold CommonPacket.expand CommonPacket.expandRd
  rw [Rd.bind_ok h1]
  rfl

/-! ## C09 -/

/-- One step of decoding at any point of a buffer: a complete item, or a stray read. -/
theorem expandItem_cases (b : Buffer) (hb : b.pos ≤ b.bytes.length) :
    (∃ t d, d.length < 65536 ∧ (b.bytes.drop b.pos).take (cpfItem t d).length = cpfItem t d ∧ t < 65536 ∧
      ∀ m, CommonPacket.expandItem m b =
        .ok (CommonPacketItem.mk' (BitVec.ofNat 16 t) d, ⟨b.bytes, b.pos + (cpfItem t d).length⟩)) ∨
    (CommonPacket.expandItem Mem.strict b = .ub ∧
      ∀ m : Mem, m.Lenient → CommonPacket.expandItem m b = .throw (.runtime "Wrong Common Packet format")) := by
  -- the tail of the reader after the header
  have short : ∀ (b : Buffer), (∀ m : Mem, m.Lenient → ∃ (t l : BitVec 16), 
      b.bytes.length < b.pos + 4 + l.toNat ∧ (Rd.u16 >>= fun t => Rd.u16 >>= fun l => pure (t, l)) m b =
        .ok ((t, l), ⟨b.bytes, b.pos + 4⟩)) → ∀ m : Mem, m.Lenient →
      CommonPacket.expandItem m b = .throw (.runtime "Wrong Common Packet format") := by
    intro b h m hm
    obtain ⟨t, l, hl, hr⟩ := h m hm
    unfold CommonPacket.expandItem
    simp only [Rd.bind_run, Rd.pure_run] at hr ⊢
    cases e1 : Rd.u16 m b with
    | ub => simp [e1] at hr
    | throw e => simp [e1] at hr
    | ok p =>
      obtain ⟨t', b1⟩ := p
      simp only [e1] at hr ⊢
      cases e2 : Rd.u16 m b1 with
      | ub => simp [e2] at hr
      | throw e => simp [e2] at hr
      | ok q =>
        obtain ⟨l', b2⟩ := q
        simp only [e2] at hr ⊢
        injection hr with hr
        injection hr with hr1 hr2
        injection hr1 with hr1 hr3
        subst hr2; subst hr1; subst hr3
        obtain ⟨d, hd⟩ := (Sized.bytes l'.toNat).lenient m hm ⟨b.bytes, b.pos + 4⟩
        simp only [hd, Rd.get_run, Rd.ite_run]
        rw [if_neg (by simp [Buffer.isValid]; omega)]
        rfl
  by_cases h4 : b.pos + 4 ≤ b.bytes.length
  · -- header present
    obtain ⟨b0, b1, b2, b3, rest, hd⟩ : ∃ b0 b1 b2 b3 rest, b.bytes.drop b.pos = b0 :: b1 :: b2 :: b3 :: rest := by
      rw [List.drop_eq_getElem_cons (by omega), List.drop_eq_getElem_cons (by omega),
        List.drop_eq_getElem_cons (by omega), List.drop_eq_getElem_cons (by omega)]
      exact ⟨_, _, _, _, _, rfl⟩
    have hlt1 := ofLe_lt [b0, b1]
    have hlt2 := ofLe_lt [b2, b3]
    simp only [List.length_cons, List.length_nil] at hlt1 hlt2
    have hrest : rest.length = b.bytes.length - b.pos - 4 := by
      have := congrArg List.length hd
      simp at this; omega
    by_cases hlen : ofLe [b2, b3] ≤ rest.length
    · left
      refine ⟨ofLe [b0, b1], rest.take (ofLe [b2, b3]), by simp; omega, ?_, by omega, ?_⟩
      · have e1 : le 2 (ofLe [b0, b1]) = [b0, b1] := le_ofLe [b0, b1]
        have e2 : le 2 (ofLe [b2, b3]) = [b2, b3] := le_ofLe [b2, b3]
        have e3 : (rest.take (ofLe [b2, b3])).length = ofLe [b2, b3] := by simp; omega
        simp only [cpfItem, e1, e2, e3, List.length_append, List.length_cons, List.length_nil, hd]
        simp [Nat.add_comm 4, List.take_succ_cons]
      · intro m
        have hr := reads_item (BitVec.ofNat 16 (ofLe [b0, b1])) (rest.take (ofLe [b2, b3])) (by simp; omega)
        have e0 : (BitVec.ofNat 16 (ofLe [b0, b1])).toNat = ofLe [b0, b1] := by simp; omega
        rw [e0] at hr
        refine hr.at m b hb ?_
        have e1 : le 2 (ofLe [b0, b1]) = [b0, b1] := le_ofLe [b0, b1]
        have e2 : le 2 (ofLe [b2, b3]) = [b2, b3] := le_ofLe [b2, b3]
        have e3 : (rest.take (ofLe [b2, b3])).length = ofLe [b2, b3] := by simp; omega
        simp only [cpfItem, e1, e2, e3, List.length_append, List.length_cons, List.length_nil, hd]
        simp [Nat.add_comm 4, List.take_succ_cons]
    · right
      have hhead : ∀ m, (Rd.u16 >>= fun t => Rd.u16 >>= fun l => pure (t, l)) m b =
          .ok ((BitVec.ofNat 16 (ofLe [b0, b1]), BitVec.ofNat 16 (ofLe [b2, b3])), ⟨b.bytes, b.pos + 4⟩) := by
        intro m
        have hr : Reads (Rd.u16 >>= fun t => Rd.u16 >>= fun l => pure (t, l)) ([b0, b1] ++ [b2, b3]) _ :=
          (Reads.u16_raw b0 b1).bind ((Reads.u16_raw b2 b3).map_pure (fun l => (BitVec.ofNat 16 (ofLe [b0, b1]), l)))
        exact hr.at m b hb (by simp [hd])
      have e0 : (BitVec.ofNat 16 (ofLe [b2, b3])).toNat = ofLe [b2, b3] := by simp; omega
      refine ⟨?_, short b (fun m _ => ⟨_, _, by omega, hhead m⟩)⟩
      have h1 := (Reads.u16_raw b0 b1).at Mem.strict b hb (by simp [hd])
      have h2 := (Reads.u16_raw b2 b3).at Mem.strict ⟨b.bytes, b.pos + 2⟩ (by simp; omega) (by
        have : (b.bytes.drop (b.pos + 2)) = b2 :: b3 :: rest := by
          rw [← List.drop_drop, hd]; rfl
        simp [this])
      have h3 := (Sized.bytes (BitVec.ofNat 16 (ofLe [b2, b3])).toNat).short ⟨b.bytes, b.pos + 2 + 2⟩
        (by simp; omega) (by simp only [e0]; omega)
      unfold CommonPacket.expandItem
      exact (Rd.bind_ok h1).trans ((Rd.bind_ok h2).trans (Rd.bind_ub h3))
  · right
    refine ⟨?_, short b ?_⟩
    · unfold CommonPacket.expandItem
      by_cases h2 : b.pos + 2 ≤ b.bytes.length
      · obtain ⟨t, ht⟩ := Sized.u16.enough Mem.strict b h2
        exact (Rd.bind_ok ht).trans (Rd.bind_ub (Sized.u16.short _ (by simpa using h2) (by simp; omega)))
      · exact Rd.bind_ub (Sized.u16.short b hb (by omega))
    · intro m hm
      obtain ⟨t, ht⟩ := Sized.u16.lenient m hm b
      obtain ⟨l, hl⟩ := Sized.u16.lenient m hm ⟨b.bytes, b.pos + 2⟩
      exact ⟨t, l, by omega, (Rd.bind_ok ht).trans (Rd.bind_ok hl)⟩

theorem expandItems_cases (n : Nat) (b : Buffer) (hb : b.pos ≤ b.bytes.length) :
    (∃ (is : List (Nat × List Byte)) (tail : List Byte),
      b.bytes.drop b.pos = is.flatMap (fun i => cpfItem i.1 i.2) ++ tail ∧ is.length ≤ n ∧
      (is.length = n ∨ tail = []) ∧ (∀ i ∈ is, i.1 < 65536 ∧ i.2.length < 65536) ∧
      ∀ m, ∃ b', CommonPacket.expandItems n m b =
        .ok (is.map fun i => CommonPacketItem.mk' (BitVec.ofNat 16 i.1) i.2, b')) ∨
    (CommonPacket.expandItems n Mem.strict b = .ub ∧
      ∀ m : Mem, m.Lenient → CommonPacket.expandItems n m b = .throw (.runtime "Wrong Common Packet format")) := by
  induction n generalizing b with
  | zero =>
    left
    exact ⟨[], b.bytes.drop b.pos, by simp, by simp, by simp, by simp, fun m => ⟨b, rfl⟩⟩
  | succ n ih =>
    unfold CommonPacket.expandItems
    by_cases he : b.isEmpty = true
    · left
      have : b.bytes.length ≤ b.pos := by simpa [Buffer.isEmpty] using he
      refine ⟨[], [], by simp [List.drop_eq_nil_of_le this], by simp, .inr rfl, by simp, fun m => ⟨b, ?_⟩⟩
      rw [Rd.bind_ok (Rd.get_run _ _), Rd.ite_run, if_pos he]
      rfl
    · have step : ∀ m, (do
          let b ← Rd.get
          if b.isEmpty then pure []
          else do
            let i ← CommonPacket.expandItem
            let is ← CommonPacket.expandItems n
            pure (i :: is)) m b = (do
            let i ← CommonPacket.expandItem
            let is ← CommonPacket.expandItems n
            pure (i :: is)) m b := by
        intro m
        rw [Rd.bind_ok (Rd.get_run _ _), Rd.ite_run, if_neg he]
      rcases expandItem_cases b hb with ⟨t, d, hd, htake, ht, hok⟩ | ⟨hu, hl⟩
      · have hpos : b.pos + (cpfItem t d).length ≤ b.bytes.length := by
          have := congrArg List.length htake
          simp only [List.length_take, List.length_drop] at this
          omega
        have hsplit : b.bytes.drop b.pos = cpfItem t d ++ b.bytes.drop (b.pos + (cpfItem t d).length) := by
          conv => lhs; rw [← List.take_append_drop (cpfItem t d).length (b.bytes.drop b.pos), htake]
          rw [List.drop_drop]
        rcases ih ⟨b.bytes, b.pos + (cpfItem t d).length⟩ hpos with ⟨is, tail, h1, h2, h3, h4, h5⟩ | ⟨h1, h2⟩
        · left
          refine ⟨(t, d) :: is, tail, ?_, by simpa using h2, by simpa using h3, ?_, fun m => ?_⟩
          · rw [hsplit]; simp only at h1; rw [h1]; simp
          · intro i hi
            simp at hi
            rcases hi with rfl | hi
            · exact ⟨ht, hd⟩
            · exact h4 i hi
          · obtain ⟨b', hb'⟩ := h5 m
            refine ⟨b', ?_⟩
            rw [step m, Rd.bind_ok (hok m), Rd.bind_ok hb']
            rfl
        · right
          refine ⟨?_, fun m hm => ?_⟩
          · rw [step, Rd.bind_ok (hok _), Rd.bind_ub h1]
          · rw [step, Rd.bind_ok (hok _), Rd.bind_throw (h2 m hm)]
      · right
        refine ⟨?_, fun m hm => ?_⟩
        · rw [step, Rd.bind_ub hu]
        · rw [step, Rd.bind_throw (hl m hm)]

/-- C09. Complete classification of the common packet decoder, for every byte
string of at least two bytes.  Either the string is accepted by the grammar and
the decoder returns exactly its items, whatever surrounds the buffer; or the
decoder reads out of bounds, and should those stray reads return bytes (any
bytes) it throws. -/
theorem C09_classification (data : List Byte) (h2 : 2 ≤ data.length) :
    (∃ items, CpfAccepts data items ∧ ∀ m, CommonPacket.expand m data =
        .ok (items.map fun i => CommonPacketItem.mk' (BitVec.ofNat 16 i.1) i.2)) ∨
    ((¬ ∃ items, CpfAccepts data items) ∧ CommonPacket.expand Mem.strict data = .ub ∧
      ∀ m : Mem, m.Lenient →
        CommonPacket.expand m data = .throw (.runtime "Wrong Common Packet format")) := by
  obtain ⟨b0, b1, rest, rfl⟩ : ∃ b0 b1 rest, data = b0 :: b1 :: rest := by
    match data, h2 with
    | b0 :: b1 :: rest, _ => exact ⟨b0, b1, rest, rfl⟩
  have hlt := ofLe_lt [b0, b1]
  simp only [List.length_cons, List.length_nil] at hlt
  have e0 : (BitVec.ofNat 16 (ofLe [b0, b1])).toNat = ofLe [b0, b1] := by simp; omega
  have hle : le 2 (ofLe [b0, b1]) = [b0, b1] := le_ofLe [b0, b1]
  have h1 : ∀ m, Rd.u16 m (Buffer.ofData (b0 :: b1 :: rest)) =
      .ok (BitVec.ofNat 16 (ofLe [b0, b1]), ⟨b0 :: b1 :: rest, 2⟩) :=
    fun m => (Reads.u16_raw b0 b1).start (post := rest) m
  rcases expandItems_cases (ofLe [b0, b1]) ⟨b0 :: b1 :: rest, 2⟩ (by simp) with
    ⟨is, tail, k1, k2, k3, k4, k5⟩ | ⟨k1, k2⟩
  · left
    refine ⟨is, ⟨ofLe [b0, b1], tail, by omega, ?_, k2, k3, k4⟩, fun m => ?_⟩
    · rw [hle, ← k1]; rfl
    · obtain ⟨b', hb'⟩ := k5 m
      unfold CommonPacket.expand CommonPacket.expandRd
      rw [Rd.bind_ok (h1 m), e0, hb']
  · right
    have hub : CommonPacket.expand Mem.strict (b0 :: b1 :: rest) = .ub := by
      unfold CommonPacket.expand CommonPacket.expandRd
      rw [Rd.bind_ok (h1 _), e0, k1]
    refine ⟨?_, hub, fun m hm => ?_⟩
    · rintro ⟨items, count, tail, hc, hdata, hn, ht, hi⟩
      have := expand_ok (BitVec.ofNat 16 count) (items.map fun i => (BitVec.ofNat 16 i.1, i.2))
        (by
          intro i h; obtain ⟨j, hj, rfl⟩ := List.mem_map.mp h; exact (hi j hj).2) (by simpa [Nat.mod_eq_of_lt hc] using hn) Mem.strict tail
        (by simpa [Nat.mod_eq_of_lt hc] using ht)
      have ec : (BitVec.ofNat 16 count).toNat = count := by simp; omega
      have ef : (items.map fun i => ((BitVec.ofNat 16 i.1 : ItemId), i.2)).flatMap (fun i => cpfItem i.1.toNat i.2)
          = items.flatMap (fun i => cpfItem i.1 i.2) := by
        rw [List.flatMap_map]
        have : ∀ l : List (Nat × List Byte), (∀ i ∈ l, i.1 < 65536) →
            l.flatMap (fun i => cpfItem (BitVec.ofNat 16 i.1).toNat i.2) = l.flatMap (fun i => cpfItem i.1 i.2) := by
          intro l hl
          induction l with
          | nil => rfl
          | cons a l ihl =>
            have : (BitVec.ofNat 16 a.1).toNat = a.1 := by
              have := hl a (by simp); simp; omega
            simp only [List.flatMap_cons, this]
            rw [ihl (fun i hi => hl i (by simp [hi]))]
        exact this items (fun i h => (hi i h).1)
      rw [ec, ef, ← hdata, hub] at this
      cases this
    · unfold CommonPacket.expand CommonPacket.expandRd
      rw [Rd.bind_ok (h1 _), e0, k2 m hm]

/-- C09. With fewer than two bytes even the count is read out of bounds; if the
stray reads return bytes, an empty packet is reported without any error. -/
theorem C09_no_count (data : List Byte) (h : data.length < 2) :
    CommonPacket.expand Mem.strict data = .ub ∧
      ∀ m : Mem, m.Lenient → CommonPacket.expand m data = .ok [] := by
  constructor
  · unfold CommonPacket.expand CommonPacket.expandRd
    rw [Rd.bind_ub (Sized.u16.short (Buffer.ofData data) (by simp [Buffer.ofData]) (by simp [Buffer.ofData]; omega))]
  · intro m hm
    obtain ⟨c, hc⟩ := Sized.u16.lenient m hm (Buffer.ofData data)
    unfold CommonPacket.expand CommonPacket.expandRd
    rw [Rd.bind_ok hc]
    have : CommonPacket.expandItems c.toNat m ⟨data, 0 + 2⟩ = .ok ([], ⟨data, 0 + 2⟩) := by
      cases c.toNat with
      | zero => rfl
      | succ n =>
        unfold CommonPacket.expandItems
        rw [Rd.bind_ok (Rd.get_run _ _), Rd.ite_run, if_pos (by simp [Buffer.isEmpty]; omega)]
        rfl
    simp only [Buffer.ofData] at this ⊢
    rw [this]

example : CommonPacket.expand Mem.strict [1#8, 0#8, 0xb2#8, 0#8, 2#8, 0#8, 7#8] = .ub := by decide +kernel
example : CommonPacket.expand (fun _ => some 9#8) [1#8, 0#8, 0xb2#8, 0#8, 2#8, 0#8, 7#8]
    = .throw (.runtime "Wrong Common Packet format") := by decide +kernel
example : CommonPacket.expand Mem.strict [2#8, 0#8, 0xb2#8, 0#8, 1#8, 0#8, 7#8]
    = .ok [CommonPacketItem.mk' 0xb2#16 [7#8]] := by decide +kernel

/-- C09. Under the C++ standard's reading the decoder never throws: its own error
report can only be reached after a stray read. -/
theorem C09_never_throws_strict (data : List Byte) (e : Exn) :
    CommonPacket.expand Mem.strict data ≠ .throw e := by
  by_cases h : 2 ≤ data.length
  · rcases C09_classification data h with ⟨is, _, hok⟩ | ⟨_, hu, _⟩
    · rw [hok]; simp
    · rw [hu]; simp
  · rw [(C09_no_count data (by omega)).1]; simp

end Verif.Props
