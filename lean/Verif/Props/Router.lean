import Verif.Props.EPath

/-!
# Properties C14, C15, C16 (message router requests and responses)
-/

namespace Verif.Props

open Verif Verif.Spec

/-! ## C14 -/

/-- C14. The layout of a packed request with a user-built path. -/
theorem C14_layout (r : MessageRouterRequest) (ids : List (BitVec 16)) (h : Built r.path ids) :
    r.pack = mrRequest r.service.toNat (pathBytes r.use8 (ids.map BitVec.toNat)) r.data := by
  have hs := C11_size r.path ids h r.use8
  rw [← C11_layout r.path ids h]
  simp only [MessageRouterRequest.pack, mrRequest, Buffer.putBytes, C02_little_endian, Buffer.empty,
    List.nil_append, hs]
  rw [Nat.mul_div_cancel_left _ (by decide : 0 < 2)]

/-- C14. A target that follows the size byte recovers service, path and data. -/
theorem C14_decode (r : MessageRouterRequest) (ids : List (BitVec 16)) (h : Built r.path ids) :
    mrDecode r.pack = some (r.service.toNat, pathBytes r.use8 (ids.map BitVec.toNat), r.data) := by
  have hs := C11_size r.path ids h r.use8
  rw [C14_layout r ids h, ← C11_layout r.path ids h]
  simp only [mrRequest, le_one, hs, Nat.mul_div_cancel_left _ (by decide : 0 < 2), List.cons_append,
    List.nil_append, mrDecode, List.length_append]
  rw [if_pos (by omega), ← hs, List.take_left, List.drop_left]

/-- The path bytes of one kind list determine the identifiers. -/
theorem flatMap_seg_inj (use8 : Bool) (ks : List SegKind) (xs ys : List Nat)
    (hx : xs.length ≤ ks.length) (hy : ys.length ≤ ks.length)
    (fx : ∀ i ∈ xs, i < 256 ^ (if use8 then 1 else 2)) (fy : ∀ i ∈ ys, i < 256 ^ (if use8 then 1 else 2))
    (h : ((List.zip ks xs).flatMap fun p : SegKind × Nat =>
        if use8 then (Seg.short p.1 p.2).bytes else (Seg.long p.1 0#8 p.2).bytes) =
      ((List.zip ks ys).flatMap fun p : SegKind × Nat =>
        if use8 then (Seg.short p.1 p.2).bytes else (Seg.long p.1 0#8 p.2).bytes)) : xs = ys := by
  induction ks generalizing xs ys with
  | nil =>
    have hx0 : xs = [] := List.length_eq_zero_iff.mp (by simpa using hx)
    have hy0 : ys = [] := List.length_eq_zero_iff.mp (by simpa using hy)
    rw [hx0, hy0]
  | cons k ks ih =>
    cases xs with
    | nil =>
      cases ys with
      | nil => rfl
      | cons y ys => cases use8 <;> simp [Seg.bytes] at h
    | cons x xs =>
      cases ys with
      | nil => cases use8 <;> simp [Seg.bytes] at h
      | cons y ys =>
        simp only [List.zip_cons_cons, List.flatMap_cons] at h
        obtain ⟨h1, h2⟩ := List.append_inj h (by cases use8 <;> simp [Seg.bytes])
        have e : x = y := by
          cases use8
          · simp only [Bool.false_eq_true, if_false, Seg.bytes, List.cons.injEq, true_and] at h1 fx fy
            exact le_inj 2 x y (fx x (by simp)) (fy y (by simp)) h1
          · simp only [if_true, Seg.bytes, List.cons.injEq, true_and] at h1 fx fy
            exact le_inj 1 x y (fx x (by simp)) (fy y (by simp)) h1
        rw [e, ih xs ys (by simpa using hx) (by simpa using hy) (fun i hi => fx i (by simp [hi]))
          (fun i hi => fy i (by simp [hi])) h2]

theorem Built.unique {p q : EPath} {ids : List (BitVec 16)} (hp : Built p ids) (hq : Built q ids) : p = q := by
  cases hp <;> cases hq <;> rfl

theorem Built.length {p : EPath} {ids : List (BitVec 16)} (hp : Built p ids) :
    ids.length ≤ 3 ∧ ids ≠ [] := by
  cases hp <;> simp

/-- C14. Two requests with the same bytes are the same request (an 8-bit request
must name identifiers that fit 8 bits). -/
theorem C14_injective (r s : MessageRouterRequest) (ids jds : List (BitVec 16))
    (hr : Built r.path ids) (hs : Built s.path jds)
    (fr : r.use8 = true → ∀ i ∈ ids, i.toNat < 256) (fs : s.use8 = true → ∀ i ∈ jds, i.toNat < 256)
    (h : r.pack = s.pack) : r = s := by
  have h1 := C14_decode r ids hr
  rw [h, C14_decode s jds hs] at h1
  injection h1 with h1
  injection h1 with h1 h2
  injection h2 with h2 h3
  rcases r with ⟨rsv, rp, rd, ru⟩
  rcases s with ⟨ssv, sp, sd, su⟩
  simp only at hr hs fr fs h1 h2 h3
  have hu : ru = su := by
    clear fr fs h h1 h3
    cases hr <;> cases hs <;> cases ru <;> cases su <;>
      simp [pathBytes, Seg.bytes, SegKind.code8, SegKind.code16] at h2 ⊢
  subst hu
  have fit : ∀ (l : List (BitVec 16)), (ru = true → ∀ i ∈ l, i.toNat < 256) →
      ∀ i ∈ l.map BitVec.toNat, i < 256 ^ (if ru then 1 else 2) := by
    intro l hl i hi
    obtain ⟨v, hv, rfl⟩ := List.mem_map.mp hi
    cases ru
    · simpa using v.isLt
    · simpa using hl rfl v hv
  have hids := flatMap_seg_inj ru [SegKind.cls, .inst, .attr] (ids.map BitVec.toNat) (jds.map BitVec.toNat)
    (by simpa using hr.length.1) (by simpa using hs.length.1) (fit _ fr) (fit _ fs) h2.symm
  have : ids = jds := (List.map_inj_right (fun _ _ => BitVec.eq_of_toNat_eq)).mp hids
  subst this
  rw [hr.unique hs, BitVec.eq_of_toNat_eq h1, h3]

/-- C14. The 8-bit restriction is needed: an 8-bit request naming class 0x106 has
the bytes of one naming class 6. -/
theorem C14_wide_id_aliases :
    (⟨0x0E#8, EPath.mk2 0x106#16 1#16, [], true⟩ : MessageRouterRequest).pack =
    (⟨0x0E#8, EPath.mk2 6#16 1#16, [], true⟩ : MessageRouterRequest).pack := by decide

example : (⟨0x0E#8, EPath.mk3 6#16 1#16 1#16, [7#8], false⟩ : MessageRouterRequest).pack =
    [0x0E#8, 6#8, 0x21#8, 0#8, 6#8, 0#8, 0x25#8, 0#8, 1#8, 0#8, 0x31#8, 0#8, 1#8, 0#8, 7#8] := by decide

/-! ## C15, C16 -/

theorem reads_mr_header (service reserved status n : Byte) :
    Reads MessageRouterResponse.header [service, reserved, status, n] (service, status, n) :=
  (Reads.u8 service).bind ((Reads.u8 reserved).bind ((Reads.u8 status).bind
    ((Reads.u8 n).map_pure fun k => (service, status, k))))

theorem leWords_length (xs : List (BitVec 16)) : (leWords xs).length = 2 * xs.length := by
  induction xs with
  | nil => rfl
  | cons x xs ih => simp only [leWords, List.flatMap_cons] at ih ⊢; simp [ih]; omega

theorem leWords_append_inj (xs ys : List (BitVec 16)) (d e : List Byte) (hl : xs.length = ys.length)
    (h : leWords xs ++ d = leWords ys ++ e) : xs = ys ∧ d = e := by
  induction xs generalizing ys with
  | nil =>
    have : ys = [] := List.length_eq_zero_iff.mp hl.symm
    subst this
    exact ⟨rfl, h⟩
  | cons x xs ih =>
    cases ys with
    | nil => simp at hl
    | cons y ys =>
      simp only [leWords, List.flatMap_cons, List.append_assoc] at h ih
      obtain ⟨h1, h2⟩ := List.append_inj h (by simp)
      obtain ⟨h3, h4⟩ := ih ys (by simpa using hl) h2
      rw [BitVec.eq_of_toNat_eq (le_inj 2 _ _ (by simpa using x.isLt) (by simpa using y.isLt) h1), h3]
      exact ⟨rfl, h4⟩

/-- Every even-length byte string is a list of words. -/
theorem leWords_split (n : Nat) (l : List Byte) (h : l.length = 2 * n) :
    ∃ ws : List (BitVec 16), ws.length = n ∧ l = leWords ws := by
  induction n generalizing l with
  | zero => exact ⟨[], rfl, by simpa [leWords] using h⟩
  | succ n ih =>
    match l, h with
    | a :: b :: l, h =>
      obtain ⟨ws, h1, h2⟩ := ih l (by simp at h; omega)
      refine ⟨BitVec.ofNat 16 (ofLe [a, b]) :: ws, by simp [h1], ?_⟩
      have hlt := ofLe_lt [a, b]
      simp only [List.length_cons, List.length_nil] at hlt
      have e : le 2 (BitVec.ofNat 16 (ofLe [a, b])).toNat = [a, b] := by
        rw [BitVec.toNat_ofNat, Nat.mod_eq_of_lt (by omega)]
        exact le_ofLe [a, b]
      simp only [leWords, List.flatMap_cons, e] at h2 ⊢
      rw [h2]; rfl

/-- `expand` computed on any input of at least four bytes. -/
theorem mr_expand_compute (m : Mem) (r : MessageRouterResponse) (service reserved status n : Byte)
    (rest : List Byte) :
    (rest.length < 2 * n.toNat ∧
      r.expand m (service :: reserved :: status :: n :: rest) =
        .throw { r with service, status } (.runtime "Additional status has wrong size")) ∨
    (∃ (ws : List (BitVec 16)) (d : List Byte), ws.length = n.toNat ∧ rest = leWords ws ++ d ∧
      r.expand m (service :: reserved :: status :: n :: rest) =
        .ok { r with service, status, additionalStatus := ws, data := d } ()) := by
  have hh := (reads_mr_header service reserved status n).start (post := rest) m
  simp only [List.cons_append, List.nil_append, List.length_cons, List.length_nil] at hh
  unfold MessageRouterResponse.expand Buffer.ofData
  rw [if_neg (by simp)]
  unfold Buffer.ofData at hh
  rw [hh]
  dsimp only
  by_cases h : rest.length < 2 * n.toNat
  · left
    refine ⟨h, ?_⟩
    rw [if_pos (by simp; omega)]
  · right
    obtain ⟨ws, hw1, hw2⟩ := leWords_split n.toNat (rest.take (2 * n.toNat)) (by simp; omega)
    have hsplit : rest = leWords ws ++ rest.drop (2 * n.toNat) := by
      rw [← hw2, List.take_append_drop]
    refine ⟨ws, rest.drop (2 * n.toNat), hw1, hsplit, ?_⟩
    rw [if_neg (by simp; omega)]
    generalize rest.drop (2 * n.toNat) = d at hsplit
    subst hsplit
    have hr := (Reads.words' hw1) m [service, reserved, status, n] d
    simp only [List.cons_append, List.nil_append, List.length_cons, List.length_nil, Nat.zero_add,
      Nat.reduceAdd, List.append_assoc] at hr ⊢
    rw [hr]
    dsimp only
    rw [bytes_eq _ _ _ (by simp; omega)]
    simp only [Res.ok.injEq, MessageRouterResponse.mk.injEq, and_true, true_and]
    rw [show (service :: reserved :: status :: n :: (leWords ws ++ d)) =
      (service :: reserved :: status :: n :: leWords ws) ++ d from rfl]
    rw [List.drop_append_of_le_length (by simp; omega), List.drop_eq_nil_of_le (by simp; omega)]
    simp
    exact List.take_of_length_le (by omega)

theorem mr_parse_ok (m : Mem) (service reserved status n : Byte) (ws : List (BitVec 16)) (d : List Byte)
    (h1 : ws.length = n.toNat) :
    MessageRouterResponse.parse m (service :: reserved :: status :: n :: (leWords ws ++ d)) =
      .ok ⟨service, status, ws, d, []⟩ := by
  rcases mr_expand_compute m .default service reserved status n (leWords ws ++ d) with
    ⟨h, _⟩ | ⟨ws', d', h1', h2', h3'⟩
  · simp [leWords_length] at h; omega
  · obtain ⟨rfl, rfl⟩ := leWords_append_inj ws ws' d d' (by omega) h2'
    simp only [MessageRouterResponse.parse, h3']
    rfl

/-- C15. For every byte string, whatever is in memory around it: fewer than four
bytes throw; otherwise the string is service, reserved, status, count and a rest;
if the rest is shorter than the announced additional status it throws; otherwise
the string is exactly the encoding of the decoded fields, so nothing is lost. -/
theorem C15_total (data : List Byte) :
    (data.length < 4 ∧ ∀ m, MessageRouterResponse.parse m data =
      .throw (.runtime "Message Router response must have at least 4 bytes")) ∨
    (∃ service reserved status n : Byte, ∃ rest : List Byte,
      data = [service, reserved, status, n] ++ rest ∧ rest.length < 2 * n.toNat ∧
      ∀ m, MessageRouterResponse.parse m data = .throw (.runtime "Additional status has wrong size")) ∨
    (∃ (r : MessageRouterResponse) (reserved : Byte), (∀ m, MessageRouterResponse.parse m data = .ok r) ∧
      r.additionalStatus.length < 256 ∧ r.additionalItems = [] ∧
      data = mrResponse r.service.toNat reserved.toNat r.status.toNat
        (r.additionalStatus.map BitVec.toNat) r.data) := by
  match data with
  | [] | [_] | [_, _] | [_, _, _] => exact .inl ⟨by simp, fun _ => rfl⟩
  | service :: reserved :: status :: n :: rest =>
    right
    by_cases h : rest.length < 2 * n.toNat
    · left
      refine ⟨service, reserved, status, n, rest, rfl, h, fun m => ?_⟩
      rcases mr_expand_compute m .default service reserved status n rest with ⟨_, h'⟩ | ⟨ws, d, h1, h2, _⟩
      · simp only [MessageRouterResponse.parse, h']
      · exfalso
        have := congrArg List.length h2
        simp [leWords_length] at this
        omega
    · right
      rcases mr_expand_compute Mem.strict .default service reserved status n rest with
        ⟨h', _⟩ | ⟨ws, d, h1, h2, _⟩
      · exact absurd h' h
      subst h2
      refine ⟨_, reserved, fun m => mr_parse_ok m service reserved status n ws d h1, ?_, rfl, ?_⟩
      · simp only; have := n.isLt; omega
      · simp only [mrResponse, le_one, List.length_map, h1, leWords, List.flatMap_map]
        rfl

/-- C15. Conversely every encoding is decoded to its fields. -/
theorem C15_accepts (service reserved status : Byte) (ws : List (BitVec 16)) (hw : ws.length < 256)
    (d : List Byte) (m : Mem) :
    MessageRouterResponse.parse m (mrResponse service.toNat reserved.toNat status.toNat
      (ws.map BitVec.toNat) d) = .ok ⟨service, status, ws, d, []⟩ := by
  have e : mrResponse service.toNat reserved.toNat status.toNat (ws.map BitVec.toNat) d =
      service :: reserved :: status :: BitVec.ofNat 8 ws.length :: (leWords ws ++ d) := by
    have hn : (BitVec.ofNat 8 ws.length).toNat = ws.length := by simp; omega
    have := le_one (BitVec.ofNat 8 ws.length)
    rw [hn] at this
    simp only [mrResponse, le_one, List.length_map, this, leWords, List.flatMap_map]
    rfl
  rw [e]
  exact mr_parse_ok m _ _ _ _ ws d (by simp; omega)

example : MessageRouterResponse.parse Mem.strict [0x8E#8, 0#8, 1#8, 1#8, 3#8, 1#8, 9#8] =
    .ok ⟨0x8E#8, 1#8, [0x103#16], [9#8], []⟩ := by decide +kernel

/-- C16. When decoding throws, payload and additional status are the old ones,
while service and status may already be the new ones. -/
theorem C16_response_exception_state (m : Mem) (r s : MessageRouterResponse) (data : List Byte) (e : Exn)
    (h : r.expand m data = .throw s e) :
    s.data = r.data ∧ s.additionalStatus = r.additionalStatus ∧ s.additionalItems = r.additionalItems ∧
    (data.length < 4 → s = r) ∧
    (4 ≤ data.length → data[0]? = some s.service ∧ data[2]? = some s.status) := by
  match data, h with
  | [], h | [_], h | [_, _], h | [_, _, _], h =>
    simp [MessageRouterResponse.expand] at h
    obtain ⟨rfl, _⟩ := h
    simp
  | service :: reserved :: status :: n :: rest, h =>
    rcases mr_expand_compute m r service reserved status n rest with ⟨_, h'⟩ | ⟨ws, d, h1, h2, h'⟩
    · rw [h'] at h
      injection h with h1 h2
      subst h1
      refine ⟨rfl, rfl, rfl, fun h => ?_, fun _ => ⟨rfl, rfl⟩⟩
      simp at h; omega
    · rw [h'] at h; cases h

/-- C16. So decoding is not all-or-nothing: a reused response object reports the
status of a message that was rejected. -/
theorem C16_response_all_or_nothing_violated :
    ∃ (r : MessageRouterResponse) (data : List Byte), ∀ m, ∃ s e, r.expand m data = .throw s e ∧ s ≠ r := by
  refine ⟨.default, [0x8E#8, 0#8, 5#8, 1#8], fun m => ?_⟩
  rcases mr_expand_compute m .default 0x8E#8 0#8 5#8 1#8 [] with ⟨_, h'⟩ | ⟨ws, d, h1, h2, h'⟩
  · exact ⟨_, _, h', by decide⟩
  · exfalso
    have h3 := congrArg List.length h2
    simp [leWords_length] at h3
    simp at h1
    omega

end Verif.Props
