import Verif.Props.Session
import Verif.Props.CommonPacket
import Verif.Props.Router
import Verif.Spec.Exchange

/-!
# Properties C27, C28 (explicit requests end to end)
-/

namespace Verif.Props

open Verif Verif.Spec

theorem cpf_fits (items : List (Nat × List (BitVec 8))) (n : Nat) (h : (cpf items).length < n) :
    items.length < n ∧ ∀ i ∈ items, i.2.length < n := by
  have key : ∀ (is : List (Nat × List (BitVec 8))),
      is.length ≤ (is.flatMap fun i => cpfItem i.1 i.2).length ∧
      ∀ i ∈ is, i.2.length ≤ (is.flatMap fun i => cpfItem i.1 i.2).length := by
    intro is
    induction is with
    | nil => simp
    | cons a is ih =>
      obtain ⟨h1, h2⟩ := ih
      have ha : (cpfItem a.1 a.2).length = 4 + a.2.length := by simp [cpfItem]; omega
      rw [List.flatMap_cons, List.length_append, ha]
      constructor
      · rw [List.length_cons]; omega
      · intro i hi
        rw [List.mem_cons] at hi
        rcases hi with rfl | hi
        · omega
        · have := h2 i hi; omega
  obtain ⟨h1, h2⟩ := key items
  unfold cpf at h
  rw [List.length_append, le_length] at h
  exact ⟨by omega, fun i hi => by have := h2 i hi; omega⟩

/-- The decoding of a reply that starts with six bytes. -/
theorem routerReply_six (m : Mem) (six rest : List Byte) (h : six.length = 6) :
    routerReply m (six ++ rest) = match CommonPacket.expand m rest with
      | .ub => .ub
      | .throw e => .throw e
      | .ok items =>
        match items[1]? with
        | none => .throw .outOfRange
        | some item =>
          match MessageRouterResponse.parse m item.data with
          | .ub => .ub
          | .throw e => .throw e
          | .ok response =>
            if items.length > 2 then .ok { response with additionalItems := items.drop 2 } else .ok response := by
  unfold routerReply
  have hl : (six ++ rest).length = 6 + rest.length := by simp [h]
  rw [if_neg (by omega)]
  have h1 := u32_at m (Buffer.ofData (six ++ rest)) (by simp only [Buffer.ofData]; omega)
  have h2 := u16_at m ⟨(six ++ rest), 4⟩ (by simp only; omega)
  have h3 := bytes_eq m ((six ++ rest).length - 6) ⟨(six ++ rest), 6⟩ (by simp only; omega)
  rw [Rd.bind_ok h1]
  simp only [Buffer.ofData, Nat.zero_add] at h2 ⊢
  rw [Rd.bind_ok h2, h3]
  dsimp only
  rw [List.drop_append, List.drop_eq_nil_of_le (by omega), List.nil_append, h, Nat.sub_self, List.drop_zero,
    List.take_of_length_le (by omega)]
  rfl

/-- What the user gets for a reply. -/
def ExplicitReply.view (r : ExplicitReply) : MessageRouterResponse :=
  ⟨r.service, r.status, r.extra, r.data, r.items.map fun i => CommonPacketItem.mk' i.1 i.2⟩

theorem routerReply_ok (m : Mem) (r : ExplicitReply) (h : r.Fits) :
    routerReply m r.payload = .ok (ExplicitReply.view r) := by
  obtain ⟨_, he, hp⟩ := h
  unfold ExplicitReply.payload at hp ⊢
  rw [routerReply_six m _ _ (by simp)]
  have hfit := cpf_fits _ 65536 (by rw [List.length_append] at hp; exact Nat.lt_of_le_of_lt (Nat.le_add_left _ _) hp)
  let items : List (ItemId × List Byte) := [r.address, (r.dataType, mrResponse r.service.toNat
    r.reserved.toNat r.status.toNat (r.extra.map BitVec.toNat) r.data)] ++ r.items
  have hi : ([(r.address.1.toNat, r.address.2), (r.dataType.toNat, mrResponse r.service.toNat
      r.reserved.toNat r.status.toNat (r.extra.map BitVec.toNat) r.data)]
      ++ r.items.map fun i => (i.1.toNat, i.2)) = items.map fun i => (i.1.toNat, i.2) := by
    simp [items]
  have hf2 : items.length < 65536 ∧ ∀ i ∈ items, i.2.length < 65536 := by
    rw [hi] at hfit
    refine ⟨by simpa using hfit.1, fun i hi => ?_⟩
    exact hfit.2 (i.1.toNat, i.2) (List.mem_map.mpr ⟨i, hi, rfl⟩)
  rw [hi, ← C08_layout items hf2, C08_roundtrip items hf2 m]
  simp only [items, List.cons_append, List.nil_append, List.map_cons, List.getElem?_cons_succ,
    List.getElem?_cons_zero, CommonPacketItem.mk', C15_accepts r.service r.reserved r.status r.extra he r.data m]
  cases hr : r.items with
  | nil => simp [ExplicitReply.view, hr]
  | cons a as => simp [ExplicitReply.view, hr, CommonPacketItem.mk']

/-- The packet written for a request is the specified frame. -/
theorem routerPacket_frame (use8 : Bool) (handle : BitVec 32) (r : ExplicitRequest) (path : EPath)
    (hb : Built path r.ids) (h : r.Fits use8) :
    (routerPacket handle ⟨r.service, path, r.data, use8⟩
      (r.items.map fun i => CommonPacketItem.mk' i.1 i.2)).pack = r.frame use8 handle := by
  unfold ExplicitRequest.Fits at h
  unfold ExplicitRequest.frame
  have h' := h
  unfold ExplicitRequest.payload at h' ⊢
  have hfit := cpf_fits _ 65536 (by rw [List.length_append] at h'; exact Nat.lt_of_le_of_lt (Nat.le_add_left _ _) h')
  let items : List (ItemId × List Byte) := [(0#16, []), (0xB2#16, mrRequest r.service.toNat
    (pathBytes use8 (r.ids.map BitVec.toNat)) r.data)] ++ r.items
  have hi : ([(0, []), (0xB2, mrRequest r.service.toNat (pathBytes use8 (r.ids.map BitVec.toNat)) r.data)]
      ++ r.items.map fun i => (i.1.toNat, i.2)) = items.map fun i => (i.1.toNat, i.2) := by
    simp [items]
  have hf2 : items.length < 65536 ∧ ∀ i ∈ items, i.2.length < 65536 := by
    rw [hi] at hfit
    refine ⟨by simpa using hfit.1, fun i hi => ?_⟩
    exact hfit.2 (i.1.toNat, i.2) (List.mem_map.mpr ⟨i, hi, rfl⟩)
  have hpk : CommonPacket.pack ([CommonPacketItemFactory.nullAddress,
      CommonPacketItemFactory.unconnectedData (MessageRouterRequest.pack ⟨r.service, path, r.data, use8⟩)] ++
      r.items.map fun i => CommonPacketItem.mk' i.1 i.2) = cpf (items.map fun i => (i.1.toNat, i.2)) := by
    rw [← C08_layout items hf2, C14_layout _ r.ids hb]
    rfl
  unfold routerPacket
  rw [hpk, ← hi, C10_sendRRData]
  · rfl
  · rw [List.length_append] at h'
    simp at h' ⊢
    omega

/-- C27. One explicit request.  Exactly one frame is written, the specified one;
when the stream goes on with a conforming reply frame, the user gets exactly its
service, status, additional status, data and additional items, and the stream
stands after that frame. -/
theorem C27_request (m : Mem) (handle : BitVec 32) (use8 : Bool) (r : ExplicitRequest) (path : EPath)
    (hb : Built path r.ids) (hr : r.Fits use8) (a : ExplicitReply) (ha : a.Fits)
    (s : Tcp) (hs : s.sends = []) (rest : List Byte) (hn : (stream s.net).1 = a.frame handle ++ rest) :
    ∃ net', sendRequest m (SessionIf.tcp m handle) use8 r.service path r.data
        (r.items.map fun i => CommonPacketItem.mk' i.1 i.2) s =
        .ok { s with net := net', sent := s.sent ++ [r.frame use8 handle] } (ExplicitReply.view a) ∧
      stream net' = (rest, (stream s.net).2) := by
  let p : EncapsPacket := ⟨a.command, BitVec.ofNat 16 a.payload.length, handle, 0#32, a.context, a.options, a.payload⟩
  have hwf : WellFormed p := ⟨ha.1, by have := ha.2.2; simp [p]; omega⟩
  have hpp : p.pack = a.frame handle := by
    rw [encaps_pack_eq, ExplicitReply.frame, encapsFrame, hwf.length]
    simp [p]
  have hpk := routerPacket_frame use8 handle r path hb hr
  obtain ⟨net', h1, h2⟩ := sar_frame m handle (routerPacket handle ⟨r.service, path, r.data, use8⟩
      (r.items.map fun i => CommonPacketItem.mk' i.1 i.2)) p hwf s hs (by
        have : (r.payload use8).length < 65536 := hr
        rw [hpk]; simp [ExplicitRequest.frame, encapsFrame]; omega) rest (by rw [hpp, hn])
  refine ⟨net', ?_, h1⟩
  rw [accept_of (handle := handle) (q := p) _ rfl (fun _ => rfl), hpk] at h2
  unfold sendRequest
  rw [Prog.bind_ok (s' := { s with net := net', sent := s.sent ++ [r.frame use8 handle] }) (a := p) h2]
  rw [show p.data = a.payload from rfl, routerReply_ok m a ha]
  rfl

/-- A client that makes a number of explicit requests one after the other. -/
def requestAll (m : Mem) (handle : BitVec 32) (use8 : Bool) :
    List (ExplicitRequest × EPath) → Prog Tcp (List MessageRouterResponse)
  | [] => pure []
  | (r, path) :: rs => do
    let a ← sendRequest m (SessionIf.tcp m handle) use8 r.service path r.data
      (r.items.map fun i => CommonPacketItem.mk' i.1 i.2)
    let as ← requestAll m handle use8 rs
    pure (a :: as)

/-- C27. Any number of explicit requests over one session: the frames written are
the specified ones in order, and each request gets its own reply. -/
theorem C27_history (m : Mem) (handle : BitVec 32) (use8 : Bool) (rs : List (ExplicitRequest × EPath))
    (as : List ExplicitReply) (hl : rs.length = as.length)
    (hr : ∀ r ∈ rs, Built r.2 r.1.ids ∧ r.1.Fits use8) (ha : ∀ a ∈ as, a.Fits)
    (s : Tcp) (hs : s.sends = []) (rest : List Byte)
    (hn : (stream s.net).1 = as.flatMap (ExplicitReply.frame handle) ++ rest) :
    ∃ net', requestAll m handle use8 rs s =
        .ok { s with net := net', sent := s.sent ++ rs.map fun r => r.1.frame use8 handle }
          (as.map ExplicitReply.view) ∧
      stream net' = (rest, (stream s.net).2) := by
  induction rs generalizing as s with
  | nil =>
    have : as = [] := List.length_eq_zero_iff.mp hl.symm
    subst this
    refine ⟨s.net, by simp [requestAll], ?_⟩
    rw [← show (stream s.net).1 = rest by simpa using hn]
  | cons r rs ih =>
    cases as with
    | nil => simp at hl
    | cons a as =>
      obtain ⟨n1, r1, e1⟩ := C27_request m handle use8 r.1 r.2 (hr r (by simp)).1 (hr r (by simp)).2 a
        (ha a (by simp)) s hs (as.flatMap (ExplicitReply.frame handle) ++ rest) (by rw [hn]; simp)
      obtain ⟨n2, r2, e2⟩ := ih as (by simpa using hl) (fun x hx => hr x (by simp [hx]))
        (fun x hx => ha x (by simp [hx]))
        { s with net := n1, sent := s.sent ++ [r.1.frame use8 handle] } hs (by simp only [e1])
      refine ⟨n2, ?_, by rw [e2, e1]⟩
      unfold requestAll
      rw [Prog.bind_ok r1, Prog.bind_ok r2]
      simp

/-- A request and a reply that meet the hypotheses. -/
example : Built (EPath.mk3 1#16 1#16 1#16) [1#16, 1#16, 1#16] ∧
    (⟨0x0E#8, [1#16, 1#16, 1#16], [], [(0x8001#16, [1#8, 2#8])]⟩ : ExplicitRequest).Fits false ∧
    (⟨0x6F#16, List.replicate 8 0#8, 0#32, 0#32, 0#16, (0#16, []), 0xB2#16, 0x8E#8, 0#8, 0#8, [7#16], [1#8, 2#8],
      [(0x8000#16, [9#8])]⟩ : ExplicitReply).Fits :=
  ⟨.three _ _ _, by unfold ExplicitRequest.Fits; decide +kernel, rfl, by decide, by decide +kernel⟩

/-! ## C28 -/

/-- C28. Whatever session and peer: if `sendRequest` returns (and every stray read
is undefined), the reply payload is six bytes followed by a common packet with at
least two items, the second of which is a router response with exactly the
returned service, status, additional status and data; the returned additional
items are the items from the third on. -/
theorem C28_returns {σ : Type} (si : SessionIf σ) (use8 : Bool) (service : BitVec 8) (path : EPath)
    (data : List Byte) (extra : List CommonPacketItem) (s s' : σ) (resp : MessageRouterResponse)
    (h : sendRequest Mem.strict si use8 service path data extra s = .ok s' resp) :
    ∃ (packet : EncapsPacket) (items : List (Nat × List Byte)) (i0 i1 : Nat × List Byte)
      (rest : List (Nat × List Byte)) (reserved : Byte),
      si.sendAndReceive (routerPacket si.handle ⟨service, path, data, use8⟩ extra) s = .ok s' packet ∧
      8 ≤ packet.data.length ∧ CpfAccepts (packet.data.drop 6) items ∧ items = i0 :: i1 :: rest ∧
      i1.2 = mrResponse resp.service.toNat reserved.toNat resp.status.toNat
        (resp.additionalStatus.map BitVec.toNat) resp.data ∧
      resp.additionalItems = rest.map fun i => CommonPacketItem.mk' (BitVec.ofNat 16 i.1) i.2 := by
  unfold sendRequest at h
  obtain ⟨s1, packet, h1, h2⟩ := Prog.bind_eq_ok h
  have hs : s1 = s' ∧ routerReply Mem.strict packet.data = .ok resp := by
    cases hr : routerReply Mem.strict packet.data with
    | ok r => rw [hr] at h2; simp at h2; exact ⟨h2.1, by rw [h2.2]⟩
    | throw e => rw [hr] at h2; simp at h2
    | ub => rw [hr] at h2; simp at h2
  obtain ⟨rfl, hr⟩ := hs
  by_cases h6 : packet.data.length < 6
  · simp [routerReply, h6] at hr
  · have hsplit : packet.data = packet.data.take 6 ++ packet.data.drop 6 := (List.take_append_drop 6 _).symm
    rw [hsplit, routerReply_six _ _ _ (by simp; omega)] at hr
    by_cases h8 : (packet.data.drop 6).length < 2
    · rw [(C09_no_count _ h8).1] at hr; cases hr
    · rcases C09_classification (packet.data.drop 6) (by omega) with ⟨items, hacc, hok⟩ | ⟨_, hu, _⟩
      · rw [hok] at hr
        simp only at hr
        match items, hacc, hr with
        | [], _, hr => simp at hr
        | [_], _, hr => simp at hr
        | i0 :: i1 :: rest, hacc, hr =>
          simp only [List.map_cons, List.getElem?_cons_succ, List.getElem?_cons_zero, CommonPacketItem.mk'] at hr
          rcases C15_total i1.2 with ⟨_, hp⟩ | ⟨_, _, _, _, _, _, _, hp⟩ | ⟨r, reserved, hp, _, hi, hb⟩
          · rw [hp] at hr; cases hr
          · rw [hp] at hr; cases hr
          · rw [hp] at hr
            simp only at hr
            refine ⟨packet, _, i0, i1, rest, reserved, h1, by simp at h8; omega, hacc, rfl, ?_⟩
            cases rest with
            | nil =>
              simp only [List.map_nil, List.length_cons, List.length_nil, gt_iff_lt] at hr
              rw [if_neg (by omega)] at hr
              injection hr with hr
              subst hr
              exact ⟨hb, by simp [hi]⟩
            | cons a as =>
              rw [if_pos (by simp)] at hr
              injection hr with hr
              subst hr
              exact ⟨hb, by simp [CommonPacketItem.mk']⟩
      · rw [hu] at hr; cases hr

/-- C28. Malformed replies: fewer than 6 payload bytes throw; 6 or 7 bytes read out
of bounds; fewer than two items throw. -/
theorem C28_malformed {σ : Type} (si : SessionIf σ) (use8 : Bool) (service : BitVec 8) (path : EPath)
    (data : List Byte) (extra : List CommonPacketItem) (s s' : σ) (packet : EncapsPacket)
    (h : si.sendAndReceive (routerPacket si.handle ⟨service, path, data, use8⟩ extra) s = .ok s' packet) :
    (packet.data.length < 6 → ∀ m,
      sendRequest m si use8 service path data extra s = .throw s' .lengthError) ∧
    (packet.data.length = 6 ∨ packet.data.length = 7 →
      sendRequest Mem.strict si use8 service path data extra s = .ub) ∧
    (∀ items, 8 ≤ packet.data.length → CpfAccepts (packet.data.drop 6) items → items.length < 2 → ∀ m,
      sendRequest m si use8 service path data extra s = .throw s' .outOfRange) := by
  have hsplit : packet.data = packet.data.take 6 ++ packet.data.drop 6 := (List.take_append_drop 6 _).symm
  refine ⟨fun h6 m => ?_, fun h67 => ?_, fun items h8 hacc h2 m => ?_⟩
  · unfold sendRequest
    rw [Prog.bind_ok h, routerReply, if_pos h6]
    rfl
  · unfold sendRequest
    rw [Prog.bind_ok h, hsplit, routerReply_six _ _ _ (by simp; omega),
      (C09_no_count _ (by simp; omega)).1]
    rfl
  · unfold sendRequest
    obtain ⟨count, tail, hc, hd, hle, hor, hfit⟩ := hacc
    have hx := expand_ok (BitVec.ofNat 16 count) (items.map fun i => (BitVec.ofNat 16 i.1, i.2)) (by
      intro i hi; obtain ⟨j, hj, rfl⟩ := List.mem_map.mp hi; exact (hfit j hj).2) (by
      simpa [Nat.mod_eq_of_lt hc] using hle) m tail (by simpa [Nat.mod_eq_of_lt hc] using hor)
    have hfm : (items.map fun i => (BitVec.ofNat 16 i.1, i.2)).flatMap
        (fun i : BitVec 16 × List Byte => cpfItem i.1.toNat i.2) = items.flatMap (fun i => cpfItem i.1 i.2) := by
      rw [List.flatMap_map, List.flatMap_def, List.flatMap_def]
      congr 1
      apply List.map_congr_left
      intro i hi
      simp [Nat.mod_eq_of_lt (hfit i hi).1]
    rw [hfm, BitVec.toNat_ofNat, Nat.mod_eq_of_lt hc, ← hd] at hx
    rw [Prog.bind_ok h, hsplit, routerReply_six _ _ _ (by simp; omega), hx]
    match items, h2 with
    | [], _ => rfl
    | [_], _ => rfl

/-- A reply with one item only. -/
example : CpfAccepts ([0#8, 0#8, 0#8, 0#8, 0#8, 0#8, 1#8, 0#8, 0#8, 0#8, 0#8, 0#8].drop 6) [(0, [])] :=
  ⟨1, [], by decide, by decide, by decide, .inl rfl, by simp⟩

end Verif.Props
