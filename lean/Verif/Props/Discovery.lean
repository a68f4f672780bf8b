import Verif.Props.Identity
import Verif.Props.ManagerOpen
import Verif.Props.ManagerRecv

/-!
# Properties C52, C53: discovery
-/

namespace Verif.Props

open Verif Verif.Spec

/-- What a caller of `discover` sees of a device. -/
def foundView (i : IdentityItem) : String × Int × Identity :=
  (i.socketAddress.host, i.socketAddress.port, identityView i.identityObject)

/-- The same for the specification. -/
def foundSpec (f : Found) : String × Int × Identity := (f.host, (f.port : Int), f.identity)

/-! ## Reading an item -/

theorem field_two (bs : List Byte) (off : Nat) (h : off + 2 ≤ bs.length) :
    field bs off 2 = field bs off 1 + 256 * field bs (off + 1) 1 := by
  unfold field
  rw [← List.drop_drop]
  match hd : bs.drop off with
  | [] => have := congrArg List.length hd; simp at this; omega
  | [a] => have := congrArg List.length hd; simp at this; omega
  | a :: c :: rest => simp [ofLe]

theorem endPoint_at (m : Mem) (b : Buffer) (h : b.pos + 16 ≤ b.bytes.length) :
    ∃ ep, Rd.endPoint m b = .ok (ep, ⟨b.bytes, b.pos + 16⟩) ∧
      ep.host = String.intercalate "." (((b.bytes.drop (b.pos + 4)).take 4).map fun o => toString o.toNat) ∧
      ep.port = (field b.bytes (b.pos + 2) 1 * 256 + field b.bytes (b.pos + 3) 1 : Nat) := by
  unfold Rd.endPoint Rd.sockAddr
  rw [Rd.bind_ok (Rd.bind_ok (u16_at m _ (by omega)) |>.trans (Rd.bind_ok (u16_at m _ (by simp; omega)) |>.trans
    (Rd.bind_ok (u32_at m _ (by simp; omega)) |>.trans (Rd.bind_ok (bytes_eq m _ _ (by simp; omega))))))]
  refine ⟨_, rfl, ?_, ?_⟩
  · simp only [EndPoint.ofSockAddr, inetNtoa, octets]
    rw [put4_eq, toNat_field32, ← (take_eq_le b.bytes (b.pos + 2 + 2) 4 (by omega)).1]
  · simp only [EndPoint.ofSockAddr]
    rw [htons_toNat, toNat_field16, field_two _ _ (by omega)]
    have h1 := field_lt b.bytes (b.pos + 2) 1
    rw [show b.pos + 2 + 1 = b.pos + 3 from rfl]
    generalize field b.bytes (b.pos + 2) 1 = x at h1 ⊢
    generalize field b.bytes (b.pos + 3) 1 = y
    rw [show (x + 256 * y) % 256 = x by omega, show (x + 256 * y) / 256 = y by omega]

theorem item_at (m : Mem) (i : Nat) (d : List Byte) (h : IdentityFits d 18) :
    ∃ dev, (Discovery.item i).from m d = .ok dev ∧ foundView dev = foundSpec (foundIn d) ∧
      dev.identityObject.instanceId = BitVec.ofNat 16 i := by
  have hl := h.1
  obtain ⟨ep, he, hh, hp⟩ := endPoint_at m ⟨d, 2⟩ (by simp; omega)
  obtain ⟨o, ho, hi, hv, hn⟩ := identity_at m (BitVec.ofNat 16 i) ⟨d, 18⟩ h
  refine ⟨⟨o.setProductName o.productName.data, ep⟩, Rd.from_ok (b := ⟨d, 18 + 15 + field d (18 + 14) 1⟩) ?_, ?_, ?_⟩
  · unfold Discovery.item
    rw [Rd.bind_ok (u16_at m (Buffer.ofData d) (by simp [Buffer.ofData]; omega))]
    exact (Rd.bind_ok he).trans ((Rd.bind_ok ho).trans rfl)
  · unfold foundView foundSpec foundIn IdentityObject.setProductName
    rw [hh, hp, ← hn]
    exact congrArg (fun x => (_, _, x)) hv
  · exact hi

theorem item_short (i : Nat) (d : List Byte) (h : ¬ IdentityFits d 18) : (Discovery.item i).from Mem.strict d = .ub := by
  refine Rd.from_ub ?_
  by_cases h1 : 18 ≤ d.length
  · obtain ⟨ep, he, hh, hp⟩ := endPoint_at Mem.strict ⟨d, 2⟩ (by simp; omega)
    unfold Discovery.item
    rw [Rd.bind_ok (u16_at _ (Buffer.ofData d) (by simp [Buffer.ofData]; omega))]
    exact (Rd.bind_ok he).trans (Rd.bind_ub (identity_sized _ ⟨d, 18⟩ h1 h))
  · have hn : Needs (Discovery.item i) 18 := by
      refine Needs.bind (n := 2) (k := 16) Sized.u16 fun _ => ?_
      intro b hb1 hb2
      exact Rd.bind_ub (Rd.bind_ub (Sized.sockAddr.short b hb1 hb2))
    exact hn _ (by simp [Buffer.ofData]) (by simp [Buffer.ofData]; omega)

/-! ## Reading an answer -/

theorem discReceived_length (d : List Byte) : (discReceived d).length = 504 := by
  rw [discReceived, List.length_take, List.length_append, List.length_replicate]
  omega

theorem udpReceive_disc (d : List Byte) : udpReceive 504 (.dgram d) = .ok (discReceived d) := by
  unfold udpReceive discReceived
  rw [List.take_append, List.take_replicate]
  congr 3
  simp
  omega

theorem mk'_data (t : BitVec 16) (d : List Byte) : (CommonPacketItem.mk' t d).data = d := rfl

theorem items_ok (m : Mem) (its : List (Nat × List Byte)) (h : ∀ i ∈ its, IdentityFits i.2 18) (n : Nat) :
    ∃ devs, Discovery.items m n (its.map fun i => CommonPacketItem.mk' (BitVec.ofNat 16 i.1) i.2) = .ok devs ∧
      devs.map foundView = its.map fun i => foundSpec (foundIn i.2) := by
  induction its generalizing n with
  | nil => exact ⟨[], rfl, rfl⟩
  | cons a l ih =>
    obtain ⟨dev, h1, h2, _⟩ := item_at m n a.2 (h a List.mem_cons_self)
    obtain ⟨devs, h3, h4⟩ := ih (fun i hi => h i (List.mem_cons_of_mem _ hi)) (n + 1)
    refine ⟨dev :: devs, ?_, ?_⟩
    · simp only [List.map_cons, Discovery.items, mk'_data]
      rw [h1, h3]
    · rw [List.map_cons, List.map_cons, h2, h4]

theorem items_short (its : List (Nat × List Byte)) (h : ¬ ∀ i ∈ its, IdentityFits i.2 18) (n : Nat) :
    Discovery.items Mem.strict n (its.map fun i => CommonPacketItem.mk' (BitVec.ofNat 16 i.1) i.2) = .ub := by
  induction its generalizing n with
  | nil => exact absurd (fun i hi => by cases hi) h
  | cons a l ih =>
    simp only [List.map_cons, Discovery.items, mk'_data]
    by_cases ha : IdentityFits a.2 18
    · obtain ⟨dev, h1, _⟩ := item_at Mem.strict n a.2 ha
      rw [h1, ih ?_ (n + 1)]
      intro hl
      apply h
      intro i hi
      rcases List.mem_cons.mp hi with rfl | hi
      · exact ha
      · exact hl i hi
    · rw [item_short n a.2 ha]

theorem answer_ok (m : Mem) (d : List Byte) (its : List (Nat × List Byte)) (h : Announces d its) :
    ∃ devs, Discovery.answer m (discReceived d) = .ok devs ∧ devs.map foundView = its.map fun i => foundSpec (foundIn i.2) := by
  obtain ⟨devs, h1, h2⟩ := items_ok m its h.2 0
  refine ⟨devs, ?_, h2⟩
  unfold Discovery.answer
  rw [show EncapsPacket.headerSize = 24 from rfl, accepts_expand h.1 m]
  exact h1

theorem answer_bad (d : List Byte) (h : ¬ ∃ its, Announces d its) :
    Discovery.answer Mem.strict (discReceived d) = .ub := by
  unfold Discovery.answer
  rw [show EncapsPacket.headerSize = 24 from rfl]
  rcases C09_classification ((discReceived d).drop 24) (by rw [List.length_drop, discReceived_length]; omega) with
    ⟨its, h1, h2⟩ | ⟨_, h2, _⟩
  · rw [h2 Mem.strict]
    exact items_short its (fun hf => h ⟨its, h1, hf⟩) 0
  · rw [h2]

/-! ## C52 -/

theorem loop_good (m : Mem) (ans : List (List Byte × List (Nat × List Byte))) (h : ∀ a ∈ ans, Announces a.1 a.2)
    (devs : List IdentityItem) :
    ∃ more, (∀ rest, Discovery.loop m devs (ans.map (fun a => Recv.dgram a.1) ++ rest) = Discovery.loop m (devs ++ more) rest) ∧
      more.map foundView = (ans.flatMap (·.2)).map fun i => foundSpec (foundIn i.2) := by
  induction ans generalizing devs with
  | nil => exact ⟨[], by simp, rfl⟩
  | cons a l ih =>
    obtain ⟨ds, h1, h2⟩ := answer_ok m a.1 a.2 (h a List.mem_cons_self)
    obtain ⟨more, h3, h4⟩ := ih (fun x hx => h x (List.mem_cons_of_mem _ hx)) (devs ++ ds)
    refine ⟨ds ++ more, ?_, ?_⟩
    · intro rest
      rw [← List.append_assoc, ← h3 rest]
      simp only [List.map_cons, List.cons_append, Discovery.loop]
      rw [udpReceive_disc]
      simp only
      rw [h1]
    · rw [List.map_append, h2, h4, List.flatMap_cons, List.map_append]

/-- `discover` got its socket, sent its request and received `recvs`. -/
def discoverGets (m : Mem) (recvs : List Recv) : Option (List Byte) × Discovery.DiscRes :=
  Discovery.discover m { sendCount := 24, recvs }

/-- C52. Well-formed answers, then nothing until the timeout: one device per item, in
order of arrival, with the address and identity of its item; the datagram sent is a
ListIdentity request. -/
theorem C52_discovers (m : Mem) (ans : List (List Byte × List (Nat × List Byte))) (h : ∀ a ∈ ans, Announces a.1 a.2)
    (rest : List Recv) :
    ∃ devs, discoverGets m (ans.map (fun a => Recv.dgram a.1) ++ .err 11 :: rest) =
        (some (encapsFrame 0x63 0 0 (List.replicate 8 0#8) 0 []), .done devs) ∧
      devs.map foundView = (ans.flatMap (·.2)).map fun i => foundSpec (foundIn i.2) := by
  obtain ⟨more, h1, h2⟩ := loop_good m ans h []
  refine ⟨more, ?_, h2⟩
  have h3 := h1 (.err 11 :: rest)
  unfold discoverGets Discovery.discover
  simp only
  rw [h3, C10_listIdentity]
  rfl

/-- C52. A datagram with any 24 bytes of header, the number of its items and the
items, not longer than the receive buffer, is such an answer. -/
theorem C52_wellformed (hdr : List Byte) (its : List (Nat × List Byte)) (hh : hdr.length = 24) (hn : its.length < 65536)
    (hi : ∀ i ∈ its, i.1 < 65536 ∧ i.2.length < 65536 ∧ IdentityFits i.2 18)
    (hl : (hdr ++ (le 2 its.length ++ its.flatMap fun i => cpfItem i.1 i.2)).length ≤ 504) :
    Announces (hdr ++ (le 2 its.length ++ its.flatMap fun i => cpfItem i.1 i.2)) its := by
  refine ⟨⟨its.length, List.replicate (504 - (hdr ++ (le 2 its.length ++ its.flatMap fun i => cpfItem i.1 i.2)).length) 0#8,
    hn, ?_, Nat.le_refl _, .inl rfl, fun i h => ⟨(hi i h).1, (hi i h).2.1⟩⟩, fun i h => (hi i h).2.2⟩
  generalize hx : (le 2 its.length ++ its.flatMap fun i => cpfItem i.1 i.2) = x at hl ⊢
  unfold discReceived
  rw [List.take_append, List.take_of_length_le hl, List.append_assoc, List.drop_append, hh,
    List.drop_of_length_le (by omega), List.nil_append, Nat.sub_self, List.drop_zero, ← List.append_assoc, hx,
    List.take_replicate, Nat.min_eq_left (Nat.sub_le _ _)]

/-- An identity item as a device sends it. -/
def identityItem (port : Nat) (host : List Byte) (i : Identity) : List Byte :=
  le 2 1 ++ be 2 2 ++ be 2 port ++ host ++ List.replicate 8 0#8 ++ i.bytes ++ [3#8]

def foundBy : Discovery.DiscRes → Option (List (String × Int × Identity))
  | .done devs => some (devs.map foundView)
  | _ => none

/-- Two devices answer, one after the other. -/
example :
    let a : Identity := ⟨1, 12, 65, 1, 2, 0x60, 0x11223344, [0x41#8, 0x42#8]⟩
    let b : Identity := ⟨2, 43, 700, 3, 4, 0, 7, []⟩
    let da := identityItem 44818 [192#8, 168#8, 1#8, 7#8] a
    let db := identityItem 44818 [10#8, 0#8, 0#8, 9#8] b
    let msg := fun d => List.replicate 24 0#8 ++ (le 2 1 ++ cpfItem 0x0c d)
    foundBy (discoverGets Mem.strict [.dgram (msg da), .dgram (msg db), .err 11]).2 =
      some [("192.168.1.7", 44818, a), ("10.0.0.9", 44818, b)] := by decide +kernel

/-! ## C53 -/

/-- C53. Any other socket error after any number of answers is thrown; nothing found
so far is returned. -/
theorem C53_error (m : Mem) (ans : List (List Byte × List (Nat × List Byte))) (h : ∀ a ∈ ans, Announces a.1 a.2)
    (code : Int) (hc : code ≠ 11) (rest : List Recv) :
    (discoverGets m (ans.map (fun a => Recv.dgram a.1) ++ .err code :: rest)).2 = .threw (.system code) := by
  obtain ⟨more, h1, _⟩ := loop_good m ans h []
  have h3 := h1 (.err code :: rest)
  unfold discoverGets Discovery.discover
  simp only
  rw [h3]
  exact if_pos hc

/-- C53. A datagram that is not a list of items: if reading behind the end of a vector
returns bytes, the decoder's exception is thrown and nothing found so far is returned. -/
theorem C53_rejected (m : Mem) (hm : m.Lenient) (ans : List (List Byte × List (Nat × List Byte)))
    (h : ∀ a ∈ ans, Announces a.1 a.2) (d : List Byte) (hd : ¬ ∃ its, CpfAccepts ((discReceived d).drop 24) its)
    (rest : List Recv) :
    (discoverGets m (ans.map (fun a => Recv.dgram a.1) ++ .dgram d :: rest)).2 =
      .threw (.runtime "Wrong Common Packet format") := by
  obtain ⟨more, h1, _⟩ := loop_good m ans h []
  have h3 := h1 (.dgram d :: rest)
  unfold discoverGets Discovery.discover
  simp only
  rw [h3]
  rcases C09_classification ((discReceived d).drop 24) (by rw [List.length_drop, discReceived_length]; omega) with
    ⟨its, h4, _⟩ | ⟨_, _, h4⟩
  · exact absurd ⟨its, h4⟩ hd
  · show Discovery.loop m _ (.dgram d :: rest) = _
    unfold Discovery.loop
    rw [udpReceive_disc]
    simp only
    unfold Discovery.answer
    rw [show EncapsPacket.headerSize = 24 from rfl, h4 m hm]

/-- C53. A datagram that is not an answer, or has an item without a complete identity
record, is read out of bounds. -/
theorem C53_short_violated (ans : List (List Byte × List (Nat × List Byte)))
    (h : ∀ a ∈ ans, Announces a.1 a.2) (d : List Byte) (hd : ¬ ∃ its, Announces d its) (rest : List Recv) :
    (discoverGets Mem.strict (ans.map (fun a => Recv.dgram a.1) ++ .dgram d :: rest)).2 = .ub := by
  obtain ⟨more, h1, _⟩ := loop_good Mem.strict ans h []
  have h3 := h1 (.dgram d :: rest)
  unfold discoverGets Discovery.discover
  simp only
  rw [h3]
  show Discovery.loop _ _ (.dgram d :: rest) = _
  unfold Discovery.loop
  rw [udpReceive_disc]
  simp only
  rw [answer_bad d hd]

/-- Every list of receive results is answers, and then nothing, an error, or
something that is not an answer. -/
theorem recvs_cases (rs : List Recv) : ∃ ans : List (List Byte × List (Nat × List Byte)), (∀ a ∈ ans, Announces a.1 a.2) ∧
    (rs = ans.map (fun a => Recv.dgram a.1) ∨ ∃ rest, (∃ c, rs = ans.map (fun a => Recv.dgram a.1) ++ .err c :: rest) ∨
      ∃ d, (¬ ∃ its, Announces d its) ∧ rs = ans.map (fun a => Recv.dgram a.1) ++ .dgram d :: rest) := by
  induction rs with
  | nil => exact ⟨[], by simp, .inl rfl⟩
  | cons r rs ih =>
    cases r with
    | err c => exact ⟨[], by simp, .inr ⟨rs, .inl ⟨c, rfl⟩⟩⟩
    | dgram d =>
      by_cases hd : ∃ its, Announces d its
      · obtain ⟨its, hi⟩ := hd
        obtain ⟨ans, h1, h2⟩ := ih
        refine ⟨(d, its) :: ans, ?_, ?_⟩
        · intro a ha
          rcases List.mem_cons.mp ha with rfl | ha
          · exact hi
          · exact h1 a ha
        · rcases h2 with rfl | ⟨rest, ⟨c, rfl⟩ | ⟨x, hx, rfl⟩⟩
          · exact .inl rfl
          · exact .inr ⟨rest, .inl ⟨c, rfl⟩⟩
          · exact .inr ⟨rest, .inr ⟨x, hx, rfl⟩⟩
      · exact ⟨[], by simp, .inr ⟨rs, .inr ⟨d, hd, rfl⟩⟩⟩

/-- C53. Discovery returns only by the would-block error, after nothing but readable
answers, and then returns exactly what they announced. -/
theorem C53_only_would_block (rs : List Recv) (devs : List IdentityItem) :
    (discoverGets Mem.strict rs).2 = .done devs →
      ∃ (ans : List (List Byte × List (Nat × List Byte))) (rest : List Recv), (∀ a ∈ ans, Announces a.1 a.2) ∧
        rs = ans.map (fun a => Recv.dgram a.1) ++ .err 11 :: rest ∧
        devs.map foundView = (ans.flatMap (·.2)).map fun i => foundSpec (foundIn i.2) := by
  intro hd
  obtain ⟨ans, h, hr⟩ := recvs_cases rs
  rcases hr with rfl | ⟨rest, ⟨c, rfl⟩ | ⟨d, hb, rfl⟩⟩
  · obtain ⟨more, h1, _⟩ := loop_good Mem.strict ans h []
    have h3 := h1 []
    rw [List.append_nil] at h3
    unfold discoverGets Discovery.discover at hd
    simp only at hd
    rw [h3] at hd
    cases hd
  · by_cases hc : c = 11
    · subst hc
      obtain ⟨devs', h1, h2⟩ := C52_discovers Mem.strict ans h rest
      rw [h1] at hd
      injection hd with hd
      exact ⟨ans, rest, h, rfl, hd ▸ h2⟩
    · rw [C53_error Mem.strict ans h c hc rest] at hd
      cases hd
  · rw [C53_short_violated ans h d hb rest] at hd
    cases hd

/-- C53. Without a socket, without permission to broadcast, or if the request is not
sent whole, discovery throws and receives nothing. -/
theorem C53_no_socket (m : Mem) (e : Discovery.Env) (code : Int)
    (h : e.sockErr = some code ∨ e.sockErr = none ∧ e.broadcastErr = some code) :
    Discovery.discover m e = (none, .threw (.system code)) := by
  unfold Discovery.discover
  rcases h with h | ⟨h1, h2⟩
  · rw [h]
  · rw [h1, h2]

theorem C53_short_send (m : Mem) (e : Discovery.Env) (h1 : e.sockErr = none) (h2 : e.broadcastErr = none)
    (h3 : 0 ≤ e.sendCount ∧ e.sendCount < 24) :
    Discovery.discover m e = (some (encapsFrame 0x63 0 0 (List.replicate 8 0#8) 0 []), .threw (.system 0)) := by
  unfold Discovery.discover
  rw [h1, h2]
  simp only
  have h4 : udpSendThrows EncapsPacketFactory.listIdentity.pack e.sendCount = true := by
    unfold udpSendThrows
    rw [decide_eq_true_iff, show EncapsPacketFactory.listIdentity.pack.length = 24 from by decide]
    obtain ⟨n, hn⟩ := Int.eq_ofNat_of_zero_le h3.1
    rw [hn] at h3 ⊢
    simp
    omega
  rw [h4, if_pos rfl, C10_listIdentity]

/-- A device was found, then an error comes, or a short answer, or not an answer. -/
example :
    let b : Identity := ⟨2, 43, 700, 3, 4, 0, 7, []⟩
    let db := identityItem 44818 [10#8, 0#8, 0#8, 9#8] b
    let msg := fun d => List.replicate 24 0#8 ++ (le 2 1 ++ cpfItem 0x0c d)
    (discoverGets Mem.strict [.dgram (msg db), .err 9]).2 = .threw (.system 9) ∧
    (discoverGets Mem.strict [.dgram (msg db), .dgram (msg (db.take 32)), .err 11]).2 = .ub ∧
    (discoverGets (fun _ => some 0#8) [.dgram (msg db), .dgram (List.replicate 24 0#8 ++ [1#8, 0#8, 0#8, 0#8, 0xff#8, 0x01#8]),
      .err 11]).2 = .threw (.runtime "Wrong Common Packet format") := by decide +kernel

end Verif.Props
