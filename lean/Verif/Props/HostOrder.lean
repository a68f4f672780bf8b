import Verif.Spec.HostOrder
import Verif.Props.Compare

/-!
# C117: the byte order of the host
-/

namespace Verif.Props

open Verif Verif.Spec

/-- C117. On a little-endian host with Linux's layout, this is what the rest of the model says. -/
theorem C117_little (b : Buffer) (a : SockAddr) :
    ({} : Host).ofSockAddr a = EndPoint.ofSockAddr a ∧ ({} : Host).putSockAddr b a = b.putSockAddr a ∧
    ({} : Host).readEndPoint = Rd.endPoint ∧
    ∀ aton host port, ({} : Host).ofHost aton host port =
      EndPoint.ofHost (fun t => (aton t).map fun q => ({} : Host).load32 q.1 q.2.1 q.2.2.1 q.2.2.2) host port := by
  refine ⟨rfl, rfl, ?_, ?_⟩
  · funext m buf
    simp only [Host.readEndPoint, Rd.endPoint, Rd.sockAddr, Rd.bind_run]
    cases Rd.u16 m buf with
    | throw e => rfl
    | ub => rfl
    | ok r1 =>
      dsimp only
      cases Rd.u16 m r1.2 with
      | throw e => rfl
      | ub => rfl
      | ok r2 =>
        dsimp only
        cases Rd.u32 m r2.2 with
        | throw e => rfl
        | ub => rfl
        | ok r3 =>
          dsimp only
          cases Rd.bytes 8 m r3.2 <;> rfl
  · intro aton host port
    simp only [Host.ofHost, EndPoint.ofHost, Host.htons]
    cases aton host <;> rfl

theorem load_image (h : Host) (a b c d : Byte) : h.image32 (h.load32 a b c d) = [a, b, c, d] := by
  cases hb : h.big <;> simp only [Host.image32, Host.load32, octets, hb, if_true, if_false, Bool.false_eq_true,
    List.reverse_cons, List.reverse_nil, List.nil_append, List.cons_append, List.cons.injEq, and_true]
  · refine ⟨?_, ?_, ?_, ?_⟩ <;> ext i hi <;> simp [BitVec.getElem_append, BitVec.getLsbD_append] <;> grind
  · refine ⟨?_, ?_, ?_, ?_⟩ <;> ext i hi <;> simp [BitVec.getElem_append, BitVec.getLsbD_append] <;> grind

theorem image16_eq (h : Host) (v : BitVec 16) : h.image16 v = if h.big then be 2 v.toNat else le 2 v.toNat := by
  unfold Host.image16
  cases h.big <;> simp [be, ← put2_eq]

theorem portAndAddress_eq (h : Host) (a : SockAddr) : portAndAddress h a = h.image16 a.port ++ h.image32 a.addr := by
  rw [image16_eq, portAndAddress, Host.image32]
  cases h.big <;> simp [be, ← put4_eq, octets]

theorem image_htons (h : Host) (v : BitVec 16) : h.image16 (h.htons v) = be 2 v.toNat := by
  rw [image16_eq]
  cases hb : h.big <;> simp [Host.htons, hb, be_two]

theorem be_two_inj {v w : Nat} (hv : v < 65536) (hw : w < 65536) (e : be 2 v = be 2 w) : v = w := by
  simp only [be, le, List.reverse_cons, List.reverse_nil, List.nil_append, List.cons_append, List.cons.injEq,
    and_true] at e
  have e1 := congrArg BitVec.toNat e.1
  have e2 := congrArg BitVec.toNat e.2
  simp only [BitVec.toNat_ofNat] at e1 e2
  omega

/-- C117. Whatever the host, the system gets port and octets as given to the library, and the library takes them right
from an address that the system has filled in. -/
theorem C117_system (h : Host) (p : Nat) (hp : p < 65536) (a b c d : Byte) :
    (∀ aton host, aton host = some (a, b, c, d) →
      portAndAddress h (h.ofHost aton host p).addr = be 2 p ++ [a, b, c, d] ∧ (h.ofHost aton host p).port = p ∧
      (h.ofHost aton host p).host = host ∧ (h.ofHost aton host p).addr.family = 2#16) ∧
    ∀ s, portAndAddress h s = be 2 p ++ [a, b, c, d] →
      (h.ofSockAddr s).port = p ∧ (h.ofSockAddr s).host = octetText [a, b, c, d] ∧ (h.ofSockAddr s).addr = s := by
  constructor
  · intro aton host ha
    refine ⟨?_, rfl, rfl, rfl⟩
    simp only [portAndAddress_eq, Host.ofHost, ha, load_image, image_htons]
    rw [BitVec.ofInt_natCast, BitVec.toNat_ofNat, Nat.mod_eq_of_lt hp]
  · intro s hs
    rw [portAndAddress_eq] at hs
    have hl : (h.image16 s.port).length = (be 2 p).length := by
      rw [image16_eq]; cases h.big <;> simp [be, le]
    obtain ⟨h1, h2⟩ := List.append_inj hs hl
    refine ⟨?_, ?_, rfl⟩
    · have e : be 2 (h.htons s.port).toNat = be 2 p := by
        rw [← h1, image16_eq]
        cases hb : h.big
        · have := be_two (Verif.htons s.port)
          rw [htons_htons] at this
          simp [Host.htons, hb, ← this]
        · simp [Host.htons, hb]
      have := be_two_inj (BitVec.isLt _) hp e
      show ((h.htons s.port).toNat : Int) = p
      rw [this]
    · show h.inetNtoa s.addr = _
      rw [Host.inetNtoa, h2]; rfl

theorem host_reads (h : Host) (f p : BitVec 16) (x : BitVec 32) (z : List Byte) (hz : z.length = 8) :
    Reads h.readEndPoint (le 2 f.toNat ++ (le 2 p.toNat ++ (le 4 x.toNat ++ z)))
      (h.ofSockAddr ⟨h.swapFamily (h.storeFamily f), p, x⟩) :=
  (Reads.u16 f).bind ((Reads.u16 p).bind ((Reads.u32 x).bind
    ((Reads.bytes' (n := 8) hz).map_pure (fun _ => h.ofSockAddr ⟨h.swapFamily (h.storeFamily f), p, x⟩))))

theorem host_htons_htons (h : Host) (v : BitVec 16) : h.htons (h.htons v) = v := by
  cases hb : h.big <;> simp [Host.htons, hb, htons_htons]

/-- C117. Where the family has two bytes, an end point written by a host is read back by a host of the same kind, whatever
its byte order. -/
theorem C117_roundtrip (h : Host) (hh : h.bsd = false) (b : Buffer) (a : SockAddr) (post : List Byte) (m : Mem) :
    h.readEndPoint m ⟨(h.putSockAddr b a).bytes ++ post, b.bytes.length⟩
      = .ok (h.ofSockAddr a, ⟨(h.putSockAddr b a).bytes ++ post, b.bytes.length + 16⟩) := by
  have := host_reads h (h.htons a.family) a.port a.addr (List.replicate 8 0#8) (by simp) m b.bytes post
  simp only [Host.swapFamily, Host.storeFamily, hh, Bool.false_eq_true, if_false, host_htons_htons] at this
  simpa [Host.putSockAddr, C02_little_endian, Buffer.putBytes] using this

theorem le_four_load (a b c d : Byte) (h : Host) :
    le 4 (h.load32 a b c d).toNat = if h.big then [d, c, b, a] else [a, b, c, d] := by
  have e := load_image h a b c d
  rw [Host.image32] at e
  rw [← put4_eq]
  cases hb : h.big
  · simpa [hb, octets] using e
  · rw [hb] at e
    have e' := congrArg List.reverse e
    simpa [octets] using e'

/-- C117. What is written for an address and a port: on a little-endian host the item of the specification, on a
big-endian one family, port and octets each the wrong way round. -/
theorem C117_written (h : Host) (p : Nat) (hp : p < 65536) (a b c d : Byte) (buf : Buffer) (aton host)
    (ha : aton host = some (a, b, c, d)) :
    (h.putSockAddr buf (h.ofHost aton host p).addr).bytes = buf.bytes ++
      if h.big then le 2 2 ++ le 2 p ++ [d, c, b, a] ++ List.replicate 8 0#8 else addressItem 2 p [a, b, c, d] := by
  simp only [Host.ofHost, ha, Host.putSockAddr, C02_little_endian, Buffer.putBytes, le_four_load]
  have e : (BitVec.ofInt 16 (p : Int)).toNat = p := by
    rw [BitVec.ofInt_natCast, BitVec.toNat_ofNat, Nat.mod_eq_of_lt hp]
  cases hb : h.big
  · simp only [Host.htons, hb, Bool.false_eq_true, if_false, be_two, e, addressItem, List.append_assoc]
    rfl
  · simp only [Host.htons, hb, if_true, e, List.append_assoc]
    rfl

/-- C117. What is read from an item as the specification has it: on a little-endian host its port and octets, on a
big-endian one the port with its bytes swapped and the octets in reverse, in the end point and in what the system will be
given alike. -/
theorem C117_read (h : Host) (p : Nat) (hp : p < 65536) (a b c d : Byte) (pre post : List Byte) (m : Mem) :
    ∃ ep, h.readEndPoint m ⟨pre ++ (addressItem 2 p [a, b, c, d] ++ post), pre.length⟩ =
        .ok (ep, ⟨pre ++ (addressItem 2 p [a, b, c, d] ++ post), pre.length + 16⟩) ∧
      ep.port = (if h.big then p % 256 * 256 + p / 256 else p : Nat) ∧
      ep.host = octetText (if h.big then [d, c, b, a] else [a, b, c, d]) ∧
      portAndAddress h ep.addr = (if h.big then le 2 p ++ [d, c, b, a] else be 2 p ++ [a, b, c, d]) ∧
      ep.addr.family = familyRead h := by
  let L : Host := {}
  have e : (BitVec.ofNat 16 p).toNat = p := by rw [BitVec.toNat_ofNat, Nat.mod_eq_of_lt hp]
  have hi : addressItem 2 p [a, b, c, d] = le 2 (512#16).toNat ++ (le 2 (htons (BitVec.ofNat 16 p)).toNat ++
      (le 4 (L.load32 a b c d).toNat ++ List.replicate 8 0#8)) := by
    rw [be_two, e, le_four_load]
    simp only [addressItem, List.append_assoc, L, Bool.false_eq_true, if_false]
    rfl
  have hr := host_reads h 512#16 (htons (BitVec.ofNat 16 p)) (L.load32 a b c d) (List.replicate 8 0#8) (by simp)
    m pre post
  rw [← hi] at hr
  have hlen : (addressItem 2 p [a, b, c, d]).length = 16 := by simp [addressItem, be, le]
  rw [hlen] at hr
  have hoct : octets (L.load32 a b c d) = [a, b, c, d] := load_image L a b c d
  refine ⟨_, hr, ?_, ?_, ?_, ?_⟩
  · show ((h.htons (htons (BitVec.ofNat 16 p))).toNat : Int) = _
    cases hb : h.big
    · simp only [Host.htons, hb, Bool.false_eq_true, if_false, htons_htons, e]
    · simp only [Host.htons, hb, if_true, htons_toNat, e]
  · show h.inetNtoa (L.load32 a b c d) = _
    rw [Host.inetNtoa, Host.image32, hoct]
    cases h.big <;> rfl
  · rw [portAndAddress_eq]
    show h.image16 (htons (BitVec.ofNat 16 p)) ++ h.image32 (L.load32 a b c d) = _
    rw [image16_eq, Host.image32, hoct, be_two, e]
    cases h.big
    · rfl
    · simp only [if_true]
      rw [be, be_two, e, be, List.reverse_reverse]
      rfl
  · show h.swapFamily (h.storeFamily 512#16) = _
    obtain ⟨bg, bs⟩ := h
    cases bg <;> cases bs <;> decide

/-- C117. On a big-endian host a correct item is taken right only when its port has two equal bytes and its octets read
the same backwards. -/
theorem C117_big_violated (h : Host) (hb : h.big = true) (p : Nat) (hp : p < 65536) (a b c d : Byte)
    (pre post : List Byte) (m : Mem) :
    ∃ ep b', h.readEndPoint m ⟨pre ++ (addressItem 2 p [a, b, c, d] ++ post), pre.length⟩ = .ok (ep, b') ∧
      (portAndAddress h ep.addr = be 2 p ++ [a, b, c, d] ↔ p % 256 = p / 256 ∧ a = d ∧ b = c) := by
  obtain ⟨ep, h1, -, -, h4, -⟩ := C117_read h p hp a b c d pre post m
  refine ⟨ep, _, h1, ?_⟩
  rw [h4, hb, if_pos rfl]
  simp only [be, le, List.reverse_cons, List.reverse_nil, List.nil_append, List.cons_append, List.cons.injEq, and_true]
  constructor
  · rintro ⟨h1, -, h2, h3, -, -⟩
    have := congrArg BitVec.toNat h1
    simp only [BitVec.toNat_ofNat] at this
    exact ⟨by omega, h2.symm, h3.symm⟩
  · rintro ⟨h1, h2, h3⟩
    have : p / 256 % 256 = p % 256 := by omega
    rw [this]
    exact ⟨rfl, rfl, h2.symm, h3.symm, h3, h2⟩

/-- C117. On a host with a one-byte family, even an end point that it has written itself comes back without
its family. -/
theorem C117_bsd_violated (big : Bool) (b : Buffer) (a : SockAddr) (ha : a.family = 2#16) (post : List Byte) (m : Mem) :
    ∃ ep b', (Host.mk big true).readEndPoint m
        ⟨((Host.mk big true).putSockAddr b a).bytes ++ post, b.bytes.length⟩ = .ok (ep, b') ∧
      ep.addr.port = a.port ∧ ep.addr.addr = a.addr ∧ ep.addr.family = 0#16 := by
  have := host_reads ⟨big, true⟩ ((Host.mk big true).htons a.family) a.port a.addr (List.replicate 8 0#8) (by simp)
    m b.bytes post
  refine ⟨_, ⟨((Host.mk big true).putSockAddr b a).bytes ++ post, b.bytes.length + 16⟩,
    by simpa [Host.putSockAddr, C02_little_endian, Buffer.putBytes] using this, ?_⟩
  · refine ⟨rfl, rfl, ?_⟩
    show (Host.mk big true).swapFamily ((Host.mk big true).storeFamily ((Host.mk big true).htons a.family)) = _
    rw [ha]
    cases big <;> decide

/-- C117. On a little-endian host with a one-byte family, no sixteen bytes at all give an end point with a family. -/
theorem C117_bsd_any_violated (d : List Byte) (hd : d.length = 16) (pre post : List Byte) (m : Mem) :
    ∃ ep b', (Host.mk false true).readEndPoint m ⟨pre ++ (d ++ post), pre.length⟩ = .ok (ep, b') ∧
      ep.addr.family = 0#16 := by
  match d, hd with
  | d0 :: d1 :: d2 :: d3 :: d4 :: d5 :: d6 :: d7 :: z, hz =>
    have hr : Reads (Host.mk false true).readEndPoint (d0 :: d1 :: d2 :: d3 :: d4 :: d5 :: d6 :: d7 :: z) _ :=
      (Reads.u16_raw d0 d1).bind ((Reads.u16_raw d2 d3).bind ((Reads.u32_raw d4 d5 d6 d7).bind
        ((Reads.bytes' (n := 8) (bs := z) (by simpa using hz)).map_pure (fun _ => (Host.mk false true).ofSockAddr
          ⟨(Host.mk false true).swapFamily ((Host.mk false true).storeFamily (BitVec.ofNat 16 (ofLe [d0, d1]))),
            BitVec.ofNat 16 (ofLe [d2, d3]), BitVec.ofNat 32 (ofLe [d4, d5, d6, d7])⟩))))
    refine ⟨_, _, hr m pre post, ?_⟩
    show (Host.mk false true).swapFamily ((Host.mk false true).storeFamily _) = _
    generalize BitVec.ofNat 16 (ofLe [d0, d1]) = v
    simp only [Host.swapFamily, Host.storeFamily, Host.htons, Host.image16, if_true, if_false, Bool.false_eq_true,
      List.headD_cons]
    apply BitVec.eq_of_toNat_eq
    rw [BitVec.toNat_setWidth, BitVec.toNat_setWidth, htons_toNat, BitVec.toNat_setWidth, BitVec.toNat_setWidth]
    have hx : v.toNat % 2 ^ 8 < 256 := Nat.mod_lt _ (by decide)
    generalize v.toNat % 2 ^ 8 = x at hx
    have e1 : x % 2 ^ 16 = x := by omega
    have e2 : x / 256 = 0 := by omega
    rw [e1, e2, Nat.add_zero, show (2 : Nat) ^ 8 = 256 from rfl, Nat.mul_mod_left]
    rfl

/-! ## Cases -/

example : ∃ ep b', (Host.mk false true).readEndPoint Mem.strict ⟨[7#8, 3#8] ++ List.replicate 14 9#8, 0⟩ = .ok (ep, b') ∧
    ep.addr.family = 0#16 := by
  simpa using C117_bsd_any_violated ([7#8, 3#8] ++ List.replicate 14 9#8) (by decide) [] [] Mem.strict

/-- 192.168.1.10, port 2222. -/
def exampleItem : List Byte := addressItem 2 2222 [192#8, 168#8, 1#8, 10#8]

example : exampleItem = [0#8, 2#8, 8#8, 0xae#8, 192#8, 168#8, 1#8, 10#8] ++ List.replicate 8 0#8 := by decide

/-- Host and port of what was read. -/
def hostAndPort : Outcome (EndPoint × Buffer) → Option (String × Int)
  | .ok (ep, _) => some (ep.host, ep.port)
  | _ => none

example : hostAndPort (({} : Host).readEndPoint Mem.strict ⟨exampleItem, 0⟩) = some ("192.168.1.10", 2222) := by
  decide +kernel

example : hostAndPort ((Host.mk true false).readEndPoint Mem.strict ⟨exampleItem, 0⟩) = some ("10.1.168.192", 44552) := by
  decide +kernel

example : portAndAddress ⟨true, false⟩ ((Host.mk true false).ofHost (fun _ => some (192#8, 168#8, 1#8, 10#8)) "plc" 2222).addr =
    [8#8, 0xae#8, 192#8, 168#8, 1#8, 10#8] := by decide

end Verif.Props
