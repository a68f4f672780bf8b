import Verif.Props.EPath
import Verif.Props.ManagerOpen

/-!
# Property C80: comparing and showing paths and end points
-/

namespace Verif.Props

open Verif Verif.Spec

/-- C80. Two paths a user builds compare equal exactly if they are built from the same
identifiers, and exactly if their 16-bit forms are the same bytes. -/
theorem C80_path_eq (p q : EPath) (is js : List (BitVec 16)) (hp : Built p is) (hq : Built q js) :
    (p.eq q = true ↔ is = js) ∧ (p.packPaddedPath false = q.packPaddedPath false ↔ is = js) := by
  have hle : ∀ v w : BitVec 16, le 2 v.toNat = le 2 w.toNat ↔ v = w := by
    intro v w
    refine ⟨fun h => BitVec.eq_of_toNat_eq (le_inj 2 _ _ (by have := v.isLt; omega) (by have := w.isLt; omega) h), fun h => by rw [h]⟩
  have hle2 : ∀ (v w : BitVec 16) (a b : List Byte), le 2 v.toNat ++ a = le 2 w.toNat ++ b ↔ v = w ∧ a = b := by
    intro v w a b
    constructor
    · intro h
      obtain ⟨h1, h2⟩ := List.append_inj h (by simp)
      exact ⟨(hle v w).1 h1, h2⟩
    · rintro ⟨rfl, rfl⟩; rfl
  have hlen : ∀ (x y : List Byte), x.length ≠ y.length → (x = y ↔ False) := by
    intro x y h; exact ⟨fun e => h (by rw [e]), False.elim⟩
  constructor
  · cases hp <;> cases hq <;> simp [EPath.eq, EPath.mk1, EPath.mk2, EPath.mk3, and_assoc]
  · rw [C11_layout p is hp, C11_layout q js hq]
    cases hp <;> cases hq <;> first
      | (simp [pathBytes, Seg.bytes, SegKind.code16, hle, hle2]; done)
      | (rw [hlen _ _ (by simp [pathBytes, Seg.bytes])]; simp)

/-- C80. Comparing paths is an equivalence relation on all paths, also on those that were decoded. -/
theorem C80_path_equivalence (p q : EPath) : p.eq q = true ↔ p = q := by
  obtain ⟨a, b, c, d⟩ := p
  obtain ⟨a', b', c', d'⟩ := q
  simp only [EPath.eq, Bool.and_eq_true, beq_iff_eq, EPath.mk.injEq]
  constructor
  · rintro ⟨⟨⟨h1, h2⟩, h3⟩, h4⟩; exact ⟨h2, h3, h4, h1⟩
  · rintro ⟨h1, h2, h3, h4⟩; exact ⟨⟨⟨h4, h1⟩, h2⟩, h3⟩

/-- C80. A path is shown with its identifiers, in order. -/
theorem C80_path_text (p : EPath) (ids : List (BitVec 16)) (hp : Built p ids) : p.toStr = showPath (ids.map BitVec.toNat) := by
  cases hp <;> simp [EPath.toStr, EPath.mk1, EPath.mk2, EPath.mk3, showPath, String.append_assoc] <;> rfl

example : showPath [6, 1] = "[classId=6 objectId=1]" := by decide +kernel
example : (EPath.mk2 6 1).eq (EPath.mk2 6 1) = true ∧ (EPath.mk2 6 0).eq (EPath.mk1 6) = false := by decide

/-- C80. End points compare equal exactly if they agree in everything: host, port, and the
address, port and family for the system. -/
theorem C80_endpoint_equivalence (a b : EndPoint) : a.eq b = true ↔ a = b := by
  obtain ⟨h, p, ⟨f, q, d⟩⟩ := a
  obtain ⟨h', p', ⟨f', q', d'⟩⟩ := b
  simp only [EndPoint.eq, Bool.and_eq_true, beq_iff_eq, EndPoint.mk.injEq, SockAddr.mk.injEq]
  constructor
  · rintro ⟨⟨⟨⟨h1, h2⟩, h3⟩, h4⟩, h5⟩; exact ⟨h1, h2, h5, h4, h3⟩
  · rintro ⟨h1, h2, h5, h4, h3⟩; exact ⟨⟨⟨⟨h1, h2⟩, h3⟩, h4⟩, h5⟩

/-- C80. End points made from a host and a port compare equal exactly if these are the same,
and are shown as host, colon and port. -/
theorem C80_endpoint_host (aton : String → Option (BitVec 32)) (h h' : String) (p p' : Int) :
    ((EndPoint.ofHost aton h p).eq (EndPoint.ofHost aton h' p') = true ↔ h = h' ∧ p = p') ∧
    (EndPoint.ofHost aton h p).toStr = h ++ ":" ++ toString p := by
  constructor
  · rw [C80_endpoint_equivalence]
    constructor
    · intro e
      exact ⟨congrArg EndPoint.host e, congrArg EndPoint.port e⟩
    · rintro ⟨rfl, rfl⟩; rfl
  · rfl

/-- C80. What the system is given for an end point made from a host and a port: IPv4, the
port in network order, and the address `inet_aton` finds, or 0.0.0.0 if it finds none. -/
theorem C80_endpoint_address (aton : String → Option (BitVec 32)) (h : String) (p : Nat) (hp : p < 65536) :
    sockaddrImage (EndPoint.ofHost aton h p).addr = ipv4 p ((aton h).getD 0) := ofHost_image aton h p hp

example : sockaddrImage (EndPoint.ofHost (fun _ => some 0x0A01A8C0) "192.168.1.10" 44818).addr =
    [2, 0, 0xAF, 0x12, 192, 168, 1, 10] := by decide

/-- C80. Two spellings of one address are different end points, though the system cannot
tell them apart. -/
theorem C80_endpoint_spelling_violated (aton : String → Option (BitVec 32)) (h h' : String) (hne : h ≠ h') (ha : aton h = aton h')
    (p : Int) :
    (EndPoint.ofHost aton h p).addr = (EndPoint.ofHost aton h' p).addr ∧
    (EndPoint.ofHost aton h p).eq (EndPoint.ofHost aton h' p) = false := by
  constructor
  · simp [EndPoint.ofHost, ha]
  · rw [← Bool.not_eq_true, (C80_endpoint_host aton h h' p p).1]
    exact fun e => hne e.1

/-- C80. A port outside 0 to 65535 is not refused: it addresses the port with the same low 16 bits. -/
theorem C80_endpoint_port_violated (aton : String → Option (BitVec 32)) (h : String) (p : Int) :
    (EndPoint.ofHost aton h (p + 65536)).addr = (EndPoint.ofHost aton h p).addr ∧
    (EndPoint.ofHost aton h (p + 65536)).eq (EndPoint.ofHost aton h p) = false := by
  constructor
  · have : BitVec.ofInt 16 (p + 65536) = BitVec.ofInt 16 p := by
      apply BitVec.eq_of_toInt_eq
      simp only [BitVec.toInt_ofInt]
      exact Int.add_bmod_right p 65536
    simp [EndPoint.ofHost, this]
  · rw [← Bool.not_eq_true, (C80_endpoint_host aton h h _ p).1]
    intro e
    have := e.2
    omega

end Verif.Props
