import Verif.Spec.ExamplesMore
import Verif.Props.ExamplesLink
import Verif.Props.Identity
import Verif.Props.Discovery

/-!
# Property C103: the Yaskawa, identity and discovery examples
-/

namespace Verif.Props

open Verif Verif.Spec Verif.Examples

variable {δ : Type}

/-! ## Yaskawa_AssemblyObjectExample -/

theorem fill_loop (off : Int) (i k : Nat) (acc : List Byte) :
    fillLoop off i k acc = acc ++ (List.range' i k).map fun (j : Nat) => if (j : Int) < off then 0x00#8 else 0xDE#8 := by
  induction k generalizing i acc with
  | zero => simp [fillLoop]
  | succ k ih => rw [fillLoop, ih, List.range'_succ]; simp

/-- C103. The vector made by the example: zeros before the offset, 0xDE from there on. -/
theorem C103_fill (off size : Int) (i : Nat) :
    (fillVector off size).length = size.toNat ∧
      ((i : Int) < size → (fillVector off size)[i]? = some (if (i : Int) < off then 0x00#8 else 0xDE#8)) := by
  unfold fillVector
  rw [fill_loop]
  refine ⟨by simp, fun h => ?_⟩
  rw [List.nil_append, List.getElem?_map, List.getElem?_range' (by omega)]
  simp

theorem read_loop (m : Mem) (k : Nat) (acc : List Byte) (b : Buffer) (h : b.pos + k ≤ b.bytes.length) :
    readLoop k acc m b = .ok (acc ++ (b.bytes.drop b.pos).take k, ⟨b.bytes, b.pos + k⟩) := by
  induction k generalizing acc b with
  | zero => simp [readLoop]
  | succ k ih =>
    have hp : b.pos < b.bytes.length := by omega
    refine (Rd.bind_ok (u8_eq m b hp)).trans ?_
    rw [ih _ _ (by simp; omega), List.drop_eq_getElem_cons hp]
    simp only [List.take_succ_cons, List.append_assoc, List.singleton_append]
    rw [Nat.add_assoc, Nat.add_comm 1 k]

theorem read_sized (k : Nat) (acc : List Byte) : Sized (readLoop k acc) k := by
  induction k generalizing acc with
  | zero => exact Sized.pure acc
  | succ k ih => exact (Sized.u8.bind fun b => ih (acc ++ [b])).cast (by omega)

theorem yask_ok {D : YDevice δ} {q : YReq} {s : YRun δ} {d : δ} {r : MessageRouterResponse}
    (h : D.answer q s.dev = .ok d r) : yask D q s = .ok { s with dev := d, sent := s.sent ++ [q] } r := by
  unfold yask; rw [h]
theorem yask_throw {D : YDevice δ} {q : YReq} {s : YRun δ} {d : δ} {e : Exn}
    (h : D.answer q s.dev = .throw d e) : yask D q s = .throw { s with dev := d, sent := s.sent ++ [q] } e := by
  unfold yask; rw [h]
theorem yask_ub {D : YDevice δ} {q : YReq} {s : YRun δ} (h : D.answer q s.dev = .ub) : yask D q s = .ub := by
  unfold yask; rw [h]

/-- C103. Reading an assembly.  Without an answer the exception leaves; a refusal gives the empty
vector; a success reply with at least `4 * sizeof(Buffer)` bytes gives the first that many; a shorter one
is read out of bounds. -/
theorem C103_read (m : Mem) (size : Nat) (hsize : 0 < size) (D : YDevice δ) (inst : Int) (s : YRun δ) :
    let q := yReadReq (BitVec.ofInt 8 inst)
    (∀ d e, D.answer q s.dev = .throw d e →
      readAssemblyObject m size D inst s = .throw ⟨d, s.sent ++ [q], s.lines⟩ e) ∧
    (∀ d r, D.answer q s.dev = .ok d r →
      (YShort (4 * size) r → readAssemblyObject Mem.strict size D inst s = .ub) ∧
      (¬ YShort (4 * size) r → readAssemblyObject m size D inst s =
        .ok ⟨d, s.sent ++ [q], s.lines ++ [yReadLine (4 * size) r]⟩
          (if r.status = 0x00#8 then r.data.take (4 * size) else []))) := by
  intro q
  refine ⟨fun d e h => Prog.bind_throw (yask_throw (q := q) h), fun d r h => ⟨fun hs => ?_, fun hn => ?_⟩⟩
  · refine (Prog.bind_ok (yask_ok (q := q) h)).trans ?_
    rw [if_neg (Classical.not_not.mpr (show r.status = GeneralStatus.success from hs.1))]
    refine Prog.bind_ub ?_
    have hu : (readBuffer ((4 * size : Nat) : Int)).from Mem.strict r.data = .ub :=
      Rd.from_ub ((read_sized _ []).short (Buffer.ofData r.data) (by simp [Buffer.ofData]) (by
        have := hs.2; simp [Buffer.ofData]; omega))
    rw [hu]
    rfl
  · refine (Prog.bind_ok (yask_ok (q := q) h)).trans ?_
    by_cases hs : r.status = 0x00#8
    · have hl : 4 * size ≤ r.data.length := Nat.le_of_not_lt fun hl => hn ⟨hs, hl⟩
      rw [if_neg (Classical.not_not.mpr (show r.status = GeneralStatus.success from hs)), if_pos hs]
      have hr : (readBuffer ((4 * size : Nat) : Int)).from m r.data = .ok (r.data.take (4 * size)) :=
        Rd.from_ok (read_loop m _ [] (Buffer.ofData r.data) (by simp [Buffer.ofData]; omega))
      match hd : r.data with
      | [] => rw [hd] at hl; simp at hl; omega
      | b :: rest =>
        obtain ⟨k, hk⟩ : ∃ k, 4 * size = k + 1 := ⟨4 * size - 1, by omega⟩
        rw [hd] at hr
        simp only [hr]
        simp only [hk, List.take_succ_cons, yReadLine, if_pos hs, hd, List.headD_cons]
        rfl
    · rw [if_pos (show r.status ≠ GeneralStatus.success from hs), if_neg hs]
      simp only [yReadLine, if_neg hs]
      rfl

/-- C103. Writing an assembly: the request carries the data; the result tells if it succeeded. -/
theorem C103_write (D : YDevice δ) (inst : Int) (data : List Byte) (s : YRun δ) :
    let q : YReq := ⟨0x10#8, ⟨4, BitVec.ofInt 8 inst, 3, 3⟩, data⟩
    (∀ d e, D.answer q s.dev = .throw d e →
      writeAssemblyObject D inst data s = .throw ⟨d, s.sent ++ [q], s.lines⟩ e) ∧
    (∀ d r, D.answer q s.dev = .ok d r →
      writeAssemblyObject D inst data s = .ok ⟨d, s.sent ++ [q], s.lines ++ [yWriteLine r]⟩ (r.status == 0x00#8)) := by
  intro q
  refine ⟨fun d e h => Prog.bind_throw (yask_throw (q := q) h), fun d r h => ?_⟩
  refine (Prog.bind_ok (yask_ok (q := q) h)).trans ?_
  by_cases hs : r.status = 0x00#8
  · rw [if_neg (Classical.not_not.mpr (show r.status = GeneralStatus.success from hs))]
    simp only [yWriteLine, if_pos hs, hs]
    rfl
  · rw [if_pos (show r.status ≠ GeneralStatus.success from hs)]
    simp only [yWriteLine, if_neg hs, beq_eq_false_iff_ne.mpr hs]
    rfl

theorem fill_write : (⟨0x10#8, ⟨4, BitVec.ofInt 8 0x6F, 3, 3⟩, fillVector 0x00 128⟩ : YReq) = yWriteReq := by decide +kernel

/-- C103. The Yaskawa example when all its requests are answered and no success reply to a read is
too short: it reads assembly 0x65 and 0x6F, writes 128 bytes to 0x6F, reports each answer, and ends with exit
code 0 whatever the answers were. -/
theorem C103_yaskawa (m : Mem) (size : Nat) (hsize : 0 < size) (D : YDevice δ) (s : YRun δ) (r1 r2 r3 : MessageRouterResponse)
    (d : δ) (h : YAnswered D s.dev [(yReadReq 0x65, r1), (yReadReq 0x6F, r2), (yWriteReq, r3)] d)
    (h1 : ¬ YShort (4 * size) r1) (h2 : ¬ YShort (4 * size) r2) :
    yaskawaMain m size D s =
      .ok ⟨d, s.sent ++ [yReadReq 0x65, yReadReq 0x6F, yWriteReq],
        s.lines ++ [yReadLine (4 * size) r1, yReadLine (4 * size) r2, yWriteLine r3]⟩ 0 := by
  cases h with
  | cons a1 h => cases h with
    | cons a2 h => cases h with
      | cons a3 h =>
        cases h
        refine (Prog.bind_ok (((C103_read m size hsize D 0x65 s).2 _ _ a1).2 h1)).trans ?_
        refine (Prog.bind_ok (((C103_read m size hsize D 0x6F ⟨_, _, _⟩).2 _ _ a2).2 h2)).trans ?_
        refine (Prog.bind_ok ((C103_write D 0x6F (fillVector 0x00 128) ⟨_, _, _⟩).2 _ _ (fill_write ▸ a3))).trans ?_
        simp only [List.append_assoc, fill_write]
        rfl

/-- C103. The Yaskawa example ends by the exception of the first request that is not answered. -/
theorem C103_yaskawa_throws (m : Mem) (size : Nat) (hsize : 0 < size) (D : YDevice δ) (s : YRun δ) (d : δ) (e : Exn)
    (done : List (YReq × MessageRouterResponse)) (d0 : δ) (q : YReq) (more : List YReq)
    (h : YAnswered D s.dev done d0) (hn : ∀ p ∈ done, ¬ YShort (4 * size) p.2) (hq : D.answer q d0 = .throw d e)
    (hs : done.map (·.1) ++ q :: more = [yReadReq 0x65, yReadReq 0x6F, yWriteReq]) :
    ∃ lines, yaskawaMain m size D s = .throw ⟨d, s.sent ++ done.map (·.1) ++ [q], s.lines ++ lines⟩ e ∧
      lines = done.map fun p => yReadLine (4 * size) p.2 := by
  refine ⟨_, ?_, rfl⟩
  match done, h, hn, hs with
  | [], h, _, hs =>
    cases h
    simp only [List.map_nil, List.nil_append, List.cons.injEq] at hs
    obtain ⟨rfl, -⟩ := hs
    simp only [List.map_nil, List.append_nil]
    exact Prog.bind_throw ((C103_read m size hsize D 0x65 s).1 _ _ hq)
  | [(q1, r1)], h, hn, hs =>
    simp only [List.map_cons, List.map_nil, List.cons_append, List.nil_append, List.cons.injEq] at hs
    obtain ⟨rfl, rfl, -⟩ := hs
    cases h with
    | cons a1 h =>
      cases h
      refine (Prog.bind_ok (((C103_read m size hsize D 0x65 s).2 _ _ a1).2 (hn _ (List.mem_cons_self ..)))).trans ?_
      exact Prog.bind_throw ((C103_read m size hsize D 0x6F ⟨_, _, _⟩).1 _ _ hq)
  | [(q1, r1), (q2, r2)], h, hn, hs =>
    simp only [List.map_cons, List.map_nil, List.cons_append, List.nil_append, List.cons.injEq] at hs
    obtain ⟨rfl, rfl, rfl, -⟩ := hs
    cases h with
    | cons a1 h => cases h with
      | cons a2 h =>
        cases h
        refine (Prog.bind_ok (((C103_read m size hsize D 0x65 s).2 _ _ a1).2 (hn _ (List.mem_cons_self ..)))).trans ?_
        refine (Prog.bind_ok (((C103_read m size hsize D 0x6F ⟨_, _, _⟩).2 _ _ a2).2 (hn (yReadReq 0x6F, r2) (by simp)))).trans ?_
        refine (Prog.bind_throw ((C103_write D 0x6F (fillVector 0x00 128) ⟨_, _, _⟩).1 _ _ (fill_write ▸ hq))).trans ?_
        simp only [List.append_assoc, fill_write, List.map_cons, List.map_nil, List.cons_append, List.nil_append]
        rfl
  | _ :: _ :: _ :: _, _, _, hs => simp at hs

/-- C103. A success reply that is too short makes the Yaskawa example read out of bounds. -/
theorem C103_short_violated (size : Nat) (hsize : 0 < size) (D : YDevice δ) (s : YRun δ) (d d' : δ) (r1 r2 : MessageRouterResponse) :
    (YAnswered D s.dev [(yReadReq 0x65, r1)] d → YShort (4 * size) r1 → yaskawaMain Mem.strict size D s = .ub) ∧
    (YAnswered D s.dev [(yReadReq 0x65, r1), (yReadReq 0x6F, r2)] d' → ¬ YShort (4 * size) r1 → YShort (4 * size) r2 →
      yaskawaMain Mem.strict size D s = .ub) := by
  refine ⟨fun h hs => ?_, fun h h1 hs => ?_⟩
  · cases h with
    | cons a1 h => exact Prog.bind_ub (((C103_read Mem.strict size hsize D 0x65 s).2 _ _ a1).1 hs)
  · cases h with
    | cons a1 h => cases h with
      | cons a2 h =>
        refine (Prog.bind_ok (((C103_read Mem.strict size hsize D 0x65 s).2 _ _ a1).2 h1)).trans ?_
        exact Prog.bind_ub (((C103_read Mem.strict size hsize D 0x6F ⟨_, _, _⟩).2 _ _ a2).1 hs)

/-- C103. The read gives the whole assembly exactly if it has `4 * sizeof(Buffer)` bytes: the size of a C++
object decides. -/
theorem C103_whole (m : Mem) (size : Nat) (hsize : 0 < size) (D : YDevice δ) (inst : Int) (s : YRun δ) (d : δ)
    (r : MessageRouterResponse) (h : D.answer (yReadReq (BitVec.ofInt 8 inst)) s.dev = .ok d r) (hs : r.status = 0x00#8)
    (hl : 4 * size ≤ r.data.length) :
    (∃ s', readAssemblyObject m size D inst s = .ok s' r.data) ↔ r.data.length = 4 * size := by
  rw [((C103_read m size hsize D inst s).2 d r h).2 (fun hx => Nat.lt_irrefl _ (Nat.lt_of_lt_of_le hx.2 hl)), if_pos hs]
  constructor
  · rintro ⟨s', h'⟩
    have := congrArg List.length (Res.ok.inj h').2
    rw [List.length_take] at this
    omega
  · intro he
    rw [List.take_of_length_le (by omega)]
    exact ⟨_, rfl⟩

/-- A device with three assemblies' worth of replies: its state counts the requests. -/
def yScript (rs : List MessageRouterResponse) : YDevice Nat :=
  ⟨fun _ n => match rs[n]? with
    | some r => .ok (n + 1) r
    | none => .throw n (.runtime "gone")⟩

/-- A read of 128 bytes, a refused read, an accepted write; the connection lost after the first read; a reply
of 100 bytes; a platform where the object has 16 bytes. -/
example :
    let full := { MessageRouterResponse.default with data := List.replicate 128 7#8 }
    let no := { MessageRouterResponse.default with status := 0x08#8 }
    let done := MessageRouterResponse.default
    let cut := { MessageRouterResponse.default with data := List.replicate 100 7#8 }
    yaskawaMain Mem.strict 32 (yScript [full, no, done]) ⟨0, [], []⟩ =
      .ok ⟨3, [yReadReq 0x65, yReadReq 0x6F, yWriteReq], [.read 128 7, .notRead 8, .written]⟩ 0 ∧
    yaskawaMain Mem.strict 32 (yScript [full]) ⟨0, [], []⟩ =
      .throw ⟨1, [yReadReq 0x65, yReadReq 0x6F], [.read 128 7]⟩ (.runtime "gone") ∧
    yaskawaMain Mem.strict 32 (yScript [full, cut]) ⟨0, [], []⟩ = .ub ∧
    yaskawaMain Mem.strict 16 (yScript [full, cut, done]) ⟨0, [], []⟩ =
      .ok ⟨3, [yReadReq 0x65, yReadReq 0x6F, yWriteReq], [.read 64 7, .read 64 7, .written]⟩ 0 := by
  refine ⟨?_, ?_, ?_, ?_⟩ <;> decide +kernel

/-! ## IdentityObjectExample -/

/-- What the log line of the identity example holds. -/
def identityLineView (l : IdentityLine) : Nat × Nat × Nat × String × Nat × Nat × List Byte :=
  (l.vendorId.toNat, l.deviceType.toNat, l.productCode.toNat, l.revision, l.status.toNat, l.serialNumber.toNat, l.productName)

/-- C103. The identity example makes one request; it prints the identity the device sends and ends with exit
code 0; a refusal or a lost answer ends it by an exception; a record that is too short is read out of bounds. -/
theorem C103_identity (m : Mem) (D : Device δ) (L : Link δ) :
    (∀ d e, D.answer identityReq L.dev = .throw d e → identityMain m D L = .throw ⟨d, L.sent ++ [identityReq]⟩ e) ∧
    (∀ d r, D.answer identityReq L.dev = .ok d r →
      (r.status ≠ 0x00#8 →
        identityMain m D L = .throw ⟨d, L.sent ++ [identityReq]⟩ (.runtime "Failed to read all attributes")) ∧
      (r.status = 0x00#8 → IdentityFits r.data 0 →
        ∃ l, identityMain m D L = .ok ⟨d, L.sent ++ [identityReq]⟩ (l, 0) ∧
          identityLineView l = identityPrinted (identityAt r.data 0)) ∧
      (r.status = 0x00#8 → ¬ IdentityFits r.data 0 → identityMain Mem.strict D L = .ub)) := by
  refine ⟨fun d e h => Prog.bind_throw (Prog.bind_throw (ask_throw (r := identityReq) h)), fun d r h => ⟨fun hs => ?_, fun hs hf => ?_, fun hs hf => ?_⟩⟩
  · exact Prog.bind_throw (C54_failed m D L 1 d r h hs)
  · obtain ⟨o, h1, _, h3⟩ := C54_read m D L 1 d r h hs hf
    refine ⟨_, Prog.bind_ok h1, ?_⟩
    rw [← h3]
    rfl
  · exact Prog.bind_ub (C54_short_violated D L 1 d r h hs hf)

example :
    let i : Identity := ⟨1, 12, 65, 1, 2, 0x60, 0x11223344, [0x41#8, 0x42#8]⟩
    identityMain Mem.strict (fixedReply { MessageRouterResponse.default with data := i.bytes }) ⟨(), []⟩ =
      .ok ⟨(), [identityReq]⟩ (⟨1, 12, 65, "1.2", 0x60, 0x11223344, [0x41#8, 0x42#8]⟩, 0) := by
  decide +kernel

/-! ## DiscoveryManagerExample -/

/-- C103. The discovery example prints, for answers that discovery can read followed by the timeout, the name and
the address of every announced device, in order, and ends with exit code 0. -/
theorem C103_discovery (m : Mem) (ans : List (List Byte × List (Nat × List Byte))) (h : ∀ a ∈ ans, Announces a.1 a.2)
    (rest : List Recv) :
    discoveryMain m { sendCount := 24, recvs := ans.map (fun a => Recv.dgram a.1) ++ .err 11 :: rest } =
      (some (encapsFrame 0x63 0 0 (List.replicate 8 0#8) 0 []),
        .exited ((ans.flatMap (·.2)).map fun i => foundPrinted (foundIn i.2)) 0) := by
  obtain ⟨devs, h1, h2⟩ := C52_discovers m ans h rest
  unfold discoverGets at h1
  unfold discoveryMain
  simp only [h1]
  have h3 : (devs.map fun d => (d.identityObject.productName.data, d.socketAddress.toStr)) =
      (devs.map foundView).map fun v => (v.2.2.name, v.1 ++ ":" ++ toString v.2.1) := by
    rw [List.map_map]; rfl
  rw [h3, h2, List.map_map]
  rfl

/-- C103. Otherwise it ends as discovery does. -/
theorem C103_discovery_ends (m : Mem) (e : Discovery.Env) :
    (discoveryMain m e).1 = (Discovery.discover m e).1 ∧
    (∀ x, (discoveryMain m e).2 = .uncaught x ↔ (Discovery.discover m e).2 = .threw x) ∧
    ((discoveryMain m e).2 = .ub ↔ (Discovery.discover m e).2 = .ub) ∧
    ((∃ lines, (discoveryMain m e).2 = .exited lines 0) ↔ ∃ devs, (Discovery.discover m e).2 = .done devs) := by
  unfold discoveryMain
  refine ⟨rfl, fun x => ?_, ?_, ?_⟩ <;> dsimp only <;> generalize (Discovery.discover m e).2 = r <;> cases r <;> simp

/-- Two devices answer, one after the other. -/
example :
    let a : Identity := ⟨1, 12, 65, 1, 2, 0x60, 0x11223344, [0x41#8, 0x42#8]⟩
    let b : Identity := ⟨2, 43, 700, 3, 4, 0, 7, []⟩
    let da := identityItem 44818 [192#8, 168#8, 1#8, 7#8] a
    let db := identityItem 44818 [10#8, 0#8, 0#8, 9#8] b
    let msg := fun d => List.replicate 24 0#8 ++ (le 2 1 ++ cpfItem 0x0c d)
    (discoveryMain Mem.strict { sendCount := 24, recvs := [.dgram (msg da), .dgram (msg db), .err 11] }).2 =
      .exited [([0x41#8, 0x42#8], "192.168.1.7:44818"), ([], "10.0.0.9:44818")] 0 := by decide +kernel

end Verif.Props
