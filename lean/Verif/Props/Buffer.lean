import Verif.Model.EndPoint
import Verif.Spec.Typed
import Verif.Lemmas.Reader

/-!
# Properties C01-C05: the byte buffer
-/

namespace Verif.Props

open Verif Verif.Spec

/-! ## Connecting the specification's values to the stream operators -/

/-- `buffer << value`. -/
def write (b : Buffer) : Val → Buffer
  | .u8 v => b.putU8 v
  | .u16 v => b.putU16 v
  | .u32 v => b.putU32 v
  | .u64 v => b.putU64 v
  | .bytes v => b.putBytes v
  | .words v => b.putWords v
  | .revision a i => b.putRevision ⟨a, i⟩
  | .shortString t => b.putShortString (CipString.ofBytes 8 t)
  | .longString t => b.putLongString (CipString.ofBytes 16 t)
  | .sockAddr f p a => b.putSockAddr ⟨f, p, a⟩

/-- `buffer >> value` for a variable of the given type. -/
def read : Ty → Rd Val
  | .u8 => do let v ← Rd.u8; pure (.u8 v)
  | .u16 => do let v ← Rd.u16; pure (.u16 v)
  | .u32 => do let v ← Rd.u32; pure (.u32 v)
  | .u64 => do let v ← Rd.u64; pure (.u64 v)
  | .bytes n => do let v ← Rd.bytes n; pure (.bytes v)
  | .words n => do let v ← Rd.words n; pure (.words v)
  | .revision => do let v ← Rd.revision; pure (.revision v.major v.minor)
  | .shortString => do let v ← Rd.shortString; pure (.shortString v.data)
  | .longString => do let v ← Rd.longString; pure (.longString v.data)
  | .sockAddr => do let v ← Rd.sockAddr; pure (.sockAddr v.family v.port v.addr)

/-- `buffer >> v1 >> v2 >> ...`. -/
def readAll : List Ty → Rd (List Val)
  | [] => pure []
  | t :: ts => do
    let v ← read t
    let vs ← readAll ts
    pure (v :: vs)

/-! ## C02 -/

/-- C02. Writing an integer of 1, 2, 4 or 8 bytes appends exactly its base-256
digits, least significant first, and keeps the earlier bytes and the position. -/
theorem C02_little_endian (b : Buffer) :
    (∀ v : BitVec 8, b.putU8 v = ⟨b.bytes ++ le 1 v.toNat, b.pos⟩) ∧
    (∀ v : BitVec 16, b.putU16 v = ⟨b.bytes ++ le 2 v.toNat, b.pos⟩) ∧
    (∀ v : BitVec 32, b.putU32 v = ⟨b.bytes ++ le 4 v.toNat, b.pos⟩) ∧
    (∀ v : BitVec 64, b.putU64 v = ⟨b.bytes ++ le 8 v.toNat, b.pos⟩) := by
  refine ⟨fun v => ?_, fun v => ?_, fun v => ?_, fun v => ?_⟩
  · simp [Buffer.putU8, le_one]
  · simp only [Buffer.putU16, put2_eq]
  · simp only [Buffer.putU32, put4_eq]
  · simp only [Buffer.putU64, put8_eq]

example : (Buffer.ofData [7#8]).putU16 0x1234#16 = ⟨[7#8, 0x34#8, 0x12#8], 0⟩ := by decide

/-- C02. The digits determine the value: different values have different bytes. -/
theorem C02_injective (n v w : Nat) (hv : v < 256 ^ n) (hw : w < 256 ^ n)
    (h : le n v = le n w) : v = w := le_inj n v w hv hw h

theorem putWords_eq (b : Buffer) (vs : List (BitVec 16)) :
    b.putWords vs = ⟨b.bytes ++ leWords vs, b.pos⟩ := by
  induction vs generalizing b with
  | nil => simp [Buffer.putWords, leWords]
  | cons v vs ih =>
    rw [Buffer.putWords, ih]
    simp [leWords, ← put2_eq]

/-- The bytes appended by `write`. -/
def enc : Val → List Byte
  | .u8 v => [v]
  | .u16 v => le 2 v.toNat
  | .u32 v => le 4 v.toNat
  | .u64 v => le 8 v.toNat
  | .bytes v => v
  | .words v => leWords v
  | .revision a i => [a, i]
  | .shortString t => BitVec.ofNat 8 t.length :: t
  | .longString t => le 2 (t.length % 65536) ++ t
  | .sockAddr f p a => le 2 (htons f).toNat ++ (le 2 p.toNat ++ (le 4 a.toNat ++ List.replicate 8 0#8))

theorem write_eq (b : Buffer) (v : Val) : write b v = ⟨b.bytes ++ enc v, b.pos⟩ := by
  cases v <;>
    simp [write, enc, Buffer.putU8, Buffer.putBytes, C02_little_endian, putWords_eq,
      Buffer.putRevision, Buffer.putShortString, Buffer.putLongString, Buffer.putSockAddr,
      CipString.ofBytes]

theorem htons_htons (v : BitVec 16) : htons (htons v) = v := by
  unfold htons
  ext i hi
  simp [BitVec.getElem_or]
  grind

theorem reads_sockAddr (f p : BitVec 16) (a : BitVec 32) :
    Reads Rd.sockAddr (le 2 (htons f).toNat ++ (le 2 p.toNat ++ (le 4 a.toNat ++ List.replicate 8 0#8)))
      ⟨f, p, a⟩ := by
  have h : Reads Rd.sockAddr _ (⟨htons (htons f), p, a⟩ : SockAddr) :=
    (Reads.u16 (htons f)).bind ((Reads.u16 p).bind ((Reads.u32 a).bind
    ((Reads.bytes' (n := 8) (bs := List.replicate 8 0#8) (by simp)).map_pure
      (fun _ => (⟨htons (htons f), p, a⟩ : SockAddr)))))
  rw [htons_htons] at h
  exact h

theorem read_enc (v : Val) (h : v.Fits) : Reads (read v.ty) (enc v) v := by
  cases v with
  | u8 v => exact (Reads.u8 v).map_pure Val.u8
  | u16 v => exact (Reads.u16 v).map_pure Val.u16
  | u32 v => exact (Reads.u32 v).map_pure Val.u32
  | u64 v => exact (Reads.u64 v).map_pure Val.u64
  | bytes v => exact (Reads.bytes v).map_pure Val.bytes
  | words v => exact (Reads.words v).map_pure Val.words
  | revision a i => exact (Reads.revision ⟨a, i⟩).map_pure fun v => Val.revision v.major v.minor
  | shortString t =>
    exact (Reads.shortString t h).map_pure fun v => Val.shortString v.data
  | longString t =>
    have e : t.length % 65536 = t.length := Nat.mod_eq_of_lt h
    simp only [enc, e]
    exact (Reads.longString t h).map_pure fun v => Val.longString v.data
  | sockAddr f p a =>
    exact (reads_sockAddr f p a).map_pure fun v => Val.sockAddr v.family v.port v.addr

theorem foldl_write (b : Buffer) (vs : List Val) :
    vs.foldl write b = ⟨b.bytes ++ vs.flatMap enc, b.pos⟩ := by
  induction vs generalizing b with
  | nil => simp
  | cons v vs ih => simp [ih, write_eq]

theorem readAll_enc (vs : List Val) (h : ∀ v ∈ vs, v.Fits) :
    Reads (readAll (vs.map Val.ty)) (vs.flatMap enc) vs := by
  induction vs with
  | nil => exact Reads.pure []
  | cons v vs ih =>
    have h1 := read_enc v (h v (by simp))
    have h2 := ih (fun w hw => h w (by simp [hw]))
    exact h1.bind (h2.map_pure (fun t => v :: t))

/-! ## C01 -/

/-- C01. Write any sequence of values behind any earlier content, put anything
behind them, then read the same types from where the first value was written:
the same values come back, whatever memory outside the buffer contains (so no
stray read happened), exactly the written bytes were consumed and the buffer is
still valid. -/
theorem C01_typed_roundtrip (vs : List Val) (hfit : ∀ v ∈ vs, v.Fits)
    (b : Buffer) (post : List Byte) (m : Mem) :
    let written := vs.foldl write b
    let final : Buffer := ⟨written.bytes ++ post, written.bytes.length⟩
    readAll (vs.map Val.ty) m ⟨written.bytes ++ post, b.bytes.length⟩ = .ok (vs, final)
      ∧ final.isValid = true
      ∧ written.bytes.take b.bytes.length = b.bytes := by
  intro written final
  have h := readAll_enc vs hfit m b.bytes post
  refine ⟨?_, ?_, ?_⟩
  · simp only [written, final, foldl_write]
    simpa using h
  · simp [final, Buffer.isValid]
  · simp [written, foldl_write]

example : ∀ v ∈ [Val.u16 0xffee#16, .shortString [65#8, 66#8], .sockAddr 2#16 0xae08#16 0x0100007f#32,
    .words [1#16, 0x8000#16], .u64 1#64], v.Fits := by
  simp [Val.Fits]

/-- The operations on one buffer, one after the other: the values read, and the buffer afterwards. -/
def bufRun (m : Mem) : List BufOp → Buffer → Outcome (List Val × Buffer)
  | [], b => .ok ([], b)
  | .put v :: ops, b => bufRun m ops (write b v)
  | .get t :: ops, b =>
    match read t m b with
    | .ub => .ub
    | .throw e => .throw e
    | .ok (v, b') =>
      match bufRun m ops b' with
      | .ub => .ub
      | .throw e => .throw e
      | .ok (vs, b'') => .ok (v :: vs, b'')

theorem bufRun_queue (m : Mem) (ops : List BufOp) (q out rest : List Val) (pre : List Byte)
    (hfit : ∀ v, (.put v ∈ ops ∨ v ∈ q) → v.Fits) (h : queueRun ops q = some (out, rest)) :
    ∃ pre', bufRun m ops ⟨pre ++ q.flatMap enc, pre.length⟩ = .ok (out, ⟨pre' ++ rest.flatMap enc, pre'.length⟩) := by
  induction ops generalizing q out pre with
  | nil =>
    simp only [queueRun, Option.some.injEq, Prod.mk.injEq] at h
    obtain ⟨rfl, rfl⟩ := h
    exact ⟨pre, rfl⟩
  | cons op ops ih =>
    cases op with
    | put v =>
      simp only [queueRun] at h
      obtain ⟨pre', e⟩ := ih (q ++ [v]) out pre (by
        intro w hw
        rcases hw with hw | hw
        · exact hfit w (.inl (List.mem_cons_of_mem _ hw))
        · rw [List.mem_append, List.mem_singleton] at hw
          rcases hw with hw | rfl
          · exact hfit w (.inr hw)
          · exact hfit w (.inl List.mem_cons_self)) h
      refine ⟨pre', ?_⟩
      simp only [bufRun, write_eq]
      rw [← e]
      simp
    | get t =>
      cases q with
      | nil => simp [queueRun] at h
      | cons v q =>
        simp only [queueRun] at h
        split at h
        · rename_i ht
          subst ht
          cases hq : queueRun ops q with
          | none => rw [hq] at h; cases h
          | some r =>
            rw [hq] at h
            simp only [Option.map_some, Option.some.injEq, Prod.mk.injEq] at h
            obtain ⟨rfl, rfl⟩ := h
            obtain ⟨pre', e⟩ := ih q r.1 (pre ++ enc v) (by
              intro w hw
              rcases hw with hw | hw
              · exact hfit w (.inl (List.mem_cons_of_mem _ hw))
              · exact hfit w (.inr (List.mem_cons_of_mem _ hw))) hq
            have hr := read_enc v (hfit v (.inr List.mem_cons_self)) m pre (q.flatMap enc)
            simp only [List.append_assoc, List.length_append] at e
            refine ⟨pre', ?_⟩
            simp only [bufRun, List.flatMap_cons, hr, e]
        · cases h

/-- C01. A buffer is a queue of typed values: in any order of writes and reads on one new buffer in which
every read asks for the type of the oldest value that was not read yet, the reads give the values in the
order of the writes, and the buffer stays valid; it is empty once all are read. -/
theorem C01_queue (m : Mem) (ops : List BufOp) (out rest : List Val) (hfit : ∀ v, .put v ∈ ops → v.Fits)
    (h : queueRun ops [] = some (out, rest)) :
    ∃ b, bufRun m ops Buffer.empty = .ok (out, b) ∧ b.isValid = true ∧ (rest = [] → b.isEmpty = true) := by
  obtain ⟨pre, e⟩ := bufRun_queue m ops [] out rest [] (by simpa using hfit) h
  exact ⟨_, e, by simp [Buffer.isValid], by rintro rfl; simp [Buffer.isEmpty]⟩

example : queueRun [.put (.u16 7), .put (.shortString [65]), .get .u16, .put (.u8 9), .get .shortString, .get .u8] [] =
    some ([.u16 7, .shortString [65], .u8 9], []) := by decide

/-! ## C03 -/

theorem mono_read (t : Ty) : Mono (read t) := by
  cases t <;> simp only [read]
  · exact Mono.u8.map _
  · exact Mono.u16.map _
  · exact Mono.u32.map _
  · exact Mono.u64.map _
  · exact (Mono.bytes _).map _
  · exact (Mono.words _).map _
  · exact Mono.revision.map _
  · exact Mono.shortString.map _
  · exact Mono.longString.map _
  · exact Mono.sockAddr.map _

theorem sized_need {x : Rd α} {n : Nat} (h : Sized x n) (hm : Mono x) (b : Buffer)
    (hb : b.pos ≤ b.bytes.length) :
    (b.pos + n ≤ b.bytes.length → ∃ v, ∀ m, x m b = .ok (v, ⟨b.bytes, b.pos + n⟩)) ∧
    (b.bytes.length < b.pos + n → x Mem.strict b = .ub) := by
  refine ⟨fun hn => ?_, fun hn => h.short b hb hn⟩
  obtain ⟨a, ha⟩ := h.enough Mem.strict b hn
  rcases hm b with h1 | h1
  · rw [ha] at h1; cases h1
  · exact ⟨a, fun m => (h1 m).trans ha⟩

/-- C03. A typed read in a valid buffer: if at least `need` bytes are left it
returns a value that does not depend on anything outside the buffer and advances
by exactly `need` bytes, staying valid; if fewer are left it is undefined. -/
theorem C03_read_defined_iff (t : Ty) (b : Buffer) (hb : b.isValid = true) :
    let n := need t (b.bytes.drop b.pos)
    (b.pos + n ≤ b.bytes.length →
      ∃ v, (∀ m, read t m b = .ok (v, ⟨b.bytes, b.pos + n⟩))
        ∧ Buffer.isValid ⟨b.bytes, b.pos + n⟩ = true) ∧
    (b.bytes.length < b.pos + n → read t Mem.strict b = .ub) := by
  have hb' : b.pos ≤ b.bytes.length := by simpa [Buffer.isValid] using hb
  intro n
  suffices h : (b.pos + n ≤ b.bytes.length → ∃ v, ∀ m, read t m b = .ok (v, ⟨b.bytes, b.pos + n⟩)) ∧
      (b.bytes.length < b.pos + n → read t Mem.strict b = .ub) by
    refine ⟨fun hn => ?_, h.2⟩
    obtain ⟨v, hv⟩ := h.1 hn
    exact ⟨v, hv, by simpa [Buffer.isValid] using hn⟩
  have hm := mono_read t
  cases t with
  | u8 => exact sized_need (Sized.u8.map _) hm b hb'
  | u16 => exact sized_need (Sized.u16.map _) hm b hb'
  | u32 => exact sized_need (Sized.u32.map _) hm b hb'
  | u64 => exact sized_need (Sized.u64.map _) hm b hb'
  | bytes k => exact sized_need ((Sized.bytes k).map _) hm b hb'
  | words k => exact sized_need ((Sized.words k).map _) hm b hb'
  | revision => exact sized_need (Sized.revision.map _) hm b hb'
  | sockAddr => exact sized_need (Sized.sockAddr.map _) hm b hb'
  | shortString =>
    by_cases h1 : b.pos + 1 ≤ b.bytes.length
    · have hu : ∀ m, Rd.u8 m b = _ := fun m => u8_eq m b h1
      have hn : n = 1 + b.bytes[b.pos].toNat := by
        simp only [n, need]
        rw [List.drop_eq_getElem_cons h1, List.take_succ_cons]
        simp only [List.take_zero, ofLe]
        omega
      have hs := sized_need ((Sized.bytes b.bytes[b.pos].toNat).map
        (fun d => Val.shortString (CipString.ofBytes 8 d).data))
        ((Mono.bytes _).map _) ⟨b.bytes, b.pos + 1⟩ h1
      have key : ∀ m, read .shortString m b =
          (Rd.bytes b.bytes[b.pos].toNat >>= fun d => pure (Val.shortString (CipString.ofBytes 8 d).data))
            m ⟨b.bytes, b.pos + 1⟩ := by
        intro m
        simp only [read, Rd.shortString, Rd.bind_run, hu m]
        cases Rd.bytes b.bytes[b.pos].toNat m ⟨b.bytes, b.pos + 1⟩ with
        | ok p => obtain ⟨x, y⟩ := p; rfl
        | throw e => rfl
        | ub => rfl
      rw [hn, ← Nat.add_assoc]
      simp only [key]
      exact hs
    · have hn : b.bytes.length < b.pos + n := by simp only [n, need]; omega
      refine ⟨fun h => by omega, fun _ => ?_⟩
      exact Rd.bind_ub (Rd.bind_ub (Sized.u8.short b hb' (by omega)))
  | longString =>
    by_cases h1 : b.pos + 2 ≤ b.bytes.length
    · obtain ⟨v, hv⟩ := (sized_need Sized.u16 Mono.u16 b hb').1 h1
      have hd : ∃ b0 b1 rest, b.bytes.drop b.pos = b0 :: b1 :: rest := by
        rw [List.drop_eq_getElem_cons (by omega), List.drop_eq_getElem_cons (by omega)]
        exact ⟨_, _, _, rfl⟩
      obtain ⟨b0, b1, rest, hd⟩ := hd
      have hval : v.toNat = ofLe [b0, b1] := by
        have hr := (Reads.u16_raw b0 b1).at Mem.strict b hb' (by simp [hd])
        rw [hv] at hr
        injection hr with hr
        injection hr with hr _
        have := ofLe_lt [b0, b1]
        rw [hr]
        simp at this ⊢
        omega
      have hn : n = 2 + v.toNat := by
        simp only [n, need, hd, hval, List.length_cons]
        rw [if_neg (by omega)]
        simp [ofLe]
      have hs := sized_need ((Sized.bytes v.toNat).map
        (fun d => Val.longString (CipString.ofBytes 16 d).data))
        ((Mono.bytes _).map _) ⟨b.bytes, b.pos + 2⟩ h1
      have key : ∀ m, read .longString m b =
          (Rd.bytes v.toNat >>= fun d => pure (Val.longString (CipString.ofBytes 16 d).data))
            m ⟨b.bytes, b.pos + 2⟩ := by
        intro m
        simp only [read, Rd.longString, Rd.bind_run, hv m]
        cases Rd.bytes v.toNat m ⟨b.bytes, b.pos + 2⟩ with
        | ok p => obtain ⟨x, y⟩ := p; rfl
        | throw e => rfl
        | ub => rfl
      rw [hn, ← Nat.add_assoc]
      simp only [key]
      exact hs
    · have hn : b.bytes.length < b.pos + n := by simp only [n, need]; omega
      refine ⟨fun h => by omega, fun _ => ?_⟩
      exact Rd.bind_ub (Rd.bind_ub (Sized.u16.short b hb' (by omega)))

example : (Buffer.ofData [2#8, 65#8, 66#8, 9#8]).isValid = true ∧
    need .shortString [2#8, 65#8, 66#8, 9#8] = 3 := by decide

/-- C03. `isValid()` is never observed false without a stray read: any sequence of
typed reads from a valid buffer is undefined or leaves the buffer valid and its
bytes unchanged. -/
theorem C03_isValid_never_false (ts : List Ty) (b : Buffer) (hb : b.isValid = true) :
    readAll ts Mem.strict b = .ub ∨
      ∃ vs b', readAll ts Mem.strict b = .ok (vs, b') ∧ b'.isValid = true ∧ b'.bytes = b.bytes
        ∧ b.pos ≤ b'.pos := by
  induction ts generalizing b with
  | nil => exact .inr ⟨[], b, rfl, hb, rfl, Nat.le_refl _⟩
  | cons t ts ih =>
    have h := C03_read_defined_iff t b hb
    by_cases hn : b.pos + need t (b.bytes.drop b.pos) ≤ b.bytes.length
    · obtain ⟨v, hv, hval⟩ := h.1 hn
      rcases ih _ hval with hu | ⟨vs, b', h1, h2, h3, h4⟩
      · left
        exact (Rd.bind_ok (hv _)).trans (Rd.bind_ub hu)
      · right
        refine ⟨v :: vs, b', ?_, h2, h3, ?_⟩
        · exact (Rd.bind_ok (hv _)).trans (Rd.bind_ok h1)
        · simp at h4; omega
    · left
      exact Rd.bind_ub (h.2 (by omega))

example : readAll [.u8, .u16] Mem.strict (Buffer.ofData [1#8, 2#8]) = .ub := by decide
example : (readAll [.u8, .u16] Mem.strict (Buffer.ofData [1#8, 2#8, 3#8])).isOk = true := by decide

/-! ## C04 -/

/-- C04. A short string survives encoding and decoding (with anything after it)
exactly when it has fewer than 256 bytes. -/
theorem C04_short_string_roundtrip_iff (text : List Byte) :
    (∀ (m : Mem) (post : List Byte), ∃ b', Rd.shortString m
      (Buffer.ofData ((Buffer.empty.putShortString (CipString.ofBytes 8 text)).bytes ++ post))
        = .ok (CipString.ofBytes 8 text, b')) ↔ text.length < 256 := by
  have hw : (Buffer.empty.putShortString (CipString.ofBytes 8 text)).bytes
      = BitVec.ofNat 8 text.length :: text := by
    simp [Buffer.putShortString, Buffer.putU8, Buffer.putBytes, Buffer.empty, CipString.ofBytes]
  rw [hw]
  constructor
  · intro h
    obtain ⟨b', hb'⟩ := h Mem.strict []
    have hlen : (BitVec.ofNat 8 text.length).toNat = text.length % 256 := by simp
    have h1 : Rd.shortString Mem.strict (Buffer.ofData (BitVec.ofNat 8 text.length :: text ++ [])) =
        .ok (CipString.ofBytes 8 (text.take (text.length % 256)),
          ⟨BitVec.ofNat 8 text.length :: text, 1 + text.length % 256⟩) := by
      have hr : Reads Rd.shortString _ _ :=
        (Reads.u8 (BitVec.ofNat 8 text.length)).bind ((Reads.bytes' (n := (BitVec.ofNat 8 text.length).toNat)
          (bs := text.take (text.length % 256)) (by
            rw [hlen, List.length_take]; exact Nat.min_eq_left (Nat.mod_le _ _))).map_pure
            (fun d => CipString.ofBytes 8 d))
      have := hr.start (post := text.drop (text.length % 256)) Mem.strict
      rw [List.append_assoc, List.take_append_drop, List.singleton_append] at this
      rw [List.append_nil, this]
      simp
      have := Nat.mod_le text.length 256
      omega
    rw [h1] at hb'
    injection hb' with hb'
    injection hb' with hb' _
    have := congrArg (fun s : CipShortString => s.data.length) hb'
    simp [CipString.ofBytes] at this
    omega
  · intro h m post
    have := (Reads.shortString text h).start (post := post) m
    exact ⟨_, this⟩

/-- C04. A long string survives exactly when it has fewer than 65536 bytes. -/
theorem C04_long_string_roundtrip_iff (text : List Byte) :
    (∀ (m : Mem) (post : List Byte), ∃ b', Rd.longString m
      (Buffer.ofData ((Buffer.empty.putLongString (CipString.ofBytes 16 text)).bytes ++ post))
        = .ok (CipString.ofBytes 16 text, b')) ↔ text.length < 65536 := by
  have hw : (Buffer.empty.putLongString (CipString.ofBytes 16 text)).bytes
      = le 2 (text.length % 65536) ++ text := by
    simp [Buffer.putLongString, C02_little_endian, Buffer.putBytes, Buffer.empty, CipString.ofBytes]
  rw [hw]
  constructor
  · intro h
    obtain ⟨b', hb'⟩ := h Mem.strict []
    have hlen : (BitVec.ofNat 16 text.length).toNat = text.length % 65536 := by simp
    have hr : Reads Rd.longString (le 2 (text.length % 65536) ++ text.take (text.length % 65536))
        (CipString.ofBytes 16 (text.take (text.length % 65536))) := by
      have h0 := Reads.u16 (BitVec.ofNat 16 text.length)
      rw [hlen] at h0
      exact h0.bind ((Reads.bytes' (by
            rw [hlen, List.length_take]; exact Nat.min_eq_left (Nat.mod_le _ _))).map_pure
            (fun d => CipString.ofBytes 16 d))
    have h1 := hr.start (post := text.drop (text.length % 65536)) Mem.strict
    simp only [List.append_assoc, List.take_append_drop] at h1
    rw [List.append_nil, h1] at hb'
    injection hb' with hb'
    injection hb' with hb' _
    have := congrArg (fun s : CipLongString => s.data.length) hb'
    simp [CipString.ofBytes] at this
    omega
  · intro h m post
    have := (Reads.longString text h).start (post := post) m
    rw [Nat.mod_eq_of_lt h]
    exact ⟨_, this⟩

/-- C04. What is written for a string of any length: the length modulo the
prefix range, then all characters. -/
theorem C04_written_bytes (text : List Byte) :
    (Buffer.empty.putShortString (CipString.ofBytes 8 text)).bytes = le 1 (text.length % 256) ++ text ∧
    (Buffer.empty.putLongString (CipString.ofBytes 16 text)).bytes = le 2 (text.length % 65536) ++ text := by
  constructor
  · simp [Buffer.putShortString, Buffer.putU8, Buffer.putBytes, Buffer.empty, CipString.ofBytes, le]
    apply BitVec.eq_of_toNat_eq; simp
  · simp [Buffer.putLongString, C02_little_endian, Buffer.putBytes, Buffer.empty, CipString.ofBytes]

/-! ## C05 -/

theorem be_two (v : BitVec 16) : le 2 (htons v).toNat = be 2 v.toNat := by
  have := v.isLt
  simp only [← put2_eq, be, List.reverse_cons, List.reverse_nil, List.nil_append, List.singleton_append,
    List.cons.injEq, and_true]
  refine ⟨?_, ?_⟩ <;> ext i hi <;> simp [htons] <;> grind

/-- C05. Writing an end point appends family and port most significant byte
first, the four octets in the order of the dotted host name, and eight zeros. -/
theorem C05_network_byte_order (b : Buffer) (a : SockAddr) :
    (b.putSockAddr a).bytes = b.bytes ++ be 2 a.family.toNat
        ++ be 2 (EndPoint.ofSockAddr a).port.toNat ++ octets a.addr ++ List.replicate 8 0#8
    ∧ (EndPoint.ofSockAddr a).host =
        String.intercalate "." ((octets a.addr).map fun o => toString o.toNat) := by
  refine ⟨?_, rfl⟩
  have h := be_two (htons a.port)
  rw [htons_htons] at h
  simp [Buffer.putSockAddr, C02_little_endian, Buffer.putBytes, EndPoint.ofSockAddr, be_two, h, octets, put4_eq]

/-- C05. Reading back what was written gives the end point of the same socket
address, wherever it stands in the buffer. -/
theorem C05_roundtrip (b : Buffer) (a : SockAddr) (post : List Byte) (m : Mem) :
    Rd.endPoint m ⟨(b.putSockAddr a).bytes ++ post, b.bytes.length⟩
      = .ok (EndPoint.ofSockAddr a, ⟨(b.putSockAddr a).bytes ++ post, b.bytes.length + 16⟩) := by
  have h : Reads Rd.endPoint _ _ := (reads_sockAddr a.family a.port a.addr).map_pure EndPoint.ofSockAddr
  have := h m b.bytes post
  simpa [Buffer.putSockAddr, C02_little_endian, Buffer.putBytes] using this

example : (Buffer.empty.putSockAddr ⟨2#16, htons 2222#16, 0x0100007f#32⟩).bytes =
    [0#8, 2#8, 8#8, 0xae#8, 127#8, 0#8, 0#8, 1#8, 0#8, 0#8, 0#8, 0#8, 0#8, 0#8, 0#8, 0#8] := by decide
example : (EndPoint.ofSockAddr ⟨2#16, htons 2222#16, 0x0100007f#32⟩).host = "127.0.0.1" := by
  decide +kernel

end Verif.Props
