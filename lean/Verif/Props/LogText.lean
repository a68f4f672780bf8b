import Verif.Spec.LogText
import Verif.Props.ManagerRecv
import Verif.Props.ManagerSample

/-!
# C109: what can be read from the log
-/

namespace Verif.Props

open Verif Verif.Spec

/-! ## Reading numbers -/

theorem digitValue_digit : ∀ d : Fin 16, digitValue (Nat.digitChar d.val) = some d.val := by decide +kernel

theorem leading_digit (b d : Nat) (hb : b ≤ 16) (hd : d < b) (t : List Char) :
    leadingDigits b (Nat.digitChar d :: t) = d :: leadingDigits b t := by
  simp only [leadingDigits, digitValue_digit ⟨d, by omega⟩]
  rw [if_pos hd]

theorem leading_number (b : Nat) (hb : 1 < b) (hb' : b ≤ 16) (n : Nat) :
    ∃ d ds, (∀ t, leadingDigits b (Nat.toDigits b n ++ t) = (d :: ds) ++ leadingDigits b t) ∧
      (d :: ds).foldl (fun v d => v * b + d) 0 = n := by
  induction n using Nat.strongRecOn with
  | ind n ih =>
    rw [Nat.toDigits_eq_if hb]
    split
    · rename_i h
      exact ⟨n, [], fun t => by simpa using leading_digit b n hb' h t, by simp⟩
    · rename_i h
      obtain ⟨d, ds, h1, h2⟩ := ih (n / b) (Nat.div_lt_self (by omega) hb)
      refine ⟨d, ds ++ [n % b], fun t => ?_, ?_⟩
      · rw [List.append_assoc, h1, List.singleton_append, leading_digit b _ hb' (Nat.mod_lt _ (by omega))]
        simp
      · rw [← List.cons_append, List.foldl_append, h2]
        simp only [List.foldl_cons, List.foldl_nil]
        rw [Nat.mul_comm]
        exact Nat.div_add_mod n b

/-- A number that has been written is read back. -/
theorem numeral_number (b : Nat) (hb : 1 < b) (hb' : b ≤ 16) (n : Nat) (t : List Char) (ht : leadingDigits b t = []) :
    numeral b (Nat.toDigits b n ++ t) = some n := by
  obtain ⟨d, ds, h1, h2⟩ := leading_number b hb hb' n
  unfold numeral
  rw [h1, ht, List.append_nil]
  simp only
  rw [h2]

theorem numeral_end (b : Nat) (hb : 1 < b) (hb' : b ≤ 16) (n : Nat) : numeral b (Nat.toDigits b n) = some n := by
  have := numeral_number b hb hb' n [] rfl
  rwa [List.append_nil] at this

theorem dec_cons (n : Nat) (c : Char) (t : List Char) (hc : c.isDigit = false) : numeral 10 (Nat.toDigits 10 n ++ c :: t) = some n := by
  refine numeral_number 10 (by omega) (by omega) n _ ?_
  have h : ¬ ('0'.toNat ≤ c.toNat ∧ c.toNat ≤ '9'.toNat) := by
    intro h
    have : c.isDigit = true := by
      simp only [Char.isDigit, Bool.and_eq_true, decide_eq_true_eq]
      exact ⟨UInt32.le_iff_toNat_le.mpr h.1, UInt32.le_iff_toNat_le.mpr h.2⟩
    rw [hc] at this; cases this
  simp only [leadingDigits, digitValue, if_neg h]
  split
  · rename_i hd
    split at hd
    · injection hd with hd; rw [if_neg (by omega)]
    · split at hd
      · injection hd with hd; rw [if_neg (by omega)]
      · cases hd
  · rfl

theorem dec_end (n : Nat) : numeral 10 (Nat.toDigits 10 n) = some n := numeral_end 10 (by omega) (by omega) n

theorem hex_end (n : Nat) : numeral 16 (Nat.toDigits 16 n) = some n := numeral_end 16 (by omega) (by omega) n

theorem hex_cons (n : Nat) (c : Char) (t : List Char) (hc : digitValue c = none) : numeral 16 (Nat.toDigits 16 n ++ c :: t) = some n :=
  numeral_number 16 (by omega) (by omega) n _ (by simp only [leadingDigits, hc])

/-! ## Finding labels -/

theorem textAfter_skip (l : Char) (ls pre t : List Char) (h : ∀ c ∈ pre, c ≠ l) :
    textAfter (l :: ls) (pre ++ t) = textAfter (l :: ls) t := by
  induction pre with
  | nil => rfl
  | cons c pre ih =>
    rw [List.cons_append, textAfter, if_neg]
    · exact ih fun c hc => h c (by simp [hc])
    · simp only [List.isPrefixOf, Bool.and_eq_true, beq_iff_eq]
      exact fun hx => h c (by simp) hx.1.symm

theorem digit_of_number (b : Nat) (hb : 1 < b) (hb' : b ≤ 16) (n : Nat) (c : Char) (h : c ∈ Nat.toDigits b n) :
    ∃ d : Fin 16, d.val < b ∧ c = Nat.digitChar d.val := by
  induction n using Nat.strongRecOn with
  | ind n ih =>
    rw [Nat.toDigits_eq_if hb] at h
    split at h
    · rename_i hn
      exact ⟨⟨n, by omega⟩, hn, by simpa using h⟩
    · rename_i hn
      rcases List.mem_append.mp h with h | h
      · exact ih (n / b) (Nat.div_lt_self (by omega) hb) h
      · have := Nat.mod_lt n (show b > 0 by omega)
        exact ⟨⟨n % b, by omega⟩, this, by simpa using h⟩

theorem after_dec (l : Char) (ls : List Char) (n : Nat) (t : List Char) (h : l.isDigit = false) :
    textAfter (l :: ls) (Nat.toDigits 10 n ++ t) = textAfter (l :: ls) t := by
  refine textAfter_skip l ls _ t fun c hc => ?_
  have := Nat.isDigit_of_mem_toDigits (by omega) (by omega) hc
  rintro rfl
  rw [h] at this; cases this

theorem digitValue_ne : ∀ d : Fin 16, digitValue (Nat.digitChar d.val) ≠ none := by decide +kernel

theorem after_hex (l : Char) (ls : List Char) (n : Nat) (t : List Char) (h : digitValue l = none) :
    textAfter (l :: ls) (Nat.toDigits 16 n ++ t) = textAfter (l :: ls) t := by
  refine textAfter_skip l ls _ t fun c hc => ?_
  obtain ⟨d, _, rfl⟩ := digit_of_number 16 (by omega) (by omega) n c hc
  rintro rfl
  exact digitValue_ne d h

/-! ## Numbers in the messages -/

/-- The identifiers of connections, sessions, parameters and the sizes in the messages are read back as they are. -/
theorem C109_ids :
    (∀ h, decAfter "Registered session " (LogLine.registered h).text = some h.toNat) ∧
    (∀ h, decAfter "Unregistered session " (LogLine.unregistered h).text = some h.toNat) ∧
    (∀ o2t t2o serial, decAfter "O2T_ID=" (LogLine.ioOpen o2t t2o serial).text = some o2t.toNat ∧
      decAfter "T2O_ID=" (LogLine.ioOpen o2t t2o serial).text = some t2o.toNat ∧
      decAfter "SerialNumber " (LogLine.ioOpen o2t t2o serial).text = some serial.toNat) ∧
    (∀ t2o, decAfter "T2O_ID=" (LogLine.exists_ t2o).text = some t2o.toNat) ∧
    (∀ t2o, decAfter "T2O_ID=" (LogLine.close t2o).text = some t2o.toNat) ∧
    (∀ t2o, decAfter "T2O_ID=" (LogLine.dataFrom t2o).text = some t2o.toNat) ∧
    (∀ t2o, decAfter "unknown connection T2O_ID=" (LogLine.unknownFrom t2o).text = some t2o.toNat) ∧
    (∀ t2o expected got, decAfter "T2O_ID=" (LogLine.wrongSizeIn t2o expected got).text = some t2o.toNat ∧
      decAfter "fixed size " (LogLine.wrongSizeIn t2o expected got).text = some expected ∧
      decAfter "but " (LogLine.wrongSizeIn t2o expected got).text = some got) ∧
    (∀ o2t expected got, decAfter "O2T_ID=" (LogLine.wrongSizeOut o2t expected got).text = some o2t.toNat ∧
      decAfter "fixed size " (LogLine.wrongSizeOut o2t expected got).text = some expected ∧
      decAfter "but " (LogLine.wrongSizeOut o2t expected got).text = some got) ∧
    (∀ serial, decAfter "SeriaNumber=" (LogLine.timedOut serial).text = some serial.toNat) ∧
    (∀ ep, textAfter "send data to ".toList (LogLine.sendsTo ep).text = some ep.toStr.toList) ∧
    (∀ n, decAfter "There read " (LogLine.faults n).text = some n.toNat) ∧
    (∀ id, decAfter "ID=" (LogLine.paramRead id).text = some id.toNat) ∧
    (∀ id d sc ro, decAfter "ID=" (LogLine.paramDescriptor id d sc ro).text = some id.toNat ∧
      hexAfter "descriptor=0x" (LogLine.paramDescriptor id d sc ro).text = some d.toNat ∧
      decAfter "scalable=" (LogLine.paramDescriptor id d sc ro).text = some sc.toNat ∧
      decAfter "readonly=" (LogLine.paramDescriptor id d sc ro).text = some ro.toNat) ∧
    (∀ id size type name, decAfter "ID=" (LogLine.paramDone id size type name).text = some id.toNat ∧
      decAfter "ValueSize=" (LogLine.paramDone id size type name).text = some size ∧
      hexAfter "ValueType=0x" (LogLine.paramDone id size type name).text = some type.toNat ∧
      textAfter "Name=".toList (LogLine.paramDone id size type name).text = some name) := by
  refine ⟨?_, ?_, ?_, ?_, ?_, ?_, ?_, ?_, ?_, ?_, ?_, ?_, ?_, ?_, ?_⟩ <;> intros <;>
    simp [LogLine.text, LogLine.inserted, OStream.render, OStream.put, OStream.digits, decAfter, hexAfter, textAfter, after_dec,
      after_hex, dec_cons, dec_end, hex_cons, digitValue]
  · rename_i sc ro
    cases sc <;> cases ro <;> simp [textAfter, numeral, leadingDigits, digitValue]

/-- The sizes and descriptors in the messages of sockets are read back as they are; a receive call that failed is told as -1 bytes. -/
theorem C109_sockets :
    (∀ fd, decAfter "UDP socket fd=" (LogLine.udpOpened fd).text = some fd ∧ decAfter "Close UDP socket fd=" (LogLine.udpClosed fd).text = some fd ∧
      decAfter "TCP socket fd=" (LogLine.tcpOpened fd).text = some fd ∧ decAfter "Close TCP socket fd=" (LogLine.tcpClosed fd).text = some fd) ∧
    (∀ size fd, decAfter "Send " (LogLine.udpSent size fd).text = some size ∧ decAfter "UDP socket #" (LogLine.udpSent size fd).text = some fd ∧
      decAfter "Send " (LogLine.tcpSent size fd).text = some size ∧ decAfter "TCP socket #" (LogLine.tcpSent size fd).text = some fd) ∧
    (∀ (len : Nat) fd, decAfter "Received " (LogLine.udpReceived len fd).text = some len ∧
      decAfter "UDP socket #" (LogLine.udpReceived len fd).text = some fd ∧
      decAfter "Received " (LogLine.tcpReceived len fd).text = some len ∧ decAfter "TCP socket #" (LogLine.tcpReceived len fd).text = some fd) ∧
    (∀ fd, decAfter "Received -" (LogLine.udpReceived (-1) fd).text = some 1) ∧
    (∀ ep, textAfter "Connecting to ".toList (LogLine.tcpConnecting ep).text = some ep.toStr.toList) := by
  refine ⟨?_, ?_, ?_, ?_, ?_⟩ <;> intros <;>
    simp [LogLine.text, LogLine.inserted, OStream.render, OStream.put, OStream.digits, decAfter, textAfter, after_dec, dec_cons, dec_end]
  rename_i len fd
  rw [if_neg (by omega)]
  simp [textAfter, after_dec, dec_cons]

/-- The message of a request says which service of which object is called. -/
theorem C109_request (service : BitVec 8) (path : EPath) :
    hexAfter "service=0x" (LogLine.request service path).text = some service.toNat ∧
    decAfter "[classId=" (LogLine.request service path).text = some path.classId.toNat ∧
    decAfter " objectId=" (LogLine.request service path).text = (if path.size.toNat > 1 then some path.objectId.toNat else none) ∧
    decAfter " attributeId=" (LogLine.request service path).text =
      (if path.size.toNat > 2 then some path.attributeId.toNat else none) := by
  have e1 : (path.size > 1#8) = (path.size.toNat > 1) := by simp [BitVec.lt_def]
  have e2 : (path.size > 2#8) = (path.size.toNat > 2) := by simp [BitVec.lt_def]
  simp only [LogLine.text, LogLine.inserted, OStream.render, EPath.toStr, e1, e2]
  by_cases h1 : path.size.toNat > 1
  · by_cases h2 : path.size.toNat > 2
    · simp [h1, h2, decAfter, hexAfter, textAfter, after_dec, after_hex, dec_cons, hex_cons, digitValue, toString,
        OStream.put, OStream.digits]
    · simp [h1, h2, decAfter, hexAfter, textAfter, after_dec, after_hex, dec_cons, hex_cons, digitValue, toString,
        OStream.put, OStream.digits]
  · have h2 : ¬ path.size.toNat > 2 := by omega
    simp [h1, h2, decAfter, hexAfter, textAfter, after_dec, after_hex, dec_cons, hex_cons, digitValue, toString,
        OStream.put, OStream.digits]

/-! ## Errors that devices report -/

/-- The additional statuses are read back, all and in order. -/
theorem status_text (r : MessageRouterResponse) :
    (LogLine.status r).text = "Message Router error=0x".toList ++ Char.ofNat r.status.toNat :: " additional statuses ".toList ++
      r.additionalStatus.flatMap fun a => "[0x".toList ++ Nat.toDigits 16 a.toNat ++ "]".toList := by
  have gen : ∀ (l : List (BitVec 16)) (o : OStream), o.hex = true →
      ((l.flatMap fun a => [Inserted.str "[0x".toList, .num a.toNat, .str "]".toList]).foldl OStream.put o).text =
      o.text ++ l.flatMap fun a => "[0x".toList ++ Nat.toDigits 16 a.toNat ++ "]".toList := by
    intro l
    induction l with
    | nil => intro o _; simp
    | cons a l ih =>
      intro o ho
      rw [List.flatMap_cons, List.foldl_append, ih _ (by simpa [OStream.put] using ho)]
      simp [OStream.put, OStream.digits, ho]
  rw [LogLine.text, OStream.render, LogLine.inserted, List.foldl_append, gen _ _ rfl]
  simp [OStream.put]

theorem allHex_skip (pre t : List Char) (h : ∀ c ∈ pre, c ≠ '[') : allHexAfter "[0x" (pre ++ t) = allHexAfter "[0x" t := by
  induction pre with
  | nil => rfl
  | cons c pre ih =>
    have hc : c ≠ '[' := h c (by simp)
    rw [List.cons_append, allHexAfter, if_neg]
    · exact ih fun c hc => h c (by simp [hc])
    · simp [hc.symm]

/-- The additional statuses that a device sends are in the message: all of them, in order. -/
theorem C109_additional (r : MessageRouterResponse) :
    allHexAfter "[0x" (LogLine.status r).text = r.additionalStatus.map BitVec.toNat := by
  rw [status_text]
  have gen : ∀ l : List (BitVec 16), allHexAfter "[0x" (l.flatMap fun a => "[0x".toList ++ Nat.toDigits 16 a.toNat ++ "]".toList) =
      l.map BitVec.toNat := by
    intro l
    induction l with
    | nil => rfl
    | cons a l ih =>
      have h : ∀ c ∈ Nat.toDigits 16 a.toNat, c ≠ '[' := by
        intro c hc
        obtain ⟨d, _, rfl⟩ := digit_of_number 16 (by omega) (by omega) _ c hc
        rintro h
        exact digitValue_ne d (by rw [h]; rfl)
      rw [List.flatMap_cons, List.map_cons, ← ih]
      simp [allHexAfter, hex_cons, digitValue, allHex_skip _ _ h]
  rw [← gen r.additionalStatus]
  simp [allHexAfter]

theorem char_of_byte : ∀ b : Fin 256, (Char.ofNat b.val).toNat = b.val ∧ digitValue (Char.ofNat b.val) ≠ some b.val := by decide +kernel

/-- After the label of the status there is the character whose code is the status. -/
theorem C109_status_character (r : MessageRouterResponse) :
    ∃ c t, textAfter "error=0x".toList (LogLine.status r).text = some (c :: t) ∧ c.toNat = r.status.toNat := by
  rw [status_text]
  simp [textAfter]
  exact (char_of_byte ⟨r.status.toNat, r.status.isLt⟩).1

theorem numeral_one (c d : Char) (t : List Char) (h : digitValue d = none) (v : Nat) (hv : numeral 16 (c :: d :: t) = some v) :
    digitValue c = some v := by
  simp only [numeral, leadingDigits, h] at hv
  cases hc : digitValue c with
  | none => rw [hc] at hv; cases hv
  | some x =>
    rw [hc] at hv
    by_cases hx : x < 16
    · simp [hx] at hv; rw [hv]
    · simp [hx] at hv

/-- So the number after the label is never the status. -/
theorem C109_status_violated (r : MessageRouterResponse) : hexAfter "error=0x" (LogLine.status r).text ≠ some r.status.toNat := by
  rw [status_text]
  intro h
  simp [hexAfter, textAfter] at h
  exact (char_of_byte ⟨r.status.toNat, r.status.isLt⟩).2 (numeral_one _ _ _ rfl _ h)

/-- The same for the message of a close request that is refused. -/
theorem C109_close_violated (s : GeneralStatus) : hexAfter "error=0x" (LogLine.closeFailed s).text ≠ some s.toNat := by
  intro h
  simp [hexAfter, textAfter, LogLine.text, LogLine.inserted, OStream.render, OStream.put] at h
  exact (char_of_byte ⟨s.toNat, s.isLt⟩).2 (numeral_one _ _ _ rfl _ h)

/-! ## File objects -/

/-- The number of a file object is written in base 16. -/
theorem C109_file (l : LogLevel) (id : BitVec 16) (state msg : List Char) :
    hexAfter "FileObject=" (LogLine.file l id state msg).text = some id.toNat := by
  simp [LogLine.text, LogLine.inserted, OStream.render, OStream.put, OStream.digits, hexAfter, textAfter, hex_cons, digitValue]

theorem leading_append (b : Nat) (l m : List Char) :
    leadingDigits b (l ++ m) = leadingDigits b l ∨ leadingDigits b (l ++ m) = leadingDigits b l ++ leadingDigits b m := by
  induction l with
  | nil => right; rfl
  | cons c l ih =>
    simp only [List.cons_append, leadingDigits]
    split
    · split
      · rcases ih with ih | ih
        · left; rw [ih]
        · right; rw [ih]; rfl
      · left; rfl
    · left; rfl

theorem dec_of_hex (n : Nat) : (leadingDigits 10 (Nat.toDigits 16 n)).foldl (fun v d => v * 10 + d) 0 ≤ n ∧
    (10 ≤ n → (leadingDigits 10 (Nat.toDigits 16 n)).foldl (fun v d => v * 10 + d) 0 < n) := by
  induction n using Nat.strongRecOn with
  | ind n ih =>
    have hd : ∀ d, d < 16 → leadingDigits 10 [Nat.digitChar d] = if d < 10 then [d] else [] := by
      intro d h
      simp only [leadingDigits, digitValue_digit ⟨d, h⟩]
    rw [Nat.toDigits_eq_if (by omega)]
    split
    · rename_i h
      rw [hd n h]
      split <;> simp <;> omega
    · rename_i h
      have hm := Nat.mod_lt n (show 16 > 0 by omega)
      have := (ih (n / 16) (by omega)).1
      rcases leading_append 10 (Nat.toDigits 16 (n / 16)) [Nat.digitChar (n % 16)] with e | e
      · rw [e]; constructor <;> omega
      · rw [e, hd _ hm]
        split
        · rw [List.foldl_append]
          simp only [List.foldl_cons, List.foldl_nil]
          constructor <;> omega
        · rw [List.append_nil]; constructor <;> omega

/-- But nothing in the text says so: read as a decimal number, as the identifiers of connections and parameters are, it
is not the number of the file, for all files from 10 on. -/
theorem C109_file_violated (l : LogLevel) (id : BitVec 16) (state msg : List Char) (h : 10 ≤ id.toNat) :
    decAfter "FileObject=" (LogLine.file l id state msg).text ≠ some id.toNat := by
  intro hx
  simp [LogLine.text, LogLine.inserted, OStream.render, OStream.put, OStream.digits, decAfter, textAfter] at hx
  have e : leadingDigits 10 (Nat.toDigits 16 id.toNat ++ ' ' :: '<' :: (state ++ '>' :: ' ' :: msg)) =
      leadingDigits 10 (Nat.toDigits 16 id.toNat) := by
    rcases leading_append 10 (Nat.toDigits 16 id.toNat) (' ' :: '<' :: (state ++ '>' :: ' ' :: msg)) with e | e
    · exact e
    · rw [e]; simp [leadingDigits, digitValue]
  have := (dec_of_hex id.toNat).2 h
  unfold numeral at hx
  rw [e] at hx
  split at hx
  · cases hx
  · injection hx with hx; omega

/-! ## When the messages are written -/

/-- A connection is refused by the device exactly when the message with its status is written; it is an error. -/
theorem C109_refused (P : Plat) (host : String) (p : ConnectionParameters) (large : Bool) (e : OpenEnv) (s : Mgr)
    (r : MessageRouterResponse) :
    LogLine.status r ∈ s.openLines P host p large e ↔
      e.reply = .ok r ∧ ∃ s' evs, s.forwardOpen P host p large e = .ok s' evs (.ptr none) := by
  unfold Mgr.openLines Mgr.forwardOpen
  cases Mgr.bumpStatics s.incarnation (Mgr.o2tMulticast p large) (Mgr.t2oP2P p large) s.statics with
  | none => simp
  | some st =>
    dsimp only
    generalize (if large then largeForwardOpenPack (Mgr.sentParams p large st) else forwardOpenPack (Mgr.sentParams p large st)) = k
    cases k with
    | ub => simp
    | throw x => simp
    | ok data =>
      dsimp only
      cases hrep : e.reply with
      | ub => simp
      | throw x => simp
      | ok resp =>
        dsimp only
        by_cases hs : resp.status = GeneralStatus.success
        · rw [if_pos hs, if_pos hs]
          unfold Mgr.accept
          cases ForwardOpenResponse.expand P.mem resp.data with
          | ub => simp
          | throw x => simp
          | ok r =>
            dsimp only
            cases Mgr.timeoutMultiplier p.connectionTimeoutMultiplier with
            | ub => simp
            | throw x => simp
            | ok m =>
              dsimp only
              cases Mgr.sendEndPoint P host resp.additionalItems with
              | ub => simp
              | throw x => simp
              | ok ep =>
                dsimp only
                cases e.udpErr with
                | some x => simp
                | none =>
                  dsimp only
                  cases Mgr.findOrCreateSocket (EndPoint.ofHost P.aton host Mgr.implicitPort) e.bindErr s.sockets with
                  | ub => simp
                  | throw x => simp
                  | ok q =>
                    dsimp only
                    cases tblFind (r.t2oNetworkConnectionId.setWidth 16) s.table <;> simp
        · rw [if_neg hs, if_neg hs]
          simp [eq_comm]

/-- The connection that `forwardOpen` returns is announced with its identifiers, its serial number and the address it
sends to; the message that it exists is written exactly when the manager does not keep it: the pointer is dead. -/
theorem C109_opened (P : Plat) (host : String) (p : ConnectionParameters) (large : Bool) (e : OpenEnv)
    (inc : BitVec 16) (st : Statics) (ops : List MOp) (tr : MTrace) (s s' : Mgr) (h0 : (Mgr.new inc st).run P ops = some (s, tr))
    (evs : List MEv) (id : Nat) (h : s.forwardOpen P host p large e = .ok s' evs (.ptr (some id))) :
    ∃ c, s'.heap[id]? = some c ∧
      LogLine.ioOpen c.o2tNetworkConnectionId c.t2oNetworkConnectionId (c.serialNumber.setWidth 16) ∈ s.openLines P host p large e ∧
      (∃ ep, c.socket = some ep ∧ LogLine.sendsTo ep ∈ s.openLines P host p large e) ∧
      ∀ t, LogLine.exists_ t ∈ s.openLines P host p large e ↔ t = c.t2oNetworkConnectionId ∧ s'.alive id = false := by
  have hi : Inv s := inv_run P _ _ _ _ (inv_new inc st) h0
  unfold Mgr.forwardOpen at h
  unfold Mgr.openLines
  generalize Mgr.bumpStatics s.incarnation (Mgr.o2tMulticast p large) (Mgr.t2oP2P p large) s.statics = b at h ⊢
  cases b with
  | none => cases h
  | some st =>
    dsimp only at h ⊢
    generalize (if large then largeForwardOpenPack (Mgr.sentParams p large st) else forwardOpenPack (Mgr.sentParams p large st)) = k
      at h ⊢
    cases k with
    | ub => cases h
    | throw x => cases h
    | ok data =>
      dsimp only at h ⊢
      cases hrep : e.reply with
      | ub => rw [hrep] at h; cases h
      | throw x => rw [hrep] at h; cases h
      | ok resp =>
        rw [hrep] at h
        dsimp only at h ⊢
        by_cases hs : resp.status = GeneralStatus.success
        · rw [if_pos hs] at h ⊢
          unfold Mgr.accept at h
          cases hx : ForwardOpenResponse.expand P.mem resp.data with
          | ub => rw [hx] at h; cases h
          | throw x => rw [hx] at h; cases h
          | ok r =>
            rw [hx] at h
            dsimp only at h ⊢
            cases hm : Mgr.timeoutMultiplier p.connectionTimeoutMultiplier with
            | ub => rw [hm] at h; cases h
            | throw x => rw [hm] at h; cases h
            | ok m =>
              rw [hm] at h
              dsimp only at h ⊢
              cases hep : Mgr.sendEndPoint P host resp.additionalItems with
              | ub => rw [hep] at h; cases h
              | throw x => rw [hep] at h; cases h
              | ok ep =>
                rw [hep] at h
                dsimp only at h ⊢
                cases hu : e.udpErr with
                | some x => rw [hu] at h; cases h
                | none =>
                  rw [hu] at h
                  dsimp only at h ⊢
                  cases hf : Mgr.findOrCreateSocket (EndPoint.ofHost P.aton host Mgr.implicitPort) e.bindErr s.sockets with
                  | ub => rw [hf] at h; cases h
                  | throw x => rw [hf] at h; cases h
                  | ok q =>
                    rw [hf] at h
                    dsimp only at h ⊢
                    injection h with h1 h2 h3
                    injection h3 with h3
                    injection h3 with h3
                    subst h3
                    have hheld : s.held.contains s.heap.length = false := by
                      cases hc : s.held.contains s.heap.length with
                      | false => rfl
                      | true => exact absurd (hi.held _ (by simpa using hc)) (Nat.lt_irrefl _)
                    unfold Mgr.register at h1
                    dsimp only at h1
                    rw [show (Mgr.newConn p large r m ep e.now).t2oNetworkConnectionId = r.t2oNetworkConnectionId from rfl] at h1
                    cases ht : tblFind (r.t2oNetworkConnectionId.setWidth 16) s.table with
                    | some k =>
                      rw [ht] at h1
                      dsimp only at h1
                      refine ⟨Mgr.newConn p large r m ep e.now, by rw [← h1]; simp, ?_, ⟨ep, rfl, by simp⟩, fun t => ?_⟩
                      · simp [Mgr.newConn]
                      · have : s'.alive s.heap.length = false := by
                          cases ha : s'.alive s.heap.length with
                          | false => rfl
                          | true =>
                            rw [← h1] at ha
                            exact absurd (alive_lt hi (id := s.heap.length) ha) (Nat.lt_irrefl _)
                        rw [this]
                        simp [Mgr.newConn]
                    | none =>
                      rw [ht] at h1
                      dsimp only at h1
                      refine ⟨Mgr.newConn p large r m ep e.now, by rw [← h1]; simp, ?_, ⟨ep, rfl, by simp⟩, fun t => ?_⟩
                      · simp [Mgr.newConn]
                      · have : s'.alive s.heap.length = true := by
                          rw [← h1]
                          unfold Mgr.alive
                          rw [Bool.or_eq_true, List.any_eq_true]
                          exact .inl ⟨_, tblPut_mem.mpr (.inl rfl), by simp⟩
                        rw [this]
                        simp
        · rw [if_neg hs] at h; cases h

/-- What `forwardClose` writes: that the pointer was dead, exactly when nothing is sent; otherwise the identifier of the
connection, and a warning exactly when the device does not report success. -/
theorem C109_closed (P : Plat) (inc : BitVec 16) (st : Statics) (ops : List MOp) (tr : MTrace) (s : Mgr)
    (h0 : (Mgr.new inc st).run P ops = some (s, tr)) (ptr : Option Nat) (reply : Outcome MessageRouterResponse) :
    (LogLine.alreadyClosed ∈ s.closeLines ptr reply ↔ ∀ id, ptr = some id → s.alive id = false) ∧
    (∀ t, LogLine.close t ∈ s.closeLines ptr reply ↔
      ∃ id c, ptr = some id ∧ s.alive id = true ∧ s.heap[id]? = some c ∧ t = c.t2oNetworkConnectionId) ∧
    (∀ st, LogLine.closeFailed st ∈ s.closeLines ptr reply ↔
      ∃ id r, ptr = some id ∧ s.alive id = true ∧ reply = .ok r ∧ r.status = st ∧ st ≠ 0#8) := by
  have hi : Inv s := inv_run P _ _ _ _ (inv_new inc st) h0
  unfold Mgr.closeLines
  cases ptr with
  | none => simp
  | some id =>
    cases ha : s.alive id with
    | false => simp [ha]
    | true =>
      have hl := alive_lt hi ha
      have hg : s.heap[id]? = some s.heap[id] := List.getElem?_eq_getElem hl
      simp only [if_pos ha, hg]
      refine ⟨?_, ?_, ?_⟩
      · simp only [Option.some.injEq, forall_eq', ha]
        cases reply with
        | ub => simp
        | throw x => simp
        | ok r => by_cases hs : r.status = GeneralStatus.success <;> simp [hs]
      · intro t
        constructor
        · intro h
          refine ⟨id, _, rfl, ha, hg, ?_⟩
          cases reply with
          | ub => simpa using h
          | throw x => simpa using h
          | ok r => by_cases hs : r.status = GeneralStatus.success <;> simpa [hs] using h
        · rintro ⟨id', c, h1, _, h2, rfl⟩
          injection h1 with h1
          subst h1
          rw [hg] at h2
          injection h2 with h2
          rw [h2]
          simp
      · intro st
        constructor
        · intro h
          cases reply with
          | ub => simp at h
          | throw x => simp at h
          | ok r =>
            by_cases hs : r.status = GeneralStatus.success
            · simp [hs] at h
            · have e : st = r.status := by simpa [hs] using h
              exact ⟨id, r, rfl, ha, rfl, e.symm, by rw [e]; exact hs⟩
        · rintro ⟨id', r, h1, _, rfl, rfl, h2⟩
          simp [show r.status ≠ GeneralStatus.success from h2]

/-- What `notifyTick` writes: a warning with the serial number exactly when the connection is closed by timeout, and a
warning with the sizes exactly when the data of the user was asked for and, although no listener threw, not sent. -/
theorem C109_tick (now : Nat) (hook : Hook) (count : Int) (c : Conn) :
    ((∃ n, LogLine.timedOut n ∈ c.tickLines now hook) ↔ IoEv.closed ∈ (c.notifyTick now hook count).2.1) ∧
    (∀ n, LogLine.timedOut n ∈ c.tickLines now hook → n = c.serialNumber) ∧
    (∀ o expected got, LogLine.wrongSizeOut o expected got ∈ c.tickLines now hook ↔
      hook.throws = none ∧ o = c.o2tNetworkConnectionId ∧ expected = c.o2tDataSize ∧
      (∃ out, IoEv.asked out ∈ (c.notifyTick now hook count).2.1 ∧ out.length = got) ∧
      ∀ ep bytes, IoEv.sent ep bytes ∉ (c.notifyTick now hook count).2.1) := by
  unfold Conn.tickLines Conn.notifyTick
  dsimp only
  split
  · simp
  · split
    · unfold Conn.produce
      dsimp only
      cases hook.throws with
      | some e => simp
      | none =>
        dsimp only
        split
        · simp [eq_comm]
        · simp
    · simp

/-- What `notifyReceiveData` writes: a warning exactly when the listener is not told although the datagram could be
read. -/
theorem C109_recv (m : Mem) (data : List Byte) (c c' : Conn) (evs : List IoEv) (h : c.notifyReceiveData m data = .ok (c', evs)) :
    (evs = [] ↔ ∃ got, LogLine.wrongSizeIn c.t2oNetworkConnectionId c.t2oDataSize got ∈ c.recvLines m data) ∧
    (evs ≠ [] → c.recvLines m data = []) := by
  unfold Conn.notifyReceiveData at h
  unfold Conn.recvLines
  generalize c.recvHead m (Buffer.ofData data) = q at h ⊢
  match q with
  | .ub => cases h
  | .throw _ => cases h
  | .ok ((header, seq), b) =>
    dsimp only at h ⊢
    split at h
    · cases h
    · rename_i h1
      rw [if_neg h1]
      split at h
      · rename_i h2
        injection h with h; injection h with _ h
        rw [if_pos h2, ← h]
        simp
      · rename_i h2
        injection h with h; injection h with _ h
        rw [if_neg h2, ← h]
        simp

theorem recv_events {m : Mem} {data : List Byte} {c c' : Conn} {evs : List IoEv} (h : c.notifyReceiveData m data = .ok (c', evs)) :
    evs = [] ∨ ∃ a b x, evs = [.received a b x] := by
  unfold Conn.notifyReceiveData at h
  generalize c.recvHead m (Buffer.ofData data) = q at h
  match q with
  | .ub => cases h
  | .throw _ => cases h
  | .ok ((header, seq), b) =>
    dsimp only at h
    split at h
    · cases h
    · split at h
      · injection h with h; injection h with _ h; exact .inl h.symm
      · injection h with h; injection h with _ h; exact .inr ⟨_, _, _, h.symm⟩

/-- No datagram is dropped in silence: if it is handled without an exception and no listener gets data, then a message
that is shown at the default level names the connection for which it was, up to the upper half of the identifier. -/
theorem C109_drop (P : Plat) (inc : BitVec 16) (st : Statics) (ops : List MOp) (tr : MTrace) (s s' : Mgr)
    (h0 : (Mgr.new inc st).run P ops = some (s, tr)) (d : List Byte) (t0 : Nat) (addr : List Byte)
    (rest : List (Nat × List Byte)) (hd : CpfAccepts (asReceived d) ((t0, addr) :: rest)) (ha : 4 ≤ addr.length)
    (evs : List MEv) (h : s.deliver P (.dgram d) = .ok (s', evs)) (hn : ¬ toldListener evs) :
    ∃ l ∈ s.deliverLines P (.dgram d), l.level.toNat ≤ Logs.init.level.toNat ∧
      ∃ t, decAfter "T2O_ID=" l.text = some t ∧ t % 65536 = field addr 0 4 % 65536 := by
  have hi : Inv s := inv_run P _ _ _ _ (inv_new inc st) h0
  obtain ⟨v, b, h1, hv, h2⟩ := u32_head P.mem addr ha
  simp only [Mgr.deliver, udpReceive_eq, accepts_expand hd, List.map_cons, List.getElem?_cons_zero, CommonPacketItem.mk', h1] at h
  simp only [Mgr.deliverLines, udpReceive_eq, accepts_expand hd, List.map_cons, List.getElem?_cons_zero, CommonPacketItem.mk', h1]
  have h2' : v.toNat % 65536 = field addr 0 4 % 65536 := by simpa using h2
  cases ht : tblFind (v.setWidth 16) s.table with
  | none =>
    refine ⟨.unknownFrom v, by simp, by simp [LogLine.level, Logs.init, LogLevel.toNat], v.toNat, ?_, h2'⟩
    simp [LogLine.text, LogLine.inserted, OStream.render, OStream.put, OStream.digits, decAfter, textAfter, dec_end]
  | some id =>
    rw [ht] at h
    dsimp only at h ⊢
    obtain ⟨c, hc, hk⟩ := hi.obj _ _ (tblFind_mem ht)
    rw [hc] at h ⊢
    generalize (_ :: List.map _ rest)[1]? = i1 at h ⊢
    match i1 with
    | none => cases h
    | some item =>
      dsimp only at h ⊢
      cases hr : c.notifyReceiveData P.mem item.data with
      | ub => rw [hr] at h; cases h
      | throw _ => rw [hr] at h; cases h
      | ok v' =>
        obtain ⟨c', es⟩ := v'
        rw [hr] at h
        dsimp only at h
        injection h with h; injection h with _ h
        have hes : es = [] := by
          rcases recv_events hr with e | ⟨a, b, x, e⟩
          · exact e
          · exact absurd ⟨id, _, _, a, b, x, by rw [← h]; exact List.mem_singleton_self _, by rw [e]; simp⟩ hn
        obtain ⟨got, hg⟩ := (C109_recv _ _ _ _ _ hr).1.mp hes
        refine ⟨_, List.mem_cons_of_mem _ hg, by simp [LogLine.level, Logs.init, LogLevel.toNat], c.t2oNetworkConnectionId.toNat, ?_, ?_⟩
        · simp [LogLine.text, LogLine.inserted, OStream.render, OStream.put, OStream.digits, decAfter, textAfter, dec_cons]
        · have := congrArg BitVec.toNat hk
          simp at this
          omega

theorem trouble_level (l : LogLine) (name : String) (ht : trouble l = some name) :
    Logs.levelName l.level = some name ∧ l.level.toNat ≤ 2 := by
  cases l
  all_goals first | exact ⟨ht, Nat.le_refl 2⟩ | exact ⟨ht, Nat.le_succ 1⟩ | skip
  all_goals cases ht

/-- A message of trouble is on the console with its level, unless the user has set a lower level. -/
theorem C109_console (fails : LogCall → Bool) (s : Logs) (hl : LogLevel.info.toNat ≤ s.level.toNat) (ha : s.appender = some .console)
    (k : Nat) (hk : s.find k = none) (l : LogLine) (name : String) (ht : trouble l = some name) :
    ∃ s', s.run fails [.create k l.level, .stream k (String.ofList l.text), .destroy k] = .ok s' () ∧
      s'.cout = s.cout ++ (name ++ String.ofList l.text ++ "\n") := by
  have hname := trouble_level l name ht
  have h1 : s.level ≠ .off := by
    intro h
    rw [h] at hl
    simp [LogLevel.toNat] at hl
  have h2 : l.level.toNat ≤ s.level.toNat := Nat.le_trans hname.2 (Nat.le_trans (by simp [LogLevel.toNat]) hl)
  have e1 : s.step fails (.create k l.level) = .ok { s with alive := (k, l.level, "") :: s.alive } () := by simp only [Logs.step, hk]
  rw [Logs.run, e1]
  dsimp only
  have e2 : Logs.step fails { s with alive := (k, l.level, "") :: s.alive } (.stream k (String.ofList l.text)) =
      .ok { s with alive := (k, l.level, String.ofList l.text) :: ((k, l.level, "") :: s.alive).filter (·.1 ≠ k) } () := by
    simp [Logs.step, Logs.find]
  rw [Logs.run, e2]
  dsimp only
  simp only [Logs.run, Logs.step, Logs.find, List.find?_cons, decide_true, Option.map_some, Logs.finish, if_pos (And.intro h1 h2), ha,
    Logs.print, hname.1]
  exact ⟨_, rfl, rfl⟩

/-- "Open IO connection" may be the last that is heard of a connection: if no socket can be made, the message is written
and `forwardOpen` throws. -/
theorem C109_opened_violated :
    ∃ (e : OpenEnv) (s' : Mgr) (evs : List MEv) (x : Exn),
      (Mgr.new 1 {}).forwardOpen samplePlat "192.168.1.10" sampleParams false e = .ok s' evs (.threw x) ∧
      LogLine.ioOpen 0xA 0x10001 1 ∈ (Mgr.new 1 {}).openLines samplePlat "192.168.1.10" sampleParams false e ∧
      s'.heap = [] := by
  refine ⟨{ reply := .ok (sampleReply 0xA 0x10001 1), udpErr := some 24 }, ?_⟩
  have key : (match (Mgr.new 1 {}).forwardOpen samplePlat "192.168.1.10" sampleParams false
        { reply := .ok (sampleReply 0xA 0x10001 1), udpErr := some 24 } with
      | .ok s' _ (.threw _) => decide (s'.heap = [])
      | _ => false) = true := by decide +kernel
  split at key
  · rename_i s' evs x h
    exact ⟨s', evs, x, h, by decide +kernel, of_decide_eq_true key⟩
  · cases key

/-! ## The hypotheses are met -/

/-- Two connections whose identifiers agree in the lower half: the second is announced and reported as existing. -/
example : (match (Mgr.new 1 {}).run samplePlat [sampleOpen 0xA 0x10001 1] with
    | none => none
    | some (s, _) =>
      some (s.openLines samplePlat "192.168.1.10" sampleParams false { reply := .ok (sampleReply 0xB 0x20001 2) })) =
    some [.request 0x54#8 (EPath.mk2 6 1), .ioOpen 0xB 0x20001 2,
      .sendsTo (EndPoint.ofHost samplePlat.aton "192.168.1.10" 2222), .exists_ 0x20001] := by decide +kernel

/-- A connection is refused. -/
example : (Mgr.new 1 {}).openLines samplePlat "192.168.1.10" sampleParams false
      { reply := .ok { sampleReply 0 0 0 with status := 1, additionalStatus := [0x106, 0x1F] } } =
    [.request 0x54#8 (EPath.mk2 6 1), .status { sampleReply 0 0 0 with status := 1, additionalStatus := [0x106, 0x1F] }] := by
  decide +kernel

/-- What the user sees of it; the status is the character with the code 1. -/
example : (LogLine.status { sampleReply 0 0 0 with status := 1, additionalStatus := [0x106, 0x1F] }).text =
    "Message Router error=0x\x01 additional statuses [0x106][0x1f]".toList := by decide +kernel

/-- A status that looks like another one: 0x31 is shown as 1. -/
example : hexAfter "error=0x" (LogLine.closeFailed 0x31).text = some 1 := by decide +kernel

/-- File 16 is shown as 10. -/
example : decAfter "FileObject=" (LogLine.file .info 16 "FILE_LOADED".toList "ok".toList).text = some 10 := by decide +kernel

/-- A datagram for no connection, and one of a wrong size. -/
example : (match (Mgr.new 1 {}).run samplePlat [sampleOpen 0xA 0x10001 1] with
    | none => none
    | some (s, _) => some (s.deliverLines samplePlat (.dgram (sampleDgram 0x10007 [1, 2])),
        s.deliverLines samplePlat (.dgram (sampleDgram 0x10001 [1, 2, 3])),
        s.deliverLines samplePlat (.dgram (sampleDgram 0x10001 [1, 2])))) =
    some ([.dataFrom 0x10007, .unknownFrom 0x10007], [.dataFrom 0x10001, .wrongSizeIn 0x10001 2 3], [.dataFrom 0x10001]) := by
  decide +kernel

/-- A refused close, and a dead pointer. -/
example : (match (Mgr.new 1 {}).run samplePlat [sampleOpen 0xA 0x10001 1] with
    | none => none
    | some (s, _) => some (s.closeLines (some 0) (.ok { sampleReply 0 0 0 with status := 8 }), s.closeLines (some 5) .ub)) =
    some ([.close 0x10001, .request 0x4E#8 (EPath.mk2 6 1), .closeFailed 8], [.alreadyClosed]) := by decide +kernel

end Verif.Props
