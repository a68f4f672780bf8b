import Verif.Spec.AllocLog
import Verif.Props.LogText
import Verif.Props.Log

/-!
# Property C123: running out of memory in the log
-/

namespace Verif.Props

open Verif Verif.Spec

/-! ## The stream -/

theorem put_text (o : OStream) (x : Inserted) : o.text <+: (o.put x).text := by
  cases x with
  | str s => exact List.prefix_append _ _
  | num n => exact List.prefix_append _ _
  | int i => simp only [OStream.put]; split <;> exact List.prefix_append _ _
  | bool b => exact List.prefix_append _ _
  | char b => exact List.prefix_append _ _
  | hex => exact List.prefix_rfl

theorem fold_text (xs : List Inserted) (o : OStream) : o.text <+: (xs.foldl OStream.put o).text := by
  induction xs generalizing o with
  | nil => exact List.prefix_rfl
  | cons x xs ih => exact (put_text o x).trans (ih _)

/-- A bad stream keeps its text. -/
theorem bad_text (ps : List (Piece × Short)) (o : OStreamA) (h : o.bad = true) : (o.statement ps).1.out.text = o.out.text := by
  induction ps generalizing o with
  | nil => rfl
  | cons p ps ih =>
    obtain ⟨p, sh⟩ := p
    have step : ((o.put p.inserted sh).statement ps).1.out.text = o.out.text := by
      rw [ih _ (by simp only [OStreamA.put]; rw [if_pos h]; exact h)]
      simp only [OStreamA.put]
      rw [if_pos h]
    cases p with
    | value x => exact step
    | made s => cases sh <;> first | exact step | rfl

theorem statement_prefix (ps : List (Piece × Short)) (o : OStreamA) (h : o.bad = false) :
    (o.statement ps).1.out.text <+: ((ps.map fun p => p.1.inserted).foldl OStream.put o.out).text := by
  induction ps generalizing o with
  | nil => exact List.prefix_rfl
  | cons p ps ih =>
    obtain ⟨p, sh⟩ := p
    have full : ((⟨o.out.put p.inserted, false⟩ : OStreamA).statement ps).1.out.text <+:
        ((ps.map fun p => p.1.inserted).foldl OStream.put (o.out.put p.inserted)).text := ih _ rfl
    have step : ((o.put p.inserted sh).statement ps).1.out.text <+:
        ((ps.map fun p => p.1.inserted).foldl OStream.put (o.out.put p.inserted)).text := by
      unfold OStreamA.put
      simp only [h]
      cases sh with
      | enough => exact full
      | making => exact full
      | after n =>
        simp only [Bool.false_eq_true, if_false]
        split
        · rw [bad_text _ _ rfl]
          exact (List.take_prefix _ _).trans (fold_text _ _)
        · exact full
    cases p with
    | value x => exact step
    | made s =>
      cases sh with
      | making => exact (put_text _ _).trans (fold_text _ _)
      | enough => exact step
      | after n => exact step

theorem statement_ample (ps : List (Piece × Short)) (o : OStreamA) (h : o.bad = false) (ha : Ample ps) :
    o.statement ps = (⟨(ps.map fun p => p.1.inserted).foldl OStream.put o.out, false⟩, false) := by
  induction ps generalizing o with
  | nil => obtain ⟨out, bad⟩ := o; cases h; rfl
  | cons p ps ih =>
    obtain ⟨p, sh⟩ := p
    have hs : sh = .enough := ha (p, sh) (by simp)
    subst hs
    have e : o.put p.inserted .enough = ⟨o.out.put p.inserted, false⟩ := by simp [OStreamA.put, h]
    have := ih ⟨o.out.put p.inserted, false⟩ rfl fun q hq => ha q (by simp [hq])
    cases p <;> (show OStreamA.statement (o.put _ _) ps = _) <;> rw [e] <;> exact this

theorem statement_threw (ps : List (Piece × Short)) (o : OStreamA) : (o.statement ps).2 = true ↔ Unmade ps := by
  induction ps generalizing o with
  | nil => simp [OStreamA.statement, Unmade]
  | cons p ps ih =>
    obtain ⟨p, sh⟩ := p
    have step : ¬ (∃ s, (p, sh) = (Piece.made s, Short.making)) →
        (((o.put p.inserted sh).statement ps).2 = true ↔ Unmade ((p, sh) :: ps)) := by
      intro hn
      rw [ih]
      constructor
      · rintro ⟨s, hs⟩; exact ⟨s, by simp [hs]⟩
      · rintro ⟨s, hs⟩
        rcases List.mem_cons.mp hs with hs | hs
        · exact (hn ⟨s, hs.symm⟩).elim
        · exact ⟨s, hs⟩
    cases p with
    | value x => exact step (by simp)
    | made s =>
      cases sh with
      | making => exact ⟨fun _ => ⟨s, by simp⟩, fun _ => rfl⟩
      | enough => exact step (by simp)
      | after n => exact step (by simp)

/-! ## Statements -/

theorem passes_iff (l g : LogLevel) : Passes l g ↔ g ≠ .off ∧ l.toNat ≤ g.toNat := by
  unfold Passes; rw [rank_eq, rank_eq]

/-- C123. The messages with their insertions are those of C109. -/
theorem C123_messages (l : LogLine) (shorts : Nat → Short) : fullText (messageIn l shorts) = l.text := by
  have h : ∀ (ps : List Piece) k, (ps.zipIdx k).map (fun x => (x.1, shorts x.2).1.inserted) = ps.map Piece.inserted := by
    intro ps
    induction ps with
    | nil => intro k; rfl
    | cons p ps ih => intro k; rw [List.zipIdx_cons, List.map_cons, List.map_cons, ih]
  unfold fullText messageIn LogLine.text
  rw [List.map_map]
  have : (l.pieces.zipIdx.map ((fun p => p.1.inserted) ∘ fun x => (x.1, shorts x.2))) = l.inserted := by
    refine (h l.pieces 0).trans ?_
    cases l <;> simp [LogLine.pieces, LogLine.inserted, Piece.inserted, Function.comp_def]
  rw [this]

/-- C123. When there is memory a statement does what it does in C67. -/
theorem C123_plenty (fails : LogCall → Bool) (small : Nat) (l : LogLevel) (ps : List (Piece × Short)) (h : Ample ps) (s : LogsA) :
    ∃ named, LogsA.log fails small l ps {} s =
      match s.logs.finish fails l (String.ofList (fullText ps)) with
      | .ok logs _ => .ok ⟨logs, named⟩ ()
      | .throw logs x => .throw ⟨logs, named⟩ x
      | .ub => .ub := by
  unfold LogsA.log
  simp only [statement_ample ps {} rfl h]
  unfold LogsA.finish Logs.finish
  by_cases hp : s.logs.level ≠ .off ∧ l.toNat ≤ s.logs.level.toNat
  · simp only [if_pos hp]
    cases ha : s.logs.appender with
    | none => exact ⟨s.named, rfl⟩
    | some a =>
      refine ⟨s.named || a == .console, ?_⟩
      simp only [Bool.false_eq_true, false_and, and_false, if_false]
      change (match (match s.logs.print fails ⟨a, l, String.ofList (fullText ps)⟩ with
        | .ok logs _ => Res.ok (LogsA.mk logs (s.named || a == Appender.console)) ()
        | .throw logs x => .throw ⟨logs, s.named || a == Appender.console⟩ x
        | .ub => .ub) with
        | .ok s' _ => if false = true then Res.throw s' .badAlloc else .ok s' ()
        | .throw s' x => .throw s' x
        | .ub => .ub) = _
      cases s.logs.print fails ⟨a, l, String.ofList (fullText ps)⟩ <;> rfl
  · simp only [if_neg hp]
    exact ⟨s.named, rfl⟩

/-- C123. A message below the level in force does nothing, whatever memory is missing; the statement throws only if a string cannot be made. -/
theorem C123_hidden (fails : LogCall → Bool) (small : Nat) (l : LogLevel) (ps : List (Piece × Short)) (e : EndMem) (s : LogsA)
    (h : ¬ Passes l s.logs.level) :
    (Unmade ps → LogsA.log fails small l ps e s = .throw s .badAlloc) ∧ (¬ Unmade ps → LogsA.log fails small l ps e s = .ok s ()) := by
  have e1 : ∀ t, LogsA.finish fails small e l t s = .ok s () := fun t => if_neg (fun hp => h ((passes_iff _ _).mpr hp))
  unfold LogsA.log
  simp only [e1]
  rw [← statement_threw ps {}]
  constructor <;> intro hu
  · rw [if_pos hu]
  · rw [if_neg hu]

theorem finish_after (fails : LogCall → Bool) (small : Nat) (l : LogLevel) (t : List Char) (e : EndMem) (s s' : LogsA)
    (h : logAfter (LogsA.finish fails small e l t s) = some s') :
    s'.logs.level = s.logs.level ∧ s'.logs.appender = s.logs.appender ∧ s'.logs.alive = s.logs.alive ∧
    (s'.logs.calls = s.logs.calls ∨ ∃ a, s.logs.appender = some a ∧ s'.logs.calls = s.logs.calls ++ [⟨a, l, String.ofList t⟩]) := by
  unfold LogsA.finish at h
  split at h
  · cases ha : s.logs.appender with
    | none => rw [ha] at h; cases h
    | some a =>
      rw [ha] at h
      simp only at h
      split at h
      · cases h; exact ⟨rfl, ha, rfl, .inl rfl⟩
      · split at h
        · cases h; exact ⟨rfl, ha, rfl, .inl rfl⟩
        · unfold Logs.print at h
          cases a with
          | console =>
            simp only at h
            cases hn : Logs.levelName l with
            | none => rw [hn] at h; cases h; exact ⟨rfl, ha, rfl, .inr ⟨_, rfl, rfl⟩⟩
            | some name => rw [hn] at h; cases h; exact ⟨rfl, ha, rfl, .inr ⟨_, rfl, rfl⟩⟩
          | user n =>
            simp only at h
            split at h
            · rename_i hx
              split at hx <;> cases hx
              cases h; exact ⟨rfl, ha, rfl, .inr ⟨_, rfl, rfl⟩⟩
            · rename_i hx
              split at hx <;> cases hx
              cases h; exact ⟨rfl, ha, rfl, .inr ⟨_, rfl, rfl⟩⟩
            · rename_i hx
              split at hx <;> cases hx
  · cases h; exact ⟨rfl, rfl, rfl, .inl rfl⟩

theorem log_after (fails : LogCall → Bool) (small : Nat) (l : LogLevel) (ps : List (Piece × Short)) (e : EndMem) (s : LogsA) :
    logAfter (LogsA.log fails small l ps e s) = logAfter (LogsA.finish fails small e l (OStreamA.statement {} ps).1.out.text s) := by
  unfold LogsA.log
  simp only
  cases LogsA.finish fails small e l (OStreamA.statement {} ps).1.out.text s with
  | ok s' u => simp only; split <;> rfl
  | throw s' x => rfl
  | ub => rfl

/-- C123. Whatever memory is missing: a statement hands at most one text to the appender in force, and the text is the first part of the one that
it is with memory; nothing else changes. -/
theorem C123_prefix (fails : LogCall → Bool) (small : Nat) (l : LogLevel) (ps : List (Piece × Short)) (e : EndMem) (s s' : LogsA)
    (h : logAfter (LogsA.log fails small l ps e s) = some s') :
    s'.logs.level = s.logs.level ∧ s'.logs.appender = s.logs.appender ∧ s'.logs.alive = s.logs.alive ∧
    (s'.logs.calls = s.logs.calls ∨
     ∃ a t, s.logs.appender = some a ∧ t <+: fullText ps ∧ s'.logs.calls = s.logs.calls ++ [⟨a, l, String.ofList t⟩]) := by
  rw [log_after] at h
  obtain ⟨h1, h2, h3, h4⟩ := finish_after _ _ _ _ _ _ _ h
  refine ⟨h1, h2, h3, ?_⟩
  rcases h4 with h4 | ⟨a, ha, hc⟩
  · exact .inl h4
  · exact .inr ⟨a, _, ha, statement_prefix ps {} rfl, hc⟩

theorem print_ok (fails : LogCall → Bool) (s : Logs) (a : Appender) (l : LogLevel) (t : String) (hl : l ≠ .off) (hf : ∀ c, fails c = false) :
    ∃ s', s.print fails ⟨a, l, t⟩ = .ok s' () := by
  unfold Logs.print
  cases a with
  | console => cases l <;> first | exact ⟨_, rfl⟩ | exact (hl rfl).elim
  | user n => simp only [hf]; exact ⟨_, rfl⟩

/-- C123. Memory that is missing for the insertions does not end the process; nor does any if the text has room in a string and the table of
the console has been made. -/
theorem C123_survives (fails : LogCall → Bool) (hf : ∀ c, fails c = false) (small : Nat) (l : LogLevel) (hl : l ≠ .off)
    (ps : List (Piece × Short)) (e : EndMem) (s : LogsA) (ha : s.logs.appender ≠ none)
    (h : (e.copy = false ∨ (fullText ps).length ≤ small) ∧ (e.table = false ∨ s.named = true ∨ s.logs.appender ≠ some .console)) :
    ∃ s', (Unmade ps → LogsA.log fails small l ps e s = .throw s' .badAlloc) ∧ (¬ Unmade ps → LogsA.log fails small l ps e s = .ok s' ()) := by
  have hlen := (statement_prefix ps {} rfl).length_le
  have e1 : ∃ s', LogsA.finish fails small e l (OStreamA.statement {} ps).1.out.text s = .ok s' () := by
    unfold LogsA.finish
    split
    · cases hap : s.logs.appender with
      | none => exact (ha hap).elim
      | some a =>
        simp only
        rw [if_neg, if_neg]
        · obtain ⟨logs, hp⟩ := print_ok fails s.logs a l (String.ofList (OStreamA.statement {} ps).1.out.text) hl hf
          rw [hp]
          exact ⟨_, rfl⟩
        · rintro ⟨h1, h2, h3⟩
          rcases h.2 with h | h | h
          · rw [h] at h3; cases h3
          · rw [h] at h2; cases h2
          · exact h (by rw [hap, h1])
        · rintro ⟨h1, h2⟩
          rcases h.1 with h | h
          · rw [h] at h1; cases h1
          · exact absurd (Nat.lt_of_lt_of_le h2 (Nat.le_trans hlen h)) (Nat.lt_irrefl _)
    · exact ⟨s, rfl⟩
  obtain ⟨s', e1⟩ := e1
  refine ⟨s', ?_⟩
  unfold LogsA.log
  simp only [e1]
  rw [← statement_threw ps {}]
  constructor <;> intro hu
  · rw [if_pos hu]
  · rw [if_neg hu]

/-! ## What fails -/

theorem digits_pos (hex : Bool) (n : Nat) : 0 < (OStream.digits hex n).length := by
  have h : ∀ b, 1 < b → 0 < (Nat.toDigits b n).length := by
    intro b hb
    rw [Nat.toDigits_eq_if hb]
    by_cases hn : n < b
    · rw [if_pos hn]; exact Nat.one_pos
    · rw [if_neg hn, List.length_append]; exact Nat.succ_pos _
  unfold OStream.digits
  cases hex
  · exact h 10 (by omega)
  · exact h 16 (by omega)

/-- No message of the library has room in a string of the GNU C++ library. -/
theorem text_long (l : LogLine) : 15 < l.text.length := by
  cases l with
  | file l id state message =>
    have := digits_pos true id.toNat
    simp [LogLine.text, LogLine.inserted, OStream.render, OStream.put]
    omega
  | status r => rw [status_text]; simp
  | tcpConnecting ep =>
    have hp : 0 < (toString ep.port).toList.length := by
      cases ep.port with
      | ofNat n =>
        have : (toString (Int.ofNat n)).toList = Nat.toDigits 10 n := by
          show (Nat.repr n).toList = _
          simp [Nat.repr]
        rw [this]
        exact digits_pos false n
      | negSucc n =>
        have : (toString (Int.negSucc n)).toList = '-' :: Nat.toDigits 10 (n + 1) := by
          show ("-" ++ Nat.repr (n + 1)).toList = _
          simp [Nat.repr]
        rw [this]
        exact Nat.succ_pos _
    simp only [LogLine.text, LogLine.inserted, OStream.render, OStream.put, EndPoint.toStr, List.foldl_cons, List.foldl_nil, String.toList_append,
      List.length_append]
    have e1 : "Connecting to ".toList.length = 14 := by decide
    have e2 : ":".toList.length = 1 := by decide
    omega
  | _ => simp [LogLine.text, LogLine.inserted, OStream.render, OStream.put] <;> omega

/-- C123. "A call that finds no memory throws" is false: for every message of the library that is shown, if there is no memory for
the copy of its text, the process ends, and nothing is printed. -/
theorem C123_end_violated (fails : LogCall → Bool) (small : Nat) (hs : small ≤ 15) (l : LogLine) (shorts : Nat → Short)
    (h : Ample (messageIn l shorts)) (s : LogsA) (hp : Passes l.level s.logs.level) (ha : s.logs.appender ≠ none) (table : Bool) :
    LogsA.log fails small l.level (messageIn l shorts) ⟨true, table⟩ s = .throw s .abort := by
  have ht : (OStreamA.statement {} (messageIn l shorts)).1.out.text = l.text := by
    rw [statement_ample _ {} rfl h]; exact C123_messages l shorts
  unfold LogsA.log LogsA.finish
  simp only [ht, if_pos ((passes_iff _ _).mp hp)]
  cases hap : s.logs.appender with
  | none => exact (ha hap).elim
  | some a =>
    simp only
    rw [if_pos ⟨trivial, Nat.lt_of_le_of_lt hs (text_long l)⟩]

/-- C123. The same for the first message on the console, if there is no memory for the names of the levels. -/
theorem C123_first_violated (fails : LogCall → Bool) (small : Nat) (l : LogLevel) (ps : List (Piece × Short)) (copy : Bool) (s : LogsA)
    (hp : Passes l s.logs.level) (ha : s.logs.appender = some .console) (hn : s.named = false) :
    LogsA.log fails small l ps ⟨copy, true⟩ s = .throw s .abort := by
  unfold LogsA.log LogsA.finish
  simp only [if_pos ((passes_iff _ _).mp hp), ha, hn]
  by_cases h : copy = true ∧ small < (OStreamA.statement {} ps).1.out.text.length
  · rw [if_pos h]
  · rw [if_neg h, if_pos ⟨trivial, trivial, trivial⟩]

theorem cut_digits (p : List Char) (n : Nat) (h : 10 ≤ n) :
    OStreamA.put ⟨⟨false, p⟩, false⟩ (.num n) (.after (Nat.toDigits 10 (n / 10)).length) = ⟨⟨false, p ++ Nat.toDigits 10 (n / 10)⟩, true⟩ := by
  have hd : OStream.digits false n = Nat.toDigits 10 (n / 10) ++ [Nat.digitChar (n % 10)] := by
    unfold OStream.digits
    rw [if_neg (by simp), Nat.toDigits_eq_if (by omega), if_neg (by omega)]
  simp [OStreamA.put, OStream.put, hd, ← List.append_assoc]

/-- C123. "The numbers in the log are right" is false: for every session whose handle has two digits or more, memory may be missing so that the message tells the
handle without its last digit, and nothing else is wrong with it. -/
theorem C123_number_violated (fails : LogCall → Bool) (small : Nat) (h : BitVec 32) (hh : 10 ≤ h.toNat) (s : LogsA)
    (hp : Passes .info s.logs.level) (ha : s.logs.appender = some .console) :
    ∃ shorts s' t, LogsA.log fails small .info (messageIn (.registered h) shorts) {} s = .ok s' () ∧
      s'.logs.calls = s.logs.calls ++ [⟨.console, .info, String.ofList t⟩] ∧ decAfter "Registered session " t = some (h.toNat / 10) := by
  refine ⟨fun i => if i = 1 then .after (Nat.toDigits 10 (h.toNat / 10)).length else .enough, ?_⟩
  have ht : (OStreamA.statement {} (messageIn (.registered h) fun i => if i = 1 then .after (Nat.toDigits 10 (h.toNat / 10)).length else .enough)) =
      (⟨⟨false, "Registered session ".toList ++ Nat.toDigits 10 (h.toNat / 10)⟩, true⟩, false) := by
    have e : OStreamA.put {} (.str "Registered session ".toList) .enough = ⟨⟨false, "Registered session ".toList⟩, false⟩ := by decide
    have := cut_digits "Registered session ".toList h.toNat hh
    show OStreamA.statement (OStreamA.put (OStreamA.put {} (.str "Registered session ".toList) .enough) (.num h.toNat)
      (.after (Nat.toDigits 10 (h.toNat / 10)).length)) [] = _
    rw [e, this]
    rfl
  refine ⟨⟨{ s.logs with
      calls := s.logs.calls ++ [⟨.console, .info, String.ofList ("Registered session ".toList ++ Nat.toDigits 10 (h.toNat / 10))⟩]
      cout := s.logs.cout ++ ("[INFO] " ++ String.ofList ("Registered session ".toList ++ Nat.toDigits 10 (h.toNat / 10)) ++ "\n") }, true⟩,
    _, ?_, rfl, ?_⟩
  · unfold LogsA.log
    rw [ht]
    unfold LogsA.finish
    simp only [if_pos ((passes_iff _ _).mp hp), ha]
    simp [Logs.print, Logs.levelName, ha]
  · simp [decAfter, textAfter, dec_end]

/-! ## Requests -/

/-- C123. With the messages of level INFO off, a request is that of C120, and the log is not touched; or there is no memory for the text of
the path, and it throws before anything is sent. -/
theorem C123_request {σ : Type} (fails : LogCall → Bool) (small : Nat) (m : Mem) (si : SessionIf (Scarce σ)) (use8 : Bool)
    (service : BitVec 8) (path : EPath) (data : List Byte) (extra : List CommonPacketItem) (shorts : Nat → Short) (e : EndMem)
    (L : LogsA) (s : Scarce σ) (h : ¬ Passes .info L.logs.level) :
    sendRequestLogA fails small m si use8 service path data extra shorts e (L, s) =
      if shorts 4 = .making then .throw (L, s) .badAlloc
      else match sendRequestA m si use8 service path data extra s with
        | .ub => .ub
        | .throw s' x => .throw (L, s') x
        | .ok s' r => .ok (L, s') r := by
  have hu : Unmade (messageIn (.request service path) shorts) ↔ shorts 4 = .making := by
    simp [Unmade, messageIn, LogLine.pieces, eq_comm]
  obtain ⟨h1, h2⟩ := C123_hidden fails small .info (messageIn (.request service path) shorts) e L h
  unfold sendRequestLogA
  simp only
  by_cases hs : shorts 4 = .making
  · rw [if_pos hs, show LogsA.log fails small .info ((LogLine.request service path).pieces.zipIdx.map fun x => (x.1, shorts x.2)) e L = _ from
      h1 (hu.mpr hs)]
  · rw [if_neg hs, show LogsA.log fails small .info ((LogLine.request service path).pieces.zipIdx.map fun x => (x.1, shorts x.2)) e L = _ from
      h2 (fun h => hs (hu.mp h))]
    rfl

/-- C123. "A request that finds no memory throws" is false at the level that a program has by default: every request may end the process before it is sent. -/
theorem C123_request_violated {σ : Type} (fails : LogCall → Bool) (small : Nat) (hs : small ≤ 15) (m : Mem) (si : SessionIf (Scarce σ)) (use8 : Bool)
    (service : BitVec 8) (path : EPath) (data : List Byte) (extra : List CommonPacketItem) (s : Scarce σ) :
    sendRequestLogA fails small m si use8 service path data extra (fun _ => .enough) ⟨true, false⟩ (⟨.init, true⟩, s) =
      .throw (⟨.init, true⟩, s) .abort := by
  have := C123_end_violated fails small hs (.request service path) (fun _ => .enough)
    (by intro p hp; simp only [messageIn, List.mem_map] at hp; obtain ⟨x, _, rfl⟩ := hp; rfl) ⟨.init, true⟩ (show Passes .info Logs.init.level by decide) (show Logs.init.appender ≠ none by decide) false
  unfold sendRequestLogA
  simp only
  rw [show LogsA.log fails small .info ((LogLine.request service path).pieces.zipIdx.map fun x => (x.1, Short.enough)) ⟨true, false⟩ ⟨.init, true⟩ = _ from
    this]

/-! ## The hypotheses are met -/

/-- Memory is missing in the middle of a label: the message is cut there, and a later insertion is lost. -/
example : LogsA.log (fun _ => false) 15 .info (messageIn (.ioOpen 10 11 12) fun i => if i = 2 then .after 3 else .enough) {} ⟨.init, true⟩ =
    .ok ⟨{ Logs.init with calls := [⟨.console, .info, "Open IO connection O2T_ID=10 T2"⟩], cout := "[INFO] Open IO connection O2T_ID=10 T2\n" }, true⟩ () := by decide +kernel

/-- No memory for the text of the path: what there is of the message is printed, and the exception goes on. -/
example : LogsA.log (fun _ => false) 15 .info (messageIn (.request 0x54 (EPath.mk2 6 1)) fun i => if i = 4 then .making else .enough) {} ⟨.init, true⟩ =
    .throw ⟨{ Logs.init with calls := [⟨.console, .info, "Send request: service=0x54 epath="⟩], cout := "[INFO] Send request: service=0x54 epath=\n" }, true⟩ .badAlloc := by decide +kernel

example : ¬ Passes .info .warning ∧ Passes .info Logs.init.level := by decide

end Verif.Props
