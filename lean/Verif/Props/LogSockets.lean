import Verif.Spec.LogSockets
import Verif.Props.LogText
import Verif.Props.Discovery
import Verif.Props.AllocLog
import Verif.Props.Tcp

/-!
# C124: the log and the errors of sockets
-/

namespace Verif.Props

open Verif.Spec

/-- What a statement does if the appender does not throw. -/
theorem line_ok (A : AppenderEnv) (hf : ∀ c, A.fails c = false) (l : LogLine) (hl : l.level ≠ .off) (s : LogErr) (a : Appender)
    (ha : s.logs.appender = some a) :
    ∃ logs, LogErr.line A l s = .ok ⟨logs, if Passes l.level s.logs.level then A.after (noteOf a l) s.errno else s.errno⟩ () ∧
      logs.level = s.logs.level ∧ logs.appender = some a ∧ logs.calls = s.logs.calls ++ notesOf a s.logs.level [l] := by
  unfold LogErr.line Logs.finish
  by_cases hp : Passes l.level s.logs.level
  · have hp' := (passes_iff _ _).mp hp
    simp only [if_pos hp', if_pos hp, ha]
    have hn : notesOf a s.logs.level [l] = [noteOf a l] := by simp [notesOf, hp]
    rw [hn]
    unfold Logs.print
    cases a with
    | console =>
      have : ∃ n, Logs.levelName l.level = some n := by
        cases h : l.level with
        | off => exact (hl h).elim
        | _ => exact ⟨_, rfl⟩
      obtain ⟨n, hn⟩ := this
      simp only [hn]
      exact ⟨_, rfl, rfl, ha, rfl⟩
    | user k =>
      simp only [hf]
      exact ⟨_, rfl, rfl, ha, rfl⟩
  · have hp' := fun h => hp ((passes_iff _ _).mpr h)
    simp only [if_neg hp', if_neg hp]
    exact ⟨_, rfl, rfl, ha, by simp [notesOf, hp]⟩

theorem line_state (A : AppenderEnv) (hf : ∀ c, A.fails c = false) (l : LogLine) (hl : l.level ≠ .off) (s : LogErr) (a : Appender)
    (ha : s.logs.appender = some a) :
    ∃ s', LogErr.line A l s = .ok s' () ∧ s'.errno = (if Passes l.level s.logs.level then A.after (noteOf a l) s.errno else s.errno) ∧
      s'.logs.level = s.logs.level ∧ s'.logs.appender = some a ∧ s'.logs.calls = s.logs.calls ++ notesOf a s.logs.level [l] := by
  obtain ⟨logs, h1, h2, h3, h4⟩ := line_ok A hf l hl s a ha
  exact ⟨_, h1, rfl, h2, h3, h4⟩

theorem notes_append (a : Appender) (g : LogLevel) (l1 l2 : List LogLine) : notesOf a g (l1 ++ l2) = notesOf a g l1 ++ notesOf a g l2 := by
  simp [notesOf]

/-- C124. A failing receive call of a UDP socket throws the code that `errno` has after the appender was called. -/
theorem C124_receive (A : AppenderEnv) (hf : ∀ c, A.fails c = false) (fd size : Nat) (s : LogErr) (a : Appender) (ha : s.logs.appender = some a) :
    (∀ code, ∃ s', LogErr.udpReceive A fd size (.err code) s = .throw s' (.system (codeTold A a s.logs.level fd code)) ∧
      s'.logs.level = s.logs.level ∧ s'.logs.appender = some a ∧
      s'.logs.calls = s.logs.calls ++ notesOf a s.logs.level [.udpReceived (-1) fd]) ∧
    (∀ bytes, ∃ s' data, LogErr.udpReceive A fd size (.dgram bytes) s = .ok s' data ∧ udpReceive size (.dgram bytes) = .ok data ∧
      s'.logs.level = s.logs.level ∧ s'.logs.appender = some a ∧
      s'.logs.calls = s.logs.calls ++ notesOf a s.logs.level [.udpReceived (min size bytes.length : Nat) fd]) := by
  constructor
  · intro code
    obtain ⟨logs, h1, h2, h3, h4⟩ := line_ok A hf (.udpReceived (-1) fd) (by simp [LogLine.level]) { s with errno := code } a ha
    refine ⟨⟨logs, codeTold A a s.logs.level fd code⟩, ?_, h2, h3, h4⟩
    have e : LogErr.udpReceive A fd size (.err code) s =
        (LogErr.line A (.udpReceived (-1) fd) >>= fun _ => Prog.get >>= fun s => Prog.throw (.system s.errno)) { s with errno := code } := rfl
    rw [e, Prog.bind_ok h1]
    rfl
  · intro bytes
    obtain ⟨logs, h1, h2, h3, h4⟩ := line_ok A hf (.udpReceived ((bytes.take size).length : Nat) fd) (by simp [LogLine.level]) s a ha
    have e : LogErr.udpReceive A fd size (.dgram bytes) s = _ := Prog.bind_ok h1
    exact ⟨⟨logs, _⟩, _, e, rfl, h2, h3, by rw [h4, List.length_take]⟩

theorem loopL_cons (A : AppenderEnv) (m : Mem) (fd : Nat) (devs : List IdentityItem) (r : Recv) (rs : List Recv) (s : LogErr) :
    LogErr.loop A m fd devs (r :: rs) s =
      match LogErr.udpReceive A fd 504 r s with
      | .ub => .ub
      | .throw s' (.system code) => if code ≠ Discovery.endError then .throw s' (.system code) else .ok s' (some devs)
      | .throw s' e => .throw s' e
      | .ok s' data =>
        match Discovery.answer m data with
        | .ub => .ub
        | .throw (.system code) => if code ≠ Discovery.endError then .throw s' (.system code) else .ok s' (some devs)
        | .throw e => .throw s' e
        | .ok ds => LogErr.loop A m fd (devs ++ ds) rs s' := rfl

/-- The loop of a discovery with the log. -/
theorem disc_loop (A : AppenderEnv) (hf : ∀ c, A.fails c = false) (m : Mem) (fd : Nat) (a : Appender) (g : LogLevel) (rs : List Recv)
    (devs : List IdentityItem) (s : LogErr) (ha : s.logs.appender = some a) (hg : s.logs.level = g) :
    discEnd (LogErr.loop A m fd devs rs s) = Discovery.loop m devs (rs.map (recvTold A a g fd)) ∧
    (∀ s', (∃ x, LogErr.loop A m fd devs rs s = .ok s' x) ∨ (∃ x, LogErr.loop A m fd devs rs s = .throw s' x) →
      s'.logs.appender = some a ∧ s'.logs.level = g ∧
      ∃ k ≤ rs.length, s'.logs.calls = s.logs.calls ++ notesOf a g ((rs.take k).map (recvLine fd))) := by
  induction rs generalizing devs s with
  | nil =>
    refine ⟨rfl, ?_⟩
    rintro s' (⟨x, hx⟩ | ⟨x, hx⟩)
    · cases hx; exact ⟨ha, hg, 0, Nat.le_refl _, by simp [notesOf]⟩
    · cases hx
  | cons r rs ih =>
    obtain ⟨he, hd⟩ := C124_receive A hf fd 504 s a ha
    cases r with
    | err code =>
      obtain ⟨s1, h1, h2, h3, h4⟩ := he code
      have hfin : s1.logs.appender = some a ∧ s1.logs.level = g ∧
          ∃ k ≤ (Recv.err code :: rs).length, s1.logs.calls = s.logs.calls ++ notesOf a g (((Recv.err code :: rs).take k).map (recvLine fd)) :=
        ⟨h3, h2.trans hg, 1, by simp, by rw [h4, hg]; rfl⟩
      have hr : LogErr.loop A m fd devs (.err code :: rs) s =
          if codeTold A a g fd code ≠ Discovery.endError then .throw s1 (.system (codeTold A a g fd code)) else .ok s1 (some devs) := by
        rw [loopL_cons, h1, hg]
      rw [hr]
      simp only [List.map_cons, recvTold, Discovery.loop, udpReceive]
      split
      · exact ⟨rfl, by rintro s' (⟨x, hx⟩ | ⟨x, hx⟩) <;> cases hx; exact hfin⟩
      · exact ⟨rfl, by rintro s' (⟨x, hx⟩ | ⟨x, hx⟩) <;> cases hx; exact hfin⟩
    | dgram bytes =>
      obtain ⟨s1, data, h1, h1', h2, h3, h4⟩ := hd bytes
      have hfin : s1.logs.appender = some a ∧ s1.logs.level = g ∧
          ∃ k ≤ (Recv.dgram bytes :: rs).length, s1.logs.calls = s.logs.calls ++ notesOf a g (((Recv.dgram bytes :: rs).take k).map (recvLine fd)) :=
        ⟨h3, h2.trans hg, 1, by simp, by rw [h4, hg]; rfl⟩
      have hr : LogErr.loop A m fd devs (.dgram bytes :: rs) s =
          match Discovery.answer m data with
          | .ub => .ub
          | .throw (.system code) => if code ≠ Discovery.endError then .throw s1 (.system code) else .ok s1 (some devs)
          | .throw e => .throw s1 e
          | .ok ds => LogErr.loop A m fd (devs ++ ds) rs s1 := by
        rw [loopL_cons, h1]
      rw [hr]
      simp only [List.map_cons, recvTold, Discovery.loop, h1']
      cases hans : Discovery.answer m data with
      | ub => exact ⟨rfl, by rintro s' (⟨x, hx⟩ | ⟨x, hx⟩) <;> cases hx⟩
      | throw e =>
        cases e with
        | system code =>
          simp only
          split
          · exact ⟨rfl, by rintro s' (⟨x, hx⟩ | ⟨x, hx⟩) <;> cases hx; exact hfin⟩
          · exact ⟨rfl, by rintro s' (⟨x, hx⟩ | ⟨x, hx⟩) <;> cases hx; exact hfin⟩
        | _ => exact ⟨rfl, by rintro s' (⟨x, hx⟩ | ⟨x, hx⟩) <;> cases hx; exact hfin⟩
      | ok ds =>
        obtain ⟨h5, h6⟩ := ih (devs ++ ds) s1 h3 (h2.trans hg)
        refine ⟨h5, fun s' hs' => ?_⟩
        obtain ⟨h7, h8, k, hk, h9⟩ := h6 s' hs'
        refine ⟨h7, h8, k + 1, by simpa using hk, ?_⟩
        rw [h9, h4, hg, List.append_assoc, ← notes_append]
        rfl

/-- The end of the block of a socket. -/
theorem disc_scope (A : AppenderEnv) (hf : ∀ c, A.fails c = false) (fd : Nat) (a : Appender) (g : LogLevel) (p : Prog LogErr (Option (List IdentityItem)))
    (s : LogErr) (hp : ∀ s', (∃ x, p s = .ok s' x) ∨ (∃ x, p s = .throw s' x) → s'.logs.appender = some a ∧ s'.logs.level = g) :
    discEnd (LogErr.udpScope A fd p s) = discEnd (p s) ∧
    (discEnd (p s) ≠ .threw .abort → discEnd (p s) ≠ .ub → notesAfter (LogErr.udpScope A fd p s) =
      notesAfter (p s) ++ if discEnd (p s) = .waiting then [] else notesOf a g [.udpClosed fd]) := by
  unfold LogErr.udpScope
  cases h : p s with
  | ub => exact ⟨rfl, fun _ h => (h rfl).elim⟩
  | ok s' x =>
    obtain ⟨h1, h2⟩ := hp s' (.inl ⟨x, h⟩)
    cases x with
    | none => exact ⟨rfl, fun _ _ => (List.append_nil _).symm⟩
    | some devices =>
      obtain ⟨logs, h3, _, _, h4⟩ := line_ok A hf (.udpClosed fd) (by simp [LogLine.level]) s' a h1
      simp only
      rw [Prog.bind_ok h3]
      refine ⟨rfl, fun _ _ => ?_⟩
      rw [if_neg (c := discEnd _ = _) (fun h => by cases h), ← h2]
      exact h4
  | throw s' x =>
    obtain ⟨h1, h2⟩ := hp s' (.inr ⟨x, h⟩)
    by_cases hx : x = .abort
    · subst hx; exact ⟨rfl, fun h => (h rfl).elim⟩
    · obtain ⟨logs, h3, _, _, h4⟩ := line_ok A hf (.udpClosed fd) (by simp [LogLine.level]) s' a h1
      have e : (LogErr.line A (.udpClosed fd) >>= fun _ => (Prog.throw x : Prog LogErr (Option (List IdentityItem)))) s' = _ := Prog.bind_ok h3
      cases x <;> first | exact (hx rfl).elim | skip
      all_goals
        simp only
        rw [e]
        refine ⟨rfl, fun _ _ => ?_⟩
        rw [if_neg (c := discEnd _ = _) (fun h => by cases h), ← h2]
        exact h4

theorem send_whole (c : Int) (h : ¬ (0 ≤ c ∧ c < 24)) (hc : -1 ≤ c ∧ c ≤ 24) : udpSendThrows EncapsPacketFactory.listIdentity.pack c = false := by
  unfold udpSendThrows
  rw [decide_eq_false_iff_not, show EncapsPacketFactory.listIdentity.pack.length = 24 from by decide]
  rcases (show c = -1 ∨ c = 24 by omega) with rfl | rfl <;> decide

/-- Up to the loop of a discovery. -/
theorem disc_start (A : AppenderEnv) (hf : ∀ c, A.fails c = false) (m : Mem) (fd : Nat) (e : Discovery.Env) (s : LogErr) (a : Appender)
    (ha : s.logs.appender = some a) (h1 : e.sockErr = none) (h2 : e.broadcastErr = none) :
    ∃ s1 s2 : LogErr, s1.logs.appender = some a ∧ s1.logs.level = s.logs.level ∧
      s2.logs.appender = some a ∧ s2.logs.level = s.logs.level ∧
      s2.logs.calls = s.logs.calls ++ notesOf a s.logs.level [.udpOpened fd, .udpSent 24 fd] ∧
      (¬ Passes .debug s.logs.level → s2.errno = s.errno) ∧
      ∃ p : Prog LogErr (Option (List IdentityItem)), LogErr.discover A m fd e s = LogErr.udpScope A fd p s1 ∧
        p s1 = if udpSendThrows EncapsPacketFactory.listIdentity.pack e.sendCount then .throw s2 (.system s2.errno)
          else LogErr.loop A m fd [] e.recvs s2 := by
  obtain ⟨s1, l1, l5, l2, l3, l4⟩ := line_state A hf (.udpOpened fd) (by simp [LogLine.level]) s a ha
  obtain ⟨s2, k1, k5, k2, k3, k4⟩ := line_state A hf (.udpSent 24 fd) (by simp [LogLine.level]) s1 a l3
  refine ⟨s1, s2, l3, l2, k3, k2.trans l2, ?_, ?_, ?_⟩
  · rw [k4, l4, l2, List.append_assoc, ← notes_append]
    rfl
  · intro hp
    have : ¬ Passes .trace s.logs.level := by
      intro h; apply hp; revert h; cases s.logs.level <;> decide
    have e1 : ¬ Passes (LogLine.udpSent 24 fd).level s1.logs.level := by rw [l2]; exact this
    have e2 : ¬ Passes (LogLine.udpOpened fd).level s.logs.level := hp
    rw [k5, if_neg e1, l5, if_neg e2]
  · unfold LogErr.discover
    rw [h1]
    simp only
    refine ⟨_, Prog.bind_ok l1, ?_⟩
    rw [h2]
    simp only
    rw [show EncapsPacketFactory.listIdentity.pack.length = 24 from by decide, Prog.bind_ok k1, Prog.bind_ok (Prog.get_run _), Prog.ite_run]
    rfl

theorem not_short (c : Int) (h : udpSendThrows EncapsPacketFactory.listIdentity.pack c = false) (m : Mem) (recvs : List Recv) :
    (Discovery.discover m { sendCount := c, recvs }).2 = Discovery.loop m [] recvs := by
  unfold Discovery.discover
  simp only [h]
  rfl

/-- C124. A discovery with the log ends as the one without it would, if each failing receive call had the code that the appender leaves. -/
theorem C124_discover (A : AppenderEnv) (hf : ∀ c, A.fails c = false) (m : Mem) (fd : Nat) (e : Discovery.Env) (s : LogErr) (a : Appender)
    (ha : s.logs.appender = some a) (hs : udpSendThrows EncapsPacketFactory.listIdentity.pack e.sendCount = false) :
    discEnd (LogErr.discover A m fd e s) = (Discovery.discover m { e with recvs := e.recvs.map (recvTold A a s.logs.level fd) }).2 := by
  cases h1 : e.sockErr with
  | some code => unfold LogErr.discover Discovery.discover; rw [h1]; rfl
  | none =>
    cases h2 : e.broadcastErr with
    | some code =>
      obtain ⟨s1, l1, _, l2, l3, _⟩ := line_state A hf (.udpOpened fd) (by simp [LogLine.level]) s a ha
      have e1 : LogErr.discover A m fd e s = LogErr.udpScope A fd (Prog.throw (.system code)) s1 := by
        unfold LogErr.discover
        rw [h1, h2]
        exact Prog.bind_ok l1
      have e2 := (disc_scope A hf fd a s.logs.level (Prog.throw (.system code)) s1 (by
        rintro s' (⟨x, hx⟩ | ⟨x, hx⟩) <;> cases hx; exact ⟨l3, l2⟩)).1
      rw [e1, e2]
      unfold Discovery.discover
      rfl
    | none =>
      obtain ⟨s1, s2, a1, a2, b1, b2, _, _, p, hd, hp⟩ := disc_start A hf m fd e s a ha h1 h2
      rw [if_neg (by rw [hs]; decide)] at hp
      obtain ⟨h3, h4⟩ := disc_loop A hf m fd a s.logs.level e.recvs [] s2 b1 b2
      rw [← hp] at h3 h4
      rw [hd, (disc_scope A hf fd a s.logs.level p s1 (fun s' hs' => ⟨(h4 s' hs').1, (h4 s' hs').2.1⟩)).1, h3]
      unfold Discovery.discover
      simp only [hs]
      rfl

/-- C124. If the messages of level TRACE are hidden, or the appender keeps `errno`, the log does not matter to a discovery. -/
theorem C124_transparent (A : AppenderEnv) (hf : ∀ c, A.fails c = false) (m : Mem) (fd : Nat) (e : Discovery.Env) (s : LogErr) (a : Appender)
    (ha : s.logs.appender = some a) (hs : udpSendThrows EncapsPacketFactory.listIdentity.pack e.sendCount = false)
    (h : s.logs.level ≠ .trace ∨ ∀ c v, A.after c v = v) :
    discEnd (LogErr.discover A m fd e s) = (Discovery.discover m e).2 := by
  rw [C124_discover A hf m fd e s a ha hs]
  have : e.recvs.map (recvTold A a s.logs.level fd) = e.recvs := by
    conv => rhs; rw [← List.map_id e.recvs]
    congr 1
    funext r
    cases r with
    | dgram b => rfl
    | err c =>
      simp only [recvTold, codeTold, id]
      rcases h with h | h
      · rw [if_neg (by revert h; cases s.logs.level <;> decide)]
      · rw [h]; simp
  rw [this]

/-- C124. "A discovery returns the devices that answered" is false at level TRACE: whatever devices have answered, if the appender changes the `errno` of the timeout
that ends a discovery, the discovery throws. -/
theorem C124_lost_violated (A : AppenderEnv) (hf : ∀ c, A.fails c = false) (m : Mem) (fd : Nat) (s : LogErr) (a : Appender)
    (ha : s.logs.appender = some a) (hl : s.logs.level = .trace) (c : Int) (hc : A.after (noteOf a (.udpReceived (-1) fd)) 11 = c) (hne : c ≠ 11)
    (ans : List (List Byte × List (Nat × List Byte))) (h : ∀ x ∈ ans, Announces x.1 x.2) :
    discEnd (LogErr.discover A m fd { sendCount := 24, recvs := ans.map (fun x => Recv.dgram x.1) ++ [.err 11] } s) = .threw (.system c) := by
  rw [C124_discover A hf m fd _ s a ha (show udpSendThrows EncapsPacketFactory.listIdentity.pack 24 = false by decide)]
  have e : (ans.map (fun x => Recv.dgram x.1) ++ [Recv.err 11]).map (recvTold A a s.logs.level fd) =
      ans.map (fun x => Recv.dgram x.1) ++ Recv.err c :: [] := by
    rw [List.map_append, List.map_map]
    simp [Function.comp_def, recvTold, codeTold, hl, show Passes .trace .trace from by decide, hc]
  rw [e]
  exact C53_error m ans h c hne []

/-- C124. "An error of the socket is thrown" is false at level TRACE: if the appender leaves the code of a timeout, a discovery that fails returns
what it has. -/
theorem C124_hidden_violated (A : AppenderEnv) (hf : ∀ c, A.fails c = false) (m : Mem) (fd : Nat) (s : LogErr) (a : Appender)
    (ha : s.logs.appender = some a) (hl : s.logs.level = .trace) (code : Int) (hc : A.after (noteOf a (.udpReceived (-1) fd)) code = 11)
    (ans : List (List Byte × List (Nat × List Byte))) (h : ∀ x ∈ ans, Announces x.1 x.2) :
    ∃ devs, discEnd (LogErr.discover A m fd { sendCount := 24, recvs := ans.map (fun x => Recv.dgram x.1) ++ [.err code] } s) = .done devs ∧
      devs.map foundView = (ans.flatMap (·.2)).map fun i => foundSpec (foundIn i.2) := by
  obtain ⟨more, h1, h2⟩ := loop_good m ans h []
  refine ⟨[] ++ more, ?_, h2⟩
  rw [C124_discover A hf m fd _ s a ha (show udpSendThrows EncapsPacketFactory.listIdentity.pack 24 = false by decide)]
  have e : (ans.map (fun x => Recv.dgram x.1) ++ [Recv.err code]).map (recvTold A a s.logs.level fd) =
      ans.map (fun x => Recv.dgram x.1) ++ Recv.err 11 :: [] := by
    rw [List.map_append, List.map_map]
    simp [Function.comp_def, recvTold, codeTold, hl, show Passes .trace .trace from by decide, hc]
  rw [e, not_short 24 (by decide), h1]
  rfl

/-- C124. A request of a discovery that is sent in part throws the `errno` that an earlier call has left; with DEBUG messages hidden this is that of the caller. -/
theorem C124_short_send (A : AppenderEnv) (hf : ∀ c, A.fails c = false) (m : Mem) (fd : Nat) (e : Discovery.Env) (s : LogErr) (a : Appender)
    (ha : s.logs.appender = some a) (h1 : e.sockErr = none) (h2 : e.broadcastErr = none)
    (hs : udpSendThrows EncapsPacketFactory.listIdentity.pack e.sendCount = true) :
    ∃ c, discEnd (LogErr.discover A m fd e s) = .threw (.system c) ∧ (¬ Passes .debug s.logs.level → c = s.errno) := by
  obtain ⟨s1, s2, a1, a2, b1, b2, _, b3, p, hd, hp⟩ := disc_start A hf m fd e s a ha h1 h2
  rw [if_pos hs] at hp
  refine ⟨s2.errno, ?_, b3⟩
  rw [hd, (disc_scope A hf fd a s.logs.level p s1 (by rw [hp]; rintro s' (⟨x, hx⟩ | ⟨x, hx⟩) <;> cases hx; exact ⟨b1, b2⟩)).1, hp]
  rfl

/-! ## The messages of a discovery -/

/-- C124. The messages of sockets are hidden at the default level; those about what is sent and received are shown at level TRACE only. -/
theorem C124_levels (g : LogLevel) :
    (∀ fd, (Passes (LogLine.udpOpened fd).level g ↔ g = .debug ∨ g = .trace) ∧ (Passes (LogLine.udpClosed fd).level g ↔ g = .debug ∨ g = .trace) ∧
      (Passes (LogLine.tcpOpened fd).level g ↔ g = .debug ∨ g = .trace) ∧ (Passes (LogLine.tcpClosed fd).level g ↔ g = .debug ∨ g = .trace)) ∧
    (∀ ep, Passes (LogLine.tcpConnecting ep).level g ↔ g = .debug ∨ g = .trace) ∧
    (∀ (size : Nat) (len : Int) fd, (Passes (LogLine.udpSent size fd).level g ↔ g = .trace) ∧
      (Passes (LogLine.udpReceived len fd).level g ↔ g = .trace) ∧
      (Passes (LogLine.tcpSent size fd).level g ↔ g = .trace) ∧ (Passes (LogLine.tcpReceived size fd).level g ↔ g = .trace)) := by
  have h1 : Passes .debug g ↔ g = .debug ∨ g = .trace := by cases g <;> decide
  have h2 : Passes .trace g ↔ g = .trace := by cases g <;> decide
  exact ⟨fun _ => ⟨h1, h1, h1, h1⟩, fun _ => h1, fun _ _ _ => ⟨h2, h2, h2, h2⟩⟩

theorem loop_notes (A : AppenderEnv) (hf : ∀ c, A.fails c = false) (m : Mem) (fd : Nat) (a : Appender) (g : LogLevel) (code : Int)
    (ans : List (List Byte × List (Nat × List Byte))) (h : ∀ x ∈ ans, Announces x.1 x.2)
    (devs : List IdentityItem) (s : LogErr) (ha : s.logs.appender = some a) (hg : s.logs.level = g) :
    notesAfter (LogErr.loop A m fd devs (ans.map (fun x => Recv.dgram x.1) ++ [.err code]) s) =
      s.logs.calls ++ notesOf a g (ans.map (fun x => LogLine.udpReceived (min 504 x.1.length : Nat) fd) ++ [.udpReceived (-1) fd]) := by
  induction ans generalizing devs s with
  | nil =>
    obtain ⟨s1, h1, _, _, h4⟩ := (C124_receive A hf fd 504 s a ha).1 code
    simp only [List.map_nil, List.nil_append]
    rw [loopL_cons, h1]
    simp only
    rw [← hg]
    split <;> exact h4
  | cons x l ih =>
    obtain ⟨ds, h1, _⟩ := answer_ok m x.1 x.2 (h x List.mem_cons_self)
    obtain ⟨s1, data, h2, h3, h4, h5, h6⟩ := (C124_receive A hf fd 504 s a ha).2 x.1
    have hd : Discovery.answer m data = .ok ds := by
      rw [← h1]
      congr 1
      rw [udpReceive_disc] at h3
      injection h3 with h3
      exact h3.symm
    simp only [List.map_cons, List.cons_append]
    rw [loopL_cons, h2]
    simp only [hd]
    rw [ih (fun y hy => h y (List.mem_cons_of_mem _ hy)) (devs ++ ds) s1 h5 (h4.trans hg), h6, hg, List.append_assoc, ← notes_append]
    rfl

/-- C124. The messages of a discovery that gets answers and then an error: the opened socket, the request of 24 bytes, the size of each answer in order, the failing call, and the closed socket. -/
theorem C124_notes (A : AppenderEnv) (hf : ∀ c, A.fails c = false) (m : Mem) (fd : Nat) (s : LogErr) (a : Appender)
    (ha : s.logs.appender = some a) (code : Int)
    (ans : List (List Byte × List (Nat × List Byte))) (h : ∀ x ∈ ans, Announces x.1 x.2) :
    notesAfter (LogErr.discover A m fd { sendCount := 24, recvs := ans.map (fun x => Recv.dgram x.1) ++ [.err code] } s) =
      s.logs.calls ++ notesOf a s.logs.level ([.udpOpened fd, .udpSent 24 fd] ++
        ans.map (fun x => LogLine.udpReceived (min 504 x.1.length : Nat) fd) ++ [.udpReceived (-1) fd, .udpClosed fd]) := by
  obtain ⟨s1, s2, a1, a2, b1, b2, b4, b3, p, hd, hp⟩ := disc_start A hf m fd { sendCount := 24, recvs := ans.map (fun x => Recv.dgram x.1) ++ [.err code] } s a ha rfl rfl
  rw [if_neg (show ¬ udpSendThrows EncapsPacketFactory.listIdentity.pack 24 = true by decide)] at hp
  rw [hd]
  obtain ⟨h3, h4⟩ := disc_loop A hf m fd a s.logs.level (ans.map (fun x => Recv.dgram x.1) ++ [.err code]) [] s2 b1 b2
  have hsc := (disc_scope A hf fd a s.logs.level p s1 (fun s' hs' => by
    rw [hp] at hs'; exact ⟨(h4 s' hs').1, (h4 s' hs').2.1⟩)).2
  rw [hp] at hsc
  obtain ⟨more, g1, _⟩ := loop_good m ans h []
  have e : (ans.map (fun x => Recv.dgram x.1) ++ [Recv.err code]).map (recvTold A a s.logs.level fd) =
      ans.map (fun x => Recv.dgram x.1) ++ [.err (codeTold A a s.logs.level fd code)] := by
    rw [List.map_append, List.map_map]; rfl
  rw [e, g1] at h3
  have hend : discEnd (LogErr.loop A m fd [] (ans.map (fun x => Recv.dgram x.1) ++ [.err code]) s2) =
      if codeTold A a s.logs.level fd code ≠ 11 then .threw (.system (codeTold A a s.logs.level fd code)) else .done ([] ++ more) := h3
  rw [hend] at hsc
  rw [hsc (by split <;> simp) (by split <;> simp), if_neg (by split <;> simp), loop_notes A hf m fd a s.logs.level code ans h [] s2 b1 b2, b4]
  simp only [List.append_assoc, ← notes_append]
  rfl

/-! ## TCP sockets -/

/-- How the loop of a TCP receive call ends. -/
theorem tcp_loop (A : AppenderEnv) (hf : ∀ c, A.fails c = false) (fd : Nat) (a : Appender) (g : LogLevel) (net : List NetEv) (k : Nat) (got : List Byte)
    (s : LogErr) (ha : s.logs.appender = some a) (hg : s.logs.level = g) :
    ∃ (s' : LogErr) (lens : List Nat), LogErr.tcpLoop A fd k got net s = .ok s' (Tcp.recvLoop k got net) ∧ s'.logs.appender = some a ∧ s'.logs.level = g ∧
      s'.logs.calls = s.logs.calls ++ notesOf a g (lens.map (LogLine.tcpReceived · fd)) ∧ lens.sum = min k (stream net).1.length := by
  induction net generalizing k got s with
  | nil =>
    by_cases hk : k = 0
    · exact ⟨s, [], by simp [LogErr.tcpLoop, Tcp.recvLoop, hk], ha, hg, by simp [notesOf], by simp [stream]⟩
    · refine ⟨{ s with errno := eagain }, [], ?_, ha, hg, by simp [notesOf], by simp [stream]⟩
      simp only [LogErr.tcpLoop, Tcp.recvLoop, if_neg hk]
      rfl
  | cons ev net ih =>
    by_cases hk : k = 0
    · exact ⟨s, [], by simp [LogErr.tcpLoop, Tcp.recvLoop, hk], ha, hg, by simp [notesOf], by simp [hk]⟩
    cases ev with
    | eintr =>
      obtain ⟨s', lens, h1, h2⟩ := ih k got { s with errno := 4 } ha hg
      refine ⟨s', lens, ?_, h2⟩
      simp only [LogErr.tcpLoop, Tcp.recvLoop, if_neg hk]
      exact h1
    | err code =>
      refine ⟨{ s with errno := code }, [], ?_, ha, hg, by simp [notesOf], by simp [stream]⟩
      simp only [LogErr.tcpLoop, Tcp.recvLoop, if_neg hk]
      rfl
    | eof =>
      obtain ⟨s1, l1, _, l2, l3, l4⟩ := line_state A hf (.tcpReceived 0 fd) (by simp [LogLine.level]) s a ha
      refine ⟨s1, [0], ?_, l3, l2.trans hg, by rw [l4, hg]; rfl, by simp [stream]⟩
      simp only [LogErr.tcpLoop, Tcp.recvLoop, if_neg hk]
      exact Prog.bind_ok l1
    | seg b bs =>
      by_cases hl : k < (b :: bs).length
      · obtain ⟨s1, l1, _, l2, l3, l4⟩ := line_state A hf (.tcpReceived k fd) (by simp [LogLine.level]) s a ha
        refine ⟨s1, [k], ?_, l3, l2.trans hg, by rw [l4, hg]; rfl, ?_⟩
        · simp only [LogErr.tcpLoop, Tcp.recvLoop, if_neg hk, if_pos hl]
          refine (Prog.bind_ok l1).trans ?_
          cases (b :: bs).drop k <;> rfl
        · simp only [stream, List.length_cons, List.length_append, List.sum_cons, List.sum_nil] at hl ⊢
          omega
      · obtain ⟨s1, l1, _, l2, l3, l4⟩ := line_state A hf (.tcpReceived (b :: bs).length fd) (by simp [LogLine.level]) s a ha
        obtain ⟨s', lens, h1, h2, h3, h4, h5⟩ := ih (k - (b :: bs).length) (got ++ (b :: bs)) s1 l3 (l2.trans hg)
        refine ⟨s', (b :: bs).length :: lens, ?_, h2, h3, ?_, ?_⟩
        · simp only [LogErr.tcpLoop, Tcp.recvLoop, if_neg hk, if_neg hl]
          exact (Prog.bind_ok l1).trans h1
        · rw [h4, l4, hg, List.append_assoc, ← notes_append]; rfl
        · simp only [stream, List.length_cons, List.length_append, List.sum_cons] at hl h5 ⊢
          omega

/-- C124. A receive call of a TCP socket does not depend on the log, whatever the appender does to `errno`.  Its messages tell sizes whose sum is the number of bytes
taken; a warning follows exactly if the peer has closed the connection before all bytes were there, and tells how many there were. -/
theorem C124_tcp (A : AppenderEnv) (hf : ∀ c, A.fails c = false) (ep : EndPoint) (fd size : Nat) (t : Tcp) (s : LogErr) (a : Appender)
    (ha : s.logs.appender = some a) :
    ∃ (s' : LogErr) (r : Outcome (List Byte)) (net' : List NetEv) (lens : List Nat), LogErr.tcpReceive A ep fd size t.net s = .ok s' (r, net') ∧
      Tcp.receive size t = (match r with
        | .ok data => .ok { t with net := net' } data
        | .throw x => .throw { t with net := net' } x
        | .ub => .ub) ∧
      s'.logs.calls = s.logs.calls ++ notesOf a s.logs.level (lens.map (LogLine.tcpReceived · fd) ++
        if (stream t.net).1.length < size ∧ (stream t.net).2 = .closed then [.tcpShort ep (stream t.net).1.length size] else []) ∧
      lens.sum = min size (stream t.net).1.length := by
  obtain ⟨s1, lens, h1, h2, h3, h4, h5⟩ := tcp_loop A hf fd a s.logs.level t.net size [] s ha rfl
  unfold LogErr.tcpReceive
  unfold Tcp.receive
  cases hr : Tcp.recvLoop size [] t.net with
  | failed code net =>
    rw [hr] at h1
    refine ⟨s1, _, net, lens, Prog.bind_ok h1, rfl, ?_, h5⟩
    rw [if_neg, List.append_nil]
    · exact h4
    · rintro ⟨hlt, hcl⟩
      have := recvLoop_short t.net size [] hlt
      rw [hcl] at this
      obtain ⟨net', h, _⟩ := this
      rw [hr] at h
      cases h
  | done got net =>
    rw [hr] at h1
    have hgot : got = (stream t.net).1.take size ∧ ((stream t.net).1.length < size → (stream t.net).2 = .closed) := by
      by_cases hn : size ≤ (stream t.net).1.length
      · obtain ⟨net', h, _⟩ := recvLoop_enough t.net size [] hn
        rw [hr] at h
        injection h with h _
        exact ⟨h, fun h => by omega⟩
      · have := recvLoop_short t.net size [] (by omega)
        cases hc : (stream t.net).2 with
        | closed =>
          rw [hc] at this
          obtain ⟨net', h, _⟩ := this
          rw [hr] at h
          injection h with h _
          exact ⟨by rw [List.take_of_length_le (by omega)]; exact h, fun _ => rfl⟩
        | quiet => rw [hc, hr] at this; cases this
        | failed c => rw [hc] at this; obtain ⟨net', h⟩ := this; rw [hr] at h; cases h
    have hlen : got.length = min size (stream t.net).1.length := by rw [hgot.1, List.length_take]
    by_cases hs : (stream t.net).1.length < size
    · obtain ⟨s2, l1, _, l2, l3, l4⟩ := line_state A hf (.tcpShort ep got.length size) (by simp [LogLine.level]) s1 a h2
      refine ⟨s2, .ok (got ++ List.replicate (size - got.length) 0#8), net, lens, ?_, rfl, ?_, h5⟩
      · refine (Prog.bind_ok h1).trans ?_
        simp only
        rw [if_pos (by omega)]
        exact Prog.bind_ok l1
      · rw [if_pos ⟨hs, hgot.2 hs⟩, l4, h3, h4, notes_append, List.append_assoc, hlen, Nat.min_eq_right (by omega)]
    · refine ⟨s1, .ok (got ++ List.replicate (size - got.length) 0#8), net, lens, ?_, rfl, ?_, h5⟩
      · refine (Prog.bind_ok h1).trans ?_
        simp only
        rw [if_neg (by omega)]
        rfl
      · rw [if_neg (fun h => hs h.1), List.append_nil, h4]

/-! ## The hypotheses are met -/

/-- An appender that leaves the code of a failing `write`. -/
def diskFull : AppenderEnv := ⟨fun _ => false, fun _ _ => 28⟩

/-- A timeout is told as that error, at level TRACE. -/
example : (match LogErr.udpReceive diskFull 3 504 (.err 11) ⟨{ Logs.init with level := .trace, appender := some (.user 1) }, 0⟩ with
    | .throw _ x => some x
    | _ => none) = some (.system 28) := by decide +kernel

example : discEnd (LogErr.discover diskFull Mem.strict 3 { sendCount := 24, recvs := [.err 11] } ⟨Logs.init, 0⟩) = .done [] := by decide +kernel

/-- Two of four bytes, then the end of the stream: the sizes and the warning. -/
example : (match LogErr.tcpReceive diskFull ⟨"10.0.0.1", 44818, ⟨0, 0, 0⟩⟩ 5 4 [.seg 1 [], .eintr, .seg 2 [], .eof]
      ⟨{ Logs.init with level := .trace, appender := some (.user 1) }, 0⟩ with
    | .ok s (r, _) => some (r, s.logs.calls.map (·.text))
    | _ => none) = some (.ok [1, 2, 0, 0], ["Received 1 bytes from TCP socket #5.", "Received 1 bytes from TCP socket #5.",
      "Received 0 bytes from TCP socket #5.", "Received from 10.0.0.1:44818 2 of 4"]) := by decide +kernel


end Verif.Props
