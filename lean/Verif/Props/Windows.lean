import Verif.Spec.Windows

/-!
# C128: the Windows build
-/

namespace Verif.Props

open Verif.Spec Verif.Win

/-! ## Sockets -/

/-- C128. A socket is used under its own number if and only if the number is less than 2^31. -/
theorem C128_handle (h : BitVec 64) : 0 ≤ sockedFd h ∧ handle (sockedFd h) = h ↔ h.toNat < 2 ^ 31 := by
  have hlt := h.isLt
  have h1 : sockedFd h = if 2 * (h.toNat % 2 ^ 32) < 2 ^ 32 then ((h.toNat % 2 ^ 32 : Nat) : Int) else ((h.toNat % 2 ^ 32 : Nat) : Int) - 2 ^ 32 := by
    unfold sockedFd
    rw [BitVec.toInt_eq_toNat_cond, BitVec.toNat_setWidth]
    rfl
  have h2 : handle (sockedFd h) = h ↔ (sockedFd h % 2 ^ 64).toNat = h.toNat := by
    rw [← BitVec.toNat_inj]
    unfold handle
    rw [BitVec.toNat_ofInt]
    rfl
  rw [h2, h1]
  split <;> omega

theorem wfd_of_small (h : BitVec 64) (hh : h.toNat < 2 ^ 31) : ¬ sockedFd h < 0 ∧ handle (sockedFd h) = h := by
  obtain ⟨h1, h2⟩ := (C128_handle h).mpr hh
  exact ⟨by omega, h2⟩

theorem plainWait_eq (ms : Int) : makePortableInterval ms = plainWait ms := by
  unfold makePortableInterval plainWait
  rcases Int.lt_or_le 0 ms with h | h
  · have e1 : ms.tdiv 1000 = ms / 1000 := Int.tdiv_eq_ediv_of_nonneg (by omega)
    have e2 : ms.tmod 1000 = ms % 1000 := Int.tmod_eq_emod_of_nonneg (by omega)
    rw [e1, e2, if_neg (by omega), Prod.mk.injEq]
    omega
  · have e1 : ms.tdiv 1000 ≤ 0 := by
      rw [show ms = -(-ms) by omega, Int.neg_tdiv, Int.tdiv_eq_ediv_of_nonneg (by omega)]; omega
    have e2 : ms.tmod 1000 ≤ 0 := by
      rw [show ms = -(-ms) by omega, Int.neg_tmod, Int.tmod_eq_emod_of_nonneg (by omega)]; omega
    rw [if_pos h, Prod.mk.injEq]
    omega

theorem winWait_eq (ms : Int) : interval ms = winWait ms := by
  have h := congrArg Prod.snd (plainWait_eq ms)
  unfold makePortableInterval at h
  unfold interval winWait
  rw [BitVec.toInt_ofInt, ← h, Prod.mk.injEq]
  constructor
  · split <;> omega
  · rfl

/-- C128. A time to wait of less than 2^31 s is the same as on unix: none if it is not positive, and otherwise that time. -/
theorem C128_interval (ms : Int) (h1 : -2147483648000 ≤ ms) (h2 : ms < 2147483648000) :
    interval ms = plainWait ms ∧ makePortableInterval ms = plainWait ms := by
  refine ⟨?_, plainWait_eq ms⟩
  rw [winWait_eq]
  unfold winWait
  have h := congrArg Prod.fst (plainWait_eq ms)
  unfold makePortableInterval at h
  dsimp only at h
  have hb : Int.bmod (ms.tdiv 1000) (2 ^ 32) = ms.tdiv 1000 := by
    apply Int.bmod_eq_of_le
    · rcases Int.lt_or_le 0 ms with h | h
      · rw [Int.tdiv_eq_ediv_of_nonneg (by omega)]; omega
      · rw [show ms = -(-ms) by omega, Int.neg_tdiv, Int.tdiv_eq_ediv_of_nonneg (by omega)]; omega
    · rcases Int.lt_or_le 0 ms with h | h
      · rw [Int.tdiv_eq_ediv_of_nonneg (by omega)]; omega
      · rw [show ms = -(-ms) by omega, Int.neg_tdiv, Int.tdiv_eq_ediv_of_nonneg (by omega)]; omega
  rw [hb]
  refine Prod.ext ?_ rfl
  dsimp only
  rw [← h]
  split <;> omega

example : ∃ ms : Int, -2147483648000 ≤ ms ∧ ms < 2147483648000 ∧ interval ms = (1, 500000) := ⟨1500, by decide, by decide, by decide +kernel⟩

/-- C128 violated: a time to wait of 2^31 s up to 2^32 s is less than a second on Windows. -/
theorem C128_interval_violated (ms : Int) (h1 : 2147483648000 ≤ ms) (h2 : ms < 4294967296000) :
    interval ms = (0, ms % 1000 * 1000) ∧ makePortableInterval ms = (ms / 1000, ms % 1000 * 1000) := by
  have hp : plainWait ms = (ms / 1000, ms % 1000 * 1000) := if_neg (by omega)
  refine ⟨?_, (plainWait_eq ms).trans hp⟩
  rw [winWait_eq]
  unfold winWait
  rw [hp]
  have e1 : ms.tdiv 1000 = ms / 1000 := Int.tdiv_eq_ediv_of_nonneg (by omega)
  have : Int.bmod (ms.tdiv 1000) (2 ^ 32) < 0 := by
    rw [e1, Int.bmod_def]
    have : (ms / 1000) % ((2 ^ 32 : Nat) : Int) = ms / 1000 := Int.emod_eq_of_lt (by omega) (by omega)
    rw [this]
    split <;> omega
  rw [if_pos this]

theorem winStart_run (env : WEnv) (fd timeoutMs : Int) (s : WOs) (hfd : handle fd = env.socket) : ∃ s', s'.opened = s.opened ∧
    s'.trace = s.trace ++ .connect env.socket ::
      (if env.connect = some 10036 then
        .select env.socket (winWait timeoutMs).1 (winWait timeoutMs).2 ::
          (if env.selects.head? = some .ready then [.getsockopt env.socket] else [])
      else []) ∧
    Win.startConnect env fd timeoutMs s = match winConnectError env with
      | none => .ok s' ()
      | some e => .throw s' (.system e) := by
  rcases env with ⟨a, b, c, d, f⟩
  dsimp only at hfd
  let s1 : WOs := { s with trace := s.trace ++ [.connect a] }
  let s2 : WOs := { s with
    trace := s.trace ++ [.connect a] ++ [.select a (winWait timeoutMs).1 (winWait timeoutMs).2] }
  let s3 : WOs := { s with
    trace := s.trace ++ [.connect a] ++ [.select a (winWait timeoutMs).1 (winWait timeoutMs).2] ++ [.getsockopt a] }
  unfold Win.startConnect winConnectError
  dsimp only
  cases c with
  | none => exact ⟨s1, rfl, rfl, by simp [s1, Prog.bind_run, note, hfd]⟩
  | some e =>
    by_cases he : e = 10036
    · subst he
      rcases d with _ | ⟨r, d⟩
      · refine ⟨s2, rfl, by simp [s2], ?_⟩
        simp [s2, Prog.bind_run, note, Win.waitConnected, wsaEinprogress, wsaEtimedout, winWait_eq, hfd]
      · cases r with
        | timeout =>
          refine ⟨s2, rfl, by simp [s2], ?_⟩
          simp [s2, Prog.bind_run, note, Win.waitConnected, wsaEinprogress, wsaEtimedout, winWait_eq, hfd]
        | error x =>
          refine ⟨s2, rfl, by simp [s2], ?_⟩
          by_cases hx : x = 10004 <;>
            simp [s2, Prog.bind_run, note, Win.waitConnected, wsaEinprogress, wsaEintr, wsaEtimedout, winWait_eq, hfd, hx]
        | ready =>
          refine ⟨s3, rfl, by simp [s3], ?_⟩
          cases f with
          | error x => simp [s3, Prog.bind_run, note, Win.waitConnected, wsaEinprogress, winWait_eq, hfd]
          | ok x => by_cases hx : x = 0 <;> simp [s3, Prog.bind_run, note, Win.waitConnected, wsaEinprogress, winWait_eq, hfd, hx]
    · refine ⟨s1, rfl, by simp [s1, he], ?_⟩
      simp [s1, Prog.bind_run, note, wsaEinprogress, he, hfd]

theorem filter_fresh (l : List (BitVec 64)) (h : BitVec 64) (hn : h ∉ l) : l.filter (· ≠ h) = l := by
  rw [List.filter_eq_self]
  intro a ha
  exact decide_eq_true fun e => hn (e ▸ ha)

/-- C128. Connecting: with a socket of which the number is less than 2^31 it succeeds if and only if establishing the connection does, and
then exactly that socket has been opened; otherwise the error is thrown, and no socket is left open. The calls are those of `winCalls`. -/
theorem C128_connect (env : WEnv) (timeoutMs : Int) (s : WOs) (hh : env.socket.toNat < 2 ^ 31) (hn : env.socket ∉ s.opened) :
    ∃ s', s'.trace = s.trace ++ winCalls env timeoutMs ∧ (match winConnectError env with
      | none => Win.tcpConnect env timeoutMs s = .ok s' (sockedFd env.socket) ∧ s'.opened = env.socket :: s.opened
      | some e => Win.tcpConnect env timeoutMs s = .throw s' (.system e) ∧ s'.opened = s.opened) := by
  obtain ⟨hf, hb⟩ := wfd_of_small _ hh
  have ha : env.socket ≠ BitVec.allOnes 64 := by intro e; rw [e] at hh; revert hh; decide
  obtain ⟨s', h1, ht, h2⟩ := winStart_run env (sockedFd env.socket) timeoutMs
    { s with trace := s.trace ++ [.socket], opened := env.socket :: s.opened } hb
  have h3 : Win.tcpConnect env timeoutMs s = (do
      Win.closeOnThrow (sockedFd env.socket) (Win.startConnect env (sockedFd env.socket) timeoutMs)
      pure (sockedFd env.socket) : Prog WOs Int) { s with trace := s.trace ++ [.socket], opened := env.socket :: s.opened } := by
    unfold Win.tcpConnect
    simp only [Prog.bind_run, note, Prog.modify_run, if_pos ha, if_neg hf]
  rw [h3, Prog.bind_run]
  unfold Win.closeOnThrow
  rw [h2]
  unfold winCalls
  cases winConnectError env with
  | none => exact ⟨s', by rw [ht]; simp, rfl, h1⟩
  | some e =>
    refine ⟨{ s' with
      trace := s'.trace ++ [.closesocket env.socket]
      opened := s.opened }, by dsimp only; rw [ht]; simp, ?_, rfl⟩
    dsimp only
    simp only [Prog.bind_run, Win.close, note, Prog.modify_run, Prog.throw_run, hb, h1]
    rw [List.filter_cons_of_neg (by simp), filter_fresh _ _ hn]

example : ∃ (env : WEnv) (s : WOs), env.socket.toNat < 2 ^ 31 ∧ env.socket ∉ s.opened ∧ winConnectError env = none :=
  ⟨⟨612#64, 0, none, [], .ok 0⟩, ⟨[88#64], []⟩, by decide, by decide, rfl⟩

example : ∃ (env : WEnv) (s : WOs), env.socket.toNat < 2 ^ 31 ∧ env.socket ∉ s.opened ∧ winConnectError env = some 10061 :=
  ⟨⟨612#64, 0, some 10061, [], .ok 0⟩, ⟨[88#64], []⟩, by decide, by decide, rfl⟩

/-- C128. The destructor of the object shuts that socket down and closes it, and no other. -/
theorem C128_destroy (h : BitVec 64) (hh : h.toNat < 2 ^ 31) (s : WOs) :
    ∃ s', Win.tcpDestroy (sockedFd h) s = .ok s' () ∧ s'.trace = s.trace ++ [.shutdown h, .closesocket h] ∧
      ∀ x, x ∈ s'.opened ↔ x ∈ s.opened ∧ x ≠ h := by
  obtain ⟨_, hb⟩ := wfd_of_small _ hh
  refine ⟨{ s with
    trace := s.trace ++ [.shutdown h] ++ [.closesocket h]
    opened := s.opened.filter (· ≠ h) }, ?_, by simp, fun x => ?_⟩
  · simp [Win.tcpDestroy, Win.shutdown, Win.close, Prog.bind_run, note, hb]
  · rw [List.mem_filter]; simp

/-- C128. If Winsock has not been started, or `socket` fails for another reason, the constructor throws the error and calls nothing else. -/
theorem C128_no_socket (env : WEnv) (timeoutMs : Int) (s : WOs) (h : env.socket = BitVec.allOnes 64) :
    Win.tcpConnect env timeoutMs s = .throw { s with trace := s.trace ++ [.socket] } (.system env.socketErr) := by
  unfold Win.tcpConnect
  have hf : sockedFd env.socket < 0 := by rw [h]; decide
  rw [if_pos hf]
  simp [Prog.bind_run, note, h]

/-- C128. Opening a bound UDP socket with a number less than 2^31: it succeeds if and only if both `setsockopt` and `bind` do, and then
exactly that socket has been opened; otherwise the error is thrown, and no socket is left open. The calls are those of `winBindCalls`. -/
theorem C128_bound (env : BEnv) (s : WOs) (hh : env.socket.toNat < 2 ^ 31) (hn : env.socket ∉ s.opened) :
    ∃ s', s'.trace = s.trace ++ winBindCalls env ∧ (match winBindError env with
      | none => Win.udpBound env s = .ok s' (sockedFd env.socket) ∧ s'.opened = env.socket :: s.opened
      | some e => Win.udpBound env s = .throw s' (.system e) ∧ s'.opened = s.opened) := by
  obtain ⟨hf, hb⟩ := wfd_of_small _ hh
  have ha : env.socket ≠ BitVec.allOnes 64 := by intro e; rw [e] at hh; revert hh; decide
  rcases env with ⟨a, b, c, d⟩
  dsimp only at hf hb ha hn
  have hfl : (a :: s.opened).filter (· ≠ a) = s.opened := by
    rw [List.filter_cons_of_neg (by simp), filter_fresh _ _ hn]
  refine ⟨{ s with
    trace := s.trace ++ winBindCalls ⟨a, b, c, d⟩
    opened := if winBindError ⟨a, b, c, d⟩ = none then a :: s.opened else s.opened }, rfl, ?_⟩
  unfold Win.udpBound winBindCalls winBindError
  cases c with
  | some e =>
    simp only [Prog.bind_run, note, Prog.modify_run, if_pos ha, if_neg hf, Win.bindSocket, Win.shutdown, Win.close, Prog.throw_run, hb, hfl]
    simp
  | none =>
    cases d with
    | some e =>
      simp only [Prog.bind_run, note, Prog.modify_run, if_pos ha, if_neg hf, Win.bindSocket, Win.shutdown, Win.close, Prog.throw_run, hb, hfl]
      simp
    | none =>
      simp only [Prog.bind_run, note, Prog.modify_run, if_pos ha, if_neg hf, Win.bindSocket, hb]
      simp

example : ∃ (env : BEnv) (s : WOs), env.socket.toNat < 2 ^ 31 ∧ env.socket ∉ s.opened ∧ winBindError env = some 10048 :=
  ⟨⟨612#64, 0, none, some 10048⟩, ⟨[88#64], []⟩, by decide, by decide, rfl⟩

/-- C128 violated: a UDP socket with bit 31 set in its number is taken for a failure, and stays open. -/
theorem C128_bound_violated (env : BEnv) (s : WOs) (hb : env.socket.getLsbD 31 = true) (ha : env.socket ≠ BitVec.allOnes 64) :
    ∃ s', Win.udpBound env s = .throw s' (.system env.socketErr) ∧ s'.opened = env.socket :: s.opened := by
  have hf : sockedFd env.socket < 0 := by
    unfold sockedFd
    have h1 : (env.socket.setWidth 32).msb = true := by
      rw [BitVec.msb_eq_getLsbD_last, BitVec.getLsbD_setWidth, hb]; rfl
    rw [BitVec.msb_eq_decide, decide_eq_true_eq] at h1
    rw [BitVec.toInt_neg_iff]
    omega
  refine ⟨{ s with
    trace := s.trace ++ [.socket]
    opened := env.socket :: s.opened }, ?_, rfl⟩
  unfold Win.udpBound
  simp only [Prog.bind_run, note, Prog.modify_run, if_pos ha, if_pos hf]
  rfl

/-- C128 violated: the timeout of connecting. Unless Winsock reports that a blocking call is in progress, the constructor does the same
whatever the timeout is; it calls `connect` on a blocking socket, and waits as long as Winsock does. -/
theorem C128_timeout_violated (env : WEnv) (h : env.connect ≠ some 10036) (t t' : Int) : Win.tcpConnect env t = Win.tcpConnect env t' := by
  have : ∀ fd, Win.startConnect env fd t = Win.startConnect env fd t' := by
    intro fd
    unfold Win.startConnect
    cases hc : env.connect with
    | none => rfl
    | some e =>
      have he : e ≠ wsaEinprogress := fun e' => h (by rw [hc, e']; rfl)
      dsimp only
      rw [if_neg he, if_neg he]
  unfold Win.tcpConnect
  rw [this]

/-- C128 violated: sockets with great numbers. One with bit 31 set is taken for a failure, and stays open. -/
theorem C128_handle_violated (env : WEnv) (timeoutMs : Int) (s : WOs) (hb : env.socket.getLsbD 31 = true) (ha : env.socket ≠ BitVec.allOnes 64) :
    ∃ s', Win.tcpConnect env timeoutMs s = .throw s' (.system env.socketErr) ∧ s'.opened = env.socket :: s.opened := by
  have hf : sockedFd env.socket < 0 := by
    unfold sockedFd
    have h1 : (env.socket.setWidth 32).msb = true := by
      rw [BitVec.msb_eq_getLsbD_last, BitVec.getLsbD_setWidth, hb]; rfl
    rw [BitVec.msb_eq_decide, decide_eq_true_eq] at h1
    rw [BitVec.toInt_neg_iff]
    omega
  refine ⟨{ s with
    trace := s.trace ++ [.socket]
    opened := env.socket :: s.opened }, ?_, rfl⟩
  unfold Win.tcpConnect
  simp only [Prog.bind_run, note, Prog.modify_run, if_pos ha, if_pos hf]
  rfl

example : ∃ h : BitVec 64, h.getLsbD 31 = true ∧ h ≠ BitVec.allOnes 64 := ⟨0x80000004#64, by decide, by decide⟩

/-! ## The receive timeout -/

example : Win.rcvLimit (rcvTimeout 1000) = some 1000000 ∧ Win.rcvLimit (rcvTimeout (2 ^ 32)) = none := by decide

/-- C128. The receive timeout is that number of milliseconds modulo 2^32, and no limit if that is zero. -/
theorem C128_limit (ms : Int) : Win.rcvLimit (rcvTimeout ms) = if ms % 2 ^ 32 = 0 then none else some ((ms % 2 ^ 32).toNat * 1000) := by
  unfold Win.rcvLimit rcvTimeout
  have h1 : (BitVec.ofInt 32 ms).toNat = (ms % 2 ^ 32).toNat := by rw [BitVec.toNat_ofInt]; rfl
  have h2 : BitVec.ofInt 32 ms = 0 ↔ ms % 2 ^ 32 = 0 := by
    rw [← BitVec.toNat_inj, h1]
    show _ = 0 ↔ _
    omega
  by_cases h : ms % 2 ^ 32 = 0
  · rw [if_pos h, if_pos (h2.mpr h)]
  · rw [if_neg h, if_neg fun e => h (h2.mp e), h1]

/-- C128. It is the same as on unix if and only if it is not negative and less than 2^32 ms, or a negative multiple of 2^32 ms. -/
theorem C128_limit_same (ms : Int) : Win.rcvLimit (rcvTimeout ms) = Discovery.rcvLimit (makePortableInterval ms) ↔
    0 ≤ ms ∧ ms < 2 ^ 32 ∨ ms < 0 ∧ ms % 2 ^ 32 = 0 := by
  have hu : Discovery.rcvLimit (makePortableInterval ms) = if ms ≤ 0 then none else some (ms.toNat * 1000) := by
    unfold Discovery.rcvLimit makePortableInterval
    rcases Int.lt_or_le 0 ms with h | h
    · have e1 : ms.tdiv 1000 = ms / 1000 := Int.tdiv_eq_ediv_of_nonneg (by omega)
      have e2 : ms.tmod 1000 = ms % 1000 := Int.tmod_eq_emod_of_nonneg (by omega)
      rw [e1, e2, if_neg (show ¬ (max (ms / 1000) 0, max (ms % 1000 * 1000) 0) = ((0, 0) : Int × Int) by rw [Prod.mk.injEq]; omega),
        if_neg (show ¬ ms ≤ 0 by omega), Option.some.injEq]
      show (max (ms / 1000) 0).toNat * 1000000 + (max (ms % 1000 * 1000) 0).toNat = _
      omega
    · have e1 : ms.tdiv 1000 ≤ 0 := by
        rw [show ms = -(-ms) by omega, Int.neg_tdiv, Int.tdiv_eq_ediv_of_nonneg (by omega)]; omega
      have e2 : ms.tmod 1000 ≤ 0 := by
        rw [show ms = -(-ms) by omega, Int.neg_tmod, Int.tmod_eq_emod_of_nonneg (by omega)]; omega
      rw [if_pos (by rw [Prod.mk.injEq]; omega), if_pos h]
  rw [C128_limit, hu]
  by_cases h : ms % 2 ^ 32 = 0
  · rw [if_pos h]
    by_cases h' : ms ≤ 0
    · rw [if_pos h']; simp only [true_iff]; omega
    · rw [if_neg h']; simp only [reduceCtorEq, false_iff]; omega
  · rw [if_neg h]
    by_cases h' : ms ≤ 0
    · rw [if_pos h']; simp only [reduceCtorEq, false_iff]; omega
    · rw [if_neg h', Option.some.injEq]; omega

/-! ## Discovery -/

/-- A reader that throws no error of the system. -/
def NoSys (x : Rd α) : Prop := ∀ m b c, x m b ≠ .throw (.system c)

theorem NoSys.pure (a : α) : NoSys (Pure.pure a : Rd α) := fun _ _ _ h => by cases h

theorem NoSys.bind {x : Rd α} {f : α → Rd β} (hx : NoSys x) (hf : ∀ a, NoSys (f a)) : NoSys (x >>= f) := by
  intro m b c h
  have h' : Rd.bind x f m b = .throw (.system c) := h
  unfold Rd.bind at h'
  cases hxm : x m b with
  | ok p => rw [hxm] at h'; exact hf _ m _ c h'
  | throw e => rw [hxm] at h'; cases h'; exact hx m b c hxm
  | ub => rw [hxm] at h'; cases h'

theorem NoSys.u8 : NoSys Rd.u8 := by
  intro m b c h
  unfold Rd.u8 at h
  split at h
  · cases h
  · split at h <;> cases h

theorem NoSys.u16 : NoSys Rd.u16 := NoSys.u8.bind fun _ => NoSys.u8.bind fun _ => NoSys.pure _

theorem NoSys.u32 : NoSys Rd.u32 :=
  NoSys.u8.bind fun _ => NoSys.u8.bind fun _ => NoSys.u8.bind fun _ => NoSys.u8.bind fun _ => NoSys.pure _

theorem NoSys.bytes : ∀ n, NoSys (Rd.bytes n)
  | 0 => NoSys.pure _
  | n + 1 => NoSys.u8.bind fun _ => (NoSys.bytes n).bind fun _ => NoSys.pure _

theorem NoSys.get : NoSys Rd.get := fun _ _ _ h => by cases h

theorem NoSys.revision : NoSys Rd.revision := NoSys.u8.bind fun _ => NoSys.u8.bind fun _ => NoSys.pure _

theorem NoSys.shortString : NoSys Rd.shortString := NoSys.u8.bind fun _ => (NoSys.bytes _).bind fun _ => NoSys.pure _

theorem NoSys.sockAddr : NoSys Rd.sockAddr := by
  unfold Rd.sockAddr
  exact NoSys.u16.bind fun _ => NoSys.u16.bind fun _ => NoSys.u32.bind fun _ => (NoSys.bytes _).bind fun _ => NoSys.pure _

theorem NoSys.item (i : Nat) : NoSys (Discovery.item i) :=
  NoSys.u16.bind fun _ => (NoSys.sockAddr.bind fun _ => NoSys.pure _).bind fun _ =>
    (NoSys.u16.bind fun _ => NoSys.u16.bind fun _ => NoSys.u16.bind fun _ => NoSys.revision.bind fun _ => NoSys.u16.bind fun _ =>
      NoSys.u32.bind fun _ => NoSys.shortString.bind fun _ => NoSys.pure _).bind fun _ => NoSys.pure _

theorem NoSys.expandItem : NoSys CommonPacket.expandItem := by
  refine NoSys.u16.bind fun _ => NoSys.u16.bind fun _ => (NoSys.bytes _).bind fun _ => NoSys.get.bind fun b => ?_
  split
  · exact NoSys.pure _
  · exact fun m b' c h => by cases h

theorem NoSys.expandItems : ∀ n, NoSys (CommonPacket.expandItems n)
  | 0 => NoSys.pure _
  | n + 1 => by
    refine NoSys.get.bind fun b => ?_
    split
    · exact NoSys.pure _
    · exact NoSys.expandItem.bind fun _ => (NoSys.expandItems n).bind fun _ => NoSys.pure _

theorem items_no_system (m : Mem) : ∀ (its : List CommonPacketItem) (i : Nat) (c : Int), Discovery.items m i its ≠ .throw (.system c) := by
  intro its
  induction its with
  | nil => intro i c h; cases h
  | cons it rest ih =>
    intro i c h
    unfold Discovery.items at h
    cases h1 : (Discovery.item i).from m it.data with
    | ub => rw [h1] at h; cases h
    | throw e =>
      rw [h1] at h
      cases h
      unfold Rd.from at h1
      cases h2 : Discovery.item i m (Buffer.ofData it.data) with
      | ok p => rw [h2] at h1; cases h1
      | ub => rw [h2] at h1; cases h1
      | throw e => rw [h2] at h1; cases h1; exact NoSys.item i _ _ _ h2
    | ok d =>
      rw [h1] at h
      dsimp only at h
      cases h2 : Discovery.items m (i + 1) rest with
      | ub => rw [h2] at h; cases h
      | throw e => rw [h2] at h; cases h; exact ih _ _ h2
      | ok ds => rw [h2] at h; cases h

theorem answer_no_system (m : Mem) (data : List Byte) (c : Int) : Discovery.answer m data ≠ .throw (.system c) := by
  intro h
  unfold Discovery.answer CommonPacket.expand at h
  cases h1 : CommonPacket.expandRd m (Buffer.ofData (data.drop EncapsPacket.headerSize)) with
  | ok p => rw [h1] at h; exact items_no_system m _ _ _ h
  | ub => rw [h1] at h; cases h
  | throw e =>
    rw [h1] at h
    cases h
    exact (NoSys.u16.bind fun _ => NoSys.expandItems _) _ _ _ h1

theorem winLoop_eq (m : Mem) (rs : List Recv) : ∀ ds, Win.loop m ds rs = otherEnd (Discovery.loop m ds (rs.map fun r => otherRecv (recvfrom 504 r))) := by
  induction rs with
  | nil => intro ds; rfl
  | cons r rs ih =>
    intro ds
    rw [List.map_cons]
    unfold Win.loop Discovery.loop
    cases hr : recvfrom 504 r with
    | err code =>
      show (if code ≠ 10060 then Discovery.DiscRes.threw (.system code) else .done ds) =
        otherEnd (if otherCode code ≠ 11 then .threw (.system (otherCode code)) else .done ds)
      unfold otherCode
      by_cases h1 : code = 10060
      · subst h1; rfl
      · by_cases h2 : code = 11
        · subst h2; rfl
        · rw [if_pos h1, if_neg h1, if_neg h2, if_pos h2]
          show _ = Discovery.DiscRes.threw (.system (otherCode code))
          unfold otherCode
          rw [if_neg h1, if_neg h2]
    | dgram d =>
      show (match Discovery.answer m (d.take 504 ++ List.replicate (504 - (d.take 504).length) 0#8) with
        | .ub => Discovery.DiscRes.ub
        | .throw (.system code) => if code ≠ 10060 then .threw (.system code) else .done ds
        | .throw e => .threw e
        | .ok ds' => Win.loop m (ds ++ ds') rs) =
        otherEnd (match Discovery.answer m (d.take 504 ++ List.replicate (504 - (d.take 504).length) 0#8) with
        | .ub => .ub
        | .throw (.system code) => if code ≠ 11 then .threw (.system code) else .done ds
        | .throw e => .threw e
        | .ok ds' => Discovery.loop m (ds ++ ds') (rs.map fun r => otherRecv (recvfrom 504 r)))
      cases ha : Discovery.answer m (d.take 504 ++ List.replicate (504 - (d.take 504).length) 0#8) with
      | ub => rfl
      | ok ds' => exact ih _
      | throw e =>
        cases e with
        | system c => exact absurd ha (answer_no_system m _ c)
        | _ => rfl

/-- C128. Discovery does what it does on unix, with the code of the end of waiting exchanged, if datagrams that do not fit are taken for errors. -/
theorem C128_discover (m : Mem) (e : Discovery.Env) :
    Win.discover m e =
      ((Discovery.discover m { e with
          sockErr := e.sockErr.map otherCode
          broadcastErr := e.broadcastErr.map otherCode
          recvs := e.recvs.map fun r => otherRecv (recvfrom 504 r) }).1,
        otherEnd (Discovery.discover m { e with
          sockErr := e.sockErr.map otherCode
          broadcastErr := e.broadcastErr.map otherCode
          recvs := e.recvs.map fun r => otherRecv (recvfrom 504 r) }).2) := by
  have hinv : ∀ c, otherCode (otherCode c) = c := by
    intro c
    unfold otherCode
    by_cases h1 : c = 10060
    · subst h1; rfl
    · by_cases h2 : c = 11
      · subst h2; rfl
      · rw [if_neg h1, if_neg h2, if_neg h1, if_neg h2]
  rcases e with ⟨a, b, n, rs⟩
  unfold Win.discover Discovery.discover
  cases a with
  | some c => show (none, _) = (none, Discovery.DiscRes.threw (.system (otherCode (otherCode c)))); rw [hinv]
  | none =>
    cases b with
    | some c => show (none, _) = (none, Discovery.DiscRes.threw (.system (otherCode (otherCode c)))); rw [hinv]
    | none =>
      dsimp only [Option.map]
      cases udpSendThrows EncapsPacketFactory.listIdentity.pack n with
      | true => rfl
      | false =>
        show (some _, Win.loop m [] rs) = (some _, otherEnd (Discovery.loop m [] _))
        rw [winLoop_eq]

theorem recvfrom_fit (size : Nat) (r : Recv) (h : ∀ d, r = .dgram d → d.length ≤ size) : recvfrom size r = r := by
  cases r with
  | err c => rfl
  | dgram d => exact if_pos (h d rfl)

/-- Errors are only the end of waiting. -/
def OnlyEnd (rs : List Recv) : Prop := ∀ c, Recv.err c ∈ rs → c = 11

theorem loop_only (m : Mem) (rs : List Recv) : ∀ ds, OnlyEnd rs → otherEnd (Discovery.loop m ds rs) = Discovery.loop m ds rs := by
  induction rs with
  | nil => intro ds _; rfl
  | cons r rs ih =>
    intro ds h
    unfold Discovery.loop
    cases r with
    | err c =>
      have hc := h c List.mem_cons_self
      subst hc
      rfl
    | dgram d =>
      show otherEnd (match Discovery.answer m (d.take 504 ++ List.replicate (504 - (d.take 504).length) 0#8) with
        | .ub => .ub
        | .throw (.system code) => if code ≠ 11 then .threw (.system code) else .done ds
        | .throw e => .threw e
        | .ok ds' => Discovery.loop m (ds ++ ds') rs) =
        (match Discovery.answer m (d.take 504 ++ List.replicate (504 - (d.take 504).length) 0#8) with
        | .ub => .ub
        | .throw (.system code) => if code ≠ 11 then .threw (.system code) else .done ds
        | .throw e => .threw e
        | .ok ds' => Discovery.loop m (ds ++ ds') rs)
      cases ha : Discovery.answer m (d.take 504 ++ List.replicate (504 - (d.take 504).length) 0#8) with
      | ub => rfl
      | ok ds' => exact ih _ fun c hc => h c (List.mem_cons_of_mem _ hc)
      | throw e =>
        cases e with
        | system c => exact absurd ha (answer_no_system m _ c)
        | _ => rfl

theorem timed_other (limit : Option Nat) (busy : Nat → Nat) (arr : List (Nat × List Byte)) : ∀ (i now : Nat),
    Win.timedRecvs limit busy i now arr =
      ((Discovery.timedRecvs limit busy i now arr).1.map otherRecv, (Discovery.timedRecvs limit busy i now arr).2) ∧
    OnlyEnd (Discovery.timedRecvs limit busy i now arr).1 ∧
    ∀ d, Recv.dgram d ∈ (Discovery.timedRecvs limit busy i now arr).1 → ∃ a, (a, d) ∈ arr := by
  induction arr with
  | nil =>
    intro i now
    cases limit with
    | none => exact ⟨rfl, fun c h => (by cases h), fun d h => by cases h⟩
    | some t =>
      refine ⟨rfl, fun c h => ?_, fun d h => ?_⟩
      · cases List.mem_singleton.mp h; rfl
      · cases List.mem_singleton.mp h
  | cons p rest ih =>
    intro i now
    obtain ⟨a, d⟩ := p
    obtain ⟨h1, h2, h3⟩ := ih (i + 1) (max now a + busy i)
    have hcons : OnlyEnd (.dgram d :: (Discovery.timedRecvs limit busy (i + 1) (max now a + busy i) rest).1) ∧
        ∀ d', Recv.dgram d' ∈ Recv.dgram d :: (Discovery.timedRecvs limit busy (i + 1) (max now a + busy i) rest).1 →
          ∃ a', (a', d') ∈ (a, d) :: rest := by
      refine ⟨fun c h => ?_, fun d' h => ?_⟩
      · rcases List.mem_cons.mp h with h | h
        · cases h
        · exact h2 c h
      · rcases List.mem_cons.mp h with h | h
        · cases h; exact ⟨a, List.mem_cons_self⟩
        · obtain ⟨a', ha⟩ := h3 d' h; exact ⟨a', List.mem_cons_of_mem _ ha⟩
    cases limit with
    | none =>
      refine ⟨?_, hcons⟩
      show (Recv.dgram d :: (Win.timedRecvs none busy (i + 1) (max now a + busy i) rest).1, (Win.timedRecvs none busy (i + 1) (max now a + busy i) rest).2) = _
      rw [h1]
      rfl
    | some t =>
      unfold Win.timedRecvs Discovery.timedRecvs
      dsimp only
      by_cases hle : a ≤ now + t
      · rw [if_pos hle, if_pos hle, h1]
        exact ⟨rfl, hcons⟩
      · rw [if_neg hle, if_neg hle]
        refine ⟨rfl, fun c h => ?_, fun d h => ?_⟩
        · cases List.mem_singleton.mp h; rfl
        · cases List.mem_singleton.mp h

/-- C128. With a timeout that fits, and datagrams of at most 504 bytes, discovery finds the same devices as on unix, and takes as long. -/
theorem C128_discover_same (m : Mem) (ms : Int) (hms : 0 ≤ ms ∧ ms < 2 ^ 32) (busy : Nat → Nat) (start : Nat) (arrivals : List (Nat × List Byte))
    (hfit : ∀ a d, (a, d) ∈ arrivals → d.length ≤ 504) :
    let w := Win.timedRecvs (Win.rcvLimit (rcvTimeout ms)) busy 0 start arrivals
    let u := Discovery.timedRecvs (Discovery.rcvLimit (makePortableInterval ms)) busy 0 start arrivals
    Win.discover m { sendCount := 24, recvs := w.1 } = Discovery.discover m { sendCount := 24, recvs := u.1 } ∧ w.2 = u.2 := by
  intro w u
  have hl : Win.rcvLimit (rcvTimeout ms) = Discovery.rcvLimit (makePortableInterval ms) := (C128_limit_same ms).mpr (.inl hms)
  obtain ⟨h1, h2, h3⟩ := timed_other (Discovery.rcvLimit (makePortableInterval ms)) busy arrivals 0 start
  have hw : w = (u.1.map otherRecv, u.2) := by
    show Win.timedRecvs (Win.rcvLimit (rcvTimeout ms)) busy 0 start arrivals = _
    rw [hl]; exact h1
  refine ⟨?_, by rw [hw]⟩
  have hmap : (w.1.map fun r => otherRecv (recvfrom 504 r)) = u.1 := by
    rw [hw, List.map_map]
    conv => rhs; rw [← List.map_id u.1]
    apply List.map_congr_left
    intro r hr
    cases r with
    | err c =>
      have hc := h2 c hr
      subst hc
      rfl
    | dgram d =>
      obtain ⟨a, ha⟩ := h3 d hr
      show otherRecv (recvfrom 504 (.dgram d)) = .dgram d
      rw [recvfrom_fit 504 (.dgram d) fun d' e => by cases e; exact hfit a d ha]
      rfl
  rw [C128_discover]
  dsimp only [Option.map]
  rw [hmap]
  have hend : otherEnd (Discovery.discover m { sendCount := 24, recvs := u.1 }).2 = (Discovery.discover m { sendCount := 24, recvs := u.1 }).2 := by
    unfold Discovery.discover
    dsimp only
    split
    · rfl
    · exact loop_only m u.1 [] h2
  rw [hend]

/-- C128 violated: one datagram that is too long ends discovery with an exception, and what has been found is lost, whatever comes after;
on unix it is cut, and discovery goes on. -/
theorem C128_long_violated (m : Mem) (ds : List IdentityItem) (d : List Byte) (h : 504 < d.length) (rs : List Recv) :
    Win.loop m ds (.dgram d :: rs) = .threw (.system 10040) ∧
    Discovery.loop m ds (.dgram d :: rs) = Discovery.loop m ds (.dgram (d.take 504) :: rs) := by
  constructor
  · unfold Win.loop
    rw [show recvfrom 504 (.dgram d) = .err 10040 from if_neg (by omega)]
    rfl
  · rw [Discovery.loop, Discovery.loop]
    have : udpReceive 504 (.dgram d) = udpReceive 504 (.dgram (d.take 504)) := by
      unfold udpReceive
      dsimp only
      rw [List.take_take, Nat.min_self]
    rw [this]

example : ∃ (ms : Int) (arrivals : List (Nat × List Byte)), (0 ≤ ms ∧ ms < 2 ^ 32) ∧ arrivals ≠ [] ∧ ∀ a d, (a, d) ∈ arrivals → d.length ≤ 504 :=
  ⟨1000, [(7, [1#8])], by decide, by decide, fun a d h => by cases List.mem_singleton.mp h; decide⟩

example : ∃ d : List Byte, 504 < d.length ∧ 8192 < d.length :=
  ⟨List.replicate 9000 0#8, by rw [List.length_replicate]; decide, by rw [List.length_replicate]; decide⟩

/-! ## Connections -/

/-- C128. If no datagram has more than 8192 bytes, connections are handled as on unix. -/
theorem C128_handle_same (P : Plat) (start : Nat) (timeoutMs : Int) (rounds : List Round) (ticks : Nat → TickEnv) (s : Mgr)
    (h : ∀ first more now, Round.ready first more now ∈ rounds → Fit 8192 ((first :: more).map (·.recv))) :
    Win.handleConnections P start timeoutMs rounds ticks s = s.handle P start timeoutMs rounds ticks := by
  have : rounds.map Win.round = rounds := by
    conv => rhs; rw [← List.map_id rounds]
    apply List.map_congr_left
    intro r hr
    cases r with
    | fail c => rfl
    | ready first more now =>
      have ha : ∀ a ∈ first :: more, Win.arrival a = a := by
        intro a ha
        unfold Win.arrival
        rw [recvfrom_fit 8192 a.recv fun d e => h first more now hr d (e ▸ List.mem_map.mpr ⟨a, ha, rfl⟩)]
      show Round.ready (Win.arrival first) (more.map Win.arrival) now = .ready first more now
      rw [ha first List.mem_cons_self]
      congr 1
      conv => rhs; rw [← List.map_id more]
      exact List.map_congr_left fun a hm => ha a (List.mem_cons_of_mem _ hm)
  unfold Win.handleConnections
  rw [this]

/-- C128 violated: anyone can end handling. A datagram of more than 8192 bytes, from whomever, makes the call throw; nothing has been sent,
no connection has been told, and what else has arrived is not looked at. On unix the datagram is cut. -/
theorem C128_stranger_violated (P : Plat) (start : Nat) (timeoutMs : Int) (d : List Byte) (hd : 8192 < d.length) (throws : Option Exn)
    (more : List Arrival) (now : Nat) (rest : List Round) (ticks : Nat → TickEnv) (s : Mgr) (hs : s.sockets ≠ []) :
    Win.handleConnections P start timeoutMs (.ready ⟨.dgram d, throws⟩ more now :: rest) ticks s =
      .ok s [.waited (makePortableInterval (Mgr.remainingMs (start + timeoutMs * 1000000) start))] (.threw (.system 10040)) ∧
    s.handle P start timeoutMs (.ready ⟨.dgram d, throws⟩ more now :: rest) ticks =
      s.handle P start timeoutMs (.ready ⟨.dgram (d.take 8192), throws⟩ more now :: rest) ticks := by
  obtain ⟨x, xs, hx⟩ := List.exists_cons_of_ne_nil hs
  constructor
  · unfold Win.handleConnections Mgr.handle
    rw [hx]
    dsimp only
    rw [List.map_cons, Win.round, Mgr.selectLoop, Mgr.deliverAll]
    have : Mgr.deliver P (Win.arrival ⟨.dgram d, throws⟩).recv s = .throw (.system 10040) := by
      unfold Mgr.deliver
      rw [show (Win.arrival ⟨.dgram d, throws⟩).recv = .err 10040 from if_neg (by omega)]
      rfl
    rw [this]
  · have : Mgr.deliver P (.dgram d) s = Mgr.deliver P (.dgram (d.take 8192)) s := by
      have : udpReceive 8192 (.dgram d) = udpReceive 8192 (.dgram (d.take 8192)) := by
        unfold udpReceive
        dsimp only
        rw [List.take_take, Nat.min_self]
      unfold Mgr.deliver
      rw [this]
    unfold Mgr.handle
    rw [hx]
    dsimp only
    rw [Mgr.selectLoop, Mgr.selectLoop, Mgr.deliverAll, Mgr.deliverAll, this]

theorem fdSet_fold : ∀ (l set : List (BitVec 64)), (set ++ l).Nodup → set.length ≤ 64 →
    l.foldl fdSet set = set ++ l.take (64 - set.length) := by
  intro l
  induction l with
  | nil => intro set _ _; simp
  | cons h l ih =>
    intro set hn hl
    have hh : h ∉ set := fun hm => (List.nodup_append.mp hn).2.2 h hm h List.mem_cons_self rfl
    rw [List.foldl_cons]
    unfold fdSet
    rw [if_neg hh]
    by_cases hlt : set.length < 64
    · rw [if_pos hlt]
      have := ih (set ++ [h]) (by rw [List.append_assoc]; exact hn) (by simp; omega)
      unfold fdSet at this
      rw [this, List.length_append, List.append_assoc, show 64 - set.length = (64 - (set.length + 1)) + 1 by omega, List.take_succ_cons]
      rfl
    · rw [if_neg hlt]
      have hn' : (set ++ l).Nodup := by
        refine hn.sublist ?_
        exact List.Sublist.append_left (List.sublist_cons_self _ _) _
      have := ih set hn' hl
      unfold fdSet at this
      rw [this, show 64 - set.length = 0 by omega]
      rfl

/-- C128. Of the sockets of a manager that are ready the handlers of the first 64 are called, in their order; so of all if there are not more. -/
theorem C128_served (socks : List (BitVec 64)) (hs : ∀ h ∈ socks, h.toNat < 2 ^ 31) (hn : socks.Nodup) (ready : BitVec 64 → Bool) :
    Win.served (socks.map sockedFd) ready = ((socks.take 64).filter ready).map sockedFd := by
  unfold Win.served
  have hm : (socks.map sockedFd).map handle = socks := by
    have e : socks.map (handle ∘ sockedFd) = socks.map id := List.map_congr_left fun h hh => (wfd_of_small h (hs h hh)).2
    rw [List.map_map, e, List.map_id]
  have hf := fdSet_fold socks [] (by simpa using hn) (by simp)
  dsimp only
  rw [hm, hf, List.filter_map]
  congr 1
  have hp : ∀ h ∈ socks, ((fun fd => decide (handle fd ∈ ([] ++ socks.take (64 - ([] : List (BitVec 64)).length)).filter ready)) ∘ sockedFd) h =
      (ready h && decide (h ∈ socks.take 64)) := by
    intro h hh
    simp [(wfd_of_small h (hs h hh)).2, Bool.and_comm]
  rw [List.filter_congr hp]
  rw [← List.filter_filter]
  have h1 : socks.filter (fun h => decide (h ∈ socks.take 64)) = socks.take 64 := by
    have e0 : socks.filter (fun h => decide (h ∈ socks.take 64)) =
        (socks.take 64 ++ socks.drop 64).filter (fun h => decide (h ∈ socks.take 64)) := by rw [List.take_append_drop]
    rw [e0, List.filter_append]
    have e1 : (socks.take 64).filter (fun h => decide (h ∈ socks.take 64)) = socks.take 64 := by
      rw [List.filter_eq_self]
      intro a ha
      exact decide_eq_true ha
    have e2 : (socks.drop 64).filter (fun h => decide (h ∈ socks.take 64)) = [] := by
      rw [List.filter_eq_nil_iff]
      intro a ha hc
      rw [← List.take_append_drop 64 socks] at hn
      exact (List.nodup_append.mp hn).2.2 a (of_decide_eq_true hc) a ha rfl
    rw [e1, e2, List.append_nil]
  rw [h1]

/-- C128 violated: the other sockets are never looked at, whatever has arrived; the connections that use them time out. -/
theorem C128_many_violated (socks : List (BitVec 64)) (hs : ∀ h ∈ socks, h.toNat < 2 ^ 31) (hn : socks.Nodup) (ready : BitVec 64 → Bool)
    (h : BitVec 64) (hh : h ∈ socks.drop 64) : sockedFd h ∉ Win.served (socks.map sockedFd) ready := by
  rw [C128_served socks hs hn]
  intro hm
  obtain ⟨a, ha, e⟩ := List.mem_map.mp hm
  have ha1 := (List.mem_filter.mp ha).1
  have hx : handle (sockedFd a) = handle (sockedFd h) := by rw [e]
  rw [(wfd_of_small a (hs a (List.mem_of_mem_take ha1))).2, (wfd_of_small h (hs h (List.mem_of_mem_drop hh))).2] at hx
  subst hx
  rw [← List.take_append_drop 64 socks] at hn
  exact (List.nodup_append.mp hn).2.2 a ha1 a hh rfl

theorem manySocks_lt : ∀ h ∈ (List.range 65).map (BitVec.ofNat 64), h.toNat < 2 ^ 31 := by
  intro h hh
  obtain ⟨i, hi, rfl⟩ := List.mem_map.mp hh
  rw [List.mem_range] at hi
  rw [BitVec.toNat_ofNat]
  omega

theorem manySocks_nodup : ((List.range 65).map (BitVec.ofNat 64)).Nodup := by
  refine List.pairwise_map.mpr (List.Pairwise.imp_of_mem ?_ List.nodup_range)
  intro x y hx hy hne e
  refine hne ?_
  rw [List.mem_range] at hx hy
  have := congrArg BitVec.toNat e
  rw [BitVec.toNat_ofNat, BitVec.toNat_ofNat] at this
  omega

example : ∃ socks : List (BitVec 64), (∀ h ∈ socks, h.toNat < 2 ^ 31) ∧ socks.Nodup ∧ 64#64 ∈ socks.drop 64 :=
  ⟨(List.range 65).map (BitVec.ofNat 64), manySocks_lt, manySocks_nodup, by
    rw [← List.map_drop, List.mem_map]
    exact ⟨64, by simp [List.range_eq_range', List.drop_range'], rfl⟩⟩

/-! ## Messages of errors -/

theorem trim_split (l : List Char) : ∃ pre, l = pre ++ trim l ∧ (∀ c ∈ pre, c = '\r' ∨ c = '\n') ∧
    ∀ c rest, trim l = c :: rest → ¬ (c = '\r' ∨ c = '\n') := by
  induction l with
  | nil => exact ⟨[], rfl, fun c h => (by cases h), fun c rest h => by cases h⟩
  | cons x l ih =>
    unfold trim
    by_cases h : x = '\r' ∨ x = '\n'
    · rw [if_pos h]
      obtain ⟨pre, h1, h2, h3⟩ := ih
      refine ⟨x :: pre, by rw [List.cons_append, ← h1], fun c hc => ?_, h3⟩
      rcases List.mem_cons.mp hc with rfl | hc
      · exact h
      · exact h2 c hc
    · rw [if_neg h]
      exact ⟨[], rfl, fun c hc => (by cases hc), fun c rest e => by cases e; exact h⟩

/-- C128. The message of an error is the text of the system without the line ends that follow it, if that text is not empty and has fewer
than 255 characters; otherwise it is `N/A`. -/
theorem C128_message (t : List Char) (h0 : t ≠ []) (h : t.length < 255) :
    ∃ tail, t = message (some t) ++ tail ∧ (∀ c ∈ tail, c = '\r' ∨ c = '\n') ∧
      ∀ c init, message (some t) = init ++ [c] → ¬ (c = '\r' ∨ c = '\n') := by
  obtain ⟨pre, h1, h2, h3⟩ := trim_split t.reverse
  have hm : message (some t) = (trim t.reverse).reverse := by
    refine if_neg ?_
    have := List.length_pos_iff.mpr h0
    omega
  refine ⟨pre.reverse, ?_, fun c hc => h2 c (List.mem_reverse.mp hc), fun c init he => ?_⟩
  · rw [hm, ← List.reverse_append, ← h1, List.reverse_reverse]
  · rw [hm] at he
    exact h3 c init.reverse (by rw [← List.reverse_reverse (trim t.reverse), he, List.reverse_append]; rfl)

example : message (some ("No such host\r\n".toList)) = "No such host".toList := by decide +kernel

theorem C128_no_message : message none = "N/A".toList ∧ ∀ t : List Char, t = [] ∨ 255 ≤ t.length → message (some t) = "N/A".toList := by
  refine ⟨rfl, fun t h => ?_⟩
  exact if_pos (h.imp (fun e => by rw [e]; rfl) id)

end Verif.Props
