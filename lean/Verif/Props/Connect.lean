import Verif.Spec.Connect
import Verif.Props.Session

/-!
# C68, C77: TCP connect outcomes and the lifetime of a session
-/

namespace Verif.Props

open Verif Verif.Spec

theorem connectError_none (env : ConnectEnv) : connectError env = none ↔ Established env := by
  unfold connectError Established
  rcases env with ⟨a, b, c, d, e, f, g, h⟩
  simp only
  cases d with
  | none => simp
  | some d =>
    by_cases hd : d = 115
    · subst hd
      rcases e with _ | ⟨r, e⟩
      · simp
      · cases r with
        | ready =>
          cases f with
          | error x => simp
          | ok x =>
            by_cases hx : x = 0
            · subst hx; simp
            · simp [hx]
        | timeout => simp
        | error x => by_cases hx : x = 4 <;> simp [hx]
    · simp [hd]

theorem wait_run (env : ConnectEnv) (fd : Nat) (ms : Int) (s : Os) (hfd : fd < 1024) (hc : env.connect = some 115) :
    ∃ s', s'.files = s.files ∧ (∃ more, s'.trace = s.trace ++ .select fd (makePortableInterval ms).1 (makePortableInterval ms).2 :: more ∧
      ∀ c ∈ more, c = .getsockopt fd) ∧
      waitConnected env fd ms s = match connectError env with
        | none => .ok s' ()
        | some e => .throw s' (.system e) := by
  have hn : ¬ fdSetSize ≤ fd := Nat.not_le.mpr hfd
  rcases env with ⟨a, b, c, d, e, f, g, h⟩
  simp only at hc
  subst hc
  simp only [connectError, waitConnected, if_neg hn]
  rcases e with _ | ⟨r, e⟩
  · refine ⟨{ s with trace := s.trace ++ [.select fd (makePortableInterval ms).1 (makePortableInterval ms).2] }, rfl, ⟨[], rfl, by simp⟩, ?_⟩
    simp [Prog.bind_run, Os.note, etimedout]
  · cases r with
    | ready =>
      refine ⟨{ s with trace := s.trace ++ .select fd (makePortableInterval ms).1 (makePortableInterval ms).2 :: [.getsockopt fd] },
        rfl, ⟨_, rfl, by simp⟩, ?_⟩
      cases f with
      | error x => simp [Prog.bind_run, Os.note]
      | ok x =>
        by_cases hx : x = 0
        · subst hx; simp [Prog.bind_run, Os.note]
        · simp [Prog.bind_run, Os.note, hx]
    | timeout =>
      refine ⟨{ s with trace := s.trace ++ [.select fd (makePortableInterval ms).1 (makePortableInterval ms).2] }, rfl, ⟨[], rfl, by simp⟩, ?_⟩
      simp [Prog.bind_run, Os.note, etimedout]
    | error x =>
      refine ⟨{ s with trace := s.trace ++ [.select fd (makePortableInterval ms).1 (makePortableInterval ms).2] }, rfl, ⟨[], rfl, by simp⟩, ?_⟩
      by_cases hx : x = 4 <;> simp [Prog.bind_run, Os.note, eintrCode, etimedout, hx]

theorem map_fresh (files : List (Nat × BitVec 32)) (fd : Nat) (v : BitVec 32) (h : ∀ p ∈ files, p.1 ≠ fd) :
    (files.map fun p => if p.1 = fd then (fd, v) else p) = files := by
  conv => rhs; rw [← List.map_id files]
  apply List.map_congr_left
  intro p hp
  simp [h p hp]

/-- The part between `connect` and `catch`, for a descriptor with flags `v`. -/
theorem guarded_run (env : ConnectEnv) (fd : Nat) (ms : Int) (s : Os) (v : BitVec 32) (files : List (Nat × BitVec 32))
    (hf : s.files = (fd, v) :: files) (h : ∀ p ∈ files, p.1 ≠ fd) (hfd : fd < 1024) :
    ∃ s', closeOnThrow fd (connectGuarded env fd ms) s =
      (match [connectError env, env.getfl2, env.setfl2].findSome? id with
        | none => .ok s' ()
        | some e => .throw s' (.system e)) ∧
      s'.files = (match [connectError env, env.getfl2, env.setfl2].findSome? id with
        | none => (fd, v &&& ~~~oNonblock) :: files
        | some _ => files) := by
  obtain ⟨s1, hs1, hx⟩ : ∃ s1 : Os, s1.files = s.files ∧
      startConnect env fd ms s = match connectError env with
          | none => .ok s1 ()
          | some e => .throw s1 (.system e) := by
    unfold startConnect
    rw [Prog.bind_run]
    simp only [Os.note, Prog.modify_run]
    cases hc : env.connect with
    | none =>
      have : connectError env = none := (connectError_none env).2 (.inl hc)
      rw [this]
      exact ⟨{ s with trace := s.trace ++ [.connect fd] }, rfl, rfl⟩
    | some e =>
      by_cases he : e = 115
      · subst he
        obtain ⟨s1, e1, _, e2⟩ := wait_run env fd ms { s with trace := s.trace ++ [.connect fd] } hfd hc
        exact ⟨s1, e1, by rw [← e2]; simp [einprogress]⟩
      · have : connectError env = some e := by simp [connectError, hc, he]
        rw [this]
        exact ⟨{ s with trace := s.trace ++ [.connect fd] }, rfl, by simp [he, einprogress]⟩
  have hm := map_fresh files fd (v &&& ~~~oNonblock) h
  unfold closeOnThrow connectGuarded
  rw [Prog.bind_run, hx]
  cases hce : connectError env with
  | some e =>
    refine ⟨_, rfl, ?_⟩
    simp only [List.findSome?_cons, id]
    simp [hs1, hf]
    exact fun a b hab => h _ hab
  | none =>
    cases h2 : env.getfl2 with
    | some e =>
      simp only [List.findSome?_cons, id, Os.getfl, Os.call, Os.note, Prog.bind_run, Prog.modify_run, Prog.throw_run, Os.close]
      exact ⟨_, rfl, by simp [hs1, hf]; exact fun a b hab => h _ hab⟩
    | none =>
      cases h3 : env.setfl2 with
      | some e =>
        simp only [List.findSome?_cons, id, Os.getfl, Os.setfl, Os.call, Os.note, Prog.bind_run, Prog.modify_run, Prog.throw_run,
          Prog.pure_run, Prog.get_run, Os.close]
        exact ⟨_, rfl, by simp [hs1, hf]; exact fun a b hab => h _ hab⟩
      | none =>
        simp only [List.findSome?_cons, id, Os.getfl, Os.setfl, Os.call, Os.note, Prog.bind_run, Prog.modify_run,
          Prog.pure_run, Prog.get_run]
        refine ⟨_, rfl, ?_⟩
        simp [hs1, hf, Os.flags]
        exact hm

theorem blocking_eq (v : BitVec 32) : blocking v ((v ||| oNonblock) &&& ~~~oNonblock) := by
  intro i
  by_cases hi : i < 32
  · have : ∀ i : Fin 32, oNonblock.getLsbD i = (i.1 == 11) := by decide
    have h2 := this ⟨i, hi⟩
    simp only at h2
    simp only [BitVec.getLsbD_and, BitVec.getLsbD_or, BitVec.getLsbD_not, h2, hi]
    cases v.getLsbD i <;> cases h : i == 11 <;> simp [bne, h]
  · rw [BitVec.getLsbD_of_ge _ _ (by omega), BitVec.getLsbD_of_ge _ _ (by omega)]
    simp

/-- C68. Connecting returns exactly when no step fails, and then the descriptor is open and
blocking, its other flags as they were.  Otherwise the error of the first step that fails is
thrown, and what is left of the descriptor is as in the specification.
The hypothesis: the system gives a new descriptor that fits an `fd_set`. -/
theorem C68_outcome (env : ConnectEnv) (f0 : BitVec 32) (ms : Int) (s : Os)
    (h : ∀ fd, env.socket = .ok fd → fd < 1024 ∧ ∀ p ∈ s.files, p.1 ≠ fd) :
    match firstFailure env with
    | none => ∃ s' fd v, tcpConnect env f0 ms s = .ok s' fd ∧ env.socket = .ok fd ∧ s'.files = (fd, v) :: s.files ∧ blocking f0 v
    | some (e, left) => ∃ s', tcpConnect env f0 ms s = .throw s' (.system e) ∧
      match left with
      | .leaked => ∃ fd v, env.socket = .ok fd ∧ s'.files = (fd, v) :: s.files
      | _ => s'.files = s.files := by
  unfold tcpConnect firstFailure connectSteps
  cases hs : env.socket with
  | error e =>
    exact ⟨_, rfl, rfl⟩
  | ok fd =>
    obtain ⟨hfd, hfresh⟩ := h fd hs
    cases h1 : env.getfl1 with
    | some e => exact ⟨_, rfl, fd, f0, rfl, rfl⟩
    | none =>
      cases h2 : env.setfl1 with
      | some e => exact ⟨_, rfl, fd, f0, rfl, rfl⟩
      | none =>
        have hm := map_fresh s.files fd (f0 ||| oNonblock) hfresh
        obtain ⟨s', e1, e2⟩ := guarded_run env fd ms
          { files := (fd, f0 ||| oNonblock) :: s.files, trace := s.trace ++ [.socket] ++ [.getfl fd] ++ [.setfl fd (f0 ||| oNonblock)] }
          (f0 ||| oNonblock) s.files rfl hfresh hfd
        have hrun : (do
            Os.note .socket
            match (Except.ok fd : Except Int Nat) with
            | .error e => Prog.throw (.system e)
            | .ok fd => do
              Prog.modify fun s => { s with files := (fd, f0) :: s.files }
              let arg ← Os.getfl fd none
              Os.setfl fd (arg ||| oNonblock) none
              closeOnThrow fd (connectGuarded env fd ms)
              pure fd : Prog Os Nat) s =
            match closeOnThrow fd (connectGuarded env fd ms)
              { files := (fd, f0 ||| oNonblock) :: s.files, trace := s.trace ++ [.socket] ++ [.getfl fd] ++ [.setfl fd (f0 ||| oNonblock)] } with
            | .ok s' _ => .ok s' fd
            | .throw s' e => .throw s' e
            | .ub => .ub := by
          simp only [Os.getfl, Os.setfl, Os.call, Os.note, Prog.bind_run, Prog.modify_run, Prog.pure_run, Prog.get_run, Os.flags]
          simp [hm]
          cases closeOnThrow fd (connectGuarded env fd ms)
            { files := (fd, f0 ||| oNonblock) :: s.files, trace := s.trace ++ [Sys.socket, Sys.getfl fd, Sys.setfl fd (f0 ||| oNonblock)] } <;> rfl
        rw [hrun, e1]
        simp only [List.findSome?_cons, Option.map, id] at e2 ⊢
        cases hc : connectError env with
        | some e => simp only [hc] at e2 ⊢; exact ⟨_, rfl, e2⟩
        | none =>
          cases h3 : env.getfl2 with
          | some e => simp only [hc, h3] at e2 ⊢; exact ⟨_, rfl, e2⟩
          | none =>
            cases h4 : env.setfl2 with
            | some e => simp only [hc, h3, h4] at e2 ⊢; exact ⟨_, rfl, e2⟩
            | none =>
              simp only [hc, h3, h4] at e2 ⊢
              exact ⟨_, _, _, rfl, rfl, e2, blocking_eq f0⟩

/-- C68. The constructor returns only when the connection was established. -/
theorem C68_connected (env : ConnectEnv) (f0 : BitVec 32) (ms : Int) (s s' : Os) (fd : Nat)
    (h : ∀ fd, env.socket = .ok fd → fd < 1024 ∧ ∀ p ∈ s.files, p.1 ≠ fd)
    (hr : tcpConnect env f0 ms s = .ok s' fd) :
    Established env ∧ env.socket = .ok fd ∧ ∃ v, s'.files = (fd, v) :: s.files ∧ blocking f0 v := by
  have ho := C68_outcome env f0 ms s h
  cases hf : firstFailure env with
  | some p =>
    obtain ⟨e, left⟩ := p
    rw [hf] at ho
    obtain ⟨s1, e1, _⟩ := ho
    rw [e1] at hr
    cases hr
  | none =>
    rw [hf] at ho
    obtain ⟨s1, fd1, v, e1, e2, e3, e4⟩ := ho
    rw [e1] at hr
    cases hr
    refine ⟨?_, e2, v, e3, e4⟩
    rw [← connectError_none]
    have := (List.findSome?_eq_none_iff.1 hf) (connectError env, .closed) (by simp [connectSteps])
    simpa using this

/-- C68. If both switches to non-blocking mode succeed, no failure leaves a descriptor open. -/
theorem C68_closes (env : ConnectEnv) (f0 : BitVec 32) (ms : Int) (s s' : Os) (e : Exn)
    (h : ∀ fd, env.socket = .ok fd → fd < 1024 ∧ ∀ p ∈ s.files, p.1 ≠ fd) (h1 : env.getfl1 = none)
    (h2 : env.setfl1 = none) (hr : tcpConnect env f0 ms s = .throw s' e) : s'.files = s.files := by
  have ho := C68_outcome env f0 ms s h
  cases hf : firstFailure env with
  | none =>
    rw [hf] at ho
    obtain ⟨s1, fd1, v, e1, _⟩ := ho
    rw [e1] at hr
    cases hr
  | some p =>
    obtain ⟨x, left⟩ := p
    rw [hf] at ho
    obtain ⟨s1, e1, e2⟩ := ho
    rw [e1] at hr
    cases hr
    cases left with
    | nothing => exact e2
    | closed => exact e2
    | leaked =>
      obtain ⟨q, hq, hq'⟩ := List.exists_of_findSome?_eq_some hf
      simp only [connectSteps, List.mem_cons, List.not_mem_nil, or_false] at hq
      rcases hq with rfl | rfl | rfl | rfl | rfl | rfl <;> simp [h1, h2] at hq'

/-- C68. The destructor closes the descriptor the constructor opened and no other. -/
theorem C68_destroy (env : ConnectEnv) (f0 : BitVec 32) (ms : Int) (s s' : Os) (fd : Nat)
    (h : ∀ fd, env.socket = .ok fd → fd < 1024 ∧ ∀ p ∈ s.files, p.1 ≠ fd)
    (hr : tcpConnect env f0 ms s = .ok s' fd) :
    ∃ s'', tcpDestroy fd s' = .ok s'' () ∧ s''.files = s.files := by
  obtain ⟨_, e1, v, e2, _⟩ := C68_connected env f0 ms s s' fd h hr
  refine ⟨_, rfl, ?_⟩
  simp [e2]
  exact fun a b hab => (h fd e1).2 _ hab

/-- C68. A finding: when switching to non-blocking mode fails, the constructor throws and
the descriptor stays open for good, whatever the error. -/
theorem C68_leak_violated (fd : Nat) (e : Int) (f0 : BitVec 32) (ms : Int) (s : Os) (env : ConnectEnv)
    (h : env.socket = .ok fd) (h1 : env.getfl1 = some e ∨ env.getfl1 = none ∧ env.setfl1 = some e) :
    ∃ s', tcpConnect env f0 ms s = .throw s' (.system e) ∧ s'.files = (fd, f0) :: s.files := by
  unfold tcpConnect
  rcases h1 with h1 | ⟨h1, h2⟩
  · rw [h, h1]; exact ⟨_, rfl, rfl⟩
  · rw [h, h1, h2]; exact ⟨_, rfl, rfl⟩

/-- C68. A finding: a signal during the wait is reported as a timeout; the wait is not gone
on with, whatever would come next. -/
theorem C68_eintr_violated (fd : Nat) (hfd : fd < 1024) (f0 : BitVec 32) (ms : Int) (s : Os)
    (later : List SelectResult) (hfresh : ∀ p ∈ s.files, p.1 ≠ fd) :
    ∃ s', tcpConnect ⟨.ok fd, none, none, some 115, .error 4 :: later, .ok 0, none, none⟩ f0 ms s =
      .throw s' (.system 110) ∧ s'.files = s.files := by
  have := C68_outcome ⟨.ok fd, none, none, some 115, .error 4 :: later, .ok 0, none, none⟩ f0 ms s
    (fun fd' e => by cases e; exact ⟨hfd, hfresh⟩)
  exact this

/-- C68. A finding: with a descriptor that does not fit an `fd_set` waiting is undefined behaviour. -/
theorem C68_fdset_violated (fd : Nat) (hfd : 1024 ≤ fd) (f0 : BitVec 32) (ms : Int) (s : Os)
    (rs : List SelectResult) (opt : Except Int Int) (a b : Option Int) :
    tcpConnect ⟨.ok fd, none, none, some 115, rs, opt, a, b⟩ f0 ms s = .ub := by
  simp only [tcpConnect, Os.getfl, Os.setfl, Os.call, Os.note, Prog.bind_run, Prog.modify_run, Prog.pure_run, Prog.get_run,
    closeOnThrow, connectGuarded, startConnect, waitConnected, einprogress, if_pos (show fdSetSize ≤ fd from hfd), if_true]
  rfl

/-- C68. The system calls of a connection made in the background: one wait, for the time
given by the caller, with the descriptor non-blocking until it is over. -/
theorem C68_calls (fd : Nat) (hfd : fd < 1024) (f0 : BitVec 32) (ms : Int) (later : List SelectResult) :
    ∃ v w s', tcpConnect ⟨.ok fd, none, none, some 115, .ready :: later, .ok 0, none, none⟩ f0 ms ⟨[], []⟩ = .ok s' fd ∧
      s'.trace = [.socket, .getfl fd, .setfl fd v, .connect fd,
        .select fd (makePortableInterval ms).1 (makePortableInterval ms).2, .getsockopt fd, .getfl fd, .setfl fd w] ∧
      v.getLsbD 11 = true ∧ blocking f0 w := by
  refine ⟨f0 ||| oNonblock, (f0 ||| oNonblock) &&& ~~~oNonblock, ⟨[(fd, (f0 ||| oNonblock) &&& ~~~oNonblock)], _⟩, ?_, rfl, ?_, blocking_eq f0⟩
  · have hn : ¬ fdSetSize ≤ fd := Nat.not_le.mpr hfd
    simp [tcpConnect, Os.getfl, Os.setfl, Os.call, Os.note, einprogress, Prog.bind_run, Prog.modify_run, Prog.pure_run, Prog.get_run,
      closeOnThrow, connectGuarded, startConnect, waitConnected, if_neg hn, Os.flags]
  · rw [BitVec.getLsbD_or]
    have : oNonblock.getLsbD 11 = true := by decide
    rw [this, Bool.or_true]

example : (∀ fd, (⟨.ok 5, none, none, some 115, [.ready], .ok 111, none, none⟩ : ConnectEnv).socket = .ok fd →
    fd < 1024 ∧ ∀ p ∈ ([(3, 2)] : List (Nat × BitVec 32)), p.1 ≠ fd) ∧
    tcpConnect ⟨.ok 5, none, none, some 115, [.ready], .ok 111, none, none⟩ 2 1500 ⟨[(3, 2)], []⟩ =
      .throw ⟨[(3, 2)], [.socket, .getfl 5, .setfl 5 0x802, .connect 5, .select 5 1 500000, .getsockopt 5, .close 5]⟩ (.system 111) := by
  constructor
  · intro fd h; cases h; decide
  · decide +kernel

/-! ## C77 -/

/-- C77. However making a session fails, once the socket could be made non-blocking no
descriptor stays open: neither when connecting nor when registering fails. -/
theorem C77_failed (m : Mem) (env : ConnectEnv) (f0 : BitVec 32) (ms : Int) (o o' : Os) (t t' : Tcp) (e : Exn)
    (h : ∀ fd, env.socket = .ok fd → fd < 1024 ∧ ∀ p ∈ o.files, p.1 ≠ fd) (h1 : env.getfl1 = none)
    (h2 : env.setfl1 = none) (hr : sessionOpen m env f0 ms (o, t) = .throw (o', t') e) : o'.files = o.files := by
  unfold sessionOpen at hr
  simp only at hr
  cases hc : tcpConnect env f0 ms o with
  | ub => rw [hc] at hr; cases hr
  | throw o1 e1 =>
    rw [hc] at hr
    cases hr
    exact C68_closes env f0 ms o o' e h h1 h2 hc
  | ok o1 fd =>
    rw [hc] at hr
    obtain ⟨o2, e1, e2⟩ := C68_destroy env f0 ms o o1 fd h hc
    cases hg : registerSession m t with
    | ub => simp only [hg] at hr; cases hr
    | ok t1 x => simp only [hg] at hr; cases hr
    | throw t1 x =>
      simp only [hg, e1] at hr
      cases hr
      exact e2

/-- C77. A session that is made exists on an established connection, with the descriptor open. -/
theorem C77_made (m : Mem) (env : ConnectEnv) (f0 : BitVec 32) (ms : Int) (o o' : Os) (t t' : Tcp) (fd : Nat) (handle : BitVec 32)
    (h : ∀ fd, env.socket = .ok fd → fd < 1024 ∧ ∀ p ∈ o.files, p.1 ≠ fd)
    (hr : sessionOpen m env f0 ms (o, t) = .ok (o', t') (fd, handle)) :
    Established env ∧ (∃ v, o'.files = (fd, v) :: o.files ∧ blocking f0 v) ∧ registerSession m t = .ok t' handle := by
  unfold sessionOpen at hr
  simp only at hr
  cases hc : tcpConnect env f0 ms o with
  | ub => rw [hc] at hr; cases hr
  | throw o1 e1 => rw [hc] at hr; cases hr
  | ok o1 fd1 =>
    rw [hc] at hr
    cases hg : registerSession m t with
    | ub => simp only [hg] at hr; cases hr
    | throw t1 x =>
      obtain ⟨o2, e1, _⟩ := C68_destroy env f0 ms o o1 fd1 h hc
      simp only [hg, e1] at hr; cases hr
    | ok t1 x =>
      simp only [hg] at hr
      cases hr
      obtain ⟨a, b, c⟩ := C68_connected env f0 ms o o' fd h hc
      exact ⟨a, c, rfl⟩

/-- C77. A session that is made and destroyed again leaves no descriptor open, and has written
a RegisterSession frame first and an UnRegisterSession frame with the granted handle last.
Between the two the socket may have been used for anything that leaves `sends` empty. -/
theorem C77_life (m : Mem) (env : ConnectEnv) (f0 : BitVec 32) (ms : Int) (o : Os) (t : Tcp)
    (h : ∀ fd, env.socket = .ok fd → fd < 1024 ∧ ∀ p ∈ o.files, p.1 ≠ fd) (hok : firstFailure env = none)
    (p : EncapsPacket) (hp : WellFormed p) (h0 : p.status = 0#32) (hs : t.sends = []) (rest : List Byte)
    (hn : (stream t.net).1 = p.pack ++ rest) :
    ∃ o' t' fd, sessionOpen m env f0 ms (o, t) = .ok (o', t') (fd, p.sessionHandle) ∧
      t'.sent = t.sent ++ [encapsFrame 0x65 0 0 (List.replicate 8 0#8) 0 (le 2 1 ++ le 2 0)] ∧
      t'.sends = [] ∧ stream t'.net = (rest, (stream t.net).2) ∧
      ∀ u : Tcp, u.sends = [] → ∃ o'', sessionClose fd p.sessionHandle (o', u) =
          .ok (o'', { u with sent := u.sent ++ [encapsFrame 0x66 p.sessionHandle.toNat 0 (List.replicate 8 0#8) 0 []] }) () ∧
        o''.files = o.files := by
  have ho := C68_outcome env f0 ms o h
  rw [hok] at ho
  obtain ⟨o1, fd, v, e1, e2, e3, e4⟩ := ho
  obtain ⟨net', hst, hreg⟩ := C25_register m p hp t hs rest hn
  simp only [if_pos h0] at hreg
  generalize ht : ({ t with net := net', sent := t.sent ++
    [encapsFrame 0x65 0 0 (List.replicate 8 0#8) 0 (le 2 1 ++ le 2 0)] } : Tcp) = t1 at hreg
  have hopen : sessionOpen m env f0 ms (o, t) = .ok (o1, t1) (fd, p.sessionHandle) := by
    unfold sessionOpen
    simp only [e1]
    rw [hreg]
  refine ⟨o1, t1, fd, hopen, by rw [← ht], by rw [← ht]; exact hs, by rw [← ht]; exact hst, ?_⟩
  intro u hu
  obtain ⟨o2, d1, d2⟩ := C68_destroy env f0 ms o o1 fd h e1
  exact ⟨o2, by simp only [sessionClose, (C71_destructor p.sessionHandle u).1 hu, d1], d2⟩

/-- A peer that refuses the session: everything is closed again. -/
example : ∃ t', sessionOpen Mem.strict ⟨.ok 5, none, none, some 115, [.ready], .ok 0, none, none⟩ 2 1500
    (⟨[(3, 2)], []⟩, ⟨[.seg 0x65#8 ([0#8, 0#8, 0#8, 0#8, 0#8, 0#8, 0#8, 1#8] ++ List.replicate 15 0#8)], [], []⟩) =
    .throw (⟨[(3, 2)], [.socket, .getfl 5, .setfl 5 0x802, .connect 5, .select 5 1 500000, .getsockopt 5, .getfl 5, .setfl 5 2,
      .shutdown 5, .close 5]⟩, t') (.runtime "Bad encaps packet code") :=
  ⟨⟨[], [], [EncapsPacketFactory.registerSession.pack]⟩, by decide +kernel⟩

end Verif.Props
