import Verif.Props.Threads

/-!
# C100: concrete schedules
-/

namespace Verif.Props

open Verif Verif.Spec Verif.Threads

/-- A peer that answers with the data of the request and counts the requests. -/
def echoPeer (n : Nat) (p : EncapsPacket) : Nat × EncapsPacket :=
  (n + 1, ⟨p.command, BitVec.ofNat 16 (p.data.take 60).length, p.sessionHandle, 0#32, List.replicate 8 0#8, 0#32, p.data.take 60⟩)

theorem echoPeer_wf (d : Nat) (p : EncapsPacket) : WellFormed (echoPeer d p).2 := by
  refine ⟨rfl, ?_⟩
  simp only [echoPeer, BitVec.toNat_ofNat, List.length_take]
  omega

/-- A request with this data. -/
def echoRequest (data : List Byte) : EncapsPacket :=
  ⟨0x6f, BitVec.ofNat 16 data.length, 7#32, 0#32, List.replicate 8 0#8, 0#32, data⟩

/-- Thread 0 asks twice, thread 1 once. -/
def echoTodo : Nat → List EncapsPacket
  | 0 => [echoRequest [1, 2], echoRequest []]
  | 1 => [echoRequest [3, 4, 5]]
  | _ => []

/-- The data that the calls returned; `none`: an exception or undefined behaviour. -/
def returned (s : Option (Sys Nat)) : Option (List (Nat × Option (List Byte))) :=
  s.map fun s => s.ended.map fun e => (e.1, match e.2 with | .ok p => some p.data | _ => none)

/-- `Locked` and `WholeReplies` as tests, for a program with `n` threads. -/
def lockTest (n : Nat) (s : Sys Nat) : Act → Bool
  | .send _ => (List.range n).all fun j => decide ((s.thr j).phase = .idle)
  | _ => true
def wholeTest (n : Nat) (s : Sys Nat) : Act → Bool
  | .recv i _ => (List.range n).all fun j => decide (j = i) || !midReply (s.thr j).phase
  | _ => true

/-- A test of every step of a schedule. -/
def allSteps (test : Sys Nat → Act → Bool) (s : Sys Nat) : List Act → Bool
  | [] => true
  | a :: as => test s a && (match step Mem.strict 7#32 echoPeer s a with | none => true | some s' => allSteps test s' as)

theorem always_of (n : Nat) (ok : Sys Nat → Act → Prop) (test : Sys Nat → Act → Bool)
    (hok : ∀ s a, (∀ j, n ≤ j → (s.thr j).phase = .idle) → test s a = true → ok s a) (as : List Act) :
    ∀ (s : Sys Nat), (∀ j, n ≤ j → (s.thr j).todo = [] ∧ (s.thr j).phase = .idle) →
    allSteps test s as = true → Always Mem.strict 7#32 echoPeer ok s as := by
  induction as with
  | nil => intro s _ _; trivial
  | cons a as ih =>
    intro s hs h
    simp only [allSteps, Bool.and_eq_true] at h
    refine ⟨hok s a (fun j hj => (hs j hj).2) h.1, ?_⟩
    intro s' h1
    have h2 := h.2
    rw [h1] at h2
    refine ih s' (fun j hj => ?_) h2
    obtain ⟨g1, g2⟩ := hs j hj
    cases a with
    | send i =>
      obtain ⟨p, rest, k1, k2, rfl⟩ := send_shape h1
      have hji : j ≠ i := by rintro rfl; rw [g1] at k2; cases k2
      simp only [set_other _ _ _ _ hji]
      exact ⟨g1, g2⟩
    | recv i k =>
      obtain ⟨⟨k1, k2, _⟩, hc⟩ := recv_shape h1
      have hji : j ≠ i := by rintro rfl; rw [g2] at k2; simp only [room] at k2; omega
      obtain ⟨ph, _, rfl⟩ | ⟨r, _, rfl⟩ := hc
      all_goals
        simp only [set_other _ _ _ _ hji]
        exact ⟨g1, g2⟩
    | timeout i =>
      simp only [step] at h1
      split at h1
      · cases h1
      · rename_i hne
        cases h1
        have hji : j ≠ i := by rintro rfl; exact hne g2
        simp only [set_other _ _ _ _ hji]
        exact ⟨g1, g2⟩

theorem lockTest_ok (n : Nat) (s : Sys Nat) (a : Act) (hi : ∀ j, n ≤ j → (s.thr j).phase = .idle)
    (h : lockTest n s a = true) : Locked s a := by
  cases a with
  | send i =>
    intro j
    by_cases hj : n ≤ j
    · exact hi j hj
    · simp only [lockTest, List.all_eq_true, List.mem_range, decide_eq_true_eq] at h
      exact h j (by omega)
  | recv i k => trivial
  | timeout i => trivial

theorem wholeTest_ok (n : Nat) (s : Sys Nat) (a : Act) (hi : ∀ j, n ≤ j → (s.thr j).phase = .idle)
    (h : wholeTest n s a = true) : WholeReplies s a := by
  cases a with
  | recv i k =>
    intro j hji
    by_cases hj : n ≤ j
    · rw [hi j hj]; rfl
    · simp only [wholeTest, List.all_eq_true, List.mem_range] at h
      simpa [hji] using h j (by omega)
  | send i => trivial
  | timeout i => trivial

theorem echoTodo_two (j : Nat) (hj : 2 ≤ j) :
    ((start 0 echoTodo).thr j).todo = [] ∧ ((start (0 : Nat) echoTodo).thr j).phase = .idle := by
  match j, hj with
  | j + 2, _ => exact ⟨rfl, rfl⟩

/-- A schedule in which no two calls overlap; replies arrive in pieces. -/
def politeSchedule : List Act :=
  [.send 0, .recv 0 10, .recv 0 14, .recv 0 1, .recv 0 1, .send 1, .recv 1 24, .recv 1 3, .send 0, .recv 0 24]

/-- C100: the hypotheses of `C100_locked` hold of it, and every thread gets its own. -/
example : returned (run Mem.strict 7#32 echoPeer (start 0 echoTodo) politeSchedule) =
      some [(0, some [1, 2]), (1, some [3, 4, 5]), (0, some [])] ∧
    Always Mem.strict 7#32 echoPeer Locked (start 0 echoTodo) politeSchedule ∧ NoTimeout politeSchedule := by
  refine ⟨by decide +kernel, always_of 2 _ (lockTest 2) (lockTest_ok 2) _ _ echoTodo_two (by decide +kernel), ?_⟩
  intro i h
  simp [politeSchedule] at h

/-- Both send before either receives, and the second receives first. -/
def hastySchedule : List Act := [.send 0, .send 1, .recv 1 24, .recv 1 2, .recv 0 24, .recv 0 3]

/-- C100: the hypotheses of `C100_order` hold of it. -/
example : Always Mem.strict 7#32 echoPeer WholeReplies (start 0 echoTodo) hastySchedule ∧ NoTimeout hastySchedule := by
  refine ⟨always_of 2 _ (wholeTest 2) (wholeTest_ok 2) _ _ echoTodo_two (by decide +kernel), ?_⟩
  intro i h
  simp [hastySchedule] at h

/-- C100 violated: two threads that use one session at the same time. Both have sent before either receives, and the
second receives first: each gets the reply to the request of the other, and nothing tells them. -/
theorem C100_swapped_violated :
    returned (run Mem.strict 7#32 echoPeer (start 0 echoTodo) hastySchedule) =
      some [(1, some [1, 2]), (0, some [3, 4, 5])] := by
  decide +kernel

/-- The data of thread 0 in the next schedule: 24 bytes that look like a header. -/
def headerLike : List Byte := [0x6f, 0, 1, 0, 7, 0, 0, 0, 0, 0, 0, 0, 9, 9, 9, 9, 9, 9, 9, 9, 0, 0, 0, 0]

/-- C100 violated: two threads receive at the same time. Thread 1 takes the data of the reply to thread 0 for a header
and returns a packet that the peer never sent; thread 0 returns its header with the end of both replies. -/
theorem C100_torn_violated :
    returned (run Mem.strict 7#32 echoPeer
      (start 0 fun | 0 => [echoRequest headerLike] | 1 => [echoRequest [3]] | _ => [])
      [.send 0, .send 1, .recv 0 24, .recv 1 24, .recv 1 1, .recv 0 24]) =
      some [(1, some [0x6f]), (0, some ((echoRequest [3]).pack.drop 1))] := by
  decide +kernel

end Verif.Props
