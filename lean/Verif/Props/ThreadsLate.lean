import Verif.Spec.ThreadsLate
import Verif.Props.Threads
import Verif.Props.ThreadsSample

/-!
# C100: threads that share a session, and late replies
-/

namespace Verif.Props

open Verif.Spec Verif.Threads

/-- The state as if the calls that timed out had not been made. -/
def unexpired {δ : Type} (s : Sys δ) : Sys δ := { s with ended := s.ended.filter fun e => !expired e.2 }

theorem gives_unexpired (handle : BitVec 32) (p : EncapsPacket) : expired (gives handle p) = false := by
  unfold gives
  split
  · rfl
  · split <;> rfl

theorem timeout_shape {δ : Type} {m : Mem} {handle : BitVec 32} {serve : δ → EncapsPacket → δ × EncapsPacket} {s s' : Sys δ}
    {i : Nat} (h : step m handle serve s (.timeout i) = some s') :
    (s.thr i).phase ≠ .idle ∧ 
      s' = { s with thr := Threads.set s.thr i { s.thr i with phase := .idle }, ended := s.ended ++ [(i, .throw (.system eagain))] } := by
  simp only [step] at h
  split at h
  · cases h
  · rename_i hc; cases h; exact ⟨hc, rfl⟩

theorem unexpired_step {δ : Type} {m : Mem} {handle : BitVec 32} {serve : δ → EncapsPacket → δ × EncapsPacket}
    (hs : ∀ d p, WellFormed (serve d p).2) {s s' : Sys δ} {a : Act} (hi : RepliesInv handle (unexpired s))
    (h : step m handle serve s a = some s') (hw : WholeReplies s a) (hb : BetweenReplies s a) : RepliesInv handle (unexpired s') := by
  cases a with
  | timeout i =>
    obtain ⟨h1, rfl⟩ := timeout_shape h
    obtain ⟨hok, hle, hres, hwf, i0, hinc, hoth⟩ := hi
    have hb' : midReply (s.thr i).phase = false := hb
    have e : unexpired { s with
          thr := Threads.set s.thr i { s.thr i with phase := .idle },
          ended := s.ended ++ [(i, .throw (.system eagain))] } =
        { unexpired s with thr := Threads.set s.thr i { s.thr i with phase := .idle } } := by
      unfold unexpired
      dsimp only
      rw [List.filter_append]
      have : ([(i, Outcome.throw (Exn.system eagain))] : List (Nat × Outcome EncapsPacket)).filter (fun e => !expired e.2) = [] := rfl
      rw [this, List.append_nil]
    rw [e]
    refine ⟨?_, hle, hres, hwf, i0, ?_, ?_⟩
    · intro j
      by_cases hj : j = i
      · subst hj; simp only [set_self]; trivial
      · simp only [set_other _ _ _ _ hj]; exact hok j
    · rw [← hinc]
      by_cases hj : i0 = i
      · subst hj; simp only [set_self]; rw [show (unexpired s).thr = s.thr from rfl, partOf_nil hb']; rfl
      · simp only [set_other _ _ _ _ hj]; rfl
    · intro j hj
      by_cases hji : j = i
      · subst hji; simp only [set_self]; rfl
      · simp only [set_other _ _ _ _ hji]; exact hoth j hj
  | send i =>
    obtain ⟨p, rest, h1, h2, rfl⟩ := send_shape h
    have h' : step m handle serve (unexpired s) (.send i) = some { unexpired s with
        dev := (serve s.dev p).1, inc := s.inc ++ (serve s.dev p).2.pack,
        thr := Threads.set s.thr i ⟨rest, .header []⟩, served := s.served ++ [(i, p, (serve s.dev p).2)] } := by
      simp only [step, unexpired, h1, h2]
    exact repliesInv_step hs hi h' hw (fun j hj => by cases hj)
  | recv i k =>
    obtain ⟨hc, hcase⟩ := recv_shape h
    obtain ⟨ph, hph, rfl⟩ | ⟨r, hr, rfl⟩ := hcase
    · have h' : step m handle serve (unexpired s) (.recv i k) = some { unexpired s with
          inc := s.inc.drop k, thr := Threads.set s.thr i { s.thr i with phase := ph } } := by
        refine (if_pos hc).trans ?_
        rw [show advance m handle ((unexpired s).inc.take k) ((unexpired s).thr i).phase = _ from hph]
        rfl
      exact repliesInv_step hs hi h' hw (fun j hj => by cases hj)
    · have h' : step m handle serve (unexpired s) (.recv i k) = some { unexpired s with
          inc := s.inc.drop k, thr := Threads.set s.thr i { s.thr i with phase := .idle },
          ended := (unexpired s).ended ++ [(i, r)] } := by
        refine (if_pos hc).trans ?_
        rw [show advance m handle ((unexpired s).inc.take k) ((unexpired s).thr i).phase = _ from hr]
        rfl
      have hi' := repliesInv_step hs hi h' hw (fun j hj => by cases hj)
      have hr' : expired r = false := by
        have h1 : r ∈ ((unexpired s).ended ++ [(i, r)]).map Prod.snd := List.mem_map.mpr ⟨(i, r), by simp, rfl⟩
        have h2 := hi'.res
        dsimp only at h2
        rw [h2] at h1
        obtain ⟨e, _, rfl⟩ := List.mem_map.mp h1
        exact gives_unexpired _ _
      have e : unexpired { s with inc := s.inc.drop k, thr := Threads.set s.thr i { s.thr i with phase := .idle }, ended := s.ended ++ [(i, r)] } =
          { unexpired s with
            inc := s.inc.drop k, thr := Threads.set s.thr i { s.thr i with phase := .idle },
            ended := (unexpired s).ended ++ [(i, r)] } := by
        unfold unexpired
        dsimp only
        rw [List.filter_append, List.filter_cons_of_pos (by rw [hr']; rfl), List.filter_nil]
      rw [e]
      exact hi'

theorem unexpired_run {δ : Type} {m : Mem} {handle : BitVec 32} {serve : δ → EncapsPacket → δ × EncapsPacket}
    (hs : ∀ d p, WellFormed (serve d p).2) (as : List Act) : ∀ (s t : Sys δ), RepliesInv handle (unexpired s) →
    run m handle serve s as = some t → Always m handle serve WholeReplies s as → Always m handle serve BetweenReplies s as →
    RepliesInv handle (unexpired t) := by
  induction as with
  | nil => intro s t hi h _ _; cases h; exact hi
  | cons a as ih =>
    intro s t hi h hw hb
    obtain ⟨s', h1, h2⟩ := schedule_cons h
    exact ih s' t (unexpired_step hs hi h1 hw.1 hb.1) h2 (hw.2 s' h1) (hb.2 s' h1)

/-- What is at a place of the list, seen from a filtered list. -/
theorem filter_at {α : Type} (f : α → Bool) (l : List α) : ∀ (k : Nat) (x : α), l[k]? = some x → f x = true →
    (l.filter f)[k - (l.take k).countP fun y => !f y]? = some x ∧ (l.take k).countP (fun y => !f y) ≤ k := by
  induction l with
  | nil => intro k x h; simp at h
  | cons y l ih =>
    intro k x h hx
    cases k with
    | zero =>
      simp only [List.getElem?_cons_zero, Option.some.injEq] at h
      subst h
      simp [hx]
    | succ k =>
      simp only [List.getElem?_cons_succ] at h
      obtain ⟨h1, h2⟩ := ih k x h hx
      cases hy : f y with
      | true =>
        rw [List.filter_cons_of_pos hy, List.take_succ_cons, List.countP_cons_of_neg (by simp [hy])]
        refine ⟨?_, by omega⟩
        rw [show k + 1 - (l.take k).countP (fun y => !f y) = (k - (l.take k).countP (fun y => !f y)) + 1 by omega, List.getElem?_cons_succ]
        exact h1
      | false =>
        rw [List.filter_cons_of_neg (by simp [hy]), List.take_succ_cons, List.countP_cons_of_pos (by simp [hy])]
        refine ⟨?_, by omega⟩
        rw [show k + 1 - ((l.take k).countP (fun y => !f y) + 1) = k - (l.take k).countP (fun y => !f y) by omega]
        exact h1

theorem ended_at {δ : Type} {handle : BitVec 32} {s : Sys δ} (hi : RepliesInv handle (unexpired s)) {k i : Nat} {r : Outcome EncapsPacket}
    (hk : s.ended[k]? = some (i, r)) (hr : expired r = false) :
    expiredBefore k s.ended ≤ k ∧ ∃ e, s.served[k - expiredBefore k s.ended]? = some e ∧ r = gives handle e.2.2 := by
  obtain ⟨h1, h2⟩ := filter_at (fun e : Nat × Outcome EncapsPacket => !expired e.2) s.ended k (i, r) hk (by simp [hr])
  simp only [Bool.not_not] at h1 h2
  refine ⟨h2, ?_⟩
  have hres : (unexpired s).ended.map Prod.snd = (s.served.take (unexpired s).ended.length).map (fun e => gives handle e.2.2) := hi.res
  have hle : (unexpired s).ended.length ≤ s.served.length := hi.le
  have hlt : k - expiredBefore k s.ended < (unexpired s).ended.length := (List.getElem?_eq_some_iff.mp h1).1
  have hlt' : k - expiredBefore k s.ended < s.served.length := Nat.lt_of_lt_of_le hlt hle
  refine ⟨_, List.getElem?_eq_getElem hlt', ?_⟩
  have h3 := congrArg (fun l => l[k - expiredBefore k s.ended]?) hres
  have h1' : (unexpired s).ended[k - expiredBefore k s.ended]? = some (i, r) := h1
  simp only [List.getElem?_map, h1', Option.map_some, List.getElem?_take] at h3
  rw [if_pos hlt, List.getElem?_eq_getElem hlt', Option.map_some, Option.some.injEq] at h3
  exact h3

theorem lockInv_any {δ : Type} {m : Mem} {handle : BitVec 32} {serve : δ → EncapsPacket → δ × EncapsPacket}
    {s s' : Sys δ} {a : Act} (hi : LockInv s) (h : step m handle serve s a = some s') (hl : Locked s a) : LockInv s' ∧ WholeReplies s a := by
  cases a with
  | send i => exact lockInv_step hi h hl fun j hj => by cases hj
  | recv i k => exact lockInv_step hi h hl fun j hj => by cases hj
  | timeout i =>
    obtain ⟨h1, rfl⟩ := timeout_shape h
    obtain ⟨i0, hoth, hser⟩ := hi
    have hii : i = i0 := Decidable.byContradiction fun hne => h1 (hoth i hne)
    subst hii
    rw [if_neg h1] at hser
    refine ⟨⟨i, fun j hj => by simp only [set_other _ _ _ _ hj]; exact hoth j hj, ?_⟩, trivial⟩
    simp only [set_self, if_true, List.append_nil, List.map_append, List.map_cons, List.map_nil, hser]

theorem lockInv_any_run {δ : Type} {m : Mem} {handle : BitVec 32} {serve : δ → EncapsPacket → δ × EncapsPacket} (as : List Act) :
    ∀ (s t : Sys δ), LockInv s → run m handle serve s as = some t → Always m handle serve Locked s as →
    LockInv t ∧ Always m handle serve WholeReplies s as := by
  induction as with
  | nil => intro s t hl h _; cases h; exact ⟨hl, trivial⟩
  | cons a as ih =>
    intro s t hl h hw
    obtain ⟨s', h1, h2⟩ := schedule_cons h
    obtain ⟨l1, l2⟩ := lockInv_any hl h1 hw.1
    obtain ⟨l3, l4⟩ := ih s' t l1 h2 (hw.2 s' h1)
    refine ⟨l3, l2, fun s'' h3 => ?_⟩
    rw [h1] at h3
    cases h3
    exact l4

/-- C100. Late replies, if only one thread at a time makes a call: the call that ends as the `k`-th is about the request sent as the
`k`-th, but its result is the reply to the request that was sent as many calls earlier as calls have ended with a timeout, whichever
threads made them.  So a call gets its own reply as long as no call of any thread has timed out. -/
theorem C100_late {δ : Type} (m : Mem) (handle : BitVec 32) (serve : δ → EncapsPacket → δ × EncapsPacket)
    (hs : ∀ d p, WellFormed (serve d p).2) (dev : δ) (todo : Nat → List EncapsPacket) (as : List Act) (s : Sys δ)
    (h : run m handle serve (start dev todo) as = some s)
    (hl : Always m handle serve Locked (start dev todo) as) (hb : Always m handle serve BetweenReplies (start dev todo) as)
    (k i : Nat) (r : Outcome EncapsPacket) (hk : s.ended[k]? = some (i, r)) :
    (∃ request own, s.served[k]? = some (i, request, own)) ∧
    (expired r = false → expiredBefore k s.ended ≤ k ∧
      ∃ j request reply, s.served[k - expiredBefore k s.ended]? = some (j, request, reply) ∧ r = gives handle reply) := by
  obtain ⟨⟨i0, _, hser⟩, hw⟩ := lockInv_any_run as _ _ ⟨⟨0, fun _ _ => rfl, rfl⟩⟩ h hl
  refine ⟨?_, fun hr => ?_⟩
  · have hlt := (List.getElem?_eq_some_iff.mp hk).1
    have h0 := congrArg (fun l => l[k]?) hser
    simp only [List.getElem?_map] at h0
    rw [List.getElem?_append_left (by rw [List.length_map]; exact hlt), List.getElem?_map, hk, Option.map_some] at h0
    obtain ⟨⟨j, q, p⟩, h1, h2⟩ := Option.map_eq_some_iff.mp h0
    dsimp only at h2
    rw [h2] at h1
    exact ⟨q, p, h1⟩
  · obtain ⟨h1, ⟨j, q, p⟩, h2, h3⟩ := ended_at (unexpired_run hs as _ _ (repliesInv_start handle dev todo) h hw hb) hk hr
    exact ⟨h1, j, q, p, h2, h3⟩

/-- C100 violated: a lock does not keep late replies apart. The call of thread 0 times out before its reply comes; thread 1, which takes
the lock then, gets that reply as its own. -/
theorem C100_late_violated :
    returned (run Mem.strict 7#32 echoPeer (start 0 echoTodo) [.send 0, .timeout 0, .send 1, .recv 1 24, .recv 1 2]) =
      some [(0, none), (1, some [1, 2])] ∧
    Always Mem.strict 7#32 echoPeer Locked (start 0 echoTodo) [.send 0, .timeout 0, .send 1, .recv 1 24, .recv 1 2] ∧
    Always Mem.strict 7#32 echoPeer BetweenReplies (start 0 echoTodo) [.send 0, .timeout 0, .send 1, .recv 1 24, .recv 1 2] := by
  refine ⟨by decide +kernel, always_of 2 _ (lockTest 2) (lockTest_ok 2) _ _ echoTodo_two (by decide +kernel), ?_⟩
  refine always_of 2 _ (fun s a => match a with
    | .timeout i => !midReply (s.thr i).phase
    | _ => true) (fun s a _ h => ?_) _ _ echoTodo_two (by decide +kernel)
  cases a with
  | timeout i => simpa [BetweenReplies] using h
  | send i => trivial
  | recv i k => trivial

/-- C100 violated: if the timeout expires in the middle of a reply, the next call of another thread takes the rest of it for a header. -/
theorem C100_half_violated :
    returned (run Mem.strict 7#32 echoPeer (start 0 fun | 0 => [echoRequest headerLike] | 1 => [echoRequest [3]] | _ => [])
      [.send 0, .recv 0 24, .timeout 0, .send 1, .recv 1 24, .recv 1 1]) =
      some [(0, none), (1, some [0x6f])] := by
  decide +kernel

end Verif.Props
