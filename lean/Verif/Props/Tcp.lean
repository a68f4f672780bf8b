import Verif.Model.Tcp
import Verif.Spec.Net
import Verif.Props.Encaps

/-!
# Properties C21–C26, C71, C72 (TCP socket and session)
-/

namespace Verif.Props

open Verif Verif.Spec

theorem recvLoop_enough (net : List NetEv) (k : Nat) (got : List Byte) (h : k ≤ (stream net).1.length) :
    ∃ net', Tcp.recvLoop k got net = .done (got ++ (stream net).1.take k) net' ∧
      stream net' = ((stream net).1.drop k, (stream net).2) := by
  induction net generalizing k got with
  | nil =>
    have : k = 0 := by simpa [stream] using h
    subst this
    exact ⟨[], by simp [Tcp.recvLoop], by simp⟩
  | cons ev net ih =>
    by_cases hk : k = 0
    · subst hk
      exact ⟨ev :: net, by simp [Tcp.recvLoop], by simp⟩
    · cases ev with
      | eintr =>
        obtain ⟨net', h1, h2⟩ := ih k got (by simpa [stream] using h)
        exact ⟨net', by simpa [Tcp.recvLoop, hk, stream] using h1, by simpa [stream] using h2⟩
      | err c => simp [stream] at h; omega
      | eof => simp [stream] at h; omega
      | seg b bs =>
        simp only [stream] at h ⊢
        by_cases hlt : k < (b :: bs).length
        · simp only [Tcp.recvLoop, if_neg hk, if_pos hlt]
          have hd : (b :: bs).drop k ≠ [] := by
            intro e; have := congrArg List.length e; simp at this hlt; omega
          have et : (b :: (bs ++ (stream net).1)).take k = (b :: bs).take k := by
            rw [← List.cons_append, List.take_append_of_le_length (by omega)]
          have ed : (b :: (bs ++ (stream net).1)).drop k = (b :: bs).drop k ++ (stream net).1 := by
            rw [← List.cons_append, List.drop_append_of_le_length (by omega)]
          cases hc : (b :: bs).drop k with
          | nil => exact absurd hc hd
          | cons c cs =>
            refine ⟨.seg c cs :: net, by simp only [et], ?_⟩
            rw [ed, hc]; rfl
        · simp only [Tcp.recvLoop, if_neg hk, if_neg hlt]
          simp only [Nat.not_lt] at hlt
          obtain ⟨net', h1, h2⟩ := ih (k - (b :: bs).length) (got ++ b :: bs) (by
            simp at h hlt ⊢; omega)
          refine ⟨net', ?_, ?_⟩
          · rw [h1, ← List.cons_append, List.take_append, List.take_of_length_le hlt, List.append_assoc]
          · rw [h2, ← List.cons_append, List.drop_append, List.drop_eq_nil_of_le hlt, List.nil_append]

theorem recvLoop_short (net : List NetEv) (k : Nat) (got : List Byte) (h : (stream net).1.length < k) :
    match (stream net).2 with
    | .closed => ∃ net', Tcp.recvLoop k got net = .done (got ++ (stream net).1) net' ∧
        stream net' = ([], .closed)
    | .quiet => Tcp.recvLoop k got net = .failed eagain []
    | .failed c => ∃ net', Tcp.recvLoop k got net = .failed c net' := by
  induction net generalizing k got with
  | nil => simp only [stream] at h ⊢; simp at h; simp [Tcp.recvLoop]; omega
  | cons ev net ih =>
    have hk : k ≠ 0 := by omega
    cases ev with
    | eintr =>
      have := ih k got (by simpa [stream] using h)
      simpa [Tcp.recvLoop, hk, stream] using this
    | err c => exact ⟨net, by simp [Tcp.recvLoop, hk]⟩
    | eof => exact ⟨.eof :: net, by simp [Tcp.recvLoop, hk, stream], by simp [stream]⟩
    | seg b bs =>
      simp only [stream] at h ⊢
      have hge : ¬ k < (b :: bs).length := by simp at h ⊢; omega
      have := ih (k - (b :: bs).length) (got ++ b :: bs) (by simp at h ⊢; omega)
      simp only [Tcp.recvLoop, if_neg hk, if_neg hge]
      simpa [List.append_assoc] using this

/-! ## C21, C24: receiving -/

/-- C21. If the peer's stream has at least `n` more bytes, `Receive(n)` returns
exactly the next `n` bytes, whatever the segmentation and the interruptions, and
consumes exactly these. -/
theorem C21_receive (n : Nat) (s : Tcp) (h : n ≤ (stream s.net).1.length) :
    ∃ net', Tcp.receive n s = .ok { s with net := net' } ((stream s.net).1.take n) ∧
      stream net' = ((stream s.net).1.drop n, (stream s.net).2) := by
  obtain ⟨net', h1, h2⟩ := recvLoop_enough s.net n [] h
  refine ⟨net', ?_, h2⟩
  simp only [Tcp.receive, h1, List.nil_append, List.length_take]
  rw [Nat.min_eq_left h]; simp

/-- The same stream cut differently into segments, with interruptions. -/
example : stream [.seg 1#8 [2#8], .eintr, .seg 3#8 []] = stream [.seg 1#8 [], .seg 2#8 [3#8]] ∧
    2 ≤ (stream [.seg 1#8 [2#8], .eintr, .seg 3#8 []]).1.length := by decide

/-- C24. `Receive(n)` on every stream.  If the stream ends too early, the result
depends on how: when the peer closed, the bytes that came followed by zeros are
returned as if they had arrived; a timeout or an error throws. -/
theorem C24_receive_short (n : Nat) (s : Tcp) (h : (stream s.net).1.length < n) :
    match (stream s.net).2 with
    | .closed => ∃ net', Tcp.receive n s = .ok { s with net := net' }
          ((stream s.net).1 ++ List.replicate (n - (stream s.net).1.length) 0#8) ∧
        stream net' = ([], .closed)
    | .quiet => Tcp.receive n s = .throw { s with net := [] } (.system eagain)
    | .failed c => ∃ net', Tcp.receive n s = .throw { s with net := net' } (.system c) := by
  have := recvLoop_short s.net n [] h
  cases he : (stream s.net).2 with
  | closed =>
    rw [he] at this
    obtain ⟨net', h1, h2⟩ := this
    exact ⟨net', by simp [Tcp.receive, h1], h2⟩
  | quiet => rw [he] at this; simp only at this ⊢; simp [Tcp.receive, this]
  | failed c =>
    rw [he] at this
    obtain ⟨net', h1⟩ := this
    exact ⟨net', by simp [Tcp.receive, h1]⟩

/-- What a call gave to its caller, without the state. -/
def result {σ α : Type} : Res σ α → Outcome α
  | .ok _ a => .ok a
  | .throw _ e => .throw e
  | .ub => .ub

/-- C21. Two sockets whose peers sent the same stream behave the same. -/
theorem C21_same_stream (n : Nat) (s t : Tcp) (h : stream s.net = stream t.net) :
    result (Tcp.receive n s) = result (Tcp.receive n t) := by
  by_cases hn : n ≤ (stream s.net).1.length
  · obtain ⟨_, h1, _⟩ := C21_receive n s hn
    obtain ⟨_, h2, _⟩ := C21_receive n t (by rwa [← h])
    rw [h1, h2, h]; rfl
  · have h1 := C24_receive_short n s (by omega)
    have h2 := C24_receive_short n t (by rw [← h]; omega)
    rw [← h] at h2
    cases he : (stream s.net).2 with
    | closed =>
      rw [he] at h1 h2; obtain ⟨_, h1, _⟩ := h1; obtain ⟨_, h2, _⟩ := h2
      rw [h1, h2]; rfl
    | quiet => rw [he] at h1 h2; simp only at h1 h2; rw [h1, h2]; rfl
    | failed c =>
      rw [he] at h1 h2; obtain ⟨_, h1⟩ := h1; obtain ⟨_, h2⟩ := h2
      rw [h1, h2]; rfl

/-- A normal return of `Receive` is always the zero-padded prefix of the stream,
and the stream goes on after it. -/
theorem receive_ok (n : Nat) (s s' : Tcp) (bs : List Byte) (h : Tcp.receive n s = .ok s' bs) :
    bs = padTake n (stream s.net).1 ∧ (stream s'.net).1 = (stream s.net).1.drop n ∧
    s'.sent = s.sent ∧ s'.sends = s.sends := by
  by_cases hn : n ≤ (stream s.net).1.length
  · obtain ⟨net', h1, h2⟩ := C21_receive n s hn
    rw [h1] at h
    injection h with e1 e2
    subst e1 e2
    refine ⟨?_, by rw [h2], rfl, rfl⟩
    simp [padTake, Nat.sub_eq_zero_of_le hn]
  · have h1 := C24_receive_short n s (by omega)
    cases he : (stream s.net).2 with
    | closed =>
      rw [he] at h1; obtain ⟨net', h1, h2⟩ := h1
      rw [h1] at h
      injection h with e1 e2
      subst e1 e2
      refine ⟨?_, by simp only [h2]; rw [List.drop_eq_nil_of_le (by omega)], rfl, rfl⟩
      rw [padTake, List.take_of_length_le (by omega)]
    | quiet => rw [he] at h1; simp only at h1; rw [h1] at h; cases h
    | failed c => rw [he] at h1; obtain ⟨_, h1⟩ := h1; rw [h1] at h; cases h

/-! ## C26: sending -/

/-- C26. `Send` throws exactly when the system call accepted some but not all
bytes; a result of `-1` (any error) counts as success.  `count` is what the
system call returns: `-1` or a number of bytes. -/
theorem C26_send (s : Tcp) (data : List Byte) (count : Int) (rest : List Int)
    (hs : s.sends = count :: rest) (hc : -1 ≤ count) (hd : data.length < 2 ^ 63) (hm : count ≤ data.length) :
    ((∃ s' e, Tcp.send data s = .throw s' e) ↔ 0 ≤ count ∧ count < data.length) ∧
    (count = -1 → Tcp.send data s = .ok { s with sends := rest, sent := s.sent ++ [[]] } ()) := by
  have hv : (BitVec.ofInt 64 count).toNat = if 0 ≤ count then count.toNat else 2 ^ 64 - 1 := by
    rw [BitVec.toNat_ofInt]
    split
    · rw [Int.emod_eq_of_lt (by omega) (by simp; omega)]
    · have : count = -1 := by omega
      subst this; rfl
  unfold Tcp.send
  simp only [hs, List.headD_cons, List.tail_cons, hv]
  constructor
  · by_cases h0 : 0 ≤ count
    · simp only [if_pos h0]
      by_cases hl : count.toNat < data.length
      · simp only [if_pos hl]
        exact ⟨fun _ => ⟨h0, by omega⟩, fun _ => ⟨_, _, rfl⟩⟩
      · simp only [if_neg hl]
        constructor
        · rintro ⟨_, _, h⟩; cases h
        · intro h; omega
    · simp only [if_neg h0]
      rw [if_neg (by omega)]
      constructor
      · rintro ⟨_, _, h⟩; cases h
      · intro h; omega
  · rintro rfl
    simp only [show ¬ (0 : Int) ≤ -1 by omega, if_false]
    rw [if_neg (by omega)]
    simp

/-- C26. The claim "Send returns only when all bytes were handed over" is false:
the system call fails, no byte leaves, and `Send` returns. -/
theorem C26_reports_failure_violated :
    ∃ (s : Tcp) (data : List Byte) (s' : Tcp), data ≠ [] ∧ s.sends = [-1] ∧
      Tcp.send data s = .ok s' () ∧ s'.sent = [[]] :=
  ⟨⟨[], [-1], []⟩, [1#8, 2#8], ⟨[], [], [[]]⟩, by decide, rfl, by decide, rfl⟩

/-- C26. A partial acceptance is reported. -/
example : ∃ s', Tcp.send [1#8, 2#8, 3#8] ⟨[], [2], []⟩ = .throw s' (.system 0) :=
  ⟨⟨[], [], [[1#8, 2#8]]⟩, by decide⟩

/-- When the system accepts everything (an empty script of exceptions) `Send` returns. -/
theorem send_all (s : Tcp) (data : List Byte) (hs : s.sends = []) (hd : data.length < 2 ^ 63) :
    Tcp.send data s = .ok { s with sent := s.sent ++ [data] } () := by
  unfold Tcp.send
  have : (BitVec.ofInt 64 (data.length : Int)).toNat = data.length := by
    rw [BitVec.toNat_ofInt, Int.emod_eq_of_lt (by omega) (by simp; omega)]; simp
  simp only [hs, List.headD_nil, this, Nat.lt_irrefl, if_false, List.tail_nil, Int.toNat_natCast,
    List.take_length]

end Verif.Props
