import Verif.Model.Link
import Verif.Lemmas.Reader

/-!
# Lemmas about requests to a device
-/

namespace Verif

variable {δ : Type}

theorem ask_ok {D : Device δ} {r : Req} {L : Link δ} {d : δ} {resp : MessageRouterResponse}
    (h : D.answer r L.dev = .ok d resp) : ask D r L = .ok ⟨d, L.sent ++ [r]⟩ resp := by
  unfold ask; rw [h]
theorem ask_throw {D : Device δ} {r : Req} {L : Link δ} {d : δ} {e : Exn}
    (h : D.answer r L.dev = .throw d e) : ask D r L = .throw ⟨d, L.sent ++ [r]⟩ e := by
  unfold ask; rw [h]
theorem ask_ub {D : Device δ} {r : Req} {L : Link δ} (h : D.answer r L.dev = .ub) : ask D r L = .ub := by
  unfold ask; rw [h]

theorem onLink_ok {ο : Type} {p : Prog (Link δ) α} {o : ο} {L L' : Link δ} {a : α} (h : p L = .ok L' a) :
    onLink p (o, L) = .ok (o, L') a := by
  unfold onLink; simp only; rw [h]
theorem onLink_throw {ο : Type} {p : Prog (Link δ) α} {o : ο} {L L' : Link δ} {e : Exn} (h : p L = .throw L' e) :
    onLink p (o, L) = .throw (o, L') e := by
  unfold onLink; simp only; rw [h]
theorem onLink_ub {ο : Type} {p : Prog (Link δ) α} {o : ο} {L : Link δ} (h : p L = .ub) : onLink p (o, L) = .ub := by
  unfold onLink; simp only; rw [h]

theorem Rd.from_ok {m : Mem} {x : Rd α} {data : List Byte} {a : α} {b : Buffer}
    (h : x m (Buffer.ofData data) = .ok (a, b)) : x.from m data = .ok a := by
  unfold Rd.from; rw [h]
theorem Rd.from_ub {m : Mem} {x : Rd α} {data : List Byte} (h : x m (Buffer.ofData data) = .ub) : x.from m data = .ub := by
  unfold Rd.from; rw [h]

/-- Whatever `p` does from `L`, the requests it makes satisfy `Q`. -/
def Makes (p : Prog (Link δ) α) (L : Link δ) (Q : List Req → Prop) : Prop :=
  (∀ L' a, p L = .ok L' a → ∃ tr, L'.sent = L.sent ++ tr ∧ Q tr) ∧
  (∀ L' e, p L = .throw L' e → ∃ tr, L'.sent = L.sent ++ tr ∧ Q tr)

theorem Makes.mono {p : Prog (Link δ) α} {L : Link δ} {Q R : List Req → Prop} (h : Makes p L Q) (hq : ∀ tr, Q tr → R tr) :
    Makes p L R :=
  ⟨fun L' a e => let ⟨tr, h1, h2⟩ := h.1 L' a e; ⟨tr, h1, hq tr h2⟩,
   fun L' a e => let ⟨tr, h1, h2⟩ := h.2 L' a e; ⟨tr, h1, hq tr h2⟩⟩

theorem Makes.ub {p : Prog (Link δ) α} {L : Link δ} {Q : List Req → Prop} (h : p L = .ub) : Makes p L Q :=
  ⟨fun _ _ e => (by rw [h] at e; cases e), fun _ _ e => (by rw [h] at e; cases e)⟩

theorem Makes.pure (a : α) (L : Link δ) {Q : List Req → Prop} (hq : Q []) : Makes (Pure.pure a : Prog (Link δ) α) L Q := by
  refine ⟨fun L' a' e => ?_, fun _ _ e => (by cases e)⟩
  injection e with h _; exact ⟨[], by rw [← h, List.append_nil], hq⟩

theorem Makes.throw (x : Exn) (L : Link δ) {Q : List Req → Prop} (hq : Q []) : Makes (Prog.throw x : Prog (Link δ) α) L Q := by
  refine ⟨fun _ _ e => (by cases e), fun L' a' e => ?_⟩
  injection e with h _; exact ⟨[], by rw [← h, List.append_nil], hq⟩

theorem Makes.lift (x : Outcome α) (L : Link δ) {Q : List Req → Prop} (hq : Q []) : Makes (Prog.lift x : Prog (Link δ) α) L Q := by
  cases x with
  | ok a => exact Makes.pure a L hq
  | throw e => exact Makes.throw e L hq
  | ub => exact Makes.ub rfl

/-- A request followed by something. -/
theorem Makes.ask {D : Device δ} {r : Req} {f : MessageRouterResponse → Prog (Link δ) α} {L : Link δ}
    {Q : List Req → Prop} (h0 : Q [r]) (hf : ∀ L' resp, Makes (f resp) L' fun tr => Q (r :: tr)) :
    Makes (Verif.ask D r >>= f) L Q := by
  cases ha : D.answer r L.dev with
  | ub => exact Makes.ub (Prog.bind_ub (ask_ub ha))
  | throw d e =>
    refine ⟨fun _ _ h => ?_, fun L' e' h => ?_⟩
    · rw [Prog.bind_throw (ask_throw ha)] at h; cases h
    · rw [Prog.bind_throw (ask_throw ha)] at h
      injection h with h _; exact ⟨[r], by rw [← h], h0⟩
  | ok d resp =>
    obtain ⟨h1, h2⟩ := hf ⟨d, L.sent ++ [r]⟩ resp
    refine ⟨fun L' a h => ?_, fun L' e h => ?_⟩
    · rw [Prog.bind_ok (ask_ok ha)] at h
      obtain ⟨tr, h3, h4⟩ := h1 _ _ h
      exact ⟨r :: tr, by rw [h3]; simp, h4⟩
    · rw [Prog.bind_ok (ask_ok ha)] at h
      obtain ⟨tr, h3, h4⟩ := h2 _ _ h
      exact ⟨r :: tr, by rw [h3]; simp, h4⟩

/-- Something without requests followed by something. -/
theorem Makes.lift_bind {x : Outcome α} {f : α → Prog (Link δ) β} {L : Link δ} {Q : List Req → Prop} (hq : Q [])
    (hf : ∀ a, Makes (f a) L Q) : Makes (Prog.lift x >>= f) L Q := by
  cases x with
  | ok a => have := hf a; exact this
  | throw e => exact Makes.throw e L hq
  | ub => exact Makes.ub rfl

theorem Makes.ite {c : Prop} [Decidable c] {x y : Prog (Link δ) α} {L : Link δ} {Q : List Req → Prop}
    (hx : c → Makes x L Q) (hy : ¬ c → Makes y L Q) : Makes (if c then x else y) L Q := by
  split
  · exact hx ‹_›
  · exact hy ‹_›

/-- The requests made, separately for returning (with the result) and throwing. -/
def Does (p : Prog (Link δ) α) (L : Link δ) (Q : α → List Req → Prop) (R : List Req → Prop) : Prop :=
  (∀ L' a, p L = .ok L' a → ∃ tr, L'.sent = L.sent ++ tr ∧ Q a tr) ∧
  (∀ L' e, p L = .throw L' e → ∃ tr, L'.sent = L.sent ++ tr ∧ R tr)

theorem Does.ub {p : Prog (Link δ) α} {L : Link δ} {Q R} (h : p L = .ub) : Does p L Q R :=
  ⟨fun _ _ e => (by rw [h] at e; cases e), fun _ _ e => (by rw [h] at e; cases e)⟩

theorem Does.pure {a : α} {L : Link δ} {Q R} (hq : Q a []) : Does (Pure.pure a : Prog (Link δ) α) L Q R := by
  refine ⟨fun L' a' e => ?_, fun _ _ e => (by cases e)⟩
  injection e with h h'; subst h'; exact ⟨[], by rw [← h, List.append_nil], hq⟩

theorem Does.throw {x : Exn} {L : Link δ} {Q R} (hr : R []) : Does (Prog.throw x : Prog (Link δ) α) L Q R := by
  refine ⟨fun _ _ e => (by cases e), fun L' a' e => ?_⟩
  injection e with h _; exact ⟨[], by rw [← h, List.append_nil], hr⟩

theorem Does.lift {x : Outcome α} {L : Link δ} {Q R} (hq : ∀ a, x = .ok a → Q a []) (hr : R []) :
    Does (Prog.lift x : Prog (Link δ) α) L Q R := by
  cases x with
  | ok a => exact Does.pure (hq a rfl)
  | throw e => exact Does.throw hr
  | ub => exact Does.ub rfl

theorem Does.ask {D : Device δ} {r : Req} {L : Link δ} : Does (Verif.ask D r) L (fun _ tr => tr = [r]) (· = [r]) := by
  cases ha : D.answer r L.dev with
  | ub => exact Does.ub (ask_ub ha)
  | throw d e =>
    refine ⟨fun _ _ h => ?_, fun L' e' h => ?_⟩
    · rw [ask_throw ha] at h; cases h
    · rw [ask_throw ha] at h
      injection h with h _; exact ⟨[r], by rw [← h], rfl⟩
  | ok d resp =>
    refine ⟨fun L' e' h => ?_, fun _ _ h => ?_⟩
    · rw [ask_ok ha] at h
      injection h with h _; exact ⟨[r], by rw [← h], rfl⟩
    · rw [ask_ok ha] at h; cases h

theorem Does.bind {x : Prog (Link δ) α} {f : α → Prog (Link δ) β} {L : Link δ} {A B Q R}
    (hx : Does x L A B) (hB : ∀ tr, B tr → R tr)
    (hf : ∀ L' a tr, A a tr → Does (f a) L' (fun b t => Q b (tr ++ t)) (fun t => R (tr ++ t))) :
    Does (x >>= f) L Q R := by
  cases h : x L with
  | ub => exact Does.ub (Prog.bind_ub h)
  | throw L1 e =>
    refine ⟨fun _ _ h' => (by rw [Prog.bind_throw h] at h'; cases h'), fun L' e' h' => ?_⟩
    rw [Prog.bind_throw h] at h'
    injection h' with h' _
    obtain ⟨tr, h1, h2⟩ := hx.2 _ _ h
    exact ⟨tr, by rw [← h', h1], hB tr h2⟩
  | ok L1 a =>
    obtain ⟨tr, h1, h2⟩ := hx.1 _ _ h
    obtain ⟨h3, h4⟩ := hf L1 a tr h2
    refine ⟨fun L' b h' => ?_, fun L' e h' => ?_⟩
    · rw [Prog.bind_ok h] at h'
      obtain ⟨t, h5, h6⟩ := h3 _ _ h'
      exact ⟨tr ++ t, by rw [h5, h1, List.append_assoc], h6⟩
    · rw [Prog.bind_ok h] at h'
      obtain ⟨t, h5, h6⟩ := h4 _ _ h'
      exact ⟨tr ++ t, by rw [h5, h1, List.append_assoc], h6⟩

theorem Does.ite {c : Prop} [Decidable c] {x y : Prog (Link δ) α} {L : Link δ} {Q R}
    (hx : c → Does x L Q R) (hy : ¬ c → Does y L Q R) : Does (if c then x else y) L Q R := by
  split
  · exact hx ‹_›
  · exact hy ‹_›

theorem Does.mono {p : Prog (Link δ) α} {L : Link δ} {A B Q R} (h : Does p L A B)
    (hq : ∀ a tr, A a tr → Q a tr) (hr : ∀ tr, B tr → R tr) : Does p L Q R :=
  ⟨fun L' a e => let ⟨tr, h1, h2⟩ := h.1 L' a e; ⟨tr, h1, hq a tr h2⟩,
   fun L' a e => let ⟨tr, h1, h2⟩ := h.2 L' a e; ⟨tr, h1, hr tr h2⟩⟩

end Verif
