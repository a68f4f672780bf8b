import Verif.Props.RequestTime
import Verif.Props.ObjectEnds
import Verif.Props.EndToEnd
import Verif.Spec.LinkTime
import Verif.Model.File
import Verif.Model.Parameter
import Verif.Model.PowerFlex
import Verif.Model.Identity

/-!
# Property C90: how long the operations of objects take
-/

namespace Verif.Props

open Verif Verif.Spec

/-! ## One request, when everything comes in time -/

/-- The same end without times, and what is left still comes in time. -/
def SameEnd {α : Type} (t : Nat) (x : TRes α) (y : Res Tcp α) : Prop :=
  match x with
  | .ok s a => y = .ok s.plain a ∧ Prompt t s.now s.net
  | .throw s e => y = .throw s.plain e ∧ Prompt t s.now s.net
  | .ub => y = .ub
  | .hangs => False

theorem tloop_same (t : Nat) (net : List (Nat × NetEv)) (k : Nat) (got : List Byte) (now : Nat) (hp : Prompt t now net) :
    match TTcp.recvLoop (some t) k got now net with
    | .done got' net' now' => Tcp.recvLoop k got (net.map (·.2)) = .done got' (net'.map (·.2)) ∧ Prompt t now' net'
    | .failed c net' now' => Tcp.recvLoop k got (net.map (·.2)) = .failed c (net'.map (·.2)) ∧ Prompt t now' net'
    | .hangs => False := by
  induction net generalizing k got now with
  | nil =>
    by_cases hk : k = 0
    · simp [TTcp.recvLoop, Tcp.recvLoop, hk, Prompt]
    · simp [TTcp.recvLoop, Tcp.recvLoop, hk, Prompt]
  | cons x net ih =>
    obtain ⟨a, ev⟩ := x
    by_cases hk : k = 0
    · simp only [TTcp.recvLoop, if_pos hk, List.map_cons, Tcp.recvLoop]
      exact ⟨trivial, hp⟩
    · have hl : ¬ ((some t).any fun t => decide (now + t < a)) = true := by have := hp.1; simp; omega
      simp only [TTcp.recvLoop, if_neg hk, if_neg hl, List.map_cons, Tcp.recvLoop]
      cases ev with
      | eintr => exact ih k got (max now a) hp.2
      | err c => exact ⟨rfl, hp.2⟩
      | eof =>
        refine ⟨rfl, by omega, ?_⟩
        rw [show max (max now a) a = max now a by omega]
        exact hp.2
      | seg b bs =>
        by_cases hb : k < (b :: bs).length
        · simp only [if_pos hb]
          cases (b :: bs).drop k with
          | nil => exact ⟨rfl, hp.2⟩
          | cons c cs =>
            refine ⟨rfl, by omega, ?_⟩
            rw [show max (max now a) a = max now a by omega]
            exact hp.2
        · simp only [if_neg hb]
          exact ih _ _ _ hp.2

theorem SameEnd.andThen {α β : Type} {t : Nat} {x : TRes α} {p : Prog Tcp α} {s : Tcp} {f : TTcp → α → TRes β} {g : α → Prog Tcp β}
    (h : SameEnd t x (p s)) (hf : ∀ s a, Prompt t s.now s.net → SameEnd t (f s a) (g a s.plain)) :
    SameEnd t (x.andThen f) ((p >>= g) s) := by
  cases x with
  | ok s' a => rw [Prog.bind_ok h.1]; exact hf s' a h.2
  | throw s' e => rw [Prog.bind_throw h.1]; exact ⟨rfl, h.2⟩
  | ub => rw [Prog.bind_ub h]; rfl
  | hangs => exact absurd h id

theorem SameEnd.lift {α : Type} {t : Nat} (s : TTcp) (hp : Prompt t s.now s.net) (o : Outcome α) :
    SameEnd t (TRes.lift s o) (Prog.lift o s.plain) := by
  cases o with
  | ok a => exact ⟨rfl, hp⟩
  | throw e => exact ⟨rfl, hp⟩
  | ub => rfl

theorem receive_same (t n : Nat) (s : TTcp) (hp : Prompt t s.now s.net) :
    SameEnd t (TTcp.receive (some t) n s) (Tcp.receive n s.plain) := by
  have h := tloop_same t s.net n [] s.now hp
  unfold TTcp.receive Tcp.receive
  simp only [TTcp.plain]
  cases hl : TTcp.recvLoop (some t) n [] s.now s.net with
  | hangs => rw [hl] at h; exact absurd h id
  | done g n' w => rw [hl] at h; rw [h.1]; exact ⟨rfl, h.2⟩
  | failed c n' w => rw [hl] at h; rw [h.1]; exact ⟨rfl, h.2⟩

/-- C90. When nothing comes later than the timeout after what came before, a request over the session with times
does exactly what it does over the session without. -/
theorem C90_request_same (m : Mem) (ms : Int) (hms : 0 < ms) (handle : BitVec 32) (pkt : EncapsPacket) (s : TTcp)
    (hp : Prompt (ms.toNat * 1000) s.now s.net) :
    SameEnd (ms.toNat * 1000) (TTcp.exchange m ms handle pkt s) (sendAndReceive m handle pkt s.plain) := by
  unfold TTcp.exchange
  rw [limit_pos ms hms]
  generalize ms.toNat * 1000 = t at hp ⊢
  unfold TTcp.sendAndReceive sendAndReceive
  refine SameEnd.andThen ?_ fun s _ hp => ?_
  · obtain ⟨h1, h2, h3, h4, h5, h6⟩ := tsend_refines pkt.pack s
    cases hs : TTcp.send pkt.pack s with
    | ok s1 u =>
      have := h1 _ _ hs (s.net.map (·.2))
      obtain ⟨e1, e2⟩ := h5 _ _ hs
      refine ⟨?_, by rw [e1, e2]; exact hp⟩
      rw [show ({ s.plain with net := s.net.map (·.2) } : Tcp) = s.plain from rfl] at this
      rw [this, ← e1]
      rfl
    | throw s1 e =>
      obtain ⟨e1, e2⟩ := h6 _ _ hs
      exact ⟨h2 _ _ hs, by rw [e1, e2]; exact hp⟩
    | ub => exact absurd hs h3
    | hangs => exact absurd hs h4
  · refine SameEnd.andThen (receive_same t _ s hp) fun s header hp => ?_
    refine SameEnd.andThen (SameEnd.lift s hp _) fun s len hp => ?_
    refine SameEnd.andThen (receive_same t _ s hp) fun s data hp => ?_
    refine SameEnd.andThen (SameEnd.lift s hp _) fun s p hp => ?_
    rw [Prog.ite_run, Prog.ite_run]
    simp only [TTcp.check]
    by_cases c1 : p.status ≠ encapsSuccess
    · rw [if_pos c1, if_pos c1]; exact ⟨rfl, hp⟩
    · rw [if_neg c1, if_neg c1]
      by_cases c2 : handle ≠ 0#32 ∧ p.sessionHandle ≠ handle
      · rw [if_pos c2, if_pos c2]; exact ⟨rfl, hp⟩
      · rw [if_neg c2, if_neg c2]; exact ⟨rfl, hp⟩

/-! ## Programs that make requests -/

/-- The longest time of one request, in timeouts. -/
def requestWaits : Nat := 24 + 65535

/-- From `L` to `L'` at most `n` requests were made, and the time that took is bounded. -/
def Costs (t n : Nat) (L L' : Link TTcp) : Prop :=
  L.dev.now ≤ L'.dev.now ∧ ∃ k, k ≤ n ∧ L'.sent.length = L.sent.length + k ∧
    L'.dev.now + interrupts L'.dev.net * t ≤ L.dev.now + (k * requestWaits + interrupts L.dev.net) * t

/-- A program `p` with times and the same program `q` without: the cost of `p`, and that it ends like `q` when
everything comes in time. -/
structure Timed {σ τ α : Type} (t n : Nat) (g : σ → Link TTcp) (f : σ → τ) (p : Prog σ α) (q : Prog τ α) : Prop where
  cost : ∀ s s', EndState (p s) s' → Costs t n (g s) (g s')
  same : ∀ s, LinkPrompt t (g s) → q (f s) = mapEnd f (p s) ∧ ∀ s', EndState (p s) s' → LinkPrompt t (g s')

theorem Costs.refl (t : Nat) (L : Link TTcp) : Costs t 0 L L := ⟨Nat.le_refl _, 0, Nat.le_refl _, rfl, by rw [Nat.zero_mul, Nat.zero_add]; exact Nat.le_refl _⟩

theorem Costs.trans {t n k : Nat} {L L' L'' : Link TTcp} (h1 : Costs t n L L') (h2 : Costs t k L' L'') : Costs t (n + k) L L'' := by
  obtain ⟨a1, n1, b1, c1, d1⟩ := h1
  obtain ⟨a2, n2, b2, c2, d2⟩ := h2
  refine ⟨by omega, n1 + n2, by omega, by omega, ?_⟩
  rw [Nat.add_mul] at d1 d2 ⊢
  have : (n1 + n2) * requestWaits * t = n1 * requestWaits * t + n2 * requestWaits * t := by
    rw [Nat.add_mul, Nat.add_mul]
  omega

theorem Costs.mono {t n k : Nat} {L L' : Link TTcp} (h : Costs t n L L') (hk : n ≤ k) : Costs t k L L' := by
  obtain ⟨a, k', b, c⟩ := h
  exact ⟨a, k', by omega, c⟩

section

variable {σ τ α β : Type} {t n k : Nat} {g : σ → Link TTcp} {f : σ → τ}

theorem Timed.mono {p : Prog σ α} {q : Prog τ α} (h : Timed t n g f p q) (hk : n ≤ k) : Timed t k g f p q :=
  ⟨fun s s' he => (h.cost s s' he).mono hk, h.same⟩

theorem Timed.bind {p : Prog σ α} {q : Prog τ α} {p' : α → Prog σ β} {q' : α → Prog τ β} (h : Timed t n g f p q)
    (h' : ∀ a, Timed t k g f (p' a) (q' a)) : Timed t (n + k) g f (p >>= p') (q >>= q') := by
  refine ⟨fun s s' he => ?_, fun s hp => ?_⟩
  · cases hx : p s with
    | ok s1 a =>
      rw [Prog.bind_ok hx] at he
      exact (h.cost s s1 (.inl ⟨a, hx⟩)).trans ((h' a).cost s1 s' he)
    | throw s1 e =>
      rw [Prog.bind_throw hx] at he
      have : s' = s1 := by
        rcases he with ⟨a, he⟩ | ⟨e', he⟩
        · cases he
        · injection he with he _; exact he.symm
      subst this
      exact (h.cost s s' (.inr ⟨e, hx⟩)).mono (by omega)
    | ub =>
      rw [Prog.bind_ub hx] at he
      rcases he with ⟨a, he⟩ | ⟨e', he⟩ <;> cases he
  · obtain ⟨h1, h2⟩ := h.same s hp
    cases hx : p s with
    | ok s1 a =>
      rw [hx] at h1
      obtain ⟨h3, h4⟩ := (h' a).same s1 (h2 s1 (.inl ⟨a, hx⟩))
      rw [Prog.bind_ok hx, Prog.bind_ok h1]
      exact ⟨h3, h4⟩
    | throw s1 e =>
      rw [hx] at h1
      rw [Prog.bind_throw hx, Prog.bind_throw h1]
      refine ⟨rfl, fun s' he => ?_⟩
      have : s' = s1 := by
        rcases he with ⟨a, he⟩ | ⟨e', he⟩
        · cases he
        · injection he with he _; exact he.symm
      subst this
      exact h2 s' (.inr ⟨e, hx⟩)
    | ub =>
      rw [hx] at h1
      rw [Prog.bind_ub hx, Prog.bind_ub h1]
      refine ⟨rfl, fun s' he => ?_⟩
      rcases he with ⟨a, he⟩ | ⟨e', he⟩ <;> cases he

theorem Timed.get {p' : σ → Prog σ β} {q' : τ → Prog τ β} (h' : ∀ s, Timed t k g f (p' s) (q' (f s))) :
    Timed t k g f (Prog.get >>= p') (Prog.get >>= q') :=
  ⟨fun s s' he => (h' s).cost s s' he, fun s hp => (h' s).same s hp⟩

theorem Timed.quiet {p : Prog σ α} {q : Prog τ α} (h1 : ∀ s s', EndState (p s) s' → g s' = g s)
    (h2 : ∀ s, q (f s) = mapEnd f (p s)) : Timed t 0 g f p q :=
  ⟨fun s s' he => by rw [h1 s s' he]; exact Costs.refl _ _, fun s hp => ⟨h2 s, fun s' he => by rw [h1 s s' he]; exact hp⟩⟩

theorem Timed.pure (a : α) : Timed t 0 g f (Pure.pure a : Prog σ α) (Pure.pure a : Prog τ α) := by
  refine Timed.quiet (fun s s' he => ?_) fun s => rfl
  rcases he with ⟨a, he⟩ | ⟨e', he⟩ <;> cases he
  rfl

theorem Timed.throw (e : Exn) : Timed t 0 g f (Prog.throw e : Prog σ α) (Prog.throw e : Prog τ α) := by
  refine Timed.quiet (fun s s' he => ?_) fun s => rfl
  rcases he with ⟨a, he⟩ | ⟨e', he⟩ <;> cases he
  rfl

theorem Timed.undefined : Timed t 0 g f (Prog.undefined : Prog σ α) (Prog.undefined : Prog τ α) := by
  refine Timed.quiet (fun s s' he => ?_) fun s => rfl
  rcases he with ⟨a, he⟩ | ⟨e', he⟩ <;> cases he

theorem Timed.lift (o : Outcome α) : Timed t 0 g f (Prog.lift o : Prog σ α) (Prog.lift o : Prog τ α) := by
  cases o with
  | ok a => exact Timed.pure a
  | throw e => exact Timed.throw e
  | ub => exact Timed.undefined

theorem Timed.modify {u : σ → σ} {v : τ → τ} (h1 : ∀ s, g (u s) = g s) (h2 : ∀ s, v (f s) = f (u s)) :
    Timed t 0 g f (Prog.modify u) (Prog.modify v) := by
  refine Timed.quiet (fun s s' he => ?_) fun s => ?_
  · rcases he with ⟨a, he⟩ | ⟨e', he⟩ <;> cases he
    exact h1 s
  · simp only [Prog.modify, mapEnd, h2]

theorem Timed.ite {c : Prop} [Decidable c] {p p' : Prog σ α} {q q' : Prog τ α} (h : Timed t n g f p q) (h' : Timed t n g f p' q') :
    Timed t n g f (if c then p else p') (if c then q else q') := by
  split
  · exact h
  · exact h'

end

theorem Timed.onLink {ο α : Type} {t n : Nat} {p : Prog (Link TTcp) α} {q : Prog (Link Tcp) α} (h : Timed t n id plainLink p q) :
    Timed t n (Prod.snd : ο × Link TTcp → Link TTcp) plainObj (Verif.onLink p) (Verif.onLink q) := by
  refine ⟨fun s s' he => ?_, fun s hp => ?_⟩
  · refine h.cost s.2 s'.2 ?_
    unfold Verif.onLink at he
    cases hx : p s.2 with
    | ok L a =>
      rw [hx] at he
      rcases he with ⟨a', he⟩ | ⟨e', he⟩ <;> cases he
      exact .inl ⟨a, rfl⟩
    | throw L e =>
      rw [hx] at he
      rcases he with ⟨a', he⟩ | ⟨e', he⟩ <;> cases he
      exact .inr ⟨e, rfl⟩
    | ub =>
      rw [hx] at he
      rcases he with ⟨a', he⟩ | ⟨e', he⟩ <;> cases he
  · obtain ⟨h1, h2⟩ := h.same s.2 hp
    unfold Verif.onLink
    simp only [plainObj]
    rw [h1]
    cases hx : p s.2 with
    | ok L a =>
      refine ⟨rfl, fun s' he => ?_⟩
      rcases he with ⟨a', he⟩ | ⟨e', he⟩ <;> cases he
      exact h2 L (.inl ⟨a, hx⟩)
    | throw L e =>
      refine ⟨rfl, fun s' he => ?_⟩
      rcases he with ⟨a', he⟩ | ⟨e', he⟩ <;> cases he
      exact h2 L (.inr ⟨e, hx⟩)
    | ub =>
      refine ⟨rfl, fun s' he => ?_⟩
      rcases he with ⟨a', he⟩ | ⟨e', he⟩ <;> cases he

/-! ## One request of an object -/

/-- The packet of a request. -/
def packetOf (handle : BitVec 32) (r : Req) : EncapsPacket := routerPacket handle ⟨r.service, r.path, r.data, false⟩ []

theorem answer_timed (m : Mem) (ms : Int) (handle : BitVec 32) (r : Req) (s : TTcp) :
    (Device.timed m ms handle).answer r s =
      match TTcp.exchange m ms handle (packetOf handle r) s with
      | .ok s' p => (Prog.lift (routerReply m p.data) : Prog TTcp MessageRouterResponse) s'
      | .throw s' e => .throw s' e
      | .ub => .ub
      | .hangs => .ub := by
  have h : (Device.timed m ms handle).answer r s = ((SessionIf.timed m ms handle).sendAndReceive (packetOf handle r) >>= fun p =>
      Prog.lift (routerReply m p.data) : Prog TTcp MessageRouterResponse) s := rfl
  have h2 : (SessionIf.timed m ms handle).sendAndReceive (packetOf handle r) s = (TTcp.exchange m ms handle (packetOf handle r) s).toRes := rfl
  rw [h, Prog.bind_run, h2]
  cases TTcp.exchange m ms handle (packetOf handle r) s <;> rfl

theorem answer_tcp (m : Mem) (handle : BitVec 32) (r : Req) (s : Tcp) :
    (Device.tcp m handle).answer r s =
      match sendAndReceive m handle (packetOf handle r) s with
      | .ok s' p => (Prog.lift (routerReply m p.data) : Prog Tcp MessageRouterResponse) s'
      | .throw s' e => .throw s' e
      | .ub => .ub := by
  have h : (Device.tcp m handle).answer r s = (sendAndReceive m handle (packetOf handle r) >>= fun p =>
      Prog.lift (routerReply m p.data) : Prog Tcp MessageRouterResponse) s := rfl
  rw [h, Prog.bind_run]
  cases sendAndReceive m handle (packetOf handle r) s <;> rfl

/-- The responder with times and the one without. -/
theorem ask_timed (m : Mem) (ms : Int) (hms : 0 < ms) (handle : BitVec 32) (r : Req) :
    Timed (ms.toNat * 1000) 1 id plainLink (ask (Device.timed m ms handle) r) (ask (Device.tcp m handle) r) := by
  have hcost : ∀ s : TTcp, ∀ s', EndState ((Device.timed m ms handle).answer r s) s' →
      s.now ≤ s'.now ∧ s'.now + interrupts s'.net * (ms.toNat * 1000) ≤ s.now + (requestWaits + interrupts s.net) * (ms.toNat * 1000) := by
    intro s s' he
    have h := sar_used m (ms.toNat * 1000) handle (packetOf handle r) s
    rw [answer_timed, TTcp.exchange, limit_pos ms hms] at he
    cases hx : TTcp.sendAndReceive m (some (ms.toNat * 1000)) handle (packetOf handle r) s with
    | ok s1 p =>
      rw [hx] at h he
      simp only at he
      have : s' = s1 := by
        cases hr : routerReply m p.data <;> rw [hr] at he <;> rcases he with ⟨a, he⟩ | ⟨e', he⟩ <;> cases he <;> rfl
      subst this
      exact h
    | throw s1 e =>
      rw [hx] at h he
      simp only at he
      have : s' = s1 := by rcases he with ⟨a, he⟩ | ⟨e', he⟩ <;> cases he; rfl
      subst this
      exact h
    | ub => rw [hx] at h; exact absurd h id
    | hangs => rw [hx] at h; exact absurd h id
  have hsame : ∀ s : TTcp, Prompt (ms.toNat * 1000) s.now s.net →
      (Device.tcp m handle).answer r s.plain = mapEnd TTcp.plain ((Device.timed m ms handle).answer r s) ∧
      ∀ s', EndState ((Device.timed m ms handle).answer r s) s' → Prompt (ms.toNat * 1000) s'.now s'.net := by
    intro s hp
    have h := C90_request_same m ms hms handle (packetOf handle r) s hp
    rw [answer_timed, answer_tcp]
    cases hx : TTcp.exchange m ms handle (packetOf handle r) s with
    | ok s1 p =>
      rw [hx] at h
      rw [h.1]
      simp only
      refine ⟨?_, fun s' he => ?_⟩
      · cases routerReply m p.data <;> rfl
      · have : s' = s1 := by
          cases hr : routerReply m p.data <;> rw [hr] at he <;> rcases he with ⟨a, he⟩ | ⟨e', he⟩ <;> cases he <;> rfl
        subst this
        exact h.2
    | throw s1 e =>
      rw [hx] at h
      rw [h.1]
      simp only
      refine ⟨rfl, fun s' he => ?_⟩
      have : s' = s1 := by rcases he with ⟨a, he⟩ | ⟨e', he⟩ <;> cases he; rfl
      subst this
      exact h.2
    | ub =>
      rw [hx] at h
      have h : sendAndReceive m handle _ _ = Res.ub := h
      rw [h]
      refine ⟨rfl, fun s' he => ?_⟩
      rcases he with ⟨a, he⟩ | ⟨e', he⟩ <;> cases he
    | hangs => rw [hx] at h; exact absurd h id
  refine ⟨fun s s' he => ?_, fun s hp => ?_⟩
  · unfold ask at he
    cases hx : (Device.timed m ms handle).answer r s.dev with
    | ok d a =>
      rw [hx] at he
      have : s' = ⟨d, s.sent ++ [r]⟩ := by rcases he with ⟨a, he⟩ | ⟨e', he⟩ <;> cases he; rfl
      subst this
      have := hcost s.dev d (.inl ⟨a, hx⟩)
      exact ⟨this.1, 1, Nat.le_refl _, by simp, by rw [Nat.one_mul]; exact this.2⟩
    | throw d e =>
      rw [hx] at he
      have : s' = ⟨d, s.sent ++ [r]⟩ := by rcases he with ⟨a, he⟩ | ⟨e', he⟩ <;> cases he; rfl
      subst this
      have := hcost s.dev d (.inr ⟨e, hx⟩)
      exact ⟨this.1, 1, Nat.le_refl _, by simp, by rw [Nat.one_mul]; exact this.2⟩
    | ub =>
      rw [hx] at he
      rcases he with ⟨a, he⟩ | ⟨e', he⟩ <;> cases he
  · obtain ⟨h1, h2⟩ := hsame s.dev hp
    unfold ask
    simp only [plainLink]
    rw [h1]
    cases hx : (Device.timed m ms handle).answer r s.dev with
    | ok d a =>
      refine ⟨rfl, fun s' he => ?_⟩
      have : s' = ⟨d, s.sent ++ [r]⟩ := by rcases he with ⟨a, he⟩ | ⟨e', he⟩ <;> cases he; rfl
      subst this
      exact h2 d (.inl ⟨a, hx⟩)
    | throw d e =>
      refine ⟨rfl, fun s' he => ?_⟩
      have : s' = ⟨d, s.sent ++ [r]⟩ := by rcases he with ⟨a, he⟩ | ⟨e', he⟩ <;> cases he; rfl
      subst this
      exact h2 d (.inr ⟨e, hx⟩)
    | ub =>
      refine ⟨rfl, fun s' he => ?_⟩
      rcases he with ⟨a, he⟩ | ⟨e', he⟩ <;> cases he

/-! ## The operations -/

section

variable (m : Mem) (ms : Int) (hms : 0 < ms) (handle : BitVec 32)
include hms

theorem identity_timed (inst : BitVec 16) :
    Timed (ms.toNat * 1000) 1 id plainLink (IdentityObject.connect m (Device.timed m ms handle) inst)
      (IdentityObject.connect m (Device.tcp m handle) inst) := by
  unfold IdentityObject.connect
  exact Timed.bind (k := 0) (ask_timed m ms hms handle _) fun r => Timed.ite (Timed.lift _) (Timed.throw _)

theorem faultObject_timed (inst : BitVec 16) :
    Timed (ms.toNat * 1000) 1 id plainLink (PowerFlex.faultObject m (Device.timed m ms handle) inst)
      (PowerFlex.faultObject m (Device.tcp m handle) inst) := by
  unfold PowerFlex.faultObject
  exact Timed.bind (k := 0) (ask_timed m ms hms handle _) fun r => Timed.ite (Timed.lift _) (Timed.throw _)

theorem scalingData_timed (inst : BitVec 16) (ids : List (BitVec 16)) :
    Timed (ms.toNat * 1000) ids.length id plainLink (ParameterObject.scalingData (Device.timed m ms handle) inst ids)
      (ParameterObject.scalingData (Device.tcp m handle) inst ids) := by
  induction ids with
  | nil => exact Timed.pure _
  | cons i ids ih =>
    unfold ParameterObject.scalingData
    refine (Timed.bind (k := ids.length) (ask_timed m ms hms handle _) fun r =>
      Timed.ite ((Timed.throw _).mono (Nat.zero_le _)) ?_).mono (by simp; omega)
    exact Timed.bind (k := 0) ih fun more => Timed.pure _

theorem parameter_timed (inst : BitVec 16) (full : Bool) :
    Timed (ms.toNat * 1000) 6 id plainLink (ParameterObject.connect m (Device.timed m ms handle) inst full)
      (ParameterObject.connect m (Device.tcp m handle) inst full) := by
  unfold ParameterObject.connect
  refine Timed.bind (n := 1) (k := 5) (ask_timed m ms hms handle _) fun r => ?_
  refine Timed.ite ?_ ((Timed.throw _).mono (Nat.zero_le _))
  refine Timed.bind (n := 0) (k := 5) (Timed.lift _) fun size => ?_
  refine Timed.bind (n := 1) (k := 4) (ask_timed m ms hms handle _) fun r => ?_
  refine Timed.ite ?_ ((Timed.throw _).mono (Nat.zero_le _))
  refine Timed.bind (n := 0) (k := 4) (Timed.lift _) fun o => ?_
  refine Timed.ite ?_ ((Timed.pure _).mono (Nat.zero_le _))
  exact Timed.bind (n := 4) (k := 0) (scalingData_timed m ms hms handle inst [13, 14, 15, 16]) fun d => Timed.lift _

theorem update_timed :
    Timed (ms.toNat * 1000) 1 Prod.snd plainObj (ParameterObject.updateValue m (Device.timed m ms handle))
      (ParameterObject.updateValue m (Device.tcp m handle)) := by
  unfold ParameterObject.updateValue
  refine Timed.get fun s => ?_
  obtain ⟨o, L⟩ := s
  simp only [plainObj]
  refine Timed.ite ?_ (Timed.undefined.mono (Nat.zero_le _))
  refine Timed.bind (n := 1) (k := 0) (Timed.onLink (ask_timed m ms hms handle _)) fun r => ?_
  refine Timed.ite ?_ (Timed.throw _)
  exact Timed.bind (n := 0) (k := 0) (Timed.lift _) fun v => Timed.modify (fun s => rfl) (fun s => rfl)

theorem create_timed (inst : BitVec 16) :
    Timed (ms.toNat * 1000) 1 id plainLink (FileObject.create m (Device.timed m ms handle) inst)
      (FileObject.create m (Device.tcp m handle) inst) := by
  unfold FileObject.create
  refine Timed.bind (n := 1) (k := 0) (ask_timed m ms hms handle _) fun r => ?_
  refine Timed.ite ?_ (Timed.throw _)
  refine Timed.bind (n := 0) (k := 0) (Timed.lift _) fun c => ?_
  exact Timed.ite (Timed.pure _) (Timed.ite (Timed.pure _) (Timed.ite (Timed.pure _) (Timed.ite (Timed.pure _) (Timed.throw _))))

theorem beginUpload_timed (h : Nat) :
    Timed (ms.toNat * 1000) 1 Prod.snd plainObj (FileObject.beginUpload m (Device.timed m ms handle) h)
      (FileObject.beginUpload m (Device.tcp m handle) h) := by
  unfold FileObject.beginUpload
  refine Timed.get fun s => ?_
  obtain ⟨o, L⟩ := s
  simp only [plainObj]
  cases o.state with
  | nonexistent => exact (Timed.pure _).mono (Nat.zero_le _)
  | empty => exact (Timed.pure _).mono (Nat.zero_le _)
  | uploading u => exact (Timed.pure _).mono (Nat.zero_le _)
  | loaded =>
    refine Timed.bind (n := 1) (k := 0) (Timed.onLink (ask_timed m ms hms handle _)) fun r => ?_
    refine Timed.ite ?_ (Timed.modify (fun s => rfl) (fun s => rfl))
    exact Timed.bind (n := 0) (k := 0) (Timed.lift _) fun v => Timed.modify (fun s => rfl) (fun s => rfl)

theorem handleTransfers_timed :
    Timed (ms.toNat * 1000) 1 Prod.snd plainObj (FileObject.handleTransfers m (Device.timed m ms handle))
      (FileObject.handleTransfers m (Device.tcp m handle)) := by
  unfold FileObject.handleTransfers
  refine Timed.get fun s => ?_
  obtain ⟨o, L⟩ := s
  simp only [plainObj]
  cases o.state with
  | nonexistent => exact (Timed.pure _).mono (Nat.zero_le _)
  | empty => exact (Timed.pure _).mono (Nat.zero_le _)
  | loaded => exact (Timed.pure _).mono (Nat.zero_le _)
  | uploading u =>
    refine Timed.bind (n := 1) (k := 0) (Timed.onLink (ask_timed m ms hms handle _)) fun r => ?_
    refine Timed.ite ?_ ?_
    · refine Timed.bind (n := 0) (k := 0) (Timed.lift _) fun v => ?_
      cases v with
      | wrongNumber => exact Timed.bind (n := 0) (k := 0) (Timed.modify (fun s => rfl) (fun s => rfl)) fun _ => Timed.pure _
      | more d => exact Timed.bind (n := 0) (k := 0) (Timed.modify (fun s => rfl) (fun s => rfl)) fun _ => Timed.pure _
      | last d => exact Timed.bind (n := 0) (k := 0) (Timed.modify (fun s => rfl) (fun s => rfl)) fun _ => Timed.pure _
    · exact Timed.bind (n := 0) (k := 0) (Timed.modify (fun s => rfl) (fun s => rfl)) fun _ => Timed.pure _

theorem faultDetail_timed (param : BitVec 16) :
    Timed (ms.toNat * 1000) 1 id plainLink (PowerFlex.getFaultDetail m (Device.timed m ms handle) param)
      (PowerFlex.getFaultDetail m (Device.tcp m handle) param) := by
  unfold PowerFlex.getFaultDetail
  exact Timed.bind (k := 0) (ask_timed m ms hms handle _) fun r => Timed.ite (Timed.lift _) (Timed.throw _)

theorem faultParameter_timed (rnd : Rat → Rat) (pow : Nat → Rat) (number : Int) (details : Bool) :
    Timed (ms.toNat * 1000) 4 id plainLink (PowerFlex.faultParameter rnd pow m (Device.timed m ms handle) number details)
      (PowerFlex.faultParameter rnd pow m (Device.tcp m handle) number details) := by
  unfold PowerFlex.faultParameter
  split
  · exact (Timed.throw _).mono (Nat.zero_le _)
  · refine Timed.bind (n := 1) (k := 3) (faultDetail_timed m ms hms handle _) fun code => ?_
    refine Timed.ite ?_ ((Timed.pure _).mono (Nat.zero_le _))
    refine Timed.bind (n := 1) (k := 2) (faultDetail_timed m ms hms handle _) fun volts => ?_
    refine Timed.bind (n := 1) (k := 1) (faultDetail_timed m ms hms handle _) fun current => ?_
    exact Timed.bind (n := 1) (k := 0) (faultDetail_timed m ms hms handle _) fun frequency => Timed.pure _

theorem writeCommand_timed (c : BitVec 8) :
    Timed (ms.toNat * 1000) 1 id plainLink (PowerFlex.writeCommand (Device.timed m ms handle) c)
      (PowerFlex.writeCommand (Device.tcp m handle) c) := by
  unfold PowerFlex.writeCommand
  exact Timed.bind (k := 0) (ask_timed m ms hms handle _) fun r => Timed.ite (Timed.throw _) (Timed.pure _)

theorem listFaults_timed (rnd : Rat → Rat) (pow : Nat → Rat) (details : Bool) (left : Nat) (number : Int) :
    Timed (ms.toNat * 1000) (left * 4) Prod.snd plainObj (PowerFlex.listFaults rnd pow m (Device.timed m ms handle) details left number)
      (PowerFlex.listFaults rnd pow m (Device.tcp m handle) details left number) := by
  induction left generalizing number with
  | zero => exact (Timed.pure _).mono (Nat.zero_le _)
  | succ left ih =>
    unfold PowerFlex.listFaults
    refine (Timed.bind (n := 4) (k := left * 4) (Timed.onLink (faultParameter_timed m ms hms handle rnd pow number details)) fun d => ?_).mono (by omega)
    refine Timed.ite ((Timed.pure _).mono (Nat.zero_le _)) ?_
    refine (Timed.bind (n := 0) (k := left * 4) (Timed.lift _) fun desc => ?_).mono (k := left * 4) (by omega)
    refine Timed.mono (n := 0 + left * 4) ?_ (by omega)
    refine Timed.bind (Timed.modify (fun s => rfl) (fun s => rfl)) fun _ => ?_
    exact Timed.bind (n := left * 4) (k := 0) (ih _) fun more => Timed.pure _

theorem handleFaults_timed (rnd : Rat → Rat) (pow : Nat → Rat) (M : PowerFlex.FaultManager) :
    Timed (ms.toNat * 1000) 41 Prod.snd plainObj (PowerFlex.handleFaultParameters rnd pow m (Device.timed m ms handle) M)
      (PowerFlex.handleFaultParameters rnd pow m (Device.tcp m handle) M) := by
  unfold PowerFlex.handleFaultParameters
  refine Timed.bind (n := 40) (k := 1) (listFaults_timed m ms hms handle rnd pow _ 10 1) fun c => ?_
  exact Timed.ite (Timed.onLink (writeCommand_timed m ms hms handle _)) ((Timed.pure _).mono (Nat.zero_le _))

end

theorem timed_answers (m : Mem) (hm : m.Lenient) (ms : Int) (hms : 0 < ms) (handle : BitVec 32) : Answers (Device.timed m ms handle) := by
  intro r s
  have h := C88_bounded m ms hms handle (packetOf handle r) s
  rw [answer_timed]
  cases hx : TTcp.exchange m ms handle (packetOf handle r) s with
  | ok s' p => exact Ends.lift (routerReply_ends hm _) s'
  | throw s' e => intro h; cases h
  | ub => rw [hx] at h; exact absurd h id
  | hangs => rw [hx] at h; exact absurd h id

theorem Timed.punctual {σ τ α : Type} {ms : Int} {n : Nat} {g : σ → Link TTcp} {f : σ → τ} {p : Prog σ α} {q : Prog τ α}
    (h : Timed (ms.toNat * 1000) n g f p q) (s : σ) (he : p s ≠ .ub) :
    (∃ s', EndState (p s) s' ∧ Within ms n (g s) (g s')) ∧ (LinkPrompt (ms.toNat * 1000) (g s) → q (f s) = mapEnd f (p s)) := by
  refine ⟨?_, fun hp => (h.same s hp).1⟩
  have hs : ∃ s', EndState (p s) s' := by
    cases hx : p s with
    | ok s' a => exact ⟨s', .inl ⟨a, rfl⟩⟩
    | throw s' e => exact ⟨s', .inr ⟨e, rfl⟩⟩
    | ub => exact absurd hx he
  obtain ⟨s', hs⟩ := hs
  refine ⟨s', hs, ?_⟩
  obtain ⟨h1, k, h2, h3, h4⟩ := h.cost s s' hs
  refine ⟨h1, by omega, ?_⟩
  have h5 : (k * requestWaits + interrupts (g s).dev.net) * (ms.toNat * 1000) ≤
      (n * requestWaits + interrupts (g s).dev.net) * (ms.toNat * 1000) :=
    Nat.mul_le_mul_right _ (Nat.add_le_add_right (Nat.mul_le_mul_right _ h2) _)
  rw [show (65559 : Nat) = requestWaits from rfl]
  omega

/-! ## Property C90 -/

section

variable (m : Mem) (hm : m.Lenient) (ms : Int) (hms : 0 < ms) (handle : BitVec 32)
include hm hms

/-- C90. Reading an identity takes one request. -/
theorem C90_identity (inst : BitVec 16) :
    Punctual ms 1 id plainLink (IdentityObject.connect m (Device.timed m ms handle) inst)
      (IdentityObject.connect m (Device.tcp m handle) inst) :=
  fun s => (identity_timed m ms hms handle inst).punctual s (identity_ends hm (timed_answers m hm ms hms handle) inst s)

/-- C90. Reading a parameter takes at most six requests. -/
theorem C90_parameter (inst : BitVec 16) (full : Bool) :
    Punctual ms 6 id plainLink (ParameterObject.connect m (Device.timed m ms handle) inst full)
      (ParameterObject.connect m (Device.tcp m handle) inst full) :=
  fun s => (parameter_timed m ms hms handle inst full).punctual s (parameter_ends hm (timed_answers m hm ms hms handle) inst full s)

/-- C90. Updating a parameter that was read takes one request. -/
theorem C90_update (o : ParameterObject) (ho : o.hasRouter = true) (L : Link TTcp) :
    (∃ s', EndState (ParameterObject.updateValue m (Device.timed m ms handle) (o, L)) s' ∧ Within ms 1 L s'.2) ∧
    (LinkPrompt (ms.toNat * 1000) L → ParameterObject.updateValue m (Device.tcp m handle) (o, plainLink L) =
      mapEnd plainObj (ParameterObject.updateValue m (Device.timed m ms handle) (o, L))) :=
  (update_timed m ms hms handle).punctual (o, L) (update_ends hm (timed_answers m hm ms hms handle) (o, L) ho)

/-- C90. Making a file object takes one request. -/
theorem C90_file (inst : BitVec 16) :
    Punctual ms 1 id plainLink (FileObject.create m (Device.timed m ms handle) inst) (FileObject.create m (Device.tcp m handle) inst) :=
  fun s => (create_timed m ms hms handle inst).punctual s (create_ends hm (timed_answers m hm ms hms handle) inst s)

/-- C90. Beginning an upload takes at most one request. -/
theorem C90_file_begin (h : Nat) :
    Punctual ms 1 Prod.snd plainObj (FileObject.beginUpload m (Device.timed m ms handle) h)
      (FileObject.beginUpload m (Device.tcp m handle) h) :=
  fun s => (beginUpload_timed m ms hms handle h).punctual s (beginUpload_ends hm (timed_answers m hm ms hms handle) h s)

/-- C90. A step of an upload takes at most one request. -/
theorem C90_file_step :
    Punctual ms 1 Prod.snd plainObj (FileObject.handleTransfers m (Device.timed m ms handle))
      (FileObject.handleTransfers m (Device.tcp m handle)) :=
  fun s => (handleTransfers_timed m ms hms handle).punctual s (handleTransfers_ends hm (timed_answers m hm ms hms handle) s)

/-- C90. Reading a fault of a drive takes at most four requests. -/
theorem C90_fault (rnd : Rat → Rat) (pow : Nat → Rat) (number : Int) (details : Bool) :
    Punctual ms 4 id plainLink (PowerFlex.faultParameter rnd pow m (Device.timed m ms handle) number details)
      (PowerFlex.faultParameter rnd pow m (Device.tcp m handle) number details) :=
  fun s => (faultParameter_timed m ms hms handle rnd pow number details).punctual s
    (faultParameter_ends hm (timed_answers m hm ms hms handle) rnd pow number details s)

/-- C90. Listing the faults of a drive takes at most 41 requests. -/
theorem C90_faults (rnd : Rat → Rat) (pow : Nat → Rat) (M : PowerFlex.FaultManager) :
    Punctual ms 41 Prod.snd plainObj (PowerFlex.handleFaultParameters rnd pow m (Device.timed m ms handle) M)
      (PowerFlex.handleFaultParameters rnd pow m (Device.tcp m handle) M) :=
  fun s => (handleFaults_timed m ms hms handle rnd pow M).punctual s (handleFaults_ends hm (timed_answers m hm ms hms handle) rnd pow M s)

/-- C90. Reading a fault object takes one request. -/
theorem C90_fault_object (inst : BitVec 16) :
    Punctual ms 1 id plainLink (PowerFlex.faultObject m (Device.timed m ms handle) inst)
      (PowerFlex.faultObject m (Device.tcp m handle) inst) :=
  fun s => (faultObject_timed m ms hms handle inst).punctual s (faultObject_ends hm (timed_answers m hm ms hms handle) inst s)

end

end Verif.Props
