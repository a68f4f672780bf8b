import Verif.Model.TcpTime
import Verif.Props.DiscoveryFd
import Verif.Props.Session
import Verif.Spec.LinkTime

/-!
# Property C88: the time of a request
-/

namespace Verif.Props

open Verif Verif.Spec

/-! ## The loop -/

/-- With times the loop does what it does without, or it gives up at a point where nothing came in time. -/
theorem tloop_refines (limit : Option Nat) (net : List (Nat × NetEv)) (k : Nat) (got : List Byte) (now : Nat) :
    match TTcp.recvLoop limit k got now net with
    | .done got' net' _ => Tcp.recvLoop k got (net.map (·.2)) = .done got' (net'.map (·.2))
    | .failed code net' _ => Tcp.recvLoop k got (net.map (·.2)) = .failed code (net'.map (·.2)) ∨
        code = eagain ∧ ∃ pre, net = pre ++ net' ∧ Tcp.recvLoop k got (pre.map (·.2)) = .failed eagain []
    | .hangs => limit = none ∧ Tcp.recvLoop k got (net.map (·.2)) = .failed eagain [] := by
  induction net generalizing k got now with
  | nil =>
    by_cases hk : k = 0
    · simp [TTcp.recvLoop, Tcp.recvLoop, hk]
    · cases limit <;> simp [TTcp.recvLoop, Tcp.recvLoop, hk]
  | cons x net ih =>
    obtain ⟨a, ev⟩ := x
    by_cases hk : k = 0
    · simp [TTcp.recvLoop, Tcp.recvLoop, hk]
    · simp only [TTcp.recvLoop, if_neg hk]
      by_cases hl : (limit.any fun t => decide (now + t < a)) = true
      · rw [if_pos hl]
        exact .inr ⟨rfl, [], rfl, by simp [Tcp.recvLoop, hk]⟩
      · rw [if_neg hl]
        have step : ∀ k' got', Tcp.recvLoop k got (ev :: net.map (·.2)) = Tcp.recvLoop k' got' (net.map (·.2)) →
            (∀ pre : List (Nat × NetEv), Tcp.recvLoop k got (ev :: pre.map (·.2)) = Tcp.recvLoop k' got' (pre.map (·.2))) →
            match TTcp.recvLoop limit k' got' (max now a) net with
            | .done got' net' _ => Tcp.recvLoop k got (((a, ev) :: net).map (·.2)) = .done got' (net'.map (·.2))
            | .failed code net' _ => Tcp.recvLoop k got (((a, ev) :: net).map (·.2)) = .failed code (net'.map (·.2)) ∨
                code = eagain ∧ ∃ pre, (a, ev) :: net = pre ++ net' ∧ Tcp.recvLoop k got (pre.map (·.2)) = .failed eagain []
            | .hangs => limit = none ∧ Tcp.recvLoop k got (((a, ev) :: net).map (·.2)) = .failed eagain [] := by
          intro k' got' h1 h2
          have h3 := ih k' got' (max now a)
          simp only [List.map_cons, h1]
          split <;> rename_i h4 <;> rw [h4] at h3 <;> simp only at h3
          · exact h3
          · rcases h3 with h3 | ⟨h3, pre, h5, h6⟩
            · exact .inl h3
            · refine .inr ⟨h3, (a, ev) :: pre, by rw [h5]; rfl, ?_⟩
              rw [List.map_cons, h2, h6]
          · exact h3
        cases ev with
        | eintr => exact step k got (by simp [Tcp.recvLoop, hk]) (fun pre => by simp [Tcp.recvLoop, hk])
        | err code => simp [Tcp.recvLoop, hk]
        | eof => simp [Tcp.recvLoop, hk]
        | seg b bs =>
          by_cases hb : k < (b :: bs).length
          · simp only [if_pos hb, List.map_cons, Tcp.recvLoop, if_neg hk]
            cases (b :: bs).drop k <;> rfl
          · simp only [if_neg hb]
            exact step _ _ (by simp only [Tcp.recvLoop, if_neg hk, if_neg hb]) (fun pre => by simp only [Tcp.recvLoop, if_neg hk, if_neg hb])

/-- Every wait is at most as long as the limit, and every wait but interrupted ones yields a byte. -/
theorem tloop_time (t : Nat) (net : List (Nat × NetEv)) (k : Nat) (got : List Byte) (now : Nat) :
    match TTcp.recvLoop (some t) k got now net with
    | .done _ net' now' => now ≤ now' ∧ now' + interrupts net' * t ≤ now + (k + interrupts net) * t
    | .failed _ net' now' => now ≤ now' ∧ now' + interrupts net' * t ≤ now + (k + interrupts net) * t
    | .hangs => False := by
  induction net generalizing k got now with
  | nil =>
    by_cases hk : k = 0
    · simp [TTcp.recvLoop, hk]
    · simp only [TTcp.recvLoop, if_neg hk, interrupts, List.countP_nil, Nat.add_zero, Nat.zero_mul]
      have := Nat.mul_le_mul_right t (show 1 ≤ k by omega)
      omega
  | cons x net ih =>
    obtain ⟨a, ev⟩ := x
    by_cases hk : k = 0
    · simp [TTcp.recvLoop, hk]
    · have hk1 := Nat.mul_le_mul_right t (show 1 ≤ k by omega)
      simp only [TTcp.recvLoop, if_neg hk]
      by_cases hl : ((some t).any fun t => decide (now + t < a)) = true
      · rw [if_pos hl]
        simp only [Option.getD_some]
        rw [Nat.add_mul]
        omega
      · rw [if_neg hl]
        have ha : a ≤ now + t := by simpa using hl
        cases ev with
        | eintr =>
          have h := ih k got (max now a)
          have hi : interrupts ((a, NetEv.eintr) :: net) = interrupts net + 1 := by simp [interrupts]
          rw [hi]
          have e1 : (k + (interrupts net + 1)) * t = (k + interrupts net) * t + t := by
            rw [← Nat.add_assoc, Nat.succ_mul]
          simp only
          split <;> rename_i h4 <;> rw [h4] at h <;> simp only at h
          · omega
          · omega
        | err code =>
          have hi : interrupts ((a, NetEv.err code) :: net) = interrupts net := by simp [interrupts]
          simp only [hi, Nat.add_mul]
          omega
        | eof =>
          have hi : interrupts ((a, NetEv.eof) :: net) = interrupts net := by simp [interrupts]
          simp only [hi, Nat.add_mul]
          omega
        | seg b bs =>
          have hi : ∀ c cs, interrupts ((a, NetEv.seg c cs) :: net) = interrupts net := by simp [interrupts]
          by_cases hb : k < (b :: bs).length
          · simp only [if_pos hb]
            cases (b :: bs).drop k with
            | nil => simp only [hi, Nat.add_mul]; omega
            | cons c cs => simp only [hi, Nat.add_mul]; omega
          · simp only [if_neg hb]
            have h := ih (k - (b :: bs).length) (got ++ (b :: bs)) (max now a)
            rw [hi]
            have e1 : (k - (b :: bs).length + interrupts net) * t + t ≤ (k + interrupts net) * t := by
              have := Nat.mul_le_mul_right t (show (k - (b :: bs).length + interrupts net) + 1 ≤ k + interrupts net by
                simp only [List.length_cons] at hb ⊢; omega)
              rw [Nat.succ_mul] at this
              exact this
            split <;> rename_i h4 <;> rw [h4] at h <;> simp only at h
            · omega
            · omega

/-- What a finished loop has consumed: whole events, or whole events and a part of one that was there. -/
theorem tloop_done (limit : Option Nat) (net : List (Nat × NetEv)) (k : Nat) (got : List Byte) (now : Nat)
    (got' : List Byte) (net1 : List (Nat × NetEv)) (now1 : Nat) (h : TTcp.recvLoop limit k got now net = .done got' net1 now1) :
    (∃ c, net = c ++ net1 ∧ ∀ r, Tcp.recvLoop k got (c.map (·.2) ++ r) = .done got' r) ∨
    (∃ c x a ev rest, net = c ++ x :: rest ∧ net1 = (a, ev) :: rest ∧ a ≤ now1 ∧
      ∀ r, Tcp.recvLoop k got (c.map (·.2) ++ x.2 :: r) = .done got' (ev :: r)) := by
  induction net generalizing k got now with
  | nil =>
    by_cases hk : k = 0
    · simp only [TTcp.recvLoop, if_pos hk, TTcp.End.done.injEq] at h
      obtain ⟨rfl, rfl, rfl⟩ := h
      refine .inl ⟨[], rfl, fun r => ?_⟩
      cases r <;> simp [Tcp.recvLoop, hk]
    · simp only [TTcp.recvLoop, if_neg hk] at h
      cases limit <;> cases h
  | cons x net ih =>
    obtain ⟨a, ev⟩ := x
    by_cases hk : k = 0
    · simp only [TTcp.recvLoop, if_pos hk, TTcp.End.done.injEq] at h
      obtain ⟨rfl, rfl, rfl⟩ := h
      refine .inl ⟨[], rfl, fun r => ?_⟩
      cases r <;> simp [Tcp.recvLoop, hk]
    · simp only [TTcp.recvLoop, if_neg hk] at h
      by_cases hl : (limit.any fun t => decide (now + t < a)) = true
      · rw [if_pos hl] at h; cases h
      · rw [if_neg hl] at h
        have step : ∀ k' g', (∀ r, Tcp.recvLoop k got (ev :: r) = Tcp.recvLoop k' g' r) →
            TTcp.recvLoop limit k' g' (max now a) net = .done got' net1 now1 →
            (∃ c, (a, ev) :: net = c ++ net1 ∧ ∀ r, Tcp.recvLoop k got (c.map (·.2) ++ r) = .done got' r) ∨
            (∃ c x a' ev' rest, (a, ev) :: net = c ++ x :: rest ∧ net1 = (a', ev') :: rest ∧ a' ≤ now1 ∧
              ∀ r, Tcp.recvLoop k got (c.map (·.2) ++ x.2 :: r) = .done got' (ev' :: r)) := by
          intro k' g' h1 h2
          rcases ih k' g' (max now a) h2 with ⟨c, e1, e2⟩ | ⟨c, x, a', ev', rest, e1, e2, e3, e4⟩
          · exact .inl ⟨(a, ev) :: c, by rw [e1]; rfl, fun r => by simp only [List.map_cons, List.cons_append]; rw [h1, e2]⟩
          · exact .inr ⟨(a, ev) :: c, x, a', ev', rest, by rw [e1]; rfl, e2, e3, fun r => by
              simp only [List.map_cons, List.cons_append]; rw [h1, e4]⟩
        cases ev with
        | eintr => exact step k got (fun r => by simp [Tcp.recvLoop, hk]) h
        | err code => cases h
        | eof =>
          simp only [TTcp.End.done.injEq] at h
          obtain ⟨rfl, rfl, rfl⟩ := h
          exact .inr ⟨[], (a, .eof), a, .eof, net, rfl, rfl, by omega, fun r => by simp [Tcp.recvLoop, hk]⟩
        | seg b bs =>
          by_cases hb : k < (b :: bs).length
          · simp only [if_pos hb] at h
            cases hd : (b :: bs).drop k with
            | nil =>
              have := congrArg List.length hd
              simp only [List.length_drop, List.length_nil, List.length_cons] at this hb
              omega
            | cons c cs =>
              rw [hd] at h
              simp only [TTcp.End.done.injEq] at h
              obtain ⟨rfl, rfl, rfl⟩ := h
              exact .inr ⟨[], (a, .seg b bs), a, .seg c cs, net, rfl, rfl, by omega, fun r => by
                simp only [List.map_nil, List.nil_append, Tcp.recvLoop, if_neg hk, if_pos hb, hd]⟩
          · simp only [if_neg hb] at h
            exact step _ _ (fun r => by simp only [Tcp.recvLoop, if_neg hk, if_neg hb]) h

/-- A loop that finds something there does not give up before taking it. -/
theorem tloop_takes (limit : Option Nat) (a : Nat) (ev : NetEv) (rest : List (Nat × NetEv)) (k : Nat) (got : List Byte) (now : Nat)
    (ha : a ≤ now) (code : Int) (net' : List (Nat × NetEv)) (now' : Nat)
    (h : TTcp.recvLoop limit k got now ((a, ev) :: rest) = .failed code net' now') :
    Tcp.recvLoop k got (((a, ev) :: rest).map (·.2)) = .failed code (net'.map (·.2)) ∨
      code = eagain ∧ ∃ pre, rest = pre ++ net' ∧ Tcp.recvLoop k got (ev :: pre.map (·.2)) = .failed eagain [] := by
  have hr := tloop_refines limit ((a, ev) :: rest) k got now
  rw [h] at hr
  rcases hr with hr | ⟨hc, pre, h1, h2⟩
  · exact .inl hr
  · cases pre with
    | cons x pre =>
      simp only [List.cons_append, List.cons.injEq] at h1
      obtain ⟨rfl, h1⟩ := h1
      exact .inr ⟨hc, pre, h1, h2⟩
    | nil =>
      exfalso
      have hk : k ≠ 0 := by
        intro hk; subst hk; simp [Tcp.recvLoop] at h2
      simp only [List.nil_append] at h1
      subst h1
      have hl : ¬ (limit.any fun t => decide (now + t < a)) = true := by
        cases limit with
        | none => simp
        | some t => simp; omega
      simp only [TTcp.recvLoop, if_neg hk, if_neg hl] at h
      have grow : ∀ (net : List (Nat × NetEv)) k got now c n' w, TTcp.recvLoop limit k got now net = .failed c n' w → n'.length ≤ net.length := by
        intro net
        induction net with
        | nil =>
          intro k got now c n' w h
          simp only [TTcp.recvLoop] at h
          split at h
          · cases h
          · split at h
            · cases h
            · injection h with _ h _; rw [← h]; exact Nat.le_refl _
        | cons y net ih =>
          obtain ⟨b, ev'⟩ := y
          intro k got now c n' w h
          simp only [TTcp.recvLoop] at h
          split at h
          · cases h
          · split at h
            · injection h with _ h _; rw [← h]; exact Nat.le_refl _
            · cases ev' with
              | eintr => have := ih _ _ _ _ _ _ h; simp only [List.length_cons]; omega
              | err code => injection h with _ h _; rw [← h]; simp
              | eof => cases h
              | seg b bs =>
                simp only at h
                split at h
                · split at h <;> cases h
                · have := ih _ _ _ _ _ _ h; simp only [List.length_cons]; omega
      cases ev with
      | eintr => have := grow _ _ _ _ _ _ _ h; simp only [List.length_cons] at this; omega
      | err c =>
        injection h with _ h _
        have := congrArg List.length h
        simp only [List.length_cons] at this; omega
      | eof => cases h
      | seg b bs =>
        simp only at h
        split at h
        · split at h <;> cases h
        · have := grow _ _ _ _ _ _ _ h; simp only [List.length_cons] at this; omega

/-! ## With and without times -/

/-- The socket that delivers just these events. -/
def onlyThese (s : Tcp) (pre : List (Nat × NetEv)) : Tcp := { s with net := pre.map (·.2) }

/-- A call with times gives what it gives without, or gives up where nothing came in time. -/
def Refines {α : Type} (limit : Option Nat) (s : TTcp) (x : TRes α) (f : Tcp → Res Tcp α) : Prop :=
  match x with
  | .ok s' a => f s.plain = .ok s'.plain a
  | .throw s' e => f s.plain = .throw s'.plain e ∨
      e = .system eagain ∧ ∃ pre, s.net = pre ++ s'.net ∧
        f (onlyThese s.plain pre) = .throw (onlyThese s'.plain []) (.system eagain)
  | .ub => f s.plain = .ub
  | .hangs => limit = none ∧ ∃ t, f s.plain = .throw t (.system eagain) ∧ t.net = []

theorem tsend_refines (data : List Byte) (s : TTcp) :
    (∀ s' u, TTcp.send data s = .ok s' u → ∀ net, Tcp.send data { s.plain with net := net } = .ok { s'.plain with net := net } ()) ∧
    (∀ s' e, TTcp.send data s = .throw s' e → Tcp.send data s.plain = .throw s'.plain e) ∧
    (TTcp.send data s ≠ .ub) ∧ (TTcp.send data s ≠ .hangs) ∧
    (∀ s' u, TTcp.send data s = .ok s' u → s'.net = s.net ∧ s'.now = s.now) ∧
    (∀ s' e, TTcp.send data s = .throw s' e → s'.net = s.net ∧ s'.now = s.now) := by
  have key : ∀ count : Int, count = s.sends.headD data.length →
      ((BitVec.ofInt 64 count).toNat < data.length ∧ ∀ net, Tcp.send data { s.plain with net := net } =
        .throw { net := net, sends := s.sends.tail, sent := s.sent ++ [data.take count.toNat] } (.system 0)) ∨
      (¬ (BitVec.ofInt 64 count).toNat < data.length ∧ ∀ net, Tcp.send data { s.plain with net := net } =
        .ok { net := net, sends := s.sends.tail, sent := s.sent ++ [data.take count.toNat] } ()) := by
    rintro count rfl
    by_cases h : (BitVec.ofInt 64 (s.sends.headD data.length)).toNat < data.length
    · exact .inl ⟨h, fun net => by rw [Tcp.send]; exact if_pos h⟩
    · exact .inr ⟨h, fun net => by rw [Tcp.send]; exact if_neg h⟩
  have hp : Tcp.send data s.plain = Tcp.send data { s.plain with net := s.net.map (·.2) } := rfl
  rcases key _ rfl with ⟨_, h⟩ | ⟨_, h⟩
  · simp only [TTcp.send, hp, h]
    refine ⟨fun _ _ h => (by cases h), fun s' e h => ?_, fun h => (by cases h), fun h => (by cases h), fun _ _ h => (by cases h), fun s' e h => ?_⟩
    · injection h with h1 h2; subst h1 h2; rfl
    · injection h with h1 h2; subst h1; exact ⟨rfl, rfl⟩
  · simp only [TTcp.send, hp, h]
    refine ⟨fun s' u h net => ?_, fun _ _ h => (by cases h), fun h => (by cases h), fun h => (by cases h), fun s' e h => ?_, fun _ _ h => (by cases h)⟩
    · injection h with h1 h2; subst h1; rfl
    · injection h with h1 h2; subst h1; exact ⟨rfl, rfl⟩

/-- C88. With times, a request does what it does without (`sendAndReceive`, properties C21 to C25), or it
gives up at a place where nothing came in time, and then it does what it does when nothing more comes;
it hangs only without a limit, when nothing more comes. -/
theorem C88_refines (m : Mem) (limit : Option Nat) (handle : BitVec 32) (pkt : EncapsPacket) (s : TTcp) :
    Refines limit s (TTcp.sendAndReceive m limit handle pkt s) (sendAndReceive m handle pkt) := by
  obtain ⟨hs1, hs2, hs3, hs4, hs5, -⟩ := tsend_refines pkt.pack s
  unfold TTcp.sendAndReceive
  cases hsend : TTcp.send pkt.pack s with
  | ub => exact absurd hsend hs3
  | hangs => exact absurd hsend hs4
  | throw s1 e =>
    simp only [TRes.andThen, Refines]
    exact .inl (by rw [sendAndReceive, Prog.bind_throw (hs2 _ _ hsend)])
  | ok s1 u =>
    have hp1 := hs1 _ _ hsend
    obtain ⟨hn1, -⟩ := hs5 _ _ hsend
    simp only [TRes.andThen]
    -- the untimed program after the send, on any network
    have hun : ∀ net, sendAndReceive m handle pkt { s.plain with net := net } =
        (do
          let header ← Tcp.receive EncapsPacket.headerSize
          let length ← Prog.lift (EncapsPacket.getLengthFromHeader header)
          let data ← Tcp.receive length
          let recvPacket ← Prog.lift (EncapsPacket.parse m (header ++ data))
          if recvPacket.status ≠ encapsSuccess then
            Prog.throw (.runtime "Bad encaps packet code")
          else if handle ≠ 0#32 ∧ recvPacket.sessionHandle ≠ handle then
            Prog.throw (.runtime "Wrong session handle received")
          else pure recvPacket : Prog Tcp EncapsPacket) { s1.plain with net := net } := by
      intro net
      rw [sendAndReceive, Prog.bind_ok (hp1 net)]
    have hplain : s.plain = { s.plain with net := s1.net.map (·.2) } := by rw [hn1]; rfl
    have hplain1 : s1.plain = { s1.plain with net := s1.net.map (·.2) } := rfl
    have hr1 := tloop_refines limit s1.net EncapsPacket.headerSize [] s1.now
    unfold TTcp.receive
    cases hl1 : TTcp.recvLoop limit EncapsPacket.headerSize [] s1.now s1.net with
    | hangs =>
      rw [hl1] at hr1
      simp only [Refines]
      refine ⟨hr1.1, { s1.plain with net := [] }, ?_, rfl⟩
      rw [hplain, hun, Prog.bind_throw (s' := { s1.plain with net := [] }) (by simp only [Tcp.receive]; rw [hr1.2])]
    | failed code net' now' =>
      rw [hl1] at hr1
      simp only [Refines]
      rcases hr1 with hr1 | ⟨rfl, pre, e1, e2⟩
      · refine .inl ?_
        rw [hplain, hun, Prog.bind_throw (by simp only [Tcp.receive]; rw [hr1])]
        rfl
      · refine .inr ⟨rfl, pre, by rw [← hn1, e1], ?_⟩
        rw [onlyThese, hun, Prog.bind_throw (by simp only [Tcp.receive]; rw [e2])]
        rfl
    | done got net1 now1 =>
      rw [hl1] at hr1
      simp only at hr1 ⊢
      have hd1 := tloop_done limit s1.net _ [] s1.now got net1 now1 hl1
      generalize hhead : got ++ List.replicate (EncapsPacket.headerSize - got.length) 0#8 = header
      have hrec1 : ∀ net r, Tcp.recvLoop EncapsPacket.headerSize [] net = .done got r →
          Tcp.receive EncapsPacket.headerSize { s1.plain with net := net } = .ok { s1.plain with net := r } header := by
        intro net r h
        simp only [Tcp.receive]
        rw [h]
        simp only [hhead]
      cases hg : EncapsPacket.getLengthFromHeader header with
      | ub =>
        simp only [TRes.lift, Refines]
        rw [hplain, hun, Prog.bind_ok (hrec1 _ _ hr1), hg, Prog.bind_ub (Prog.lift_ub _)]
      | throw e =>
        simp only [TRes.lift, Refines]
        refine .inl ?_
        rw [hplain, hun, Prog.bind_ok (hrec1 _ _ hr1), hg, Prog.bind_throw (Prog.lift_throw _ _)]
        rfl
      | ok len =>
        simp only [TRes.lift]
        have hr2 := tloop_refines limit net1 len [] now1
        cases hl2 : TTcp.recvLoop limit len [] now1 net1 with
        | hangs =>
          rw [hl2] at hr2
          simp only [Refines]
          refine ⟨hr2.1, { s1.plain with net := [] }, ?_, rfl⟩
          rw [hplain, hun, Prog.bind_ok (hrec1 _ _ hr1), hg, Prog.bind_ok (Prog.lift_ok _ _),
            Prog.bind_throw (s' := { s1.plain with net := [] }) (by simp only [Tcp.receive]; rw [hr2.2])]
        | failed code net' now' =>
          rw [hl2] at hr2
          simp only [Refines]
          have same : Tcp.recvLoop len [] (net1.map (·.2)) = .failed code (net'.map (·.2)) →
              sendAndReceive m handle pkt s.plain = .throw { s1.plain with net := net'.map (·.2) } (.system code) := by
            intro hr2
            rw [hplain, hun, Prog.bind_ok (hrec1 _ _ hr1), hg, Prog.bind_ok (Prog.lift_ok _ _),
              Prog.bind_throw (by simp only [Tcp.receive]; rw [hr2])]
          have short : ∀ c rr, Tcp.recvLoop EncapsPacket.headerSize [] (c.map (·.2)) = .done got rr →
              Tcp.recvLoop len [] rr = .failed eagain [] →
              sendAndReceive m handle pkt (onlyThese s.plain c) = .throw { s1.plain with net := [] } (.system eagain) := by
            intro c rr h1 h2
            rw [onlyThese, hun, Prog.bind_ok (hrec1 _ _ h1), hg, Prog.bind_ok (Prog.lift_ok _ _),
              Prog.bind_throw (by simp only [Tcp.receive]; rw [h2])]
          rcases hd1 with ⟨c, e1, e2⟩ | ⟨c, x, a, ev, rest, e1, e2, e3, e4⟩
          · rcases hr2 with hr2 | ⟨rfl, pre, f1, f2⟩
            · exact .inl (same hr2)
            · refine .inr ⟨rfl, c ++ pre, by rw [← hn1, e1, f1, List.append_assoc], ?_⟩
              rw [short (c ++ pre) _ (by rw [List.map_append, e2]) f2]
              rfl
          · subst e2
            rcases tloop_takes limit a ev rest len [] now1 e3 code net' now' hl2 with hr2 | ⟨rfl, pre, f1, f2⟩
            · exact .inl (same hr2)
            · refine .inr ⟨rfl, c ++ x :: pre, by rw [← hn1, e1, f1]; simp, ?_⟩
              rw [short (c ++ x :: pre) _ (by rw [List.map_append, List.map_cons, e4]) f2]
              rfl
        | done data net2 now2 =>
          rw [hl2] at hr2
          simp only at hr2 ⊢
          generalize hdata : data ++ List.replicate (len - data.length) 0#8 = body
          have hrec2 : Tcp.receive len { s1.plain with net := net1.map (·.2) } = .ok { s1.plain with net := net2.map (·.2) } body := by
            simp only [Tcp.receive]
            rw [hr2]
            simp only [hdata]
          have hun2 : sendAndReceive m handle pkt s.plain = (do
              let recvPacket ← Prog.lift (EncapsPacket.parse m (header ++ body))
              if recvPacket.status ≠ encapsSuccess then
                Prog.throw (.runtime "Bad encaps packet code")
              else if handle ≠ 0#32 ∧ recvPacket.sessionHandle ≠ handle then
                Prog.throw (.runtime "Wrong session handle received")
              else pure recvPacket : Prog Tcp EncapsPacket) { s1.plain with net := net2.map (·.2) } := by
            rw [hplain, hun, Prog.bind_ok (hrec1 _ _ hr1), hg, Prog.bind_ok (Prog.lift_ok _ _), Prog.bind_ok hrec2]
          cases hp : EncapsPacket.parse m (header ++ body) with
          | ub =>
            simp only [Refines]
            rw [hun2, hp, Prog.bind_ub (Prog.lift_ub _)]
          | throw e =>
            simp only [Refines]
            refine .inl ?_
            rw [hun2, hp, Prog.bind_throw (Prog.lift_throw _ _)]
            rfl
          | ok p =>
            simp only [TTcp.check]
            rw [hp, Prog.bind_ok (Prog.lift_ok _ _), Prog.ite_run, Prog.ite_run] at hun2
            by_cases c1 : p.status ≠ encapsSuccess
            · simp only [if_pos c1] at hun2 ⊢
              simp only [Refines]
              exact .inl hun2
            · simp only [if_neg c1] at hun2 ⊢
              by_cases c2 : handle ≠ 0#32 ∧ p.sessionHandle ≠ handle
              · simp only [if_pos c2] at hun2 ⊢
                simp only [Refines]
                exact .inl hun2
              · simp only [if_neg c2] at hun2 ⊢
                simp only [Refines]
                exact hun2

end Verif.Props
