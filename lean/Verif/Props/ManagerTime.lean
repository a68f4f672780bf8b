import Verif.Props.ManagerWire
import Verif.Props.LateReply
import Verif.Props.Liveness

/-!
# Property C93: a connection manager over a session with times
-/

namespace Verif.Props

open Verif Verif.Spec

/-! ## One request -/

theorem answer_cost (m : Mem) (ms : Int) (hms : 0 < ms) (handle : BitVec 32) (r : Req) (s s' : TTcp)
    (h : EndState ((Device.timed m ms handle).answer r s) s') :
    s.now ≤ s'.now ∧
      s'.now + interrupts s'.net * (ms.toNat * 1000) ≤ s.now + (requestWaits + interrupts s.net) * (ms.toNat * 1000) := by
  have he : EndState (ask (Device.timed m ms handle) r ⟨s, []⟩) ⟨s', [] ++ [r]⟩ := by
    rcases h with ⟨a, h⟩ | ⟨e, h⟩
    · exact .inl ⟨a, ask_ok h⟩
    · exact .inr ⟨e, ask_throw h⟩
  obtain ⟨h1, k, _, h3, h4⟩ := (ask_timed m ms hms handle r).cost _ _ he
  have : k = 1 := by simpa using h3.symm
  subst this
  rw [Nat.one_mul] at h4
  exact ⟨h1, h4⟩

theorem answer_same (m : Mem) (ms : Int) (hms : 0 < ms) (handle : BitVec 32) (r : Req) (s : TTcp)
    (hp : Prompt (ms.toNat * 1000) s.now s.net) :
    (Device.tcp m handle).answer r s.plain = mapEnd TTcp.plain ((Device.timed m ms handle).answer r s) ∧
      ∀ s', EndState ((Device.timed m ms handle).answer r s) s' → Prompt (ms.toNat * 1000) s'.now s'.net := by
  obtain ⟨h1, h2⟩ := (ask_timed m ms hms handle r).same ⟨s, []⟩ hp
  refine ⟨?_, fun s' he => ?_⟩
  · unfold ask at h1
    simp only [plainLink] at h1
    cases hx : (Device.timed m ms handle).answer r s with
    | ok d a =>
      rw [hx] at h1
      cases hy : (Device.tcp m handle).answer r s.plain with
      | ok d' a' =>
        rw [hy] at h1
        simp only [mapEnd, Res.ok.injEq, plainLink, Link.mk.injEq] at h1 ⊢
        exact ⟨h1.1.1, h1.2⟩
      | throw d' e => rw [hy] at h1; cases h1
      | ub => rw [hy] at h1; cases h1
    | throw d e =>
      rw [hx] at h1
      cases hy : (Device.tcp m handle).answer r s.plain with
      | ok d' a' => rw [hy] at h1; cases h1
      | throw d' e' =>
        rw [hy] at h1
        simp only [mapEnd, Res.throw.injEq, plainLink, Link.mk.injEq] at h1 ⊢
        exact ⟨h1.1.1, h1.2⟩
      | ub => rw [hy] at h1; cases h1
    | ub =>
      rw [hx] at h1
      cases hy : (Device.tcp m handle).answer r s.plain with
      | ok d' a' => rw [hy] at h1; cases h1
      | throw d' e' => rw [hy] at h1; cases h1
      | ub => rfl
  · rcases he with ⟨a, he⟩ | ⟨e, he⟩
    · exact h2 _ (.inl ⟨a, ask_ok he⟩)
    · exact h2 _ (.inr ⟨e, ask_throw he⟩)

/-! ## Histories -/

/-- C93. The time a history of a manager spends on its session: at most 65559 timeouts for each request, and one for
every interruption. -/
theorem C93_time (P : Plat) (m : Mem) (ms : Int) (hms : 0 < ms) (handle : BitVec 32) (ops : List MOp) (s s' : Mgr) (d d' : TTcp)
    (tr : MTrace) (h : Mgr.runOn P (Device.timed m ms handle) ops s d = some ((s', d'), tr)) :
    d.now ≤ d'.now ∧
      d'.now ≤ d.now + ((requests (allEvs tr)).length * 65559 + interrupts d.net) * (ms.toNat * 1000) := by
  have key : d.now ≤ d'.now ∧ d'.now + interrupts d'.net * (ms.toNat * 1000) ≤
      d.now + ((requests (allEvs tr)).length * requestWaits + interrupts d.net) * (ms.toNat * 1000) := by
    induction ops generalizing s d tr with
    | nil =>
      simp only [Mgr.runOn, Option.some.injEq, Prod.mk.injEq] at h
      obtain ⟨⟨rfl, rfl⟩, rfl⟩ := h
      simp [allEvs, requests]
    | cons op ops ih =>
      obtain ⟨s1, d1, e, tr', h1, h2, rfl⟩ := runOn_cons h
      obtain ⟨g1, g2⟩ := ih _ _ _ h2
      have hall : requests (allEvs (e :: tr')) = requests e.2.1 ++ requests (allEvs tr') := by
        rw [← requests_append]; simp [allEvs]
      rw [hall, List.length_append]
      rcases (stepOn_cases h1).2 with ⟨rfl, _, k⟩ | ⟨r, k, hd⟩
      · rw [k]
        simpa using ⟨g1, g2⟩
      · have hc := answer_cost m ms hms handle r d d1
          (hd.imp (fun ⟨a, x, _⟩ => ⟨a, x⟩) (fun ⟨a, x, _⟩ => ⟨a, x⟩))
        rw [k]
        refine ⟨by omega, ?_⟩
        simp only [List.length_cons, List.length_nil, Nat.zero_add]
        generalize (requests (allEvs tr')).length = n at *
        have e1 : (1 + n) * requestWaits = requestWaits + n * requestWaits := by rw [Nat.add_mul, Nat.one_mul]
        rw [e1]
        obtain ⟨_, hc⟩ := hc
        rw [Nat.add_mul] at g2 hc ⊢
        rw [Nat.add_mul]
        omega
  refine ⟨key.1, ?_⟩
  rw [show (65559 : Nat) = requestWaits from rfl]
  have := key.2
  omega

/-- C93. Each call makes at most one request. -/
theorem C93_one_request {δ : Type} (P : Plat) (D : Device δ) (op : MOp) (s s' : Mgr) (d d' : δ) (e : MOp × List MEv × MRet)
    (h : s.stepOn P D op d = some ((s', d'), e)) : (requests e.2.1).length ≤ 1 := by
  rcases (stepOn_cases h).2 with ⟨_, _, k⟩ | ⟨r, k, _⟩ <;> rw [k] <;> simp

theorem stepOn_same (P : Plat) (m : Mem) (ms : Int) (hms : 0 < ms) (handle : BitVec 32) (op : MOp) (s : Mgr) (d : TTcp)
    (hp : Prompt (ms.toNat * 1000) d.now d.net) :
    Mgr.stepOn P (Device.tcp m handle) op s d.plain =
        (Mgr.stepOn P (Device.timed m ms handle) op s d).map (fun q => ((q.1.1, q.1.2.plain), q.2)) ∧
      ∀ s' d' e, Mgr.stepOn P (Device.timed m ms handle) op s d = some ((s', d'), e) → Prompt (ms.toNat * 1000) d'.now d'.net := by
  have hfin : ∀ (op' : MOp) (d0 : TTcp), s.finish P op' d0.plain = (s.finish P op' d0).map (fun q => ((q.1.1, q.1.2.plain), q.2)) := by
    intro op' d0
    unfold Mgr.finish
    cases s.step P op' <;> rfl
  have hdev : ∀ (op' : MOp) (d0 : TTcp) s' d' e, s.finish P op' d0 = some ((s', d'), e) → d' = d0 := by
    intro op' d0 s' d' e h
    unfold Mgr.finish at h
    cases hx : s.step P op' <;> rw [hx] at h
    · injection h with h; injection h with h _; injection h with _ h; exact h.symm
    · cases h
  unfold Mgr.stepOn
  cases s.reqOf op with
  | none => exact ⟨hfin op d, fun s' d' e h => by rw [hdev _ _ _ _ _ h]; exact hp⟩
  | some r =>
    obtain ⟨h1, h2⟩ := answer_same m ms hms handle r d hp
    simp only
    rw [h1]
    cases hx : (Device.timed m ms handle).answer r d with
    | ok d' resp =>
      exact ⟨hfin _ _, fun s' d'' e h => by rw [hdev _ _ _ _ _ h]; exact h2 d' (.inl ⟨_, hx⟩)⟩
    | throw d' x =>
      exact ⟨hfin _ _, fun s' d'' e h => by rw [hdev _ _ _ _ _ h]; exact h2 d' (.inr ⟨_, hx⟩)⟩
    | ub => exact ⟨rfl, fun s' d'' e h => by cases h⟩

/-- C93. When what the target sends comes in time, a history over the session with times is exactly the history over
the session without. -/
theorem C93_same (P : Plat) (m : Mem) (ms : Int) (hms : 0 < ms) (handle : BitVec 32) (ops : List MOp) (s : Mgr) (d : TTcp)
    (hp : Prompt (ms.toNat * 1000) d.now d.net) :
    Mgr.runOn P (Device.tcp m handle) ops s d.plain =
      (Mgr.runOn P (Device.timed m ms handle) ops s d).map fun q => ((q.1.1, q.1.2.plain), q.2) := by
  induction ops generalizing s d with
  | nil => rfl
  | cons op ops ih =>
    obtain ⟨h1, h2⟩ := stepOn_same P m ms hms handle op s d hp
    simp only [Mgr.runOn]
    rw [h1]
    cases hx : Mgr.stepOn P (Device.timed m ms handle) op s d with
    | none => rfl
    | some q =>
      obtain ⟨⟨s1, d1⟩, e⟩ := q
      simp only [Option.map_some]
      rw [ih s1 d1 (h2 s1 d1 e hx)]
      cases Mgr.runOn P (Device.timed m ms handle) ops s1 d1 with
      | none => rfl
      | some q => rfl

/-! ## A target that says nothing -/

/-- The statics after a forward open. -/
theorem open_request_of (s : Mgr) (host : String) (p : ConnectionParameters) (large : Bool) (e : OpenEnv)
    (hserial : s.statics.serial < 2 ^ 31 - 1) (hpath : p.connectionPath.length ≤ 64000) :
    ∃ st data, Mgr.bumpStatics s.incarnation (Mgr.o2tMulticast p large) (Mgr.t2oP2P p large) s.statics = some st ∧
      st.serial = s.statics.serial + 1 ∧
      (if large then largeForwardOpenPack (Mgr.sentParams p large st) else forwardOpenPack (Mgr.sentParams p large st)) = .ok data ∧
      s.reqOf (.forwardOpen host p large e) = some ⟨if large then 0x5B#8 else 0x54#8, EPath.mk2 6 1, data⟩ ∧
      Sendable ⟨if large then 0x5B#8 else 0x54#8, EPath.mk2 6 1, data⟩ ∧
      openTriad data = ((s.statics.serial + 1) % 65536, p.originatorVendorId.toNat, p.originatorSerialNumber.toNat) := by
  obtain ⟨st, hst, hser⟩ : ∃ st, Mgr.bumpStatics s.incarnation (Mgr.o2tMulticast p large) (Mgr.t2oP2P p large) s.statics = some st ∧
      st.serial = s.statics.serial + 1 := by
    simp only [Mgr.bumpStatics, Mgr.nextSerial, if_neg (show ¬ s.statics.serial = 2 ^ 31 - 1 by omega)]
    exact ⟨_, rfl, rfl⟩
  obtain ⟨data, hdata, hl, hh⟩ : ∃ data, (if large then largeForwardOpenPack (Mgr.sentParams p large st)
      else forwardOpenPack (Mgr.sentParams p large st)) = .ok data ∧ data.length ≤ 40 + p.connectionPath.length ∧
      OpenHead data (Mgr.sentParams p large st) := by
    cases large
    · obtain ⟨bs, hb, hl, hh, _⟩ := C19_forwardOpen (Mgr.sentParams p false st)
      refine ⟨bs, by rw [if_neg Bool.false_ne_true]; exact hb, ?_, hh⟩
      rw [hl]; simp [Mgr.sentParams]
    · obtain ⟨bs, hb, hl, hh, _⟩ := C19_largeForwardOpen (Mgr.sentParams p true st)
      refine ⟨bs, by rw [if_pos rfl]; exact hb, ?_, hh⟩
      rw [hl]; simp [Mgr.sentParams]
  refine ⟨st, data, hst, hser, hdata, by simp only [Mgr.reqOf, hst, hdata], sendable_small (.inr (.inl ⟨rfl, rfl⟩)) (by simp only; omega), ?_⟩
  obtain ⟨_, _, _, _, a10, a12, a14, _⟩ := hh
  unfold openTriad
  rw [a10, a12, a14]
  simp [Mgr.sentParams, hser]

section

variable (P : Plat) (m : Mem) (ms : Int) (hms : 0 < ms) (handle : BitVec 32) (t : TTcp) (ht : t.sends = [])
  (hq : SilentFor (ms.toNat * 1000) t.now t.net)
include hms ht hq

/-- C93. A forward open to a target that says nothing before the timeout throws EAGAIN, one timeout after it was
called.  It used up a serial number, and nothing else of the manager changed. -/
theorem C93_open_silent (s : Mgr) (host : String) (p : ConnectionParameters) (large : Bool) (e : OpenEnv)
    (hserial : s.statics.serial < 2 ^ 31 - 1) (hpath : p.connectionPath.length ≤ 64000) :
    ∃ st r, st.serial = s.statics.serial + 1 ∧ s.reqOf (.forwardOpen host p large e) = some r ∧
      openTriad r.data = ((s.statics.serial + 1) % 65536, p.originatorVendorId.toNat, p.originatorSerialNumber.toNat) ∧
      s.stepOn P (Device.timed m ms handle) (.forwardOpen host p large e) t =
        some (({ s with statics := st }, gaveUp ms handle r t),
          (.forwardOpen host p large { e with reply := .throw (.system eagain) }, [.request r.service r.path r.data],
            .threw (.system eagain))) := by
  obtain ⟨st, data, h1, h2, h3, h4, h5, h6⟩ := open_request_of s host p large e hserial hpath
  refine ⟨st, _, h2, h4, h6, ?_⟩
  unfold Mgr.stepOn
  rw [h4]
  simp only [answer_silent m ms hms handle _ h5 t ht hq, Mgr.finish, MOp.withReply, Mgr.step, Mgr.forwardOpen, h1, h3]

/-- C93. A forward close to a target that says nothing before the timeout throws EAGAIN, one timeout after it was
called, and the manager is as before: the connection is still open. -/
theorem C93_close_silent (s : Mgr) (id : Nat) (c : Conn) (rp : Outcome MessageRouterResponse) (ha : s.alive id = true)
    (hc : s.heap[id]? = some c) (hpath : c.connectionPath.length ≤ 64000) :
    ∃ r, s.reqOf (.forwardClose (some id) rp) = some r ∧
      closeTriad r.data = (c.serialNumber.toNat % 65536, c.originatorVendorId.toNat, c.originatorSerialNumber.toNat) ∧
      s.stepOn P (Device.timed m ms handle) (.forwardClose (some id) rp) t =
        some ((s, gaveUp ms handle r t),
          (.forwardClose (some id) (.throw (.system eagain)), [.request r.service r.path r.data], .threw (.system eagain))) := by
  have hr : s.reqOf (.forwardClose (some id) rp) = some ⟨0x4E#8, EPath.mk2 6 1, (Mgr.closeRequest c).pack⟩ := by
    simp only [Mgr.reqOf, if_pos ha, hc]
  obtain ⟨c1, _, c3, c4, c5, _⟩ := C19_forwardClose (Mgr.closeRequest c)
  have hsend : Sendable ⟨0x4E#8, EPath.mk2 6 1, (Mgr.closeRequest c).pack⟩ :=
    sendable_small (.inr (.inl ⟨rfl, rfl⟩)) (by simp only; rw [c1]; simp only [Mgr.closeRequest]; omega)
  refine ⟨_, hr, ?_, ?_⟩
  · rw [closeTriad, c3, c4, c5]
    simp only [Mgr.closeRequest, BitVec.toNat_setWidth]
  · unfold Mgr.stepOn
    rw [hr]
    simp only [answer_silent m ms hms handle _ hsend t ht hq, Mgr.finish, MOp.withReply, Mgr.step, Mgr.forwardClose, if_pos ha, hc]

end

/-! ## A late reply to a forward open -/

/-- C93. "The connection that a forward open returns is the one that the target opened for it" is false, and closing
it closes another one.  Two connections are opened over one session, in any reachable state of a manager.  The target
accepts both; its reply to the first comes after the timeout, and the first call throws EAGAIN.  The second call, made
when that reply has come, takes it: the connection it returns has the identifier and serial number of the first, and
the path of the second.  Closing it takes the reply to the second open for its own, asks the target to close the
first, and leaves the manager with the connections it had before: the target keeps the second, which the manager
never knew. -/
theorem C93_own_connection_violated (P : Plat) (inc : BitVec 16) (st : Statics) (s : Mgr) (ops : List MOp) (tr : MTrace)
    (hrun : (Mgr.new inc st).run P ops = some (s, tr)) (m : Mem) (ms : Int) (hms : 0 < ms) (handle : BitVec 32)
    (host : String) (p1 p2 : ConnectionParameters) (large1 large2 : Bool) (e1 : OpenEnv) (clock : Nat) (rp : Outcome MessageRouterResponse)
    (hserial : s.statics.serial + 1 < 2 ^ 31 - 1) (hpath1 : p1.connectionPath.length ≤ 64000)
    (hpath2 : p2.connectionPath.length ≤ 64000) (hmult : p2.connectionTimeoutMultiplier.toNat < 32)
    (hsame : p1.originatorVendorId = p2.originatorVendorId ∧ p1.originatorSerialNumber = p2.originatorSerialNumber)
    (c1 c2 : TConn)
    (ht1 : c1.triad = ((s.statics.serial + 1) % 65536, p1.originatorVendorId.toNat, p1.originatorSerialNumber.toNat))
    (ht2 : c2.triad = ((s.statics.serial + 2) % 65536, p2.originatorVendorId.toNat, p2.originatorSerialNumber.toNat))
    (reply1 reply2 : ExplicitReply) (hf1 : reply1.Fits) (hf2 : reply2.Fits) (ha1 : Accepts c1 (ExplicitReply.view reply1))
    (ep : EndPoint) (hep : Mgr.sendEndPoint P host (ExplicitReply.view reply1).additionalItems = .ok ep)
    (hfree : ∀ e ∈ s.table, e.1.toNat ≠ c1.t2o % 65536)
    (late second time2 time3 : Nat) (rest : List (Nat × ExplicitReply)) (t : TTcp) (ht : t.sends = [])
    (hn : t.net = repliesAt handle ((late, reply1) :: (second, reply2) :: rest)) (hlate : t.now + ms.toNat * 1000 < late)
    (hl2 : late ≤ time2 + ms.toNat * 1000) (hl3 : second ≤ time3 + ms.toNat * 1000) :
    ∃ s1 s2 s3 r1 r2 r3 x1 x2 x3 c t1 t2 t3,
      -- the first open: EAGAIN; it asks for the first connection
      s.stepOn P (Device.timed m ms handle) (.forwardOpen host p1 large1 e1) t = some ((s1, t1), x1) ∧
      x1.2.2 = .threw (.system eagain) ∧ requests x1.2.1 = [r1] ∧ openTriad r1.data = c1.triad ∧
      -- the second open, at `time2`: it asks for the second connection and returns one with the identity of the first
      s1.stepOn P (Device.timed m ms handle) (.forwardOpen host p2 large2 { reply := rp, now := clock }) { t1 with now := time2 } =
        some ((s2, t2), x2) ∧
      x2.2.2 = .ptr (some s.heap.length) ∧ requests x2.2.1 = [r2] ∧ openTriad r2.data = c2.triad ∧
      s2.heap[s.heap.length]? = some c ∧ asTarget c = c1 ∧ c.connectionPath = p2.connectionPath ∧ c1.triad ≠ c2.triad ∧
      -- the close, at `time3`: it asks for the end of the first connection, and no connection of these is left
      s2.stepOn P (Device.timed m ms handle) (.forwardClose (some s.heap.length) rp) { t2 with now := time3 } = some ((s3, t3), x3) ∧
      x3.2.2 = .unit ∧ requests x3.2.1 = [r3] ∧ r3.service = 0x4E#8 ∧ closeTriad r3.data = c1.triad ∧
      (∀ x, x ∈ s3.table ↔ x ∈ s.table) ∧ t3.net = repliesAt handle rest := by
  have hsil : SilentFor (ms.toNat * 1000) t.now t.net := by
    rw [hn]
    intro x hx
    simp only [repliesAt, List.map_cons, List.head?_cons, Option.some.injEq] at hx
    subst hx
    exact hlate
  obtain ⟨st1, r1, a1, a2, a3, a4⟩ := C93_open_silent P m ms hms handle t ht hsil s host p1 large1 e1 (by omega) hpath1
  -- the manager after the first call is reachable
  have hrun1 : (Mgr.new inc st).run P (ops ++ [.forwardOpen host p1 large1 { e1 with reply := .throw (.system eagain) }]) =
      some ({ s with statics := st1 }, tr ++ [(.forwardOpen host p1 large1 { e1 with reply := .throw (.system eagain) },
        [.request r1.service r1.path r1.data], .threw (.system eagain))]) := by
    have hk := (stepOn_cases a4).1
    exact mrun_append P _ s _ ops _ tr _ hrun (by simp only [Mgr.run, hk])
  obtain ⟨st2, data2, b1, b2, b3, b4, b5, b6⟩ := open_request_of { s with statics := st1 } host p2 large2 { reply := rp, now := clock }
    (by simp only; omega) hpath2
  obtain ⟨q1, q2, q3, q4, q5⟩ := ha1
  obtain ⟨s2, evs2, c, d1, d2, d3, d4, d5, d6, -, -, -, -, -, d12, d13, d14, -, -, -, -, -, -, -, -, d23, -⟩ :=
    C33_accepted P inc st { s with statics := st1 } _ _ hrun1 host p2 large2 clock (ExplicitReply.view reply1) ep
      (by simp only; omega) hmult q1 ⟨q2, q3⟩ hep
  rw [q4] at d5 d23
  rw [q5] at d6
  obtain ⟨d23, d24⟩ := d23 hfree
  have hans2 := answer_one m ms hms handle _ b5 late reply1 hf1 ((second, reply2) :: rest) { gaveUp ms handle r1 t with now := time2 } ht hn hl2
  have hreq2 := reqOf_sent (op := .forwardOpen host p2 large2 { reply := rp, now := clock }) (reply := .ok (ExplicitReply.view reply1)) d1
  rw [b4] at hreq2
  have hc2 : s2.heap[s.heap.length]? = some c := by rw [d2]; simp
  -- the close
  have hr3 : s2.reqOf (.forwardClose (some s.heap.length) rp) = some ⟨0x4E#8, EPath.mk2 6 1, (Mgr.closeRequest c).pack⟩ := by
    simp only [Mgr.reqOf, if_pos d24, hc2]
  obtain ⟨k1, _, k3, k4, k5, _⟩ := C19_forwardClose (Mgr.closeRequest c)
  have hs3 : Sendable ⟨0x4E#8, EPath.mk2 6 1, (Mgr.closeRequest c).pack⟩ :=
    sendable_small (.inr (.inl ⟨rfl, rfl⟩)) (by simp only; rw [k1]; simp only [Mgr.closeRequest]; rw [d12]; omega)
  have hser : c1.serial < 65536 := by
    have := congrArg (fun x => x.1) ht1
    simp only [TConn.triad] at this
    omega
  have htri : closeTriad (Mgr.closeRequest c).pack = c1.triad := by
    rw [closeTriad, k3, k4, k5, ht1]
    simp only [Mgr.closeRequest, BitVec.toNat_setWidth, d6, d13, d14, hsame]
    have := congrArg (fun x => x.1) ht1
    simp only [TConn.triad] at this
    rw [this]; simp
  have hkey : ∃ id, tblFind (c.t2oNetworkConnectionId.setWidth 16) s2.table = some id := by
    cases hx : tblFind (c.t2oNetworkConnectionId.setWidth 16) s2.table with
    | some id => exact ⟨id, rfl⟩
    | none =>
      refine absurd rfl (tblFind_none hx (c.t2oNetworkConnectionId.setWidth 16, s.heap.length) ((d23 _).2 (.inr ⟨?_, rfl⟩)))
      simp only [BitVec.toNat_setWidth, d5]
  obtain ⟨kid, hkey⟩ := hkey
  have hans3 := answer_one m ms hms handle _ hs3 second reply2 hf2 rest
    { net := repliesAt handle ((second, reply2) :: rest), sends := [], sent := (gaveUp ms handle r1 t).sent ++ [reqFrame handle ⟨if large2 then 0x5B#8 else 0x54#8, EPath.mk2 6 1, data2⟩], now := time3 } rfl rfl hl3
  refine ⟨{ s with statics := st1 }, s2, { s2 with table := tblErase (c.t2oNetworkConnectionId.setWidth 16) s2.table }, r1,
    ⟨if large2 then 0x5B#8 else 0x54#8, EPath.mk2 6 1, data2⟩, ⟨0x4E#8, EPath.mk2 6 1, (Mgr.closeRequest c).pack⟩, _,
    (.forwardOpen host p2 large2 { reply := .ok (ExplicitReply.view reply1), now := clock }, evs2, .ptr (some s.heap.length)),
    (.forwardClose (some s.heap.length) (.ok (ExplicitReply.view reply2)),
      [.request 0x4E#8 (EPath.mk2 6 1) (Mgr.closeRequest c).pack], .unit), c, _,
    ⟨repliesAt handle ((second, reply2) :: rest), [], (gaveUp ms handle r1 t).sent ++
      [reqFrame handle ⟨if large2 then 0x5B#8 else 0x54#8, EPath.mk2 6 1, data2⟩], max time2 late⟩,
    ⟨repliesAt handle rest, [], (gaveUp ms handle r1 t).sent ++ [reqFrame handle ⟨if large2 then 0x5B#8 else 0x54#8, EPath.mk2 6 1, data2⟩] ++
      [reqFrame handle ⟨0x4E#8, EPath.mk2 6 1, (Mgr.closeRequest c).pack⟩], max time3 second⟩,
    a4, rfl, rfl, by rw [a3, ht1], ?_, rfl, hreq2, by rw [b6, ht2, a1], hc2, ?_, d12, ?_, ?_, rfl, rfl, rfl, htri, ?_, ?_⟩
  · unfold Mgr.stepOn
    rw [b4]
    simp only [hans2]
    simp only [Mgr.finish, MOp.withReply, d1, gaveUp, ht]
  · obtain ⟨x1, x2, x3, x4⟩ := c1
    simp only [TConn.triad, Prod.mk.injEq] at ht1
    simp only [asTarget, TConn.mk.injEq]
    exact ⟨d6, by rw [d13, ← hsame.1, ht1.2.1], by rw [d14, ← hsame.2, ht1.2.2], d5⟩
  · rw [ht1, ht2]
    intro h
    have := congrArg (fun x => x.1) h
    simp only at this
    omega
  · unfold Mgr.stepOn
    rw [hr3]
    simp only [hans3, Mgr.finish, MOp.withReply, Mgr.step, Mgr.forwardClose, if_pos d24, hc2, hkey]
  · intro x
    simp only [tblErase, List.mem_filter, bne_iff_ne, ne_eq, d23]
    constructor
    · rintro ⟨h | ⟨h1, h2⟩, h3⟩
      · exact h
      · exact absurd (BitVec.eq_of_toNat_eq (by rw [h1, BitVec.toNat_setWidth, d5])) h3
    · intro h
      refine ⟨.inl h, fun hx => hfree x h ?_⟩
      rw [hx, BitVec.toNat_setWidth, d5]
  · rfl

end Verif.Props
