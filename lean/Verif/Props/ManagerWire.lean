import Verif.Props.EndToEnd
import Verif.Props.Agreement
import Verif.Model.ManagerWire
import Verif.Spec.ManagerWire

/-!
# C83: a connection manager over a TCP session
-/

namespace Verif.Props

open Verif Verif.Spec

theorem withReply_open {r : Outcome MessageRouterResponse} {host : String} {p : ConnectionParameters} {large : Bool} {e : OpenEnv} :
    MOp.withReply r (.forwardOpen host p large e) = .forwardOpen host p large { e with reply := r } := rfl

theorem withReply_idem (a b : Outcome MessageRouterResponse) (op : MOp) : (op.withReply a).withReply b = op.withReply b := by
  cases op <;> rfl

theorem requests_append (a b : List MEv) : requests (a ++ b) = requests a ++ requests b := by
  induction a with
  | nil => rfl
  | cons e es ih => cases e <;> simp [requests, ih]

theorem requests_filter (evs : List MEv) : requests (evs.filter isRequest) = requests evs := by
  induction evs with
  | nil => rfl
  | cons e es ih =>
    cases e with
    | request svc path data => rw [List.filter_cons_of_pos rfl]; simp only [requests, ih]
    | _ => rw [List.filter_cons_of_neg (by simp [isRequest])]; simp only [requests, ih]

theorem filter_of_requests {evs : List MEv} (h : evs.filter isRequest = []) : requests evs = [] := by
  rw [← requests_filter, h]; rfl

/-- The request a call announces is the one it sends, whatever the answer is. -/
theorem reqOf_sent {P : Plat} {s s' : Mgr} {op : MOp} {reply : Outcome MessageRouterResponse} {evs : List MEv} {ret : MRet}
    (h : s.step P (op.withReply reply) = .ok s' evs ret) : requests evs = (s.reqOf op).toList := by
  cases op with
  | forwardOpen host p large e =>
    rw [withReply_open] at h
    obtain ⟨st, data, h1, h2, hh⟩ := forwardOpen_cases P host p large _ s s' evs ret h
    have hr : s.reqOf (.forwardOpen host p large e) =
        some ⟨if large then 0x5B#8 else 0x54#8, EPath.mk2 6 1, data⟩ := by
      simp only [Mgr.reqOf, h1, h2]
    rw [hr]
    rcases hh with ⟨_, rfl, _⟩ | ⟨resp, _, _, r, mult, ep, socks, bs, _, _, _, _, hf, _, rfl, _⟩
    · rfl
    · have hb : requests bs = [] := by
        have := findOrCreate_events _ _ _ _ _ hf
        clear hf h
        induction bs with
        | nil => rfl
        | cons b bs ih =>
          obtain ⟨x, rfl⟩ := this b (by simp)
          simp only [requests]
          exact ih fun e he => this e (List.mem_cons_of_mem _ he)
      rw [requests_append]
      simp [requests, hb]
  | forwardClose ptr r =>
    simp only [MOp.withReply, Mgr.step, Mgr.forwardClose] at h
    cases ptr with
    | none => cases h; rfl
    | some id =>
      simp only at h
      simp only [Mgr.reqOf]
      split at h
      · rename_i hal
        rw [if_pos hal]
        split at h
        · rename_i hc; cases h; rw [hc]; rfl
        · rename_i c hc
          rw [hc]
          repeat' split at h
          all_goals first | (cases h; rfl) | cases h
      · rename_i hal
        rw [if_neg hal]
        cases h; rfl
  | _ => exact filter_of_requests (step_requests h rfl)

theorem runOn_cons {δ : Type} {P : Plat} {D : Device δ} {op : MOp} {ops : List MOp} {s s' : Mgr} {d d' : δ} {tr : MTrace}
    (h : Mgr.runOn P D (op :: ops) s d = some ((s', d'), tr)) :
    ∃ s1 d1 e tr', s.stepOn P D op d = some ((s1, d1), e) ∧ Mgr.runOn P D ops s1 d1 = some ((s', d'), tr') ∧ tr = e :: tr' := by
  simp only [Mgr.runOn] at h
  split at h
  · cases h
  · rename_i s1 d1 e h1
    split at h
    · cases h
    · rename_i q tr' h2
      injection h with h
      injection h with h3 h4
      subst h3
      exact ⟨s1, d1, e, tr', h1, h2, h4.symm⟩

/-- One call over a responder: nothing is asked, or the request is asked and its answer used. -/
theorem stepOn_cases {δ : Type} {P : Plat} {D : Device δ} {op : MOp} {s s' : Mgr} {d d' : δ} {e : MOp × List MEv × MRet}
    (h : s.stepOn P D op d = some ((s', d'), e)) :
    s.step P e.1 = .ok s' e.2.1 e.2.2 ∧
    ((d' = d ∧ e.1 = op ∧ requests e.2.1 = []) ∨
      ∃ r, requests e.2.1 = [r] ∧
        ((∃ resp, D.answer r d = .ok d' resp ∧ e.1 = op.withReply (.ok resp) ∧ replyTo e.1 = some (.ok resp)) ∨
          ∃ x, D.answer r d = .throw d' x ∧ e.1 = op.withReply (.throw x) ∧ replyTo e.1 = some (.throw x))) := by
  have hfin : ∀ (op' : MOp) (d0 : δ), s.finish P op' d0 = some ((s', d'), e) →
      d' = d0 ∧ e.1 = op' ∧ s.step P e.1 = .ok s' e.2.1 e.2.2 := by
    intro op' d0 hf
    unfold Mgr.finish at hf
    split at hf
    · rename_i hs
      injection hf with hf
      injection hf with h1 h2
      injection h1 with h1 h3
      subst h1
      rw [← h2]
      exact ⟨h3.symm, rfl, hs⟩
    · cases hf
  unfold Mgr.stepOn at h
  split at h
  · rename_i hr
    obtain ⟨h1, h2, h3⟩ := hfin _ _ h
    refine ⟨h3, .inl ⟨h1, h2, ?_⟩⟩
    rw [h2] at h3
    have hself : ∃ rp, op = op.withReply rp := by
      cases op with
      | forwardOpen host p large e => exact ⟨e.reply, rfl⟩
      | forwardClose ptr r => exact ⟨r, rfl⟩
      | _ => exact ⟨.ub, rfl⟩
    obtain ⟨rp, hrp⟩ := hself
    rw [hrp] at h3
    rw [reqOf_sent h3, hr]
    rfl
  · rename_i r hr
    have hrep : ∀ rp, replyTo (op.withReply rp) = some rp := by
      intro rp
      cases op with
      | forwardOpen host p large e => rfl
      | forwardClose ptr r => rfl
      | _ => simp [Mgr.reqOf] at hr
    split at h
    · rename_i d1 resp hd
      obtain ⟨rfl, h2, h3⟩ := hfin _ _ h
      refine ⟨h3, .inr ⟨r, ?_, .inl ⟨resp, hd, h2, by rw [h2]; exact hrep _⟩⟩⟩
      rw [h2] at h3
      rw [reqOf_sent h3, hr]
      rfl
    · rename_i d1 x hd
      obtain ⟨rfl, h2, h3⟩ := hfin _ _ h
      refine ⟨h3, .inr ⟨r, ?_, .inr ⟨x, hd, h2, by rw [h2]; exact hrep _⟩⟩⟩
      rw [h2] at h3
      rw [reqOf_sent h3, hr]
      rfl
    · cases h

/-- C83. A history over any responder is a history of the manager, with the answers filled in: everything
proved about managers holds. -/
theorem C83_history {δ : Type} (P : Plat) (D : Device δ) (ops : List MOp) (s s' : Mgr) (d d' : δ) (tr : MTrace)
    (h : Mgr.runOn P D ops s d = some ((s', d'), tr)) :
    s.run P (tr.map (·.1)) = some (s', tr) ∧
      ∀ r, tr.map (fun e => e.1.withReply r) = ops.map (MOp.withReply r) := by
  induction ops generalizing s d tr with
  | nil =>
    simp only [Mgr.runOn, Option.some.injEq, Prod.mk.injEq] at h
    obtain ⟨⟨rfl, rfl⟩, rfl⟩ := h
    exact ⟨rfl, fun _ => rfl⟩
  | cons op ops ih =>
    obtain ⟨s1, d1, e, tr', h1, h2, rfl⟩ := runOn_cons h
    obtain ⟨g1, g2⟩ := ih _ _ _ h2
    obtain ⟨k1, k2⟩ := stepOn_cases h1
    refine ⟨by simp only [List.map_cons, Mgr.run, k1, g1], fun r => ?_⟩
    simp only [List.map_cons, g2 r]
    congr 1
    rcases k2 with ⟨_, k2, _⟩ | ⟨_, _, ⟨_, _, k2, _⟩ | ⟨_, _, k2, _⟩⟩
    · rw [k2]
    · rw [k2, withReply_idem]
    · rw [k2, withReply_idem]

/-! ## The bytes -/

/-- The program does not write to the socket. -/
def Silent {α : Type} (p : Prog Tcp α) : Prop := ∀ s s', (∀ a, p s = .ok s' a → s'.sent = s.sent ∧ s'.sends = s.sends) ∧
  ∀ e, p s = .throw s' e → s'.sent = s.sent ∧ s'.sends = s.sends

theorem Silent.bind {α β : Type} {p : Prog Tcp α} {f : α → Prog Tcp β} (hp : Silent p) (hf : ∀ a, Silent (f a)) :
    Silent (p >>= f) := by
  intro s s'
  rw [Prog.bind_run]
  cases h : p s with
  | ub => exact ⟨fun _ h => by simp at h, fun _ h => by simp at h⟩
  | throw s1 e =>
    refine ⟨fun _ h => by simp at h, fun e' h' => ?_⟩
    simp only [Res.throw.injEq] at h'
    rw [← h'.1]
    exact (hp s s1).2 _ h
  | ok s1 a =>
    have h1 := (hp s s1).1 a h
    refine ⟨fun b hb => ?_, fun e he => ?_⟩
    · have h2 := (hf a s1 s').1 b hb
      exact ⟨h2.1.trans h1.1, h2.2.trans h1.2⟩
    · have h2 := (hf a s1 s').2 e he
      exact ⟨h2.1.trans h1.1, h2.2.trans h1.2⟩

theorem silent_receive (n : Nat) : Silent (Tcp.receive n) := by
  intro s s'
  unfold Tcp.receive
  split
  · exact ⟨fun a h => by cases h; exact ⟨rfl, rfl⟩, fun e h => by cases h⟩
  · exact ⟨fun a h => by (cases h), fun e h => by cases h; exact ⟨rfl, rfl⟩⟩

theorem silent_lift {α : Type} (x : Outcome α) : Silent (Prog.lift x : Prog Tcp α) := by
  intro s s'
  unfold Prog.lift
  cases x
  · exact ⟨fun a h => by cases h; exact ⟨rfl, rfl⟩, fun e h => by cases h⟩
  · exact ⟨fun a h => by (cases h), fun e h => by cases h; exact ⟨rfl, rfl⟩⟩
  · exact ⟨fun a h => by (cases h), fun e h => by cases h⟩

theorem silent_throw {α : Type} (e : Exn) : Silent (Prog.throw e : Prog Tcp α) := fun s s' =>
  ⟨fun a h => by (cases h), fun e h => by cases h; exact ⟨rfl, rfl⟩⟩

theorem silent_pure {α : Type} (a : α) : Silent (pure a : Prog Tcp α) := fun s s' =>
  ⟨fun a h => by cases h; exact ⟨rfl, rfl⟩, fun e h => by cases h⟩

/-- `sendAndReceive` after `Send`. -/
def sarRest (m : Mem) (handle : BitVec 32) : Prog Tcp EncapsPacket := do
  let header ← Tcp.receive EncapsPacket.headerSize
  let length ← Prog.lift (EncapsPacket.getLengthFromHeader header)
  let data ← Tcp.receive length
  let recvPacket ← Prog.lift (EncapsPacket.parse m (header ++ data))
  if recvPacket.status ≠ encapsSuccess then
    Prog.throw (.runtime "Bad encaps packet code")
  else if handle ≠ 0#32 ∧ recvPacket.sessionHandle ≠ handle then
    Prog.throw (.runtime "Wrong session handle received")
  else pure recvPacket

theorem sar_eq (m : Mem) (handle : BitVec 32) (pkt : EncapsPacket) :
    sendAndReceive m handle pkt = (Tcp.send pkt.pack >>= fun _ => sarRest m handle) := rfl

theorem silent_sarRest (m : Mem) (handle : BitVec 32) : Silent (sarRest m handle) := by
  refine (silent_receive _).bind fun _ => (silent_lift _).bind fun _ => (silent_receive _).bind fun _ =>
    (silent_lift _).bind fun p => ?_
  split
  · exact silent_throw _
  · split
    · exact silent_throw _
    · exact silent_pure _

/-- A request over a session writes its frame and nothing else, whatever comes back. -/
theorem request_writes (m : Mem) (handle : BitVec 32) (r : Req) (hr : Sendable r) (s s' : Tcp) (hs : s.sends = [])
    (h : (∃ a, (Device.tcp m handle).answer r s = .ok s' a) ∨ ∃ e, (Device.tcp m handle).answer r s = .throw s' e) :
    s'.sent = s.sent ++ [reqFrame handle r] ∧ s'.sends = [] := by
  have hpk := routerPacket_frame false handle (explicitOf r) r.path (plain_built hr.1) hr.2
  have hlen : (routerPacket handle ⟨r.service, r.path, r.data, false⟩ []).pack.length < 2 ^ 63 := by
    have h1 : ((explicitOf r).payload false).length < 65536 := hr.2
    have h2 : (routerPacket handle ⟨r.service, r.path, r.data, false⟩ []).pack = (explicitOf r).frame false handle := hpk
    rw [h2]; simp [ExplicitRequest.frame, encapsFrame]; omega
  have hsend' : Tcp.send (routerPacket handle ⟨r.service, r.path, r.data, false⟩ []).pack s =
      .ok { s with sent := s.sent ++ [reqFrame handle r] } () := by
    rw [send_all s _ hs hlen, show (routerPacket handle ⟨r.service, r.path, r.data, false⟩ []).pack = reqFrame handle r from hpk]
  have hsil := (silent_sarRest m handle).bind fun p => silent_lift (routerReply m p.data)
  have heq : (Device.tcp m handle).answer r s = (sarRest m handle >>= fun p => Prog.lift (routerReply m p.data))
      { s with sent := s.sent ++ [reqFrame handle r] } := by
    show sendRequest m (SessionIf.tcp m handle) false r.service r.path r.data [] s = _
    unfold sendRequest SessionIf.tcp
    simp only [sar_eq]
    rw [Prog.bind_run, Prog.bind_ok hsend']
    exact (Prog.bind_run _ _ _).symm
  rw [heq] at h
  have hx := hsil { s with sent := s.sent ++ [reqFrame handle r] } s'
  rcases h with ⟨a, h⟩ | ⟨e, h⟩
  · exact (hx.1 a h).imp id (·.trans hs)
  · exact (hx.2 e h).imp id (·.trans hs)

/-- C83. A history of a manager over a session, whatever the target and the network do: the bytes
written are exactly the frames of the requests of the history, one after the other. -/
theorem C83_bytes (P : Plat) (m : Mem) (handle : BitVec 32) (ops : List MOp) (s s' : Mgr) (t t' : Tcp) (tr : MTrace)
    (ht : t.sends = []) (h : Mgr.runOn P (Device.tcp m handle) ops s t = some ((s', t'), tr))
    (hf : ∀ r ∈ requests (allEvs tr), Sendable r) :
    t'.sent = t.sent ++ (requests (allEvs tr)).map (reqFrame handle) ∧ t'.sends = [] := by
  induction ops generalizing s t tr with
  | nil =>
    simp only [Mgr.runOn, Option.some.injEq, Prod.mk.injEq] at h
    obtain ⟨⟨rfl, rfl⟩, rfl⟩ := h
    simp [allEvs, requests, ht]
  | cons op ops ih =>
    obtain ⟨s1, t1, e, tr', h1, h2, rfl⟩ := runOn_cons h
    have hall : requests (allEvs (e :: tr')) = requests e.2.1 ++ requests (allEvs tr') := by
      rw [← requests_append]; simp [allEvs]
    rw [hall] at hf ⊢
    have ht1 : t1.sent = t.sent ++ (requests e.2.1).map (reqFrame handle) ∧ t1.sends = [] := by
      rcases (stepOn_cases h1).2 with ⟨rfl, _, k⟩ | ⟨r, k, hd⟩
      · simp [k, ht]
      · rw [k]
        have := request_writes m handle r (hf r (by simp [k])) t t1 ht
          (hd.imp (fun ⟨a, x, _⟩ => ⟨a, x⟩) (fun ⟨a, x, _⟩ => ⟨a, x⟩))
        simpa using this
    obtain ⟨g1, g2⟩ := ih _ _ _ ht1.2 h2 fun r hr => hf r (by simp [hr])
    exact ⟨by rw [g1, ht1.1]; simp, g2⟩

/-- C83. When reply frames arrive, cut into segments in any way, the history gets exactly what they
carry, in order, and the stream stands after them. -/
theorem C83_replies (P : Plat) (m : Mem) (handle : BitVec 32) (ops : List MOp) (s s' : Mgr) (t t' : Tcp) (tr : MTrace)
    (ht : t.sends = []) (h : Mgr.runOn P (Device.tcp m handle) ops s t = some ((s', t'), tr))
    (hf : ∀ r ∈ requests (allEvs tr), Sendable r) (as : List ExplicitReply) (ha : ∀ a ∈ as, a.Fits)
    (hn : as.length = (requests (allEvs tr)).length) (rest : List Byte)
    (hst : (stream t.net).1 = replyStream handle as ++ rest) :
    answersOf tr = as.map (fun a => .ok (ExplicitReply.view a)) ∧ stream t'.net = (rest, (stream t.net).2) := by
  induction ops generalizing s t tr as with
  | nil =>
    simp only [Mgr.runOn, Option.some.injEq, Prod.mk.injEq] at h
    obtain ⟨⟨rfl, rfl⟩, rfl⟩ := h
    have : as = [] := by simpa [allEvs, requests] using hn
    subst this
    refine ⟨rfl, ?_⟩
    rw [← show (stream t.net).1 = rest by simpa [replyStream] using hst]
  | cons op ops ih =>
    obtain ⟨s1, t1, e, tr', h1, h2, rfl⟩ := runOn_cons h
    have hall : requests (allEvs (e :: tr')) = requests e.2.1 ++ requests (allEvs tr') := by
      rw [← requests_append]; simp [allEvs]
    rw [hall] at hf hn
    obtain ⟨eop, eevs, eret⟩ := e
    rcases (stepOn_cases h1).2 with ⟨rfl, _, k⟩ | ⟨r, k, hd⟩
    · simp only [k, List.nil_append] at hf hn
      simp only at k
      simp only [answersOf, k]
      exact ih _ _ _ ht h2 hf as ha hn hst
    · simp only at k hd
      simp only [k, List.cons_append, List.nil_append, List.length_cons] at hf hn
      cases as with
      | nil => simp at hn
      | cons a as =>
        have hr := hf r (by simp)
        obtain ⟨net', c1, c2⟩ := C27_request m handle false (explicitOf r) r.path (plain_built hr.1) hr.2 a (ha a (by simp)) t ht
          (replyStream handle as ++ rest) (by rw [hst]; simp [replyStream])
        have c1' : (Device.tcp m handle).answer r t =
          .ok { t with net := net', sent := t.sent ++ [reqFrame handle r] } (ExplicitReply.view a) := c1
        rcases hd with ⟨resp, d1, _, d2⟩ | ⟨x, d1, _, _⟩
        · rw [c1'] at d1
          injection d1 with d1 d3
          subst d1 d3
          obtain ⟨g1, g2⟩ := ih _ { t with net := net', sent := t.sent ++ [reqFrame handle r] } _ ht h2
            (fun r hr => hf r (by simp [hr])) as (fun b hb => ha b (by simp [hb])) (by simpa using hn) (by simp only [c2])
          refine ⟨?_, by rw [g2]; simp only [c2]⟩
          simp only [answersOf, k, d2, g1, List.map_cons]
        · rw [c1'] at d1
          cases d1

/-! ## Frames in a stream -/

theorem cut_frame (n : Nat) (f bs : List Byte) (hf : f.length = 24 + field f 2 2) :
    cutFrames (n + 1) (f ++ bs) = (cutFrames n bs).map (f :: ·) := by
  have hfield : field (f ++ bs) 2 2 = field f 2 2 := by
    unfold field
    rw [List.drop_append_of_le_length (by omega), List.take_append_of_le_length (by rw [List.length_drop]; omega)]
  cases f with
  | nil => simp at hf; omega
  | cons b f =>
    simp only [List.cons_append, cutFrames] at hfield ⊢
    rw [hfield, ← hf, if_pos (by simp), ← List.cons_append, List.take_left', List.drop_left']
    · rfl
    · rfl

theorem cut_all (fs : List (List Byte)) (hf : ∀ f ∈ fs, f.length = 24 + field f 2 2) (n : Nat) (hn : fs.length ≤ n) :
    cutFrames n fs.flatten = some fs := by
  induction fs generalizing n with
  | nil => cases n <;> rfl
  | cons f fs ih =>
    cases n with
    | zero => simp at hn
    | succ n =>
      rw [List.flatten_cons, cut_frame n f _ (hf f (by simp)), ih (fun g hg => hf g (by simp [hg])) n (by simpa using hn)]
      rfl

theorem encapsFrame_cut (command session status : Nat) (context : List Byte) (options : Nat) (payload : List Byte)
    (hc : context.length = 8) (hp : payload.length < 65536) :
    (encapsFrame command session status context options payload).length =
      24 + field (encapsFrame command session status context options payload) 2 2 := by
  have : field (encapsFrame command session status context options payload) 2 2 = payload.length := by
    unfold encapsFrame field
    simp only [List.append_assoc]
    rw [List.drop_left' (by simp), List.take_left' (by simp), ofLe_le _ _ (by simpa using hp)]
  rw [this]
  simp [encapsFrame, hc]
  omega

/-- C83. A target that reads a written frame finds the request. -/
theorem C83_readable (handle : BitVec 32) (r : Req) :
    readRequest (reqFrame handle r) =
      some (r.service.toNat, pathBytes false ((explicitOf r).ids.map BitVec.toNat), r.data) := by
  have hl : (reqFrame handle r).drop 40 =
      mrRequest r.service.toNat (pathBytes false ((explicitOf r).ids.map BitVec.toNat)) r.data := by
    unfold reqFrame ExplicitRequest.frame encapsFrame ExplicitRequest.payload cpf cpfItem
    simp only [explicitOf, List.map_nil, List.append_nil, List.flatMap_cons, List.flatMap_nil, ← List.append_assoc]
    rw [List.drop_left' (by simp)]
  have h3 : ∀ ids : List Nat, ids.length ≤ 3 → (pathBytes false ids).length = 4 * ids.length := by
    intro ids h
    match ids, h with
    | [], _ => simp [pathBytes]
    | [_], _ => simp [pathBytes, Seg.bytes]
    | [_, _], _ => simp [pathBytes, Seg.bytes]
    | [_, _, _], _ => simp [pathBytes, Seg.bytes]
  have hi : ((explicitOf r).ids.map BitVec.toNat).length ≤ 3 := by simp [explicitOf]; omega
  generalize (explicitOf r).ids.map BitVec.toNat = ids at hl hi
  have hp := h3 ids hi
  unfold readRequest
  rw [hl, mrRequest, le_one, le_one_ofNat]
  simp only [List.cons_append, List.nil_append, mrDecode, BitVec.toNat_ofNat]
  have hm : 2 * ((pathBytes false ids).length / 2 % 2 ^ 8) = (pathBytes false ids).length := by omega
  rw [hm, if_pos (by simp), List.take_left' rfl, List.drop_left' rfl]

/-- C83. Over a whole life of a session, from connecting to closing, with any history of the manager
in between and whatever the target does after it granted the session: the bytes written are the
registration, the frames of the requests and the end of the session; they can be cut into these frames
in exactly one way; and no descriptor stays open. -/
theorem C83_life (P : Plat) (m : Mem) (env : ConnectEnv) (f0 : BitVec 32) (ms : Int) (o : Os) (t : Tcp)
    (hfd : ∀ fd, env.socket = .ok fd → fd < 1024 ∧ ∀ p ∈ o.files, p.1 ≠ fd) (hok : firstFailure env = none)
    (g : SessionGrant) (hg : g.Fits) (hs : t.sends = []) (rest : List Byte)
    (hn : (stream t.net).1 = g.frame ++ rest) :
    ∃ o1 t1 fd, sessionOpen m env f0 ms (o, t) = .ok (o1, t1) (fd, g.handle) ∧
      ∀ ops s s' t2 tr, Mgr.runOn P (Device.tcp m g.handle) ops s t1 = some ((s', t2), tr) →
        (∀ r ∈ requests (allEvs tr), Sendable r) →
        ∃ o4 t4, sessionClose fd g.handle (o1, t2) = .ok (o4, t4) () ∧ o4.files = o.files ∧
          t4.sent = t.sent ++ (registerFrame :: (requests (allEvs tr)).map (reqFrame g.handle) ++ [unregisterFrame g.handle]) ∧
          ∀ n, (requests (allEvs tr)).length + 2 ≤ n →
            cutFrames n (registerFrame :: (requests (allEvs tr)).map (reqFrame g.handle) ++ [unregisterFrame g.handle]).flatten =
              some (registerFrame :: (requests (allEvs tr)).map (reqFrame g.handle) ++ [unregisterFrame g.handle]) := by
  let p : EncapsPacket := ⟨g.command, BitVec.ofNat 16 g.payload.length, g.handle, 0#32, g.context, g.options, g.payload⟩
  have hwf : WellFormed p := ⟨hg.1, by have := hg.2; simp [p]; omega⟩
  have hpp : p.pack = g.frame := by
    rw [encaps_pack_eq, SessionGrant.frame, encapsFrame, hwf.length]
    simp [p]
  obtain ⟨o1, t1, fd, h1, h2, h3, h4, hclose⟩ := C77_life m env f0 ms o t hfd hok p hwf rfl hs rest (by rw [hpp, hn])
  refine ⟨o1, t1, fd, h1, fun ops s s' t2 tr hr hf => ?_⟩
  obtain ⟨b1, b2⟩ := C83_bytes P m g.handle ops s s' t1 t2 tr h3 hr hf
  obtain ⟨o4, c1, c2⟩ := hclose t2 b2
  refine ⟨o4, _, c1, c2, ?_, fun n hn => ?_⟩
  · simp only [b1, h2]
    simp [registerFrame, unregisterFrame, p]
  · refine cut_all _ ?_ n (by simpa using hn)
    intro f hfm
    rcases List.mem_append.mp hfm with hfm | hfm
    · rcases List.mem_cons.mp hfm with rfl | hfm
      · decide +kernel
      · obtain ⟨r, hr1, rfl⟩ := List.mem_map.mp hfm
        exact encapsFrame_cut _ _ _ _ _ _ (by simp) (hf r hr1).2
    · rw [List.mem_singleton.mp hfm]
      exact encapsFrame_cut _ _ _ _ _ _ (by simp) (by simp)

end Verif.Props
