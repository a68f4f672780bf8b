import Verif.Props.ObjectTime
import Verif.Lemmas.Link

/-!
# Property C91: objects whose replies come late
-/

namespace Verif.Props

open Verif Verif.Spec

theorem packetOf_frame (handle : BitVec 32) (r : Req) (hr : Sendable r) : (packetOf handle r).pack = reqFrame handle r :=
  routerPacket_frame false handle (explicitOf r) r.path (plain_built hr.1) hr.2

theorem reqFrame_short (handle : BitVec 32) (r : Req) (hr : Sendable r) : (reqFrame handle r).length < 2 ^ 63 := by
  have : ((explicitOf r).payload false).length < 65536 := hr.2
  simp [reqFrame, ExplicitRequest.frame, encapsFrame]
  omega

/-- A target that says nothing before the timeout. -/
theorem answer_silent (m : Mem) (ms : Int) (hms : 0 < ms) (handle : BitVec 32) (r : Req) (hr : Sendable r) (s : TTcp)
    (hs : s.sends = []) (hq : SilentFor (ms.toNat * 1000) s.now s.net) :
    (Device.timed m ms handle).answer r s = .throw (gaveUp ms handle r s) (.system eagain) := by
  rw [answer_timed, C88_gives_up m ms hms handle (packetOf handle r) s hs
    (by rw [packetOf_frame handle r hr]; exact reqFrame_short handle r hr) [] s.net rfl trivial (fun x hx => (by cases hx))
    (by simp [bytesOf, stream, frameLen]; omega) hq]
  simp only [afterRequest, latest, packetOf_frame handle r hr]
  rfl

/-- A reply that is there in time. -/
theorem answer_one (m : Mem) (ms : Int) (hms : 0 < ms) (handle : BitVec 32) (r : Req) (hr : Sendable r) (a : Nat)
    (reply : ExplicitReply) (hf : reply.Fits) (rest : List (Nat × ExplicitReply)) (s : TTcp)
    (hs : s.sends = []) (hn : s.net = repliesAt handle ((a, reply) :: rest)) (ha : a ≤ s.now + ms.toNat * 1000) :
    (Device.timed m ms handle).answer r s =
      .ok { s with net := repliesAt handle rest, sent := s.sent ++ [reqFrame handle r], now := max s.now a } (ExplicitReply.view reply) := by
  let p : EncapsPacket := ⟨reply.command, BitVec.ofNat 16 reply.payload.length, handle, 0#32, reply.context, reply.options, reply.payload⟩
  have hwf : WellFormed p := ⟨hf.1, by have := hf.2.2; simp [p]; omega⟩
  have hpp : p.pack = reply.frame handle := by
    rw [encaps_pack_eq, ExplicitReply.frame, encapsFrame, hwf.length]
    simp [p]
  rw [answer_timed, one_reply m ms hms handle (packetOf handle r) p
    (by rw [packetOf_frame handle r hr]; exact reqFrame_short handle r hr) ⟨hwf, rfl, rfl⟩ s hs a (repliesAt handle rest)
    (by rw [hn]; simp only [repliesAt, framesAt, List.map_cons, List.map_nil, List.cons_append, List.nil_append, hpp]
        cases reply.frame handle <;> rfl) ha]
  simp only [afterRequest, packetOf_frame handle r hr]
  rw [show p.data = reply.payload from rfl, routerReply_ok m reply hf]
  rfl

/-! ## Operations on a target that says nothing -/

theorem nextReq_eq (inst : BitVec 16) (number : BitVec 8) :
    fileNextReq inst number.toNat = ⟨0x4F#8, ⟨0x37, inst, 0, 2⟩, [number]⟩ := by
  rw [fileNextReq, le_one]

theorem nextReq_sendable (inst : BitVec 16) (k : Nat) : Sendable (fileNextReq inst k) :=
  sendable_small (.inr (.inl ⟨rfl, rfl⟩)) (by simp [fileNextReq, le])

section

variable (m : Mem) (ms : Int) (hms : 0 < ms) (handle : BitVec 32) (s : TTcp) (hs : s.sends = [])
  (hq : SilentFor (ms.toNat * 1000) s.now s.net) (log : List Req)
include hms hs hq

theorem ask_silent (r : Req) (hr : Sendable r) :
    ask (Device.timed m ms handle) r ⟨s, log⟩ = .throw ⟨gaveUp ms handle r s, log ++ [r]⟩ (.system eagain) :=
  ask_throw (answer_silent m ms hms handle r hr s hs hq)

/-- C91. An identity is read from a target that says nothing before the timeout: the constructor throws EAGAIN, one
timeout after it was called, and does not try again. -/
theorem C91_identity_silent (inst : BitVec 16) :
    IdentityObject.connect m (Device.timed m ms handle) inst ⟨s, log⟩ =
      .throw ⟨gaveUp ms handle identityReq s, log ++ [identityReq]⟩ (.system eagain) :=
  Prog.bind_throw (ask_silent m ms hms handle s hs hq log identityReq (sendable_small (.inr (.inl ⟨rfl, rfl⟩)) (by simp [identityReq])))

/-- C91. The same for a parameter: the first request is for the size of the data. -/
theorem C91_parameter_silent (inst : BitVec 16) (full : Bool) :
    ParameterObject.connect m (Device.timed m ms handle) inst full ⟨s, log⟩ =
      .throw ⟨gaveUp ms handle (paramGet inst 6) s, log ++ [paramGet inst 6]⟩ (.system eagain) :=
  Prog.bind_throw (ask_silent m ms hms handle s hs hq log (paramGet inst 6) (sendable_small (.inr (.inr rfl)) (by simp [paramGet])))

/-- C91. An update on a target that says nothing: EAGAIN after one timeout, and the object keeps its value. -/
theorem C91_update_silent (o : ParameterObject) (ho : o.hasRouter = true) :
    ParameterObject.updateValue m (Device.timed m ms handle) (o, ⟨s, log⟩) =
      .throw (o, ⟨gaveUp ms handle (paramGet o.instanceId 1) s, log ++ [paramGet o.instanceId 1]⟩) (.system eagain) := by
  unfold ParameterObject.updateValue
  rw [Prog.bind_ok (Prog.get_run _)]
  simp only [if_pos ho]
  exact Prog.bind_throw (onLink_throw (ask_silent m ms hms handle s hs hq log (paramGet o.instanceId 1)
    (sendable_small (.inr (.inr rfl)) (by simp [paramGet]))))

/-- C91. A step of an upload on a target that says nothing: EAGAIN after one timeout, no handler is called, and the
upload is where it was. -/
theorem C91_upload_silent (f : FileObject) (u : Upload) (hf : f.state = .uploading u) :
    FileObject.handleTransfers m (Device.timed m ms handle) (f, ⟨s, log⟩) =
      .throw (f, ⟨gaveUp ms handle (fileNextReq f.instanceId u.number.toNat) s, log ++ [fileNextReq f.instanceId u.number.toNat]⟩)
        (.system eagain) := by
  have h := answer_silent m ms hms handle (fileNextReq f.instanceId u.number.toNat) (nextReq_sendable _ _) s hs hq
  rw [nextReq_eq] at h ⊢
  exact (transfer_run m (Device.timed m ms handle) ⟨s, log⟩ f u hf).1 _ _ h

/-- C91. The same for the faults of a drive: no fault is reported. -/
theorem C91_faults_silent (rnd : Rat → Rat) (pow : Nat → Rat) (M : PowerFlex.FaultManager) (calls : List PowerFlex.FaultInformation) :
    PowerFlex.handleFaultParameters rnd pow m (Device.timed m ms handle) M (calls, ⟨s, log⟩) =
      .throw (calls, ⟨gaveUp ms handle (paramGet 7 1) s, log ++ [paramGet 7 1]⟩) (.system eagain) := by
  have h : PowerFlex.faultParameter rnd pow m (Device.timed m ms handle) 1 M.getFaultDetails ⟨s, log⟩ =
      .throw ⟨gaveUp ms handle (paramGet 7 1) s, log ++ [paramGet 7 1]⟩ (.system eagain) :=
    Prog.bind_throw (Prog.bind_throw (ask_silent m ms hms handle s hs hq log (paramGet 7 1)
      (sendable_small (.inr (.inr rfl)) (by simp [paramGet]))))
  exact Prog.bind_throw (Prog.bind_throw (onLink_throw h))

end

/-! ## Operations after a late reply -/

/-- C91. "The value of a parameter object is a value of its parameter" is false.  Two parameter objects use one
session.  The update of the first fails with EAGAIN, because the reply comes after the timeout; later the other
object is updated, at `later`, when that reply has come.  Then the value in the other object is the one that the
target sent for the first. -/
theorem C91_own_value_violated (m : Mem) (ms : Int) (hms : 0 < ms) (handle : BitVec 32) (o1 o2 : ParameterObject)
    (h1 : o1.hasRouter = true) (h2 : o2.hasRouter = true) (v tail : List Byte) (hv : v.length = o2.value.length)
    (reply : ExplicitReply) (hr : Carries [reply] [v ++ tail]) (late later : Nat) (rest : List (Nat × ExplicitReply)) (s : TTcp)
    (hs : s.sends = []) (hn : s.net = repliesAt handle ((late, reply) :: rest)) (hlate : s.now + ms.toNat * 1000 < late)
    (hnow : late ≤ later + ms.toNat * 1000) (log : List Req) :
    let r1 := paramGet o1.instanceId 1
    let r2 := paramGet o2.instanceId 1
    ParameterObject.updateValue m (Device.timed m ms handle) (o1, ⟨s, log⟩) =
      .throw (o1, ⟨gaveUp ms handle r1 s, log ++ [r1]⟩) (.system eagain) ∧
    ParameterObject.updateValue m (Device.timed m ms handle) (o2, ⟨{ gaveUp ms handle r1 s with now := later }, log ++ [r1]⟩) =
      .ok ({ o2 with value := v }, ⟨⟨repliesAt handle rest, [], s.sent ++ [reqFrame handle r1, reqFrame handle r2],
        max later late⟩, log ++ [r1, r2]⟩) () := by
  intro r1 r2
  obtain ⟨e1, e2⟩ := hr
  have e2 := e2 reply (by simp)
  refine ⟨C91_update_silent m ms hms handle s hs ?_ log o1 h1, ?_⟩
  · rw [hn]
    intro x hx
    simp only [repliesAt, List.map_cons, List.head?_cons, Option.some.injEq] at hx
    subst hx
    exact hlate
  · have ha := answer_one m ms hms handle r2 (sendable_small (.inr (.inr rfl)) (by simp [r2, paramGet])) late reply e2.2 rest
      { gaveUp ms handle r1 s with now := later } hs hn hnow
    have hg := C58_updates m (Device.timed m ms handle) ⟨{ gaveUp ms handle r1 s with now := later }, log ++ [r1]⟩ o2 h2 v tail _ hv
      (.cons ha e2.1 (by simpa [ExplicitReply.view] using e1) .nil)
    rw [hg]
    simp [gaveUp, hs, r2]

theorem packet_wrong (m : Mem) (n ts : BitVec 8) (k type : Nat) (tail : List Byte) (hn : BitVec.ofNat 8 k ≠ n) (len : Nat) :
    (FileObject.packet n ts len).from m (le 1 k ++ le 1 type ++ tail) = .ok .wrongNumber := by
  refine Rd.from_ok (Reads.start (bs := le 1 k ++ le 1 type) ?_ m)
  rw [le_one_ofNat, le_one_ofNat]
  refine (Reads.u8 _).bind ((Reads.u8 _).bind (cs := []) ?_)
  rw [if_pos hn]
  exact Reads.pure _

/-- C91. "After an exception the upload can go on" is false.  The target answers every request for a packet with that
packet.  Its reply comes late once: the step ends with EAGAIN.  The next step asks again for the same packet, takes
the late reply and goes on; the step after that finds the second reply for the same packet where the next packet
should be, calls the handler with an error and ends the upload. -/
theorem C91_upload_goes_on_violated (m : Mem) (ms : Int) (hms : 0 < ms) (handle : BitVec 32) (f : FileObject) (u : Upload)
    (hf : f.state = .uploading u) (type : Nat) (ht : type = 0 ∨ type = 1) (chunk tail : List Byte)
    (hc : chunk.length = u.transferSize.toNat) (reply again : ExplicitReply)
    (hr : Carries [reply, again] [le 1 u.number.toNat ++ le 1 type ++ chunk ++ tail, le 1 u.number.toNat ++ le 1 type ++ chunk ++ tail])
    (late second time2 time3 : Nat) (rest : List (Nat × ExplicitReply)) (s : TTcp) (hs : s.sends = [])
    (hn : s.net = repliesAt handle ((late, reply) :: (second, again) :: rest)) (hlate : s.now + ms.toNat * 1000 < late)
    (h2 : late ≤ time2 + ms.toNat * 1000) (h3 : second ≤ time3 + ms.toNat * 1000) (log : List Req) :
    let step := FileObject.handleTransfers m (Device.timed m ms handle)
    let r1 := fileNextReq f.instanceId u.number.toNat
    let r3 := fileNextReq f.instanceId (u.number + 1).toNat
    let next := { f with state := .uploading { u with content := u.content ++ chunk, number := u.number + 1 } }
    let s1 := gaveUp ms handle r1 s
    let s2 : TTcp := ⟨repliesAt handle ((second, again) :: rest), [], s1.sent ++ [reqFrame handle r1], max time2 late⟩
    let s3 : TTcp := ⟨repliesAt handle rest, [], s2.sent ++ [reqFrame handle r3], max time3 second⟩
    step (f, ⟨s, log⟩) = .throw (f, ⟨s1, log ++ [r1]⟩) (.system eagain) ∧
    step (f, ⟨{ s1 with now := time2 }, log ++ [r1]⟩) = .ok (next, ⟨s2, log ++ [r1, r1]⟩) true ∧
    step (next, ⟨{ s2 with now := time3 }, log ++ [r1, r1]⟩) =
      .ok ({ next with calls := f.calls ++ [⟨u.handler, 0x20#8, []⟩] }, ⟨s3, log ++ [r1, r1, r3]⟩) false := by
  intro step r1 r3 next s1 s2 s3
  obtain ⟨e1, e2⟩ := hr
  simp only [List.map_cons, List.map_nil, List.cons.injEq, and_true] at e1
  have g1 := e2 reply (by simp)
  have g2 := e2 again (by simp)
  have a2 : (Device.timed m ms handle).answer r1 { s1 with now := time2 } = .ok s2 (ExplicitReply.view reply) := by
    rw [answer_one m ms hms handle r1 (nextReq_sendable _ _) late reply g1.2 ((second, again) :: rest) { s1 with now := time2 } hs hn h2]
    simp [s2, s1, gaveUp, hs]
  have a3 : (Device.timed m ms handle).answer r3 { s2 with now := time3 } = .ok s3 (ExplicitReply.view again) :=
    answer_one m ms hms handle r3 (nextReq_sendable _ _) second again g2.2 rest { s2 with now := time3 } rfl rfl h3
  refine ⟨C91_upload_silent m ms hms handle s hs ?_ log f u hf, ?_, ?_⟩
  · rw [hn]
    intro x hx
    simp only [repliesAt, List.map_cons, List.head?_cons, Option.some.injEq] at hx
    subst hx
    exact hlate
  · have q1 : r1 = _ := nextReq_eq f.instanceId u.number
    rw [q1] at a2
    have := ((transfer_run m (Device.timed m ms handle) ⟨{ s1 with now := time2 }, log ++ [r1]⟩ f u hf).2.2 _ _ a2).2 g1.1
    rw [show (ExplicitReply.view reply).data = reply.data from rfl, e1.1,
      packet_more m u.number u.transferSize u.number.toNat type chunk tail (by simp) ht hc] at this
    rw [← q1] at this
    rw [show log ++ [r1, r1] = log ++ [r1] ++ [r1] by simp]
    exact this
  · have q3 : r3 = _ := nextReq_eq f.instanceId (u.number + 1)
    rw [q3] at a3
    have := ((transfer_run m (Device.timed m ms handle) ⟨{ s2 with now := time3 }, log ++ [r1, r1]⟩ next _ rfl).2.2 _ _ a3).2 g2.1
    rw [show (ExplicitReply.view again).data = again.data from rfl, e1.2, List.append_assoc,
      packet_wrong m (u.number + 1) u.transferSize u.number.toNat type (chunk ++ tail) (by
        intro h
        have h := congrArg BitVec.toNat h
        simp at h
        have := u.number.isLt
        omega)] at this
    rw [← q3] at this
    rw [show log ++ [r1, r1, r3] = log ++ [r1, r1] ++ [r3] by simp]
    exact this

end Verif.Props
