import Verif.Props.RouterIo
import Verif.Props.Connect
import Verif.Props.Identity
import Verif.Props.Parameter
import Verif.Props.File
import Verif.Props.PowerFlex
import Verif.Spec.EndToEnd

/-!
# Property C79: the object classes over a TCP session, byte for byte
-/

namespace Verif.Props

open Verif Verif.Spec

theorem plain_built {p : EPath} (h : Plain p) : Built p (([p.classId, p.objectId, p.attributeId]).take p.size.toNat) := by
  obtain ⟨c, o, a, n⟩ := p
  rcases h with ⟨h1, h2, h3⟩ | ⟨h1, h2⟩ | h1 <;> simp only at * <;> subst_vars
  · exact Built.one c
  · exact Built.two c o
  · exact Built.three c o a

/-- C79. One request of an object class over a session: exactly the specified frame is
written, and the object gets what the reply frame carries, whatever its status is. -/
theorem C79_answer (m : Mem) (handle : BitVec 32) (r : Req) (hr : Sendable r) (a : ExplicitReply) (ha : a.Fits)
    (s : Tcp) (hs : s.sends = []) (rest : List Byte) (hn : (stream s.net).1 = a.frame handle ++ rest) :
    ∃ net' resp, (Device.tcp m handle).answer r s = .ok { s with net := net', sent := s.sent ++ [reqFrame handle r] } resp ∧
      resp.status = a.status ∧ resp.data = a.data ∧ resp.service = a.service ∧ resp.additionalStatus = a.extra ∧
      stream net' = (rest, (stream s.net).2) := by
  obtain ⟨net', h1, h2⟩ := C27_request m handle false (explicitOf r) r.path (plain_built hr.1) hr.2 a ha s hs rest hn
  exact ⟨net', ExplicitReply.view a, h1, rfl, rfl, rfl, rfl, h2⟩

/-- C79. Any number of requests: over a stream of reply frames, cut into segments in any
way, the session is a responder that grants them, and the frames of the requests are
written in order. -/
theorem C79_grants (m : Mem) (handle : BitVec 32) (xs : List (Req × List Byte)) (hx : ∀ x ∈ xs, Sendable x.1)
    (as : List ExplicitReply) (ha : Carries as (xs.map (·.2))) (s : Tcp) (hs : s.sends = []) (rest : List Byte)
    (hn : (stream s.net).1 = replyStream handle as ++ rest) :
    ∃ s' : Tcp, Grants (Device.tcp m handle) s xs s' ∧ s'.sent = s.sent ++ xs.map (fun x => reqFrame handle x.1) ∧
      s'.sends = [] ∧ stream s'.net = (rest, (stream s.net).2) := by
  induction xs generalizing as s with
  | nil =>
    have : as = [] := by simpa [Carries] using ha.1
    subst this
    refine ⟨s, .nil, by simp, hs, ?_⟩
    rw [← show (stream s.net).1 = rest by simpa [replyStream] using hn]
  | cons x xs ih =>
    obtain ⟨r, data⟩ := x
    cases as with
    | nil => have := ha.1; simp at this
    | cons a as =>
      obtain ⟨hd, hall⟩ := ha
      simp only [List.map_cons, List.cons.injEq] at hd
      obtain ⟨net', resp, h1, h2, h3, _, _, h4⟩ := C79_answer m handle r (hx (r, data) (by simp)) a (hall a (by simp)).2 s hs
        (replyStream handle as ++ rest) (by rw [hn]; simp [replyStream])
      obtain ⟨s', g, e1, e2, e3⟩ := ih (fun x hx' => hx x (by simp [hx'])) as ⟨hd.2, fun b hb => hall b (by simp [hb])⟩
        { s with net := net', sent := s.sent ++ [reqFrame handle r] } hs (by simp only [h4])
      refine ⟨s', .cons h1 (h2.trans (hall a (by simp)).1) (h3.trans hd.1) g, ?_, e2, ?_⟩
      · rw [e1]; simp
      · rw [e3]; simp only [h4]

/-- Requests with little data can be sent. -/
theorem sendable_small {r : Req} (hp : Plain r.path) (hd : r.data.length ≤ 65000) : Sendable r := by
  refine ⟨hp, ?_⟩
  have hl : ∀ ids : List Nat, ids.length ≤ 3 → (pathBytes false ids).length ≤ 12 := by
    intro ids h
    match ids, h with
    | [], _ => simp [pathBytes]
    | [_], _ => simp [pathBytes, Seg.bytes]
    | [_, _], _ => simp [pathBytes, Seg.bytes]
    | [_, _, _], _ => simp [pathBytes, Seg.bytes]
  have := hl ((explicitOf r).ids.map BitVec.toNat) (by simp [explicitOf]; omega)
  unfold ExplicitRequest.Fits ExplicitRequest.payload
  simp only [explicitOf, cpf, cpfItem, mrRequest, List.length_append, le_length, List.map_nil, List.append_nil, List.length_cons,
    List.length_nil, List.flatMap_cons, List.flatMap_nil] at *
  omega

/-! ## The object classes -/

/-- A record that was written is read back. -/
theorem identityAt_bytes (i : Identity) (h : i.Fits) (tail : List Byte) :
    IdentityFits (i.bytes ++ tail) 0 ∧ identityAt (i.bytes ++ tail) 0 = i := by
  obtain ⟨h1, h2, h3, h4, h5, h6, h7, h8⟩ := h
  have hl : field (i.bytes ++ tail) 14 1 = i.name.length := by
    simp only [Identity.bytes, List.append_assoc]
    repeat rw [field_skip _ _ _ _ _ (by decide)]
    exact field_here 1 _ _ h8
  constructor
  · unfold IdentityFits
    rw [Nat.zero_add, hl]
    simp [Identity.bytes]; omega
  · unfold identityAt
    simp only [Nat.zero_add, hl]
    simp only [Identity.bytes, List.append_assoc]
    obtain ⟨a, b, c, d, e, f, g, n⟩ := i
    simp only at *
    congr 1
    · exact field_here 2 _ _ h1
    · rw [field_skip _ _ _ _ _ (by decide)]; exact field_here 2 _ _ h2
    · rw [field_skip _ _ _ _ _ (by decide), field_skip _ _ _ _ _ (by decide)]; exact field_here 2 _ _ h3
    · iterate 3 rw [field_skip _ _ _ _ _ (by decide)]
      exact field_here 1 _ _ h4
    · iterate 4 rw [field_skip _ _ _ _ _ (by decide)]
      exact field_here 1 _ _ h5
    · iterate 5 rw [field_skip _ _ _ _ _ (by decide)]
      exact field_here 2 _ _ h6
    · iterate 6 rw [field_skip _ _ _ _ _ (by decide)]
      exact field_here 4 _ _ h7
    · iterate 8 rw [drop_skip _ _ _ _ (by decide)]
      simp

/-- C79. Reading an identity: one frame is written, and the object holds the record in the
reply frame. -/
theorem C79_identity (m : Mem) (handle : BitVec 32) (inst : BitVec 16) (i : Identity) (hi : i.Fits) (tail : List Byte)
    (a : ExplicitReply) (ha : Carries [a] [i.bytes ++ tail]) (s : Tcp) (log : List Req) (hs : s.sends = []) (rest : List Byte)
    (hn : (stream s.net).1 = a.frame handle ++ rest) :
    ∃ s' o, IdentityObject.connect m (Device.tcp m handle) inst ⟨s, log⟩ = .ok ⟨s', log ++ [identityReq]⟩ o ∧
      identityView o = i ∧ o.instanceId = inst ∧ s'.sent = s.sent ++ [reqFrame handle identityReq] ∧ s'.sends = [] ∧
      stream s'.net = (rest, (stream s.net).2) := by
  obtain ⟨s', g, e1, e2, e3⟩ := C79_grants m handle [(identityReq, i.bytes ++ tail)]
    (by intro x hx; simp at hx; subst hx; exact sendable_small (.inr (.inl ⟨rfl, rfl⟩)) (by simp [identityReq])) [a] ha s hs rest
    (by simpa [replyStream] using hn)
  cases g with
  | cons h1 h2 h3 g =>
    cases g
    obtain ⟨hf, hv⟩ := identityAt_bytes i hi tail
    obtain ⟨o, h4, h5, h6⟩ := C54_read m (Device.tcp m handle) ⟨s, log⟩ inst s' _ h1 h2 (by rw [h3]; exact hf)
    exact ⟨s', o, h4, by rw [h6, h3, hv], h5, e1, e2, e3⟩

/-- The exchanges of the constructor of a parameter object. -/
def paramExchanges (inst : BitVec 16) (full : Bool) (p : Param) (size : Nat) (block t1 t2 : List Byte) : List (Req × List Byte) :=
  [(paramGet inst 6, le 1 p.value.length ++ t1), (⟨0x01#8, ⟨0x0F, inst, 0, 2⟩, []⟩, paramBytes full p size block ++ t2)] ++
    if full && p.scalable then
      [(paramGet inst 13, le 2 p.multiplier), (paramGet inst 14, le 2 p.divisor), (paramGet inst 15, le 2 p.base),
       (paramGet inst 16, le 2 p.offset)]
    else []

/-- C79. Reading a parameter: two or six frames are written, and the object shows the
attributes in the reply frames. -/
theorem C79_parameter (m : Mem) (handle : BitVec 32) (inst : BitVec 16) (full : Bool) (p : Param) (hp : p.Fits) (size : Nat)
    (block t1 t2 : List Byte) (hb : block.length = 16) (as : List ExplicitReply)
    (ha : Carries as ((paramExchanges inst full p size block t1 t2).map (·.2))) (s : Tcp) (log : List Req) (hs : s.sends = [])
    (rest : List Byte) (hn : (stream s.net).1 = replyStream handle as ++ rest) :
    ∃ s' o, ParameterObject.connect m (Device.tcp m handle) inst full ⟨s, log⟩ =
        .ok ⟨s', log ++ paramRequests inst (full && p.scalable)⟩ o ∧
      paramView o = p.seen full ∧ o.instanceId = inst ∧
      s'.sent = s.sent ++ (paramRequests inst (full && p.scalable)).map (reqFrame handle) ∧ s'.sends = [] ∧
      stream s'.net = (rest, (stream s.net).2) := by
  have hq : (paramExchanges inst full p size block t1 t2).map (·.1) = paramRequests inst (full && p.scalable) := by
    unfold paramExchanges paramRequests
    split <;> rfl
  obtain ⟨s', g, e1, e2, e3⟩ := C79_grants m handle (paramExchanges inst full p size block t1 t2)
    (by
      intro x hx
      have : x.1 ∈ paramRequests inst (full && p.scalable) := by rw [← hq]; exact List.mem_map_of_mem hx
      have hd : x.1.data = [] ∧ Plain x.1.path := by
        have h6 : x.1 ∈ paramRequests inst true := by
          unfold paramRequests at this ⊢
          split at this
          · exact this
          · simp only [List.append_nil] at this
            exact List.mem_append_left _ this
        simp only [paramRequests, paramGet, if_true, List.cons_append, List.nil_append, List.mem_cons, List.not_mem_nil,
          or_false] at h6
        rcases h6 with h | h | h | h | h | h <;> rw [h] <;> simp [Plain]
      exact sendable_small hd.2 (by rw [hd.1]; simp)) as ha s hs rest hn
  have hserved : ParamServed (Device.tcp m handle) inst full p s s' := by
    refine ⟨size, block, t1, t2, hb, ?_⟩
    unfold paramExchanges at g
    split
    · rename_i hc
      rw [if_pos hc] at g
      exact ⟨_, _, _, _, [], by simp [Param.scaling], g⟩
    · rename_i hc
      rw [if_neg hc] at g
      exact g
  obtain ⟨o, h1, h2, h3, _⟩ := C55_reads m (Device.tcp m handle) ⟨s, log⟩ inst full p hp s' hserved
  refine ⟨s', o, h1, h2, h3, ?_, e2, e3⟩
  rw [e1, ← hq, List.map_map]
  rfl

/-- C79. Updating a parameter: one frame is written, and the value is the one in the reply frame. -/
theorem C79_update (m : Mem) (handle : BitVec 32) (p : ParameterObject) (hp : p.hasRouter = true) (v tail : List Byte)
    (hv : v.length = p.value.length) (a : ExplicitReply) (ha : Carries [a] [v ++ tail]) (s : Tcp) (log : List Req)
    (hs : s.sends = []) (rest : List Byte) (hn : (stream s.net).1 = a.frame handle ++ rest) :
    ∃ s', ParameterObject.updateValue m (Device.tcp m handle) (p, ⟨s, log⟩) =
        .ok ({ p with value := v }, ⟨s', log ++ [paramGet p.instanceId 1]⟩) () ∧
      s'.sent = s.sent ++ [reqFrame handle (paramGet p.instanceId 1)] ∧ s'.sends = [] ∧
      stream s'.net = (rest, (stream s.net).2) := by
  obtain ⟨s', g, e1, e2, e3⟩ := C79_grants m handle [(paramGet p.instanceId 1, v ++ tail)]
    (by intro x hx; simp at hx; subst hx; exact sendable_small (.inr (.inr rfl)) (by simp [paramGet])) [a] ha s hs rest
    (by simpa [replyStream] using hn)
  exact ⟨s', C58_updates m (Device.tcp m handle) ⟨s, log⟩ p hp v tail s' hv g, e1, e2, e3⟩

theorem driveGet_sendable (n : Nat) : Sendable (driveGet n) := sendable_small (.inr (.inr rfl)) (by simp [driveGet, paramGet])

theorem faultExchanges_sendable (details : Bool) (fs : List (FaultAnswer × FaultDescription)) (n : Nat) :
    ∀ x ∈ faultExchanges details n fs, Sendable x.1 := by
  induction fs generalizing n with
  | nil => intro x hx; cases hx
  | cons f fs ih =>
    intro x hx
    rcases List.mem_append.mp hx with h | h
    · unfold faultExchange at h
      cases details with
      | false => simp at h; rw [h]; exact driveGet_sendable _
      | true =>
        simp at h
        rcases h with h | h | h | h <;> rw [h] <;> exact driveGet_sendable _
    · exact ih _ x h

/-- C79. Listing the faults of a drive: the frames written are those of the documented
requests, and the listener is called with the faults that are in the reply frames. -/
theorem C79_faults {rnd : Rat → Rat} {pow : Nat → Rat} (hr : SaneArithmetic rnd pow) (m : Mem) (handle : BitVec 32)
    (M : PowerFlex.FaultManager) (fs : List (FaultAnswer × FaultDescription)) (ending clearing : List (Req × List Byte))
    (hf : ∀ p ∈ fs, Reportable M.getFaultDetails p) (he : ListingEnds fs.length ending)
    (hc : Clearing M.clearFaultsQueue fs.length clearing) (as : List ExplicitReply)
    (ha : Carries as ((faultExchanges M.getFaultDetails 1 fs ++ ending ++ clearing).map (·.2))) (s : Tcp) (log : List Req)
    (calls : List PowerFlex.FaultInformation) (hs : s.sends = []) (rest : List Byte)
    (hn : (stream s.net).1 = replyStream handle as ++ rest) :
    ∃ s' new log', PowerFlex.handleFaultParameters rnd pow m (Device.tcp m handle) M (calls, ⟨s, log⟩) =
        .ok (calls ++ new, ⟨s', log'⟩) () ∧
      new.map faultView = seenFaults rnd M.getFaultDetails 1 fs ∧
      s'.sent = s.sent ++ (faultExchanges M.getFaultDetails 1 fs ++ ending ++ clearing).map (fun x => reqFrame handle x.1) ∧
      s'.sends = [] ∧ stream s'.net = (rest, (stream s.net).2) := by
  obtain ⟨s', g, e1, e2, e3⟩ := C79_grants m handle (faultExchanges M.getFaultDetails 1 fs ++ ending ++ clearing) (by
      intro x hx
      rcases List.mem_append.mp hx with h | h
      · rcases List.mem_append.mp h with h | h
        · exact faultExchanges_sendable _ _ _ x h
        · rcases he with ⟨_, rfl⟩ | ⟨_, z, _, _, rfl⟩
          · cases h
          · simp at h; rw [h]; exact driveGet_sendable _
      · unfold Clearing at hc
        split at hc
        · obtain ⟨ack, rfl⟩ := hc
          simp at h; rw [h]; exact sendable_small (.inr (.inr rfl)) (by simp [clearQueue, faultCommand])
        · subst hc; cases h) as ha s hs rest hn
  obtain ⟨new, h1, h2⟩ := C63_listing hr m (Device.tcp m handle) M calls ⟨s, log⟩ fs ending clearing s' hf he hc g
  exact ⟨s', new, _, h1, h2, e1, e2, e3⟩

theorem fileTransfers_reqs (inst : BitVec 16) (crc last : List Byte) (chunks : List (List Byte)) (k : Nat) :
    (fileTransfers inst crc k chunks last).map (·.1) = (List.range' k (chunks.length + 1)).map (fileNextReq inst) := by
  induction chunks generalizing k with
  | nil => rfl
  | cons c cs ih => rw [fileTransfers, List.map_cons, ih]; rfl

/-- C79. A whole upload, from connecting to the target to the closed session, byte for byte.
The target grants a session and then answers with frames that carry a file, in packets;
the bytes arrive cut into segments in any way.  Then: connecting, making the file
object, beginning the upload and handling as many transfers as there are packets all
succeed; the handler is called once, with success and the content of the file; the bytes
written are exactly the frames for this, in order, and no descriptor stays open. -/
theorem C79_upload (m : Mem) (env : ConnectEnv) (f0 : BitVec 32) (ms : Int) (o : Os) (t : Tcp)
    (hfd : ∀ fd, env.socket = .ok fd → fd < 1024 ∧ ∀ p ∈ o.files, p.1 ≠ fd) (hok : firstFailure env = none)
    (g : SessionGrant) (hg : g.Fits) (inst : BitVec 16) (state : BitVec 8) (hst : state = 2 ∨ state = 3 ∨ state = 5)
    (ts : Nat) (hts : ts < 256) (chunks : List (List Byte)) (last crc : List Byte)
    (hch : ∀ c ∈ chunks, c.length = ts) (hcrc : crc.length = 2) (hsize : (chunks.flatten ++ last).length < 2 ^ 32) (hd : Nat)
    (as : List ExplicitReply)
    (ha : Carries as ([state] :: fileAnnounce (chunks.flatten ++ last).length ts ::
      (fileTransfers inst crc 0 chunks last).map (·.2)))
    (hs : t.sends = []) (rest : List Byte) (hn : (stream t.net).1 = g.frame ++ (replyStream g.handle as ++ rest)) :
    ∃ o1 t1 fd f1 L1 s2 f3 t3 log o4, sessionOpen m env f0 ms (o, t) = .ok (o1, t1) (fd, g.handle) ∧
      FileObject.create m (Device.tcp m g.handle) inst ⟨t1, []⟩ = .ok L1 f1 ∧
      FileObject.beginUpload m (Device.tcp m g.handle) hd (f1, L1) = .ok s2 () ∧
      transfers m (Device.tcp m g.handle) (chunks.length + 1) s2 =
        .ok (f3, ⟨t3, log⟩) (List.replicate chunks.length true ++ [false]) ∧
      f3.calls = [⟨hd, 0x00#8, chunks.flatten ++ last⟩] ∧
      sessionClose fd g.handle (o1, t3) = .ok (o4, { t3 with sent := t3.sent ++ [unregisterFrame g.handle] }) () ∧
      t3.sent = t.sent ++ [registerFrame, reqFrame g.handle (fileStateReq inst), reqFrame g.handle (fileBeginReq inst)] ++
        (List.range (chunks.length + 1)).map (fun k => reqFrame g.handle (fileNextReq inst k)) ∧
      stream t3.net = (rest, (stream t.net).2) ∧ o4.files = o.files := by
  let p : EncapsPacket := ⟨g.command, BitVec.ofNat 16 g.payload.length, g.handle, 0#32, g.context, g.options, g.payload⟩
  have hwf : WellFormed p := ⟨hg.1, by have := hg.2; simp [p]; omega⟩
  have hpp : p.pack = g.frame := by
    rw [encaps_pack_eq, SessionGrant.frame, encapsFrame, hwf.length]
    simp [p]
  let xs : List (Req × List Byte) := (fileStateReq inst, [state]) ::
    (fileBeginReq inst, fileAnnounce (chunks.flatten ++ last).length ts) :: fileTransfers inst crc 0 chunks last
  have hreqs : xs.map (·.1) = [fileStateReq inst, fileBeginReq inst] ++ (List.range (chunks.length + 1)).map (fileNextReq inst) := by
    simp only [xs, List.map_cons, fileTransfers_reqs, List.range_eq_range', List.cons_append, List.nil_append]
  obtain ⟨o1, t1, fd, h1, h2, h3, h4, hclose⟩ := C77_life m env f0 ms o t hfd hok p hwf rfl hs (replyStream g.handle as ++ rest)
    (by rw [hpp, hn])
  obtain ⟨t3, hgr, e1, e2, e3⟩ := C79_grants m g.handle xs (by
      intro x hx
      have : x.1 ∈ xs.map (·.1) := List.mem_map_of_mem hx
      rw [hreqs] at this
      simp only [List.cons_append, List.nil_append, List.mem_cons, List.mem_map] at this
      rcases this with h | h | ⟨k, _, h⟩
      · rw [h]; exact sendable_small (.inr (.inr rfl)) (by simp [fileStateReq])
      · rw [h]; exact sendable_small (.inr (.inl ⟨rfl, rfl⟩)) (by simp [fileBeginReq])
      · rw [← h]; exact sendable_small (.inr (.inl ⟨rfl, rfl⟩)) (by simp [fileNextReq])) as ha t1 h3 rest (by rw [h4])
  obtain ⟨f1, L1, s2, f3, u1, u2, u3, u4⟩ := C59_upload m (Device.tcp m g.handle) ⟨t1, []⟩ inst state hst ts hts chunks last crc
    hch hcrc hsize hd t3 hgr
  obtain ⟨o4, c1, c2⟩ := hclose t3 e2
  refine ⟨o1, t1, fd, f1, L1, s2, f3, t3, _, o4, h1, u1, u2, u3, u4, c1, ?_, by rw [e3, h4], c2⟩
  have : xs.map (fun x => reqFrame g.handle x.1) = (xs.map (·.1)).map (reqFrame g.handle) := by rw [List.map_map]; rfl
  rw [e1, h2, this, hreqs]
  simp [registerFrame]

/-! ## A concrete upload -/

/-- A reply with these data. -/
def wireReply (data : List Byte) : ExplicitReply :=
  ⟨0x6F#16, List.replicate 8 0#8, 0#32, 0#32, 0#16, (0#16, []), 0xB2#16, 0x8E#8, 0#8, 0#8, [], data, []⟩
/-- A session with handle 0x1234. -/
def wireGrant : SessionGrant := ⟨0x65#16, 0x1234#32, List.replicate 8 0#8, 0#32, [1, 0, 0, 0]⟩
/-- The replies for a file of five bytes in packets of two. -/
def wireFile : List ExplicitReply := (fiveBytes.map (·.2)).map wireReply
/-- Bytes as a stream of segments of one byte, each after an interrupted call. -/
def bytewise (bs : List Byte) : List NetEv := bs.flatMap fun b => [.eintr, .seg b []]
/-- The socket of the example. -/
def sampleWire : Tcp := ⟨bytewise (wireGrant.frame ++ replyStream 0x1234 wireFile), [], []⟩
/-- Connecting succeeds in the background. -/
def wireEnv : ConnectEnv := ⟨.ok 5, none, none, some 115, [.ready], .ok 0, none, none⟩

/-- The hypotheses of `C79_upload` are met. -/
example : (∀ fd, wireEnv.socket = .ok fd → fd < 1024 ∧ ∀ p ∈ ([(3, 2)] : List (Nat × BitVec 32)), p.1 ≠ fd) ∧
    firstFailure wireEnv = none ∧ wireGrant.Fits ∧
    Carries wireFile ([2#8] :: fileAnnounce ([[0xa#8, 0xb#8], [0xc#8, 0xd#8]].flatten ++ [0xe#8]).length 2 ::
      (fileTransfers 0xC8 [0x77, 0x66] 0 [[0xa, 0xb], [0xc, 0xd]] [0xe]).map (·.2)) ∧
    (stream sampleWire.net).1 = wireGrant.frame ++ (replyStream wireGrant.handle wireFile ++ []) := by
  refine ⟨fun fd h => ?_, by decide +kernel, ⟨rfl, by decide⟩, ⟨by decide +kernel, ?_⟩, by decide +kernel⟩
  · cases h; decide
  · intro a ha
    simp only [wireFile, fiveBytes, List.map_cons, List.map_nil, List.mem_cons, List.not_mem_nil, or_false] at ha
    rcases ha with rfl | rfl | rfl | rfl | rfl <;> exact ⟨rfl, rfl, by decide, by decide +kernel⟩

/-! ## Any answers of moderate size can be carried -/

theorem bytewise_stream (bs : List Byte) : stream (bytewise bs) = (bs, .quiet) := by
  induction bs with
  | nil => rfl
  | cons b bs ih =>
    show (b :: ([] ++ (stream (bytewise bs)).1), (stream (bytewise bs)).2) = _
    rw [ih]
    rfl

theorem wireReply_carries (datas : List (List Byte)) (h : ∀ d ∈ datas, d.length < 65000) : Carries (datas.map wireReply) datas := by
  refine ⟨by rw [List.map_map]; exact List.map_id _, fun a ha => ?_⟩
  obtain ⟨d, hd, rfl⟩ := List.mem_map.mp ha
  refine ⟨rfl, rfl, Nat.zero_lt_succ _, ?_⟩
  have := h d hd
  simp only [ExplicitReply.payload, wireReply, cpf, cpfItem, mrResponse, List.map_nil, List.append_nil, List.flatMap_cons, List.flatMap_nil,
    List.length_append, List.length_cons, List.length_nil, le_length]
  omega

/-- The hypotheses of `C79_grants` about the replies and the socket are met by any exchanges whose answers have less than 65000 bytes. -/
theorem C79_carriable (handle : BitVec 32) (datas : List (List Byte)) (h : ∀ d ∈ datas, d.length < 65000) :
    ∃ (as : List ExplicitReply) (s : Tcp), Carries as datas ∧ s.sends = [] ∧ (stream s.net).1 = replyStream handle as ++ [] :=
  ⟨datas.map wireReply, ⟨bytewise (replyStream handle (datas.map wireReply)), [], []⟩, wireReply_carries datas h, rfl, by
    rw [bytewise_stream, List.append_nil]⟩

/-- The hypotheses of `C79_identity` are met. -/
example : ∃ (i : Identity) (a : ExplicitReply) (s : Tcp), i.Fits ∧ Carries [a] [i.bytes ++ [9]] ∧ s.sends = [] ∧
    (stream s.net).1 = a.frame 0x1234 ++ [] := by
  refine ⟨⟨1, 12, 65, 1, 2, 0x60, 0x11223344, [0x41#8, 0x42#8]⟩, wireReply _, ⟨bytewise _, [], []⟩, ?_,
    wireReply_carries [_] (by decide), rfl, by rw [bytewise_stream, List.append_nil]⟩
  unfold Identity.Fits
  decide

/-- The hypotheses of `C79_parameter` are met. -/
example (full : Bool) : sampleParam.Fits ∧ ∃ (as : List ExplicitReply) (s : Tcp),
    Carries as ((paramExchanges 7 full sampleParam 2 (List.replicate 16 9#8) [7] []).map (·.2)) ∧ s.sends = [] ∧
    (stream s.net).1 = replyStream 0x1234 as ++ [] :=
  ⟨by constructor <;> decide, C79_carriable _ _ (by cases full <;> decide +kernel)⟩

/-- The hypotheses of `C79_faults` are met: two faults with details, the end of the list, and the clearing. -/
example : SaneArithmetic id (fun k => (10 : Rat) ^ k) ∧ ∃ (fs : List (FaultAnswer × FaultDescription)) (ending clearing : List (Req × List Byte))
    (as : List ExplicitReply) (s : Tcp), fs.length = 2 ∧ (∀ p ∈ fs, Reportable true p) ∧ ListingEnds fs.length ending ∧
    Clearing true fs.length clearing ∧ Carries as ((faultExchanges true 1 fs ++ ending ++ clearing).map (·.2)) ∧ s.sends = [] ∧
    (stream s.net).1 = replyStream 0x1234 as ++ [] := by
  refine ⟨exactArithmetic, [(⟨[4, 0], [1, 2], [3, 4], [5, 6]⟩, (PowerFlex.lookup 4).getD ⟨0, "", ""⟩),
    (⟨[13, 0], [7, 0], [8, 0], [9, 0]⟩, (PowerFlex.lookup 13).getD ⟨0, "", ""⟩)],
    [(driveGet (codeParam 3), [0, 0])], [(clearQueue, [])], ?_⟩
  obtain ⟨as, s, h1, h2, h3⟩ := C79_carriable 0x1234 _ (show ∀ d ∈ ((faultExchanges true 1
    [(⟨[4, 0], [1, 2], [3, 4], [5, 6]⟩, (PowerFlex.lookup 4).getD ⟨0, "", ""⟩),
      (⟨[13, 0], [7, 0], [8, 0], [9, 0]⟩, (PowerFlex.lookup 13).getD ⟨0, "", ""⟩)] ++ [(driveGet (codeParam 3), [0, 0])] ++
      [(clearQueue, ([] : List Byte))]).map fun x : Req × List Byte => x.2), d.length < 65000 by decide +kernel)
  refine ⟨as, s, rfl, fun p hp => ?_, .inr ⟨by decide, [0, 0], by decide, by decide, rfl⟩, ?_, h1, h2, h3⟩
  · simp only [List.mem_cons, List.not_mem_nil, or_false] at hp
    rcases hp with rfl | rfl
    · exact ⟨⟨by decide, fun _ => ⟨by decide, by decide, by decide⟩⟩, by decide, by decide +kernel⟩
    · exact ⟨⟨by decide, fun _ => ⟨by decide, by decide, by decide⟩⟩, by decide, by decide +kernel⟩
  · unfold Clearing
    rw [if_pos ⟨rfl, by decide⟩]
    exact ⟨[], rfl⟩

end Verif.Props
