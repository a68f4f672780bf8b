import Verif.Props.ManagerTable

/-!
# C29, C30, C31, C33: forward open
-/

namespace Verif.Props

open Verif Verif.Spec

/-! ## The request -/

theorem connType_eq (v : BitVec 32) (large : Bool) :
    (NcpBuilder.mk v large).getConnectionType.toNat = typeField large v.toNat := by
  have e : ∀ n : Nat, n = 29 ∨ n = 13 → ((v &&& (3#32 <<< n)) >>> n).setWidth 2 = v.extractLsb' n 2 := by
    intro n hn
    apply BitVec.eq_of_getLsbD_eq
    intro i hi
    have : i = 0 ∨ i = 1 := by omega
    rcases hn with rfl | rfl <;> rcases this with rfl | rfl <;> simp
  cases large
  · have := e 13 (.inr rfl)
    simp only [NcpBuilder.getConnectionType, typeField, Bool.false_eq_true, if_false] at *
    rw [this, BitVec.extractLsb'_toNat, Nat.shiftRight_eq_div_pow]
  · have := e 29 (.inl rfl)
    simp only [NcpBuilder.getConnectionType, typeField, if_true] at *
    rw [this, BitVec.extractLsb'_toNat, Nat.shiftRight_eq_div_pow]

theorem multicast_eq (p : ConnectionParameters) (large : Bool) :
    Mgr.o2tMulticast p large = (typeField large p.o2tNetworkConnectionParams.toNat == 1) := by
  unfold Mgr.o2tMulticast
  rw [← connType_eq, Bool.eq_iff_iff, beq_iff_eq, beq_iff_eq, BitVec.toNat_inj.symm]
  rfl

theorem p2p_eq (p : ConnectionParameters) (large : Bool) :
    Mgr.t2oP2P p large = (typeField large p.t2oNetworkConnectionParams.toNat == 2) := by
  unfold Mgr.t2oP2P
  rw [← connType_eq, Bool.eq_iff_iff, beq_iff_eq, beq_iff_eq, BitVec.toNat_inj.symm]
  rfl

/-- The request a forward open sends, from the parameters as sent. -/
theorem open_request (P : Plat) (host : String) (p : ConnectionParameters) (large : Bool) (e : OpenEnv)
    (s s' : Mgr) (evs : List MEv) (ret : MRet) (h : s.step P (.forwardOpen host p large e) = .ok s' evs ret) :
    ∃ data rest,
      evs = .request (if large then 0x5B#8 else 0x54#8) (EPath.mk2 6 1) data :: rest ∧
      (if large then largeForwardOpenPack (Mgr.sentParams p large s'.statics)
        else forwardOpenPack (Mgr.sentParams p large s'.statics)) = .ok data ∧
      Mgr.bumpStatics s.incarnation (typeField large p.o2tNetworkConnectionParams.toNat == 1)
        (typeField large p.t2oNetworkConnectionParams.toNat == 2) s.statics = some s'.statics ∧
      OpenHead data (Mgr.sentParams p large s'.statics) := by
  obtain ⟨st, data, hst, hdata, hh⟩ := forwardOpen_cases P host p large e s s' evs ret h
  have hstat : s'.statics = st ∧ ∃ rest, evs = .request (if large then 0x5B#8 else 0x54#8) (EPath.mk2 6 1) data :: rest := by
    rcases hh with ⟨rfl, rfl, _⟩ | ⟨resp, _, _, r, mult, ep, socks, bs, _, _, _, _, hf, rfl, rfl, hret⟩
    · exact ⟨rfl, [], rfl⟩
    · exact ⟨(register_shape _ _).2.2.2.1, _, rfl⟩
  obtain ⟨h1, rest, h2⟩ := hstat
  refine ⟨data, rest, h2, by rw [h1]; exact hdata, ?_, ?_⟩
  · rw [h1, ← hst, multicast_eq, p2p_eq]
  · rw [h1]
    cases large
    · obtain ⟨bs, hb, _, hhd, _⟩ := C19_forwardOpen (Mgr.sentParams p false st)
      simp only [Bool.false_eq_true, if_false] at hdata
      rw [hb] at hdata
      injection hdata with hdata
      rw [← hdata]; exact hhd
    · obtain ⟨bs, hb, _, hhd, _⟩ := C19_largeForwardOpen (Mgr.sentParams p true st)
      simp only [if_true] at hdata
      rw [hb] at hdata
      injection hdata with hdata
      rw [← hdata]; exact hhd

/-- What is added to a requested size: 2 for a sequence count, 4 for a header. -/
def extra (trigger : BitVec 8) (realTime : Bool) : Nat :=
  (if hasCount trigger then 2 else 0) + (if realTime then 4 else 0)

theorem sent_word (v : BitVec 32) (t : BitVec 8) (b : Bool) :
    (v + (if Conn.classHasSequence t then 2#32 else 0#32) + (if b then 4#32 else 0#32)).toNat =
      (v.toNat + extra t b) % 2 ^ 32 := by
  rw [class_eq]
  unfold extra
  cases hasCount t <;> cases b <;> simp <;> omega

/-- C29. What a (small) forward open puts on the wire: service 0x54 to the
connection manager; the user's parameter words with the size additions, everything
else as the user gave it. -/
theorem C29_request (P : Plat) (host : String) (p : ConnectionParameters) (e : OpenEnv)
    (s s' : Mgr) (evs : List MEv) (ret : MRet) (h : s.step P (.forwardOpen host p false e) = .ok s' evs ret) :
    ∃ data rest, evs = .request 0x54#8 (EPath.mk2 6 1) data :: rest ∧
      field data 26 2 = (p.o2tNetworkConnectionParams.toNat + extra p.transportTypeTrigger p.o2tRealTimeFormat) % 65536 ∧
      field data 32 2 = (p.t2oNetworkConnectionParams.toNat + extra p.transportTypeTrigger p.t2oRealTimeFormat) % 65536 ∧
      field data 0 1 = p.priorityTimeTick.toNat ∧ field data 1 1 = p.timeoutTicks.toNat ∧
      field data 12 2 = p.originatorVendorId.toNat ∧ field data 14 4 = p.originatorSerialNumber.toNat ∧
      field data 18 1 = p.connectionTimeoutMultiplier.toNat ∧ field data 22 4 = p.o2tRPI.toNat ∧
      field data 28 4 = p.t2oRPI.toNat ∧ field data 34 1 = p.transportTypeTrigger.toNat ∧
      field data 35 1 = (p.connectionPath.length + 1) / 2 % 256 ∧ data.drop 36 = p.connectionPath := by
  obtain ⟨data, rest, h1, h2, _, hhd⟩ := open_request P host p false e s s' evs ret h
  obtain ⟨bs, hb, _, hq, q1, q2, q3, q4, q5, q6⟩ := C19_forwardOpen (Mgr.sentParams p false s'.statics)
  simp only [Bool.false_eq_true, if_false] at h1 h2
  rw [hb] at h2
  injection h2 with h2
  subst h2
  obtain ⟨a1, a2, _, _, _, a3, a4, a5, _, a6⟩ := hq
  refine ⟨bs, rest, h1, ?_, ?_, a1, a2, a3, a4, a5, a6, q2, q4, ?_, q6⟩
  · rw [q1]
    have := sent_word p.o2tNetworkConnectionParams p.transportTypeTrigger p.o2tRealTimeFormat
    simp only [Mgr.sentParams]
    erw [this]
    omega
  · rw [q3]
    have := sent_word p.t2oNetworkConnectionParams p.transportTypeTrigger p.t2oRealTimeFormat
    simp only [Mgr.sentParams]
    erw [this]
    omega
  · rw [q5]
    simp only [Mgr.sentParams, BitVec.toNat_ofNat]
    omega

/-- C29. What a large forward open puts on the wire (service 0x5B). -/
theorem C29_large_request (P : Plat) (host : String) (p : ConnectionParameters) (e : OpenEnv)
    (s s' : Mgr) (evs : List MEv) (ret : MRet) (h : s.step P (.forwardOpen host p true e) = .ok s' evs ret) :
    ∃ data rest, evs = .request 0x5B#8 (EPath.mk2 6 1) data :: rest ∧
      field data 26 4 = (p.o2tNetworkConnectionParams.toNat + extra p.transportTypeTrigger p.o2tRealTimeFormat) % 2 ^ 32 ∧
      field data 34 4 = (p.t2oNetworkConnectionParams.toNat + extra p.transportTypeTrigger p.t2oRealTimeFormat) % 2 ^ 32 ∧
      field data 0 1 = p.priorityTimeTick.toNat ∧ field data 1 1 = p.timeoutTicks.toNat ∧
      field data 12 2 = p.originatorVendorId.toNat ∧ field data 14 4 = p.originatorSerialNumber.toNat ∧
      field data 18 1 = p.connectionTimeoutMultiplier.toNat ∧ field data 22 4 = p.o2tRPI.toNat ∧
      field data 30 4 = p.t2oRPI.toNat ∧ field data 38 1 = p.transportTypeTrigger.toNat ∧
      field data 39 1 = (p.connectionPath.length + 1) / 2 % 256 ∧ data.drop 40 = p.connectionPath := by
  obtain ⟨data, rest, h1, h2, _, hhd⟩ := open_request P host p true e s s' evs ret h
  obtain ⟨bs, hb, _, hq, q1, q2, q3, q4, q5, q6⟩ := C19_largeForwardOpen (Mgr.sentParams p true s'.statics)
  simp only [if_true] at h1 h2
  rw [hb] at h2
  injection h2 with h2
  subst h2
  obtain ⟨a1, a2, _, _, _, a3, a4, a5, _, a6⟩ := hq
  refine ⟨bs, rest, h1, ?_, ?_, a1, a2, a3, a4, a5, a6, q2, q4, ?_, q6⟩
  · rw [q1]
    have := sent_word p.o2tNetworkConnectionParams p.transportTypeTrigger p.o2tRealTimeFormat
    simp only [Mgr.sentParams]
    erw [this]
  · rw [q3]
    have := sent_word p.t2oNetworkConnectionParams p.transportTypeTrigger p.t2oRealTimeFormat
    simp only [Mgr.sentParams]
    erw [this]
  · rw [q5]
    simp only [Mgr.sentParams, BitVec.toNat_ofNat]
    omega

/-- C29. Exactly when an addition fits the size field (the low `w` bits: 9 of a
small word, 16 of a large one), the size on the wire is the sum and all higher bits
(owner, type, priority, fixed/variable) are unchanged; otherwise the carry goes into
the higher bits. -/
theorem C29_fits (word a : Nat) (ha : a ≤ 6) :
    (word % 512 + a < 512 → (word + a) % 65536 % 512 = word % 512 + a ∧ (word + a) % 65536 / 512 = word % 65536 / 512) ∧
    (512 ≤ word % 512 + a → (word + a) % 65536 / 512 = (word % 65536 / 512 + 1) % 128) ∧
    (word % 65536 + a < 65536 → (word + a) % 2 ^ 32 % 65536 = word % 65536 + a ∧
      (word + a) % 2 ^ 32 / 65536 = word % 2 ^ 32 / 65536) ∧
    (65536 ≤ word % 65536 + a → (word + a) % 2 ^ 32 / 65536 = (word % 2 ^ 32 / 65536 + 1) % 65536) := by
  refine ⟨?_, ?_, ?_, ?_⟩ <;> omega

theorem extra_le (t : BitVec 8) (b : Bool) : extra t b ≤ 6 := by
  unfold extra
  cases hasCount t <;> cases b <;> simp

/-- C29 violated beyond the size field: asking for 510 bytes with a class 1
connection turns the fixed size connection into a variable size one of 0 bytes. -/
theorem C29_carry_violated : ∃ word, word % 512 = 510 ∧ word / 512 % 2 = 0 ∧
    (word + extra 1#8 false) % 65536 % 512 = 0 ∧ (word + extra 1#8 false) % 65536 / 512 % 2 = 1 :=
  ⟨0x41FE, by decide +kernel⟩

/-! ## C30 -/

/-- How the counters of the process change. -/
theorem step_statics (P : Plat) (s s' : Mgr) (op : MOp) (evs : List MEv) (ret : MRet)
    (h : s.step P op = .ok s' evs ret) :
    s'.incarnation = s.incarnation ∧
    (if MOp.isOpen op then ∃ inc, Mgr.bumpStatics inc (MOp.isMulticast op) (MOp.isP2P op) s.statics = some s'.statics
      else s'.statics = s.statics) := by
  cases op with
  | forwardOpen host p large e =>
    obtain ⟨_, _, _, _, h3, _⟩ := open_request P host p large e s s' evs ret h
    refine ⟨?_, s.incarnation, h3⟩
    obtain ⟨st, data, _, _, hh⟩ := forwardOpen_cases P host p large e s s' evs ret h
    rcases hh with ⟨rfl, _⟩ | ⟨resp, _, _, r, mult, ep, socks, bs, _, _, _, _, _, rfl, _⟩
    · rfl
    · exact (register_shape _ _).2.2.2.2.2
  | otherOpen inc mc p2p =>
    simp only [Mgr.step] at h
    split at h
    · cases h
    · rename_i st hst; cases h; exact ⟨rfl, inc, hst⟩
  | forwardClose ptr reply =>
    simp only [Mgr.step, Mgr.forwardClose] at h
    repeat' split at h
    all_goals first | (cases h; exact ⟨rfl, rfl⟩) | cases h
  | handle start t rounds ticks =>
    simp only [Mgr.step, Mgr.handle] at h
    split at h
    · cases h
    · split at h
      · cases h
      · rename_i hsel
        cases h
        have q := (selectLoop_quiet P _ rounds start s).2 _ _ _ hsel
        exact ⟨q.incarnation, q.statics⟩
      · rename_i hsel
        have q := (selectLoop_quiet P _ rounds start s).1 _ _ hsel
        split at h <;> cases h <;> exact ⟨q.incarnation, q.statics⟩
  | hasOpen => simp only [Mgr.step] at h; cases h; exact ⟨rfl, rfl⟩
  | setData id data => simp only [Mgr.step] at h; split at h <;> cases h <;> exact ⟨rfl, rfl⟩
  | lock id => simp only [Mgr.step] at h; split at h <;> cases h <;> exact ⟨rfl, rfl⟩
  | release id => simp only [Mgr.step] at h; cases h; exact ⟨rfl, rfl⟩

theorem bump_parts {inc : BitVec 16} {mc p2p : Bool} {st st' : Statics} (h : Mgr.bumpStatics inc mc p2p st = some st') :
    st'.serial = st.serial + 1 ∧ st'.o2tId = (if mc then some (Mgr.nextO2T inc st.o2tId) else st.o2tId) ∧
      st'.t2oId = (if p2p then some (Mgr.nextT2O inc st.t2oId) else st.t2oId) := by
  unfold Mgr.bumpStatics Mgr.nextSerial at h
  split at h
  · cases h
  · rename_i n hn
    split at hn
    · cases hn
    · injection hn with hn
      injection h with h
      subst h
      subst hn
      exact ⟨rfl, rfl, rfl⟩

theorem countOps_cons (f : MOp → Bool) (e : MOp × List MEv × MRet) (tr : MTrace) :
    countOps f (e :: tr) = (if f e.1 then 1 else 0) + countOps f tr := by
  simp only [countOps, List.countP_cons]
  omega

/-- The counters after a history. -/
theorem run_statics (P : Plat) (s s' : Mgr) (ops : List MOp) (tr : MTrace) (h : s.run P ops = some (s', tr)) :
    s'.statics.serial = s.statics.serial + countOps MOp.isOpen tr ∧
    (∀ i, s.statics.t2oId = some i → s'.statics.t2oId = some (i + BitVec.ofNat 32 (countOps MOp.isP2P tr))) ∧
    (∀ i, s.statics.o2tId = some i → s'.statics.o2tId = some (i + BitVec.ofNat 16 (countOps MOp.isMulticast tr))) := by
  induction ops generalizing s tr with
  | nil =>
    simp only [Mgr.run, Option.some.injEq, Prod.mk.injEq] at h
    obtain ⟨rfl, rfl⟩ := h
    simp [countOps]
  | cons op ops ih =>
    obtain ⟨s1, evs, ret, tr', h1, h2, rfl⟩ := mrun_cons h
    obtain ⟨i1, i2, i3⟩ := ih s1 tr' h2
    have hs := (step_statics P s s1 op evs ret h1).2
    simp only [countOps_cons]
    by_cases ho : MOp.isOpen op = true
    · rw [if_pos ho] at hs
      obtain ⟨inc, hb⟩ := hs
      obtain ⟨b1, b2, b3⟩ := bump_parts hb
      refine ⟨by rw [i1, b1, if_pos ho]; omega, fun i hi => ?_, fun i hi => ?_⟩
      · rw [hi] at b3
        cases hp : MOp.isP2P op with
        | true =>
          rw [hp] at b3
          rw [i2 _ b3]
          simp only [if_true, Mgr.nextT2O, Option.getD_some, BitVec.add_assoc, Option.some.injEq]
          rw [BitVec.ofNat_add]
          rfl
        | false => rw [hp] at b3; simp only [Bool.false_eq_true, if_false, Nat.zero_add] at *; exact i2 _ b3
      · rw [hi] at b2
        cases hp : MOp.isMulticast op with
        | true =>
          rw [hp] at b2
          rw [i3 _ b2]
          simp only [if_true, Mgr.nextO2T, Option.getD_some, BitVec.add_assoc, Option.some.injEq]
          rw [BitVec.ofNat_add]
          rfl
        | false => rw [hp] at b2; simp only [Bool.false_eq_true, if_false, Nat.zero_add] at *; exact i3 _ b2
    · rw [if_neg ho] at hs
      have n1 : MOp.isP2P op = false := by cases op <;> first | rfl | exact absurd rfl ho
      have n2 : MOp.isMulticast op = false := by cases op <;> first | rfl | exact absurd rfl ho
      rw [n1, n2, if_neg ho]
      rw [hs] at i1 i2 i3
      simpa using ⟨i1, i2, i3⟩

/-- The counters between two opens of a history. -/
theorem between (P : Plat) (s s' : Mgr) (ops : List MOp) (pre mid post : MTrace) (e1 e2 : MOp × List MEv × MRet)
    (h : s.run P ops = some (s', pre ++ e1 :: (mid ++ e2 :: post))) :
    ∃ (a a' b b' : Mgr) (opsMid : List MOp), a.step P e1.1 = .ok a' e1.2.1 e1.2.2 ∧ a'.run P opsMid = some (b, mid) ∧
      b.step P e2.1 = .ok b' e2.2.1 e2.2.2 := by
  obtain ⟨o1, o2, a, a', rfl, _, h1, h2⟩ := mrun_split P s s' ops pre _ e1 h
  obtain ⟨o3, o4, b, b', rfl, h3, h4, _⟩ := mrun_split P a' s' o2 mid post e2 h2
  exact ⟨a, a', b, b', o3, h1, h3, h4⟩

/-- C30. Take any two forward opens of a manager in any history, with `n` forward
opens by any managers of the process between them.  The connection serial number in
the second request is the one in the first plus n+1, modulo 65536. -/
theorem C30_serial (P : Plat) (s s' : Mgr) (ops : List MOp) (pre mid post : MTrace) (h1 h2 : String)
    (p1 p2 : ConnectionParameters) (l1 l2 : Bool) (e1 e2 : OpenEnv) (evs1 evs2 : List MEv) (r1 r2 : MRet)
    (h : s.run P ops = some (s', pre ++ (.forwardOpen h1 p1 l1 e1, evs1, r1) ::
      (mid ++ (.forwardOpen h2 p2 l2 e2, evs2, r2) :: post))) :
    ∃ v1 q1 d1 rest1 v2 q2 d2 rest2, evs1 = .request v1 q1 d1 :: rest1 ∧ evs2 = .request v2 q2 d2 :: rest2 ∧
      field d2 10 2 = (field d1 10 2 + (countOps MOp.isOpen mid + 1)) % 65536 := by
  obtain ⟨a, a', b, b', om, g1, g2, g3⟩ := between P s s' ops pre mid post _ _ h
  obtain ⟨d1, x1, y1, _, z1, w1⟩ := open_request P h1 p1 l1 e1 a a' evs1 r1 g1
  obtain ⟨d2, x2, y2, _, z2, w2⟩ := open_request P h2 p2 l2 e2 b b' evs2 r2 g3
  refine ⟨_, _, d1, x1, _, _, d2, x2, y1, y2, ?_⟩
  rw [w1.2.2.2.2.1, w2.2.2.2.2.1]
  obtain ⟨k1, _, _⟩ := run_statics P a' b om mid g2
  obtain ⟨k2, _, _⟩ := bump_parts z2
  simp only [Mgr.sentParams, BitVec.toNat_ofNat]
  rw [k2, k1]
  omega

/-- C30. Fewer than 65536 opens apart the serial numbers differ; exactly 65536
apart they are equal. -/
theorem C30_distinct (P : Plat) (s s' : Mgr) (ops : List MOp) (pre mid post : MTrace) (h1 h2 : String)
    (p1 p2 : ConnectionParameters) (l1 l2 : Bool) (e1 e2 : OpenEnv) (evs1 evs2 : List MEv) (r1 r2 : MRet)
    (h : s.run P ops = some (s', pre ++ (.forwardOpen h1 p1 l1 e1, evs1, r1) ::
      (mid ++ (.forwardOpen h2 p2 l2 e2, evs2, r2) :: post))) :
    ∃ v1 q1 d1 rest1 v2 q2 d2 rest2, evs1 = .request v1 q1 d1 :: rest1 ∧ evs2 = .request v2 q2 d2 :: rest2 ∧
      (countOps MOp.isOpen mid + 1 < 65536 → field d1 10 2 ≠ field d2 10 2) ∧
      (countOps MOp.isOpen mid + 1 = 65536 → field d1 10 2 = field d2 10 2) := by
  obtain ⟨v1, q1, d1, x1, v2, q2, d2, x2, y1, y2, hh⟩ := C30_serial P s s' ops pre mid post h1 h2 p1 p2 l1 l2 e1 e2
    evs1 evs2 r1 r2 h
  refine ⟨v1, q1, d1, x1, v2, q2, d2, x2, y1, y2, ?_⟩
  have hlt : field d1 10 2 < 65536 := field_lt d1 10 2
  omega

/-- C30. The counter is a signed integer: the call after 2^31 - 1 of them is undefined. -/
theorem C30_overflow (P : Plat) (s : Mgr) (host : String) (p : ConnectionParameters) (large : Bool) (e : OpenEnv)
    (h : s.statics.serial = 2 ^ 31 - 1) : s.step P (.forwardOpen host p large e) = .stop [] .ub := by
  simp [Mgr.step, Mgr.forwardOpen, Mgr.bumpStatics, Mgr.nextSerial, h]

/-! ## C31 -/

theorem p2p_sent {P : Plat} {host : String} {p : ConnectionParameters} {large : Bool} {e : OpenEnv} {s s' : Mgr}
    {evs : List MEv} {ret : MRet} (h : s.step P (.forwardOpen host p large e) = .ok s' evs ret)
    (hp : MOp.isP2P (.forwardOpen host p large e) = true) :
    ∃ v q data rest i, evs = .request v q data :: rest ∧ s'.statics.t2oId = some i ∧ field data 6 4 = i.toNat ∧
      i = Mgr.nextT2O s.incarnation s.statics.t2oId := by
  obtain ⟨d, x, y, _, z, w⟩ := open_request P host p large e s s' evs ret h
  obtain ⟨_, _, b3⟩ := bump_parts z
  rw [if_pos (show (typeField large p.t2oNetworkConnectionParams.toNat == 2) = true from hp)] at b3
  refine ⟨_, _, d, x, _, y, b3, ?_, rfl⟩
  rw [w.2.2.2.1]
  simp only [Mgr.sentParams, p2p_eq]
  rw [if_pos (show (typeField large p.t2oNetworkConnectionParams.toNat == 2) = true from hp), b3]
  rfl

theorem multicast_sent {P : Plat} {host : String} {p : ConnectionParameters} {large : Bool} {e : OpenEnv} {s s' : Mgr}
    {evs : List MEv} {ret : MRet} (h : s.step P (.forwardOpen host p large e) = .ok s' evs ret)
    (hp : MOp.isMulticast (.forwardOpen host p large e) = true) :
    ∃ v q data rest i, evs = .request v q data :: rest ∧ s'.statics.o2tId = some i ∧ field data 2 4 = i.toNat ∧
      i = Mgr.nextO2T s.incarnation s.statics.o2tId := by
  obtain ⟨d, x, y, _, z, w⟩ := open_request P host p large e s s' evs ret h
  obtain ⟨_, b2, _⟩ := bump_parts z
  rw [if_pos (show (typeField large p.o2tNetworkConnectionParams.toNat == 1) = true from hp)] at b2
  refine ⟨_, _, d, x, _, y, b2, ?_, rfl⟩
  rw [w.2.2.1]
  simp only [Mgr.sentParams, multicast_eq]
  rw [if_pos (show (typeField large p.o2tNetworkConnectionParams.toNat == 1) = true from hp), b2]
  simp
  omega

/-- C31. Two forward opens of a manager that ask for a point-to-point T→O
connection, with `n` such opens by any managers between them: the second request's
T→O identifier is the first one's plus n+1 modulo 2^32, so they differ if n+1 < 2^32. -/
theorem C31_p2p (P : Plat) (s s' : Mgr) (ops : List MOp) (pre mid post : MTrace) (h1 h2 : String)
    (p1 p2 : ConnectionParameters) (l1 l2 : Bool) (e1 e2 : OpenEnv) (evs1 evs2 : List MEv) (r1 r2 : MRet)
    (h : s.run P ops = some (s', pre ++ (.forwardOpen h1 p1 l1 e1, evs1, r1) ::
      (mid ++ (.forwardOpen h2 p2 l2 e2, evs2, r2) :: post)))
    (hp1 : MOp.isP2P (.forwardOpen h1 p1 l1 e1) = true) (hp2 : MOp.isP2P (.forwardOpen h2 p2 l2 e2) = true) :
    ∃ v1 q1 d1 rest1 v2 q2 d2 rest2, evs1 = .request v1 q1 d1 :: rest1 ∧ evs2 = .request v2 q2 d2 :: rest2 ∧
      field d2 6 4 = (field d1 6 4 + (countOps MOp.isP2P mid + 1)) % 2 ^ 32 ∧
      (countOps MOp.isP2P mid + 1 < 2 ^ 32 → field d1 6 4 ≠ field d2 6 4) := by
  obtain ⟨a, a', b, b', om, g1, g2, g3⟩ := between P s s' ops pre mid post _ _ h
  obtain ⟨v1, q1, d1, x1, i1, y1, z1, w1, _⟩ := p2p_sent g1 hp1
  obtain ⟨v2, q2, d2, x2, i2, y2, z2, w2, u2⟩ := p2p_sent g3 hp2
  have k := (run_statics P a' b om mid g2).2.1 _ z1
  have hlt := i1.isLt
  have e : field d2 6 4 = (field d1 6 4 + (countOps MOp.isP2P mid + 1)) % 2 ^ 32 := by
    rw [w1, w2, u2, k]
    simp only [Mgr.nextT2O, Option.getD_some, BitVec.toNat_add, BitVec.toNat_ofNat,
      show BitVec.toNat (1 : BitVec 32) = 1 from rfl]
    omega
  exact ⟨v1, q1, d1, x1, v2, q2, d2, x2, y1, y2, e, by omega⟩

/-- C31. Likewise for multicast O→T identifiers, but modulo 65536 only: they stay
below 65536, differ for fewer than 65536 opens, and repeat after exactly 65536. -/
theorem C31_multicast (P : Plat) (s s' : Mgr) (ops : List MOp) (pre mid post : MTrace) (h1 h2 : String)
    (p1 p2 : ConnectionParameters) (l1 l2 : Bool) (e1 e2 : OpenEnv) (evs1 evs2 : List MEv) (r1 r2 : MRet)
    (h : s.run P ops = some (s', pre ++ (.forwardOpen h1 p1 l1 e1, evs1, r1) ::
      (mid ++ (.forwardOpen h2 p2 l2 e2, evs2, r2) :: post)))
    (hp1 : MOp.isMulticast (.forwardOpen h1 p1 l1 e1) = true)
    (hp2 : MOp.isMulticast (.forwardOpen h2 p2 l2 e2) = true) :
    ∃ v1 q1 d1 rest1 v2 q2 d2 rest2, evs1 = .request v1 q1 d1 :: rest1 ∧ evs2 = .request v2 q2 d2 :: rest2 ∧
      field d1 2 4 < 65536 ∧
      field d2 2 4 = (field d1 2 4 + (countOps MOp.isMulticast mid + 1)) % 65536 ∧
      (countOps MOp.isMulticast mid + 1 < 65536 → field d1 2 4 ≠ field d2 2 4) ∧
      (countOps MOp.isMulticast mid + 1 = 65536 → field d1 2 4 = field d2 2 4) := by
  obtain ⟨a, a', b, b', om, g1, g2, g3⟩ := between P s s' ops pre mid post _ _ h
  obtain ⟨v1, q1, d1, x1, i1, y1, z1, w1, _⟩ := multicast_sent g1 hp1
  obtain ⟨v2, q2, d2, x2, i2, y2, z2, w2, u2⟩ := multicast_sent g3 hp2
  have k := (run_statics P a' b om mid g2).2.2 _ z1
  have hlt := i1.isLt
  have e : field d2 2 4 = (field d1 2 4 + (countOps MOp.isMulticast mid + 1)) % 65536 := by
    rw [w1, w2, u2, k]
    simp only [Mgr.nextO2T, Option.getD_some, BitVec.toNat_add, BitVec.toNat_ofNat,
      show BitVec.toNat (1 : BitVec 16) = 1 from rfl]
    omega
  exact ⟨v1, q1, d1, x1, v2, q2, d2, x2, y1, y2, by omega, e, by omega, by omega⟩

/-- C31. The first identifiers of a process: point-to-point ones start after the
incarnation number shifted up 16 bits; multicast ones lose it and start at 1. -/
theorem C31_first (P : Plat) (s s' : Mgr) (host : String) (p : ConnectionParameters) (large : Bool) (e : OpenEnv)
    (evs : List MEv) (ret : MRet) (h : s.step P (.forwardOpen host p large e) = .ok s' evs ret) :
    ∃ v q d rest, evs = .request v q d :: rest ∧
      (MOp.isP2P (.forwardOpen host p large e) = true → s.statics.t2oId = none →
        field d 6 4 = s.incarnation.toNat * 65536 + 1) ∧
      (MOp.isMulticast (.forwardOpen host p large e) = true → s.statics.o2tId = none → field d 2 4 = 1) ∧
      (MOp.isP2P (.forwardOpen host p large e) = false → field d 6 4 = p.t2oNetworkConnectionId.toNat) ∧
      (MOp.isMulticast (.forwardOpen host p large e) = false → field d 2 4 = p.o2tNetworkConnectionId.toNat) := by
  obtain ⟨d, x, y, _, z, w⟩ := open_request P host p large e s s' evs ret h
  refine ⟨_, _, d, x, y, fun hp hn => ?_, fun hp hn => ?_, fun hp => ?_, fun hp => ?_⟩
  · obtain ⟨_, _, d', _, i, y', _, w', u⟩ := p2p_sent h hp
    rw [y] at y'
    injection y' with y' _
    injection y' with _ _ y'
    rw [y', w', u, hn]
    simp only [Mgr.nextT2O, Option.getD_none, BitVec.toNat_add, BitVec.toNat_shiftLeft, BitVec.toNat_setWidth]
    have := s.incarnation.isLt
    rw [Nat.shiftLeft_eq]
    simp
    omega
  · obtain ⟨_, _, d', _, i, y', _, w', u⟩ := multicast_sent h hp
    rw [y] at y'
    injection y' with y' _
    injection y' with _ _ y'
    rw [y', w', u, hn]
    simp only [Mgr.nextO2T, Option.getD_none, BitVec.toNat_add, BitVec.toNat_shiftLeft, BitVec.toNat_setWidth]
    rw [Nat.shiftLeft_eq]
    simp
  · rw [w.2.2.2.1]
    simp only [Mgr.sentParams, p2p_eq]
    rw [if_neg (by rw [show (typeField large p.t2oNetworkConnectionParams.toNat == 2) = false from hp]; simp)]
  · rw [w.2.2.1]
    simp only [Mgr.sentParams, multicast_eq]
    rw [if_neg (by rw [show (typeField large p.o2tNetworkConnectionParams.toNat == 1) = false from hp]; simp)]


/-! ## C33 -/

theorem connSize_eq (v : BitVec 32) (large : Bool) :
    (NcpBuilder.mk v large).getConnectionSize.toNat = sizeField large v.toNat := by
  cases large
  · simp only [NcpBuilder.getConnectionSize, sizeField, Bool.false_eq_true, if_false]
    rw [BitVec.toNat_setWidth, BitVec.toNat_and]
    rw [show (0x000001FF#32).toNat = 2 ^ 9 - 1 from rfl, Nat.and_two_pow_sub_one_eq_mod]
    omega
  · simp only [NcpBuilder.getConnectionSize, sizeField, if_true]
    rw [BitVec.toNat_setWidth, BitVec.toNat_and]
    rw [show (0x0000FFFF#32).toNat = 2 ^ 16 - 1 from rfl, Nat.and_two_pow_sub_one_eq_mod]
    omega

theorem connFixed_eq (v : BitVec 32) (large : Bool) :
    ((NcpBuilder.mk v large).getType == 0#1) = isFixed large v.toNat := by
  have e : ∀ n : Nat, n = 25 ∨ n = 9 → ((v &&& (1#32 <<< n)) >>> n).setWidth 1 = v.extractLsb' n 1 := by
    intro n hn
    apply BitVec.eq_of_getLsbD_eq
    intro i hi
    have : i = 0 := by omega
    rcases hn with rfl | rfl <;> subst this <;> simp
  cases large
  · have := e 9 (.inr rfl)
    simp only [NcpBuilder.getType, isFixed, Bool.false_eq_true, if_false] at *
    rw [this, Bool.eq_iff_iff, beq_iff_eq, beq_iff_eq, BitVec.toNat_inj.symm, BitVec.extractLsb'_toNat,
      Nat.shiftRight_eq_div_pow]
    rfl
  · have := e 25 (.inl rfl)
    simp only [NcpBuilder.getType, isFixed, if_true] at *
    rw [this, Bool.eq_iff_iff, beq_iff_eq, beq_iff_eq, BitVec.toNat_inj.symm, BitVec.extractLsb'_toNat,
      Nat.shiftRight_eq_div_pow]
    rfl

theorem htons_toNat (v : BitVec 16) : (htons v).toNat = v.toNat % 256 * 256 + v.toNat / 256 := by
  have : htons v = BitVec.ofNat 16 (v.toNat % 256 * 256 + v.toNat / 256) := by
    have h1 : htons v = (v.setWidth 8) ++ (v >>> 8).setWidth 8 := by
      apply BitVec.eq_of_getLsbD_eq
      intro i hi
      unfold htons
      rw [BitVec.getLsbD_append]
      by_cases h8 : i < 8
      · simp [h8, hi]
      · have : i - 8 < 8 := by omega
        simp [h8, hi, this]
        rw [BitVec.getLsbD_of_ge v (8 + i) (by omega), Bool.or_false, ← BitVec.getLsbD_eq_getElem]
    rw [h1]
    apply BitVec.eq_of_toNat_eq
    rw [BitVec.toNat_append]
    have := v.isLt
    have h256 : v.toNat / 256 < 256 := by omega
    rw [← Nat.shiftLeft_add_eq_or_of_lt (BitVec.isLt _), Nat.shiftLeft_eq]
    simp only [BitVec.toNat_setWidth, BitVec.toNat_ushiftRight, Nat.shiftRight_eq_div_pow, BitVec.toNat_ofNat]
    rw [show v.toNat / 2 ^ 8 % 2 ^ 8 = v.toNat / 256 from Nat.mod_eq_of_lt h256]
    omega
  rw [this]
  have := v.isLt
  simp
  omega

/-- What `Rd.endPoint` makes of a socket address item. -/
theorem endPoint_item (m : Mem) (d : List Byte) (h : 16 ≤ d.length) :
    ∃ ep b, Rd.endPoint m (Buffer.ofData d) = .ok (ep, b) ∧ ep.host = dotted d ∧ ep.port = itemPort d ∧
      sockaddrImage ep.addr = (d.take 2).reverse ++ (d.drop 2).take 6 := by
  unfold Rd.endPoint Rd.sockAddr Buffer.ofData
  rw [Rd.bind_ok (Rd.bind_ok (u16_at m _ (by simp; omega)) |>.trans (Rd.bind_ok (u16_at m _ (by simp; omega)) |>.trans
    (Rd.bind_ok (u32_at m _ (by simp; omega)) |>.trans (Rd.bind_ok (bytes_eq m _ _ (by simp; omega))))))]
  refine ⟨_, _, rfl, ?_, ?_, ?_⟩
  · simp only [EndPoint.ofSockAddr, inetNtoa, dotted, octets]
    match d, h with
    | a0 :: a1 :: a2 :: a3 :: a4 :: a5 :: a6 :: a7 :: rest, _ =>
      have h4 := a4.isLt; have h5 := a5.isLt; have h6 := a6.isLt; have h7 := a7.isLt
      congr 1
      simp [field, ofLe, Nat.shiftRight_eq_div_pow]
      refine ⟨?_, ?_, ?_, ?_⟩ <;> congr 1 <;> omega
  · simp only [EndPoint.ofSockAddr, htons_toNat, toNat_field16, itemPort]
    match d, h with
    | a0 :: a1 :: a2 :: a3 :: rest, _ =>
      have h2 := a2.isLt; have h3 := a3.isLt
      simp [field, ofLe]
      omega
  · simp only [EndPoint.ofSockAddr, sockaddrImage, htons_toNat, toNat_field16]
    match d, h with
    | a0 :: a1 :: a2 :: a3 :: a4 :: a5 :: a6 :: a7 :: rest, _ =>
      have h0 := a0.isLt; have h1 := a1.isLt; have h2 := a2.isLt; have h3 := a3.isLt
      have h4 := a4.isLt; have h5 := a5.isLt; have h6 := a6.isLt; have h7 := a7.isLt
      have e0 : (a0.toNat + 256 * a1.toNat) / 256 = a1.toNat := by omega
      have e1 : a0.toNat % 256 = a0.toNat := by omega
      have e2 : (a0.toNat * 256 + a1.toNat) / 256 = a0.toNat := by omega
      simp [field, ofLe, le, e0, e1, e2]
      refine ⟨?_, ?_, ?_, ?_, ?_, ?_, ?_⟩ <;> apply BitVec.eq_of_toNat_eq <;> simp <;> omega

theorem itemPort_lt (d : List Byte) : itemPort d < 65536 := by
  unfold itemPort
  have h : ∀ i, field d i 1 < 256 := by
    intro i
    unfold field
    cases (d.drop i) with
    | nil => simp [ofLe]
    | cons a as => have := a.isLt; simp [ofLe]; omega
  have := h 2; have := h 3
  omega

/-- The address made from a host and a port. -/
theorem ofHost_image (aton : String → Option (BitVec 32)) (host : String) (port : Nat) (h : port < 65536) :
    sockaddrImage (EndPoint.ofHost aton host port).addr = ipv4 port ((aton host).getD 0) := by
  simp only [EndPoint.ofHost, sockaddrImage, ipv4, htons_toNat, afInet]
  have : (BitVec.ofInt 16 (port : Int)).toNat = port := by
    rw [BitVec.ofInt_natCast, BitVec.toNat_ofNat, Nat.mod_eq_of_lt h]
  rw [this]
  simp [le, be]
  have e : (port % 256 * 256 + port / 256) / 256 = port % 256 := by omega
  rw [e, Nat.mod_mod]

/-- Where a connection will send: the first socket address item for O→T in the reply
gives port and address; without one, port 2222 of the session's host; an all-zero
address also stands for the session's host.  What is handed to the system is the item with
its first two octets swapped, or port and address in network order. -/
theorem C33_destination (P : Plat) (host : String) (items : List CommonPacketItem) :
    ((∀ i ∈ items, i.typeId ≠ 0x8000#16) → ∃ ep, Mgr.sendEndPoint P host items = .ok ep ∧ ep.host = host ∧ ep.port = 2222 ∧
      sockaddrImage ep.addr = ipv4 2222 ((P.aton host).getD 0)) ∧
    (∀ pre i post, items = pre ++ i :: post → (∀ j ∈ pre, j.typeId ≠ 0x8000#16) → i.typeId = 0x8000#16 →
      (16 ≤ i.data.length → ∃ ep, Mgr.sendEndPoint P host items = .ok ep ∧ ep.port = itemPort i.data ∧
        (ep.host = if dotted i.data = "0.0.0.0" then host else dotted i.data) ∧
        sockaddrImage ep.addr = if dotted i.data = "0.0.0.0" then ipv4 (itemPort i.data) ((P.aton host).getD 0)
          else (i.data.take 2).reverse ++ (i.data.drop 2).take 6) ∧
      (i.data.length < 16 → P.mem = Mem.strict → Mgr.sendEndPoint P host items = .ub)) := by
  constructor
  · intro h
    have : items.find? (fun i => i.typeId == ItemId.o2tSockAddrInfo) = none := by
      rw [List.find?_eq_none]
      intro i hi
      have := h i hi
      simpa [ItemId.o2tSockAddrInfo] using this
    exact ⟨EndPoint.ofHost P.aton host Mgr.implicitPort, by rw [Mgr.sendEndPoint, this], rfl, rfl,
      ofHost_image P.aton host 2222 (by decide)⟩
  · rintro pre i post rfl hpre hi
    have hf : (pre ++ i :: post).find? (fun i => i.typeId == ItemId.o2tSockAddrInfo) = some i := by
      rw [List.find?_append, List.find?_eq_none.mpr (fun j hj => by have := hpre j hj; simpa [ItemId.o2tSockAddrInfo] using this)]
      rw [List.find?_cons_of_pos (by rw [hi]; rfl)]
      rfl
    constructor
    · intro hl
      obtain ⟨ep, b, h1, h2, h3, h4⟩ := endPoint_item P.mem i.data hl
      rw [Mgr.sendEndPoint, hf]
      simp only [h1]
      refine ⟨_, rfl, ?_, ?_, ?_⟩
      · split
        · exact h3
        · exact h3
      · rw [h2]
        by_cases hz : dotted i.data = "0.0.0.0"
        · simp [hz, EndPoint.ofHost]
        · simp [hz, h2]
      · rw [h2]
        by_cases hz : dotted i.data = "0.0.0.0"
        · simp only [hz, BEq.rfl, if_true, h3]
          exact ofHost_image P.aton host _ (itemPort_lt _)
        · simp [hz, h4]
    · intro hl hm
      have : Rd.endPoint Mem.strict (Buffer.ofData i.data) = .ub :=
        (Sized.sockAddr.map _).short _ (by simp [Buffer.ofData]) (by simpa [Buffer.ofData] using hl)
      rw [Mgr.sendEndPoint, hf, hm]
      simp only [this]

/-- The multiplier stored in a connection: 4·2^code for the codes 0 to 5; codes 6 to
31, of which 6 and 7 are legal, give 0; beyond that the shift is undefined. -/
theorem C33_multiplier (code : BitVec 8) :
    (code.toNat ≤ 5 → ∃ m, Mgr.timeoutMultiplier code = .ok m ∧ m.toNat = 4 * 2 ^ code.toNat) ∧
    (6 ≤ code.toNat → code.toNat < 32 → Mgr.timeoutMultiplier code = .ok 0#8) ∧
    (32 ≤ code.toNat → Mgr.timeoutMultiplier code = .ub) := by
  have key : ∀ n < 32, ((4#32 <<< n).setWidth 8).toNat = if n ≤ 5 then 4 * 2 ^ n else 0 := by decide +kernel
  refine ⟨fun h => ?_, fun h h' => ?_, fun h => ?_⟩
  · refine ⟨_, if_neg (by omega), ?_⟩
    rw [key _ (by omega), if_pos h]
  · rw [Mgr.timeoutMultiplier, if_neg (by omega)]
    congr 1
    apply BitVec.eq_of_toNat_eq
    rw [key _ h', if_neg (by omega)]
    rfl
  · exact if_pos h

/-- C33. In every reachable state: if the target accepts with a complete reply, the
sockets can be made, the timeout code is below 32 and the process has made fewer
than 2^31 - 1 opens, `forwardOpen` returns a pointer to a new connection that carries
the reply's identifiers, intervals and serial number and the user's settings.  It is
in the table and its pointer is valid if no open connection has the same low 16
identifier bits.  Otherwise the table is unchanged and the returned pointer is
already expired. -/
theorem C33_accepted (P : Plat) (inc : BitVec 16) (st : Statics) (s : Mgr) (ops : List MOp) (tr : MTrace)
    (hrun : (Mgr.new inc st).run P ops = some (s, tr))
    (host : String) (p : ConnectionParameters) (large : Bool) (now : Nat) (resp : MessageRouterResponse) (ep : EndPoint)
    (hserial : s.statics.serial ≠ 2 ^ 31 - 1) (hmult : p.connectionTimeoutMultiplier.toNat < 32)
    (hok : resp.status = 0#8) (hlen : 26 ≤ resp.data.length ∧ 26 + 2 * field resp.data 24 1 ≤ resp.data.length)
    (hep : Mgr.sendEndPoint P host resp.additionalItems = .ok ep) :
    ∃ s' evs c, s.step P (.forwardOpen host p large { reply := .ok resp, now := now }) =
        .ok s' evs (.ptr (some s.heap.length)) ∧
      s'.heap = s.heap ++ [c] ∧ s'.held = s.held ∧
      c.o2tNetworkConnectionId.toNat = field resp.data 0 4 ∧ c.t2oNetworkConnectionId.toNat = field resp.data 4 4 ∧
      c.serialNumber.toNat = field resp.data 8 2 ∧ c.o2tAPI.toNat = field resp.data 16 4 ∧
      c.t2oAPI.toNat = field resp.data 20 4 ∧ c.transportTypeTrigger = p.transportTypeTrigger ∧
      c.o2tRealTimeFormat = p.o2tRealTimeFormat ∧ c.t2oRealTimeFormat = p.t2oRealTimeFormat ∧
      c.connectionPath = p.connectionPath ∧ c.originatorVendorId = p.originatorVendorId ∧
      c.originatorSerialNumber = p.originatorSerialNumber ∧
      c.o2tDataSize = sizeField large p.o2tNetworkConnectionParams.toNat ∧
      c.t2oDataSize = sizeField large p.t2oNetworkConnectionParams.toNat ∧
      c.o2tFixedSize = isFixed large p.o2tNetworkConnectionParams.toNat ∧
      c.t2oFixedSize = isFixed large p.t2oNetworkConnectionParams.toNat ∧
      c.socket = some ep ∧ .ok c.connectionTimeoutMultiplier = Mgr.timeoutMultiplier p.connectionTimeoutMultiplier ∧
      c.lastHandleTime = now ∧ c.outputData = [] ∧
      ((∀ e ∈ s.table, e.1.toNat ≠ field resp.data 4 4 % 65536) →
        (∀ e, e ∈ s'.table ↔ e ∈ s.table ∨ (e.1.toNat = field resp.data 4 4 % 65536 ∧ e.2 = s.heap.length)) ∧
        s'.alive s.heap.length = true) ∧
      ((∃ e ∈ s.table, e.1.toNat = field resp.data 4 4 % 65536) →
        s'.table = s.table ∧ s'.alive s.heap.length = false) := by
  have hi := inv_run P _ s ops tr (inv_new inc st) hrun
  obtain ⟨r, hr, f1, f2, f3, _, _, f6, f7, _⟩ := (C20_classification resp.data).1 ⟨hlen.2, hlen.1⟩
  obtain ⟨mult, hm⟩ : ∃ mult, Mgr.timeoutMultiplier p.connectionTimeoutMultiplier = .ok mult := ⟨_, if_neg (by omega)⟩
  obtain ⟨stt, hst⟩ : ∃ stt, Mgr.bumpStatics s.incarnation (Mgr.o2tMulticast p large) (Mgr.t2oP2P p large) s.statics = some stt := by
    simp only [Mgr.bumpStatics, Mgr.nextSerial, if_neg hserial]
    exact ⟨_, rfl⟩
  obtain ⟨data, hdata⟩ : ∃ data, (if large then largeForwardOpenPack (Mgr.sentParams p large stt)
      else forwardOpenPack (Mgr.sentParams p large stt)) = .ok data := by
    cases large
    · obtain ⟨bs, hb, _⟩ := C19_forwardOpen (Mgr.sentParams p false stt)
      exact ⟨bs, by rw [if_neg Bool.false_ne_true]; exact hb⟩
    · obtain ⟨bs, hb, _⟩ := C19_largeForwardOpen (Mgr.sentParams p true stt)
      exact ⟨bs, by rw [if_pos rfl]; exact hb⟩
  obtain ⟨socks, bs, hsock⟩ : ∃ socks bs, Mgr.findOrCreateSocket (EndPoint.ofHost P.aton host Mgr.implicitPort) none s.sockets =
      .ok (socks, bs) := by
    unfold Mgr.findOrCreateSocket
    split
    · exact ⟨_, _, rfl⟩
    · exact ⟨_, _, rfl⟩
  have hstep : s.step P (.forwardOpen host p large { reply := .ok resp, now := now }) =
      .ok (({ s with statics := stt, sockets := socks } : Mgr).register
        (Mgr.newConn p large r mult ep now))
        (.request (if large then 0x5B#8 else 0x54#8) (EPath.mk2 6 1) data :: bs ++
          [.created s.heap.length (Mgr.newConn p large r mult ep now)])
        (.ptr (some s.heap.length)) := by
    simp only [Mgr.step, Mgr.forwardOpen, hst, hdata]
    rw [if_pos (show resp.status = GeneralStatus.success from hok)]
    simp only [Mgr.accept, hr P.mem, hm, hep, hsock]
  obtain ⟨g1, g2, _, _, g3, _⟩ := register_shape
    (Mgr.newConn p large r mult ep now)
    ({ s with statics := stt, sockets := socks } : Mgr)
  refine ⟨_, _, Mgr.newConn p large r mult ep now, hstep, g1, g3,
    f1, f2, ?_, f6, f7, rfl, rfl, rfl, rfl, rfl, rfl, connSize_eq _ _, connSize_eq _ _, connFixed_eq _ _, connFixed_eq _ _,
    rfl, hm.symm, rfl, rfl, ?_, ?_⟩
  · rw [← f3]
    simp only [Mgr.newConn, BitVec.toNat_setWidth]
    have := r.connectionSerialNumber.isLt
    omega
  all_goals
    have hkey : (r.t2oNetworkConnectionId.setWidth 16).toNat = field resp.data 4 4 % 65536 := by
      rw [BitVec.toNat_setWidth, f2]
    have hbound : ∀ k, (k, s.heap.length) ∉ s.table := fun k hm => by
      obtain ⟨c, hc, _⟩ := hi.obj _ _ hm
      rw [List.getElem?_eq_none (Nat.le_refl _)] at hc
      cases hc
  · intro hfree
    rcases g2 with ⟨id, h1, _⟩ | ⟨h1, h2⟩
    · exact absurd hkey (hfree _ (tblFind_mem h1))
    · have hmem : ∀ e, e ∈ tblPut (r.t2oNetworkConnectionId.setWidth 16) s.heap.length s.table ↔ e ∈ s.table ∨
          (e.1.toNat = field resp.data 4 4 % 65536 ∧ e.2 = s.heap.length) := by
        intro e
        rw [tblPut_mem]
        constructor
        · rintro (rfl | h)
          · exact .inr ⟨hkey, rfl⟩
          · exact .inl h
        · rintro (h | ⟨h, h'⟩)
          · exact .inr h
          · refine .inl (Prod.ext (BitVec.eq_of_toNat_eq ?_) h')
            rw [h, ← hkey]
      refine ⟨fun e => by rw [h2]; exact hmem e, ?_⟩
      unfold Mgr.alive
      rw [Bool.or_eq_true, List.any_eq_true]
      refine .inl ⟨(r.t2oNetworkConnectionId.setWidth 16, s.heap.length), ?_, by simp⟩
      rw [h2]
      exact (hmem _).mpr (.inr ⟨hkey, rfl⟩)
  · rintro ⟨e, he, hek⟩
    rcases g2 with ⟨id, _, h2⟩ | ⟨h1, _⟩
    · refine ⟨h2, ?_⟩
      rw [C42_expired_iff, h2, g3]
      exact ⟨hbound, fun hm => absurd (hi.held _ hm) (by omega)⟩
    · refine absurd (BitVec.eq_of_toNat_eq ?_) (tblFind_none h1 e he)
      exact hek.trans hkey.symm

/-- C33. If the target refuses, or anything throws, no pointer is returned and
connections, table and sockets are as before. -/
theorem C33_refused (P : Plat) (s s' : Mgr) (host : String) (p : ConnectionParameters) (large : Bool) (e : OpenEnv)
    (evs : List MEv) (ret : MRet) (h : s.step P (.forwardOpen host p large e) = .ok s' evs ret)
    (href : ∀ resp, e.reply = .ok resp → resp.status = 0#8 → ∃ x, ret = .threw x) :
    (ret = .ptr none ∨ ∃ x, ret = .threw x) ∧
      s'.heap = s.heap ∧ s'.table = s.table ∧ s'.sockets = s.sockets ∧ s'.held = s.held ∧
      ((∃ resp, e.reply = .ok resp ∧ resp.status ≠ 0#8) → ret = .ptr none) := by
  obtain ⟨st, data, _, _, hh⟩ := forwardOpen_cases P host p large e s s' evs ret h
  rcases hh with ⟨rfl, _, hret⟩ | ⟨resp, h1, h2, r, mult, ep, socks, bs, _, _, _, _, _, rfl, _, hret⟩
  · refine ⟨?_, rfl, rfl, rfl, rfl, ?_⟩
    · rcases hret with hx | ⟨hx, _⟩
      · exact .inr hx
      · exact .inl hx
    · rintro ⟨resp, h1, h2⟩
      simp only [Mgr.step, Mgr.forwardOpen] at h
      split at h
      · cases h
      · split at h
        · cases h
        · cases h
        · rw [h1] at h
          simp only at h
          rw [if_neg (show ¬resp.status = GeneralStatus.success from h2)] at h
          cases h
          rfl
  · obtain ⟨x, hx⟩ := href resp h1 h2
    rw [hret] at hx
    cases hx

end Verif.Props
