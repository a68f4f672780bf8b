import Verif.Model.PowerFlex
import Verif.Spec.PowerFlex
import Verif.Props.Parameter

/-!
# Properties C63, C64, C65: PowerFlex 525 faults
-/

namespace Verif.Props

open Verif Verif.Spec Verif.PowerFlex

variable {δ : Type}

/-! ## Exchanges -/

theorem _root_.Verif.Spec.Grants.append {D : Device δ} {d d' d'' : δ} {xs ys : List (Req × List Byte)} (h1 : Grants D d xs d')
    (h2 : Grants D d' ys d'') : Grants D d (xs ++ ys) d'' := by
  induction h1 with
  | nil => exact h2
  | cons a s e _ ih => exact Grants.cons a s e (ih h2)

theorem _root_.Verif.Spec.Grants.split {D : Device δ} {d d'' : δ} {xs ys : List (Req × List Byte)} (h : Grants D d (xs ++ ys) d'') :
    ∃ d', Grants D d xs d' ∧ Grants D d' ys d'' := by
  induction xs generalizing d with
  | nil => exact ⟨d, Grants.nil, h⟩
  | cons x xs ih =>
    cases h with
    | cons a s e t =>
      obtain ⟨d', h1, h2⟩ := ih t
      exact ⟨d', Grants.cons a s e h1, h2⟩

/-! ## The table -/

theorem table_keys : faultTable.map (·.1) = describedCodes.map fun n : Nat => (n : Int) := by decide +kernel

theorem lookup_some {c : Int} {e : FaultDescription} : lookup c = some e ↔ (c, e) ∈ faultTable := by
  have hn : (faultTable.map (·.1)).Nodup := by rw [table_keys]; decide +kernel
  unfold lookup
  generalize faultTable = t at hn
  induction t with
  | nil => simp
  | cons x t ih =>
    obtain ⟨k, v⟩ := x
    rw [List.map_cons, List.nodup_cons] at hn
    rw [List.find?_cons]
    by_cases hk : k = c
    · subst hk
      simp only [beq_self_eq_true, Option.map_some, Option.some.injEq, List.mem_cons, Prod.mk.injEq, true_and]
      constructor
      · intro h; exact .inl h.symm
      · rintro (h | h)
        · exact h.symm
        · exact absurd (List.mem_map_of_mem (f := (·.1)) h) hn.1
    · rw [show ((k, v).1 == c) = false from beq_false_of_ne hk]
      simp only [List.mem_cons, Prod.mk.injEq]
      refine (ih hn.2).trans ?_
      constructor
      · intro h; exact .inr h
      · rintro (h | h)
        · exact absurd h.1.symm hk
        · exact h

theorem lookup_none {c : Nat} (h : c ∉ describedCodes) : lookup c = none := by
  cases hl : lookup c with
  | none => rfl
  | some e =>
    have h1 := List.mem_map_of_mem (f := (·.1)) (lookup_some.1 hl)
    rw [table_keys, List.mem_map] at h1
    obtain ⟨n, h2, h3⟩ := h1
    have : n = c := Int.ofNat_inj.1 h3
    exact absurd (this ▸ h2) h

theorem not_described {c : Nat} (h : ∀ e, ((c : Int), e) ∉ faultTable) : c ∉ describedCodes := by
  intro hc
  have h1 : (c : Int) ∈ faultTable.map (·.1) := by
    rw [table_keys]; exact List.mem_map_of_mem (f := fun n : Nat => (n : Int)) hc
  obtain ⟨⟨k, e⟩, h2, h3⟩ := List.mem_map.1 h1
  simp only at h3
  subst h3
  exact h e h2

/-! ## One value -/

theorem word16 (bs : List Byte) : (BitVec.ofNat 16 (word bs)).toNat = word bs := toNat_field16 bs 0

theorem u16_from {m : Mem} {data : List Byte} (h : 2 ≤ data.length) :
    Rd.u16.from m data = .ok (BitVec.ofNat 16 (word data)) :=
  Rd.from_ok (u16_at m (Buffer.ofData data) (by simpa [Buffer.ofData] using h))

theorem get_ok {m : Mem} {D : Device δ} {L : Link δ} {p : Nat} {d : δ} {r : MessageRouterResponse}
    (h : D.answer (driveGet p) L.dev = .ok d r) (hs : r.status = 0x00#8) (hl : 2 ≤ r.data.length) :
    getFaultDetail m D (BitVec.ofNat 16 p) L = .ok ⟨d, L.sent ++ [driveGet p]⟩ (BitVec.ofNat 16 (word r.data)) := by
  refine (Prog.bind_ok (ask_ok (r := driveGet p) h)).trans ?_
  rw [if_pos (show _ = GeneralStatus.success from hs), u16_from hl]
  rfl

theorem ask_run_inv {D : Device δ} {r : Req} {L L' : Link δ} {resp : MessageRouterResponse} (h : ask D r L = .ok L' resp) :
    D.answer r L.dev = .ok L'.dev resp ∧ L'.sent = L.sent ++ [r] := by
  unfold ask at h
  match ha : D.answer r L.dev, h with
  | .ok d r', h =>
    injection h with e1 e2
    subst e1 e2
    exact ⟨rfl, rfl⟩

theorem get_inv {D : Device δ} {L L' : Link δ} {p : Nat} {v : BitVec 16}
    (h : getFaultDetail Mem.strict D (BitVec.ofNat 16 p) L = .ok L' v) :
    ∃ data, Grants D L.dev [(driveGet p, data)] L'.dev ∧ 2 ≤ data.length ∧ v = BitVec.ofNat 16 (word data) ∧
      L'.sent = L.sent ++ [driveGet p] := by
  obtain ⟨L1, r, h1, h2⟩ := Prog.bind_eq_ok h
  obtain ⟨ha, ht⟩ := ask_run_inv h1
  by_cases hs : r.status = GeneralStatus.success
  · rw [if_pos hs] at h2
    by_cases hl : 2 ≤ r.data.length
    · rw [u16_from hl] at h2
      injection h2 with e3 e4
      subst e3 e4
      exact ⟨r.data, Grants.cons ha hs rfl Grants.nil, hl, rfl, ht⟩
    · rw [Rd.from_ub (Sized.u16.short (Buffer.ofData r.data) (by simp [Buffer.ofData])
        (by simp [Buffer.ofData]; omega))] at h2
      cases h2
  · rw [if_neg hs] at h2; cases h2

theorem get_does {m : Mem} {D : Device δ} {L : Link δ} {p : Nat} :
    Does (getFaultDetail m D (BitVec.ofNat 16 p)) L (fun _ tr => tr = [driveGet p]) (· = [driveGet p]) := by
  refine Does.bind Does.ask ?_ ?_
  · rintro tr rfl; rfl
  · rintro L' r tr rfl
    exact Does.ite (fun _ => Does.lift (fun _ _ => rfl) rfl) fun _ => Does.throw rfl

/-! ## One fault -/

theorem params_eq {n : Nat} (h1 : 1 ≤ n) (h2 : n ≤ 10) :
    faultParams n = some (BitVec.ofNat 16 (codeParam n), BitVec.ofNat 16 (voltsParam n), BitVec.ofNat 16 (currentParam n),
      BitVec.ofNat 16 (frequencyParam n)) := by
  have : n = 1 ∨ n = 2 ∨ n = 3 ∨ n = 4 ∨ n = 5 ∨ n = 6 ∨ n = 7 ∨ n = 8 ∨ n = 9 ∨ n = 10 := by omega
  rcases this with h | h | h | h | h | h | h | h | h | h <;> subst h <;> rfl

/-- The details the constructor of a fault makes of the answers. -/
def detailsOf (rnd : Rat → Rat) (pow : Nat → Rat) (details : Bool) (n : Nat) (a : FaultAnswer) : FaultDetails :=
  if details then
    ⟨n, BitVec.ofNat 16 (word a.code), processVolts rnd pow (BitVec.ofNat 16 (word a.volts)) (BitVec.ofNat 16 (voltsParam n)),
      processCurrent rnd pow (BitVec.ofNat 16 (word a.current)) (BitVec.ofNat 16 (currentParam n)),
      processFrequency rnd pow (BitVec.ofNat 16 (word a.frequency)) (BitVec.ofNat 16 (frequencyParam n))⟩
  else ⟨n, BitVec.ofNat 16 (word a.code), 0, 0, 0⟩

/-- What a listener sees of what it is called with. -/
def faultView (f : FaultInformation) : SeenFault :=
  { number := f.faultDetails.faultNumber, code := f.faultDetails.faultCode.toNat, volts := f.faultDetails.busVoltage
    current := f.faultDetails.current, frequency := f.faultDetails.frequency, description := f.faultDescription }

theorem scaled_eq {rnd : Rat → Rat} {pow : Nat → Rat} (hr : SaneArithmetic rnd pow) (v p : BitVec 16) (k : BitVec 8) (t : Nat)
    (ht : t < 65536) (hp : pow k.toNat = t) : (scaled p k).actualToEng rnd pow v.toNat = rnd ((v.toNat : Rat) / t) := by
  have hv := hr.1 v.toNat v.isLt
  have h0 : ((0#16).toInt : Rat) = 0 := by decide
  have h1 : (((1#16).toNat : Nat) : Rat) = 1 := by decide
  have e1 : (v.toNat : Rat) + 0 = v.toNat := by grind
  have e2 : (v.toNat : Rat) * 1 = v.toNat := by grind
  have e3 : (1 : Rat) * t = t := by grind
  show rnd (rnd (rnd (rnd ((v.toNat : Rat) + ((0#16).toInt : Rat)) * ((1#16).toNat : Rat)) * ((1#16).toNat : Rat))
    / rnd (((1#16).toNat : Rat) * pow k.toNat)) = _
  rw [h0, h1, e1, hp, e3, hv, e2, hv, e2, hv, hr.1 t ht]

theorem view_eq {rnd : Rat → Rat} {pow : Nat → Rat} (hr : SaneArithmetic rnd pow) (details : Bool) (n : Nat) (a : FaultAnswer)
    (e : FaultDescription) : faultView ⟨detailsOf rnd pow details n a, e⟩ = seenFault rnd details n a e := by
  cases details with
  | false => simp only [faultView, detailsOf, seenFault, word16, Bool.false_eq_true, if_false]
  | true =>
    have hv : processVolts rnd pow (BitVec.ofNat 16 (word a.volts)) (BitVec.ofNat 16 (voltsParam n)) = word a.volts := by
      unfold processVolts
      rw [scaled_eq hr _ _ 0 1 (by decide) hr.2.1, word16]
      have : ((word a.volts : Nat) : Rat) / ((1 : Nat) : Rat) = word a.volts := by
        have : ((1 : Nat) : Rat) = 1 := by decide
        grind
      rw [this]
      exact hr.1 _ (by have := (BitVec.ofNat 16 (word a.volts)).isLt; rwa [word16] at this)
    have hc : processCurrent rnd pow (BitVec.ofNat 16 (word a.current)) (BitVec.ofNat 16 (currentParam n)) =
        rnd ((word a.current : Rat) / 100) := by
      unfold processCurrent
      rw [scaled_eq hr _ _ 2 100 (by decide) hr.2.2, word16]
      rfl
    have hf : processFrequency rnd pow (BitVec.ofNat 16 (word a.frequency)) (BitVec.ofNat 16 (frequencyParam n)) =
        rnd ((word a.frequency : Rat) / 100) := by
      unfold processFrequency
      rw [scaled_eq hr _ _ 2 100 (by decide) hr.2.2, word16]
      rfl
    simp only [faultView, detailsOf, seenFault, if_true, hv, hc, hf, word16]

theorem ofNat_ne {bs : List Byte} (h : word bs ≠ 0) : BitVec.ofNat 16 (word bs) ≠ 0 := by
  intro hc
  have := congrArg BitVec.toNat hc
  rw [word16] at this
  exact h this

theorem fault_ok {rnd : Rat → Rat} {pow : Nat → Rat} {m : Mem} {D : Device δ} {L : Link δ} {n : Nat} (h1 : 1 ≤ n) (h2 : n ≤ 10)
    {details : Bool} {a : FaultAnswer} (hc : a.Complete details) (hw : word a.code ≠ 0) {d' : δ}
    (hg : Grants D L.dev (faultExchange details n a) d') :
    faultParameter rnd pow m D n details L =
      .ok ⟨d', L.sent ++ (faultExchange details n a).map (·.1)⟩ (detailsOf rnd pow details n a) := by
  unfold faultParameter
  rw [params_eq h1 h2]
  unfold faultExchange at hg
  cases hg with
  | @cons _ d1 _ _ r1 _ _ a1 s1 e1 hg =>
  refine (Prog.bind_ok (get_ok a1 s1 (e1 ▸ hc.1))).trans ?_
  rw [e1]
  cases details with
  | false =>
    cases hg
    rw [if_neg (by simp)]
    rfl
  | true =>
    obtain ⟨c1, c2, c3⟩ := hc.2 rfl
    rw [if_pos ⟨ofNat_ne hw, rfl⟩]
    cases hg with
    | @cons _ d2 _ _ r2 _ _ a2 s2 e2 hg =>
    cases hg with
    | @cons _ d3 _ _ r3 _ _ a3 s3 e3 hg =>
    cases hg with
    | @cons _ d4 _ _ r4 _ _ a4 s4 e4 hg =>
    cases hg
    refine (Prog.bind_ok (get_ok a2 s2 (e2 ▸ c1))).trans ?_
    refine (Prog.bind_ok (get_ok a3 s3 (e3 ▸ c2))).trans ?_
    refine (Prog.bind_ok (get_ok a4 s4 (e4 ▸ c3))).trans ?_
    rw [e2, e3, e4, Prog.pure_run]
    simp only [faultExchange, detailsOf, if_true, List.map_cons, List.map_nil, List.append_assoc, List.cons_append,
      List.nil_append]

theorem fault_zero {rnd : Rat → Rat} {pow : Nat → Rat} {m : Mem} {D : Device δ} {L : Link δ} {n : Nat} (h1 : 1 ≤ n) (h2 : n ≤ 10)
    {details : Bool} {z : List Byte} (hz : 2 ≤ z.length) (hw : word z = 0) {d' : δ}
    (hg : Grants D L.dev [(driveGet (codeParam n), z)] d') :
    faultParameter rnd pow m D n details L = .ok ⟨d', L.sent ++ [driveGet (codeParam n)]⟩ ⟨n, 0, 0, 0, 0⟩ := by
  unfold faultParameter
  rw [params_eq h1 h2]
  cases hg with
  | @cons _ d1 _ _ r1 _ _ a1 s1 e1 hg =>
  cases hg
  refine (Prog.bind_ok (get_ok a1 s1 (e1 ▸ hz))).trans ?_
  rw [e1, hw, if_neg (fun h => h.1 rfl)]
  rfl

theorem fault_inv {rnd : Rat → Rat} {pow : Nat → Rat} {D : Device δ} {L L' : Link δ} {n : Nat} (h1 : 1 ≤ n) (h2 : n ≤ 10)
    {details : Bool} {f : FaultDetails} (h : faultParameter rnd pow Mem.strict D n details L = .ok L' f) :
    (∃ z, 2 ≤ z.length ∧ word z = 0 ∧ Grants D L.dev [(driveGet (codeParam n), z)] L'.dev ∧
      L'.sent = L.sent ++ [driveGet (codeParam n)] ∧ f.faultCode = 0) ∨
    (∃ a : FaultAnswer, a.Complete details ∧ word a.code ≠ 0 ∧ Grants D L.dev (faultExchange details n a) L'.dev ∧
      L'.sent = L.sent ++ (faultExchange details n a).map (·.1) ∧ f = detailsOf rnd pow details n a) := by
  unfold faultParameter at h
  rw [params_eq h1 h2] at h
  obtain ⟨L1, c, hc, h⟩ := Prog.bind_eq_ok h
  obtain ⟨z, g1, l1, rfl, t1⟩ := get_inv hc
  by_cases hw : word z = 0
  · left
    rw [hw, if_neg (fun h => h.1 rfl)] at h
    injection h with e1 e2
    subst e1 e2
    exact ⟨z, l1, hw, g1, t1, rfl⟩
  · right
    cases details with
    | false =>
      rw [if_neg (by simp)] at h
      injection h with e1 e2
      subst e1 e2
      exact ⟨⟨z, [], [], []⟩, ⟨l1, fun h => (by cases h)⟩, hw, g1, t1, rfl⟩
    | true =>
      rw [if_pos ⟨ofNat_ne hw, rfl⟩] at h
      obtain ⟨L2, v, hv, h⟩ := Prog.bind_eq_ok h
      obtain ⟨x2, g2, l2, rfl, t2⟩ := get_inv hv
      obtain ⟨L3, v, hv, h⟩ := Prog.bind_eq_ok h
      obtain ⟨x3, g3, l3, rfl, t3⟩ := get_inv hv
      obtain ⟨L4, v, hv, h⟩ := Prog.bind_eq_ok h
      obtain ⟨x4, g4, l4, rfl, t4⟩ := get_inv hv
      injection h with e1 e2
      subst e1 e2
      refine ⟨⟨z, x2, x3, x4⟩, ⟨l1, fun _ => ⟨l2, l3, l4⟩⟩, hw, g1.append (g2.append (g3.append g4)), ?_, rfl⟩
      rw [t4, t3, t2, t1]
      simp [faultExchange]

/-- The requests about fault `n`. -/
def faultRequests (details : Bool) (n : Nat) : List Req :=
  driveGet (codeParam n) ::
    if details then [driveGet (voltsParam n), driveGet (currentParam n), driveGet (frequencyParam n)] else []

theorem fault_throw {rnd : Rat → Rat} {pow : Nat → Rat} {m : Mem} {D : Device δ} {L L' : Link δ} {n : Nat} (h1 : 1 ≤ n)
    (h2 : n ≤ 10) {details : Bool} {e : Exn} (h : faultParameter rnd pow m D n details L = .throw L' e) :
    ∃ tr, L'.sent = L.sent ++ tr ∧ tr <+: faultRequests details n := by
  have hd : Does (faultParameter rnd pow m D n details) L (fun _ _ => True) (· <+: faultRequests details n) := by
    unfold faultParameter
    rw [params_eq h1 h2]
    refine Does.bind get_does ?_ ?_
    · rintro tr rfl; exact ⟨_, rfl⟩
    rintro L1 c tr rfl
    refine Does.ite (fun hc => ?_) fun _ => Does.pure trivial
    obtain rfl : details = true := hc.2
    refine Does.bind get_does ?_ ?_
    · rintro tr rfl; exact ⟨_, rfl⟩
    rintro L2 c2 tr rfl
    refine Does.bind get_does ?_ ?_
    · rintro tr rfl; exact ⟨_, rfl⟩
    rintro L3 c3 tr rfl
    refine Does.bind get_does ?_ ?_
    · rintro tr rfl; exact ⟨[], rfl⟩
    rintro L4 c4 tr rfl
    exact Does.pure trivial
  exact hd.2 _ _ h

/-! ## The listing -/

/-- `ListingEnds`, for a listing that begins with fault `n` and has `left` rounds. -/
def EndsFrom (n left k : Nat) (ending : List (Req × List Byte)) : Prop :=
  (k = left ∧ ending = []) ∨
  (k < left ∧ ∃ z, 2 ≤ z.length ∧ word z = 0 ∧ ending = [(driveGet (codeParam (n + k)), z)])

theorem description_ok {p : FaultAnswer × FaultDescription} {details : Bool} (h : Reportable details p) :
    getFaultDescription ((BitVec.ofNat 16 (word p.1.code)).toNat : Int) = .ok p.2 := by
  unfold getFaultDescription
  rw [word16, lookup_some.2 h.2.2]

theorem detailsOf_code (rnd : Rat → Rat) (pow : Nat → Rat) (details : Bool) (n : Nat) (a : FaultAnswer) :
    (detailsOf rnd pow details n a).faultCode = BitVec.ofNat 16 (word a.code) := by
  unfold detailsOf; split <;> rfl

/-- The calls for faults `n`, `n + 1`, ... -/
def callsOf (rnd : Rat → Rat) (pow : Nat → Rat) (details : Bool) : Nat → List (FaultAnswer × FaultDescription) → List FaultInformation
  | _, [] => []
  | n, p :: rest => ⟨detailsOf rnd pow details n p.1, p.2⟩ :: callsOf rnd pow details (n + 1) rest

theorem callsOf_view {rnd : Rat → Rat} {pow : Nat → Rat} (hr : SaneArithmetic rnd pow) (details : Bool) (n : Nat)
    (fs : List (FaultAnswer × FaultDescription)) :
    (callsOf rnd pow details n fs).map faultView = seenFaults rnd details n fs := by
  induction fs generalizing n with
  | nil => rfl
  | cons p fs ih => simp only [callsOf, seenFaults, List.map_cons, ih, view_eq hr]

theorem list_ok {rnd : Rat → Rat} {pow : Nat → Rat} {m : Mem} {D : Device δ} {details : Bool}
    (fs : List (FaultAnswer × FaultDescription)) (hf : ∀ p ∈ fs, Reportable details p) :
    ∀ (left n : Nat) (calls : List FaultInformation) (L : Link δ) (ending : List (Req × List Byte)) (d' : δ),
    1 ≤ n → n + left = 11 → EndsFrom n left fs.length ending → Grants D L.dev (faultExchanges details n fs ++ ending) d' →
    listFaults rnd pow m D details left n (calls, L) =
      .ok (calls ++ callsOf rnd pow details n fs,
        ⟨d', L.sent ++ (faultExchanges details n fs ++ ending).map (·.1)⟩) fs.length := by
  induction fs with
  | nil =>
    intro left n calls L ending d' h1 h2 he hg
    rcases he with ⟨he, rfl⟩ | ⟨he, z, hz, hw, rfl⟩
    · subst he
      cases hg
      simp [listFaults, callsOf, faultExchanges]
    · obtain ⟨left, rfl⟩ : ∃ k, left = k + 1 := ⟨left - 1, by simp at he; omega⟩
      refine (Prog.bind_ok (onLink_ok (fault_zero h1 (by omega) hz hw hg))).trans ?_
      rw [if_pos rfl]
      simp [callsOf, faultExchanges]
  | cons p fs ih =>
    intro left n calls L ending d' h1 h2 he hg
    obtain ⟨left, rfl⟩ : ∃ k, left = k + 1 := ⟨left - 1, by
      rcases he with ⟨he, _⟩ | ⟨he, _⟩ <;> simp at he <;> omega⟩
    have hp := hf p (List.mem_cons_self ..)
    rw [faultExchanges, List.append_assoc] at hg
    obtain ⟨d1, g1, g2⟩ := hg.split
    refine (Prog.bind_ok (onLink_ok (fault_ok h1 (by omega) hp.1 hp.2.1 g1))).trans ?_
    rw [detailsOf_code, if_neg (ofNat_ne hp.2.1), description_ok hp]
    refine (Prog.bind_ok (Prog.lift_ok _ _)).trans ?_
    refine (Prog.bind_ok (Prog.modify_run _ _)).trans ?_
    have he' : EndsFrom (n + 1) left fs.length ending := by
      rcases he with ⟨he, hx⟩ | ⟨he, z, hz, hw, hx⟩
      · exact .inl ⟨by simpa using he, hx⟩
      · refine .inr ⟨by simpa using he, z, hz, hw, ?_⟩
        rw [hx, List.length_cons, show n + 1 + fs.length = n + (fs.length + 1) by omega]
    have := ih (fun q hq => hf q (List.mem_cons_of_mem _ hq)) left (n + 1)
      (calls ++ [⟨detailsOf rnd pow details n p.1, p.2⟩]) ⟨d1, L.sent ++ (faultExchange details n p.1).map (·.1)⟩ ending d'
      (by omega) (by omega) he' g2
    refine (Prog.bind_ok this).trans ?_
    rw [Prog.pure_run]
    simp [callsOf, faultExchanges]

theorem list_inv {rnd : Rat → Rat} {pow : Nat → Rat} {D : Device δ} {details : Bool} :
    ∀ (left n : Nat) (calls : List FaultInformation) (L : Link δ) (s' : List FaultInformation × Link δ) (k : Nat),
    1 ≤ n → n + left = 11 → listFaults rnd pow Mem.strict D details left n (calls, L) = .ok s' k →
    ∃ fs ending, (∀ p ∈ fs, Reportable details p) ∧ EndsFrom n left fs.length ending ∧ k = fs.length ∧
      Grants D L.dev (faultExchanges details n fs ++ ending) s'.2.dev ∧ s'.1 = calls ++ callsOf rnd pow details n fs ∧
      s'.2.sent = L.sent ++ (faultExchanges details n fs ++ ending).map (·.1) := by
  intro left
  induction left with
  | zero =>
    intro n calls L s' k h1 h2 h
    injection h with e1 e2
    subst e1 e2
    exact ⟨[], [], fun _ h => (by cases h), .inl ⟨rfl, rfl⟩, rfl, Grants.nil, by simp [callsOf], by simp [faultExchanges]⟩
  | succ left ih =>
    intro n calls L s' k h1 h2 h
    obtain ⟨⟨c1, L1⟩, f, hf, h'⟩ := Prog.bind_eq_ok h
    clear h
    have hf' : ∃ L1', faultParameter rnd pow Mem.strict D n details L = .ok L1' f ∧ c1 = calls ∧ L1 = L1' := by
      unfold onLink at hf
      simp only at hf
      match hx : faultParameter rnd pow Mem.strict D n details L, hf with
      | .ok L2 b, hf =>
        injection hf with e1 e2
        injection e1 with e1 e3
        exact ⟨L2, by rw [e2], e1.symm, e3.symm⟩
    obtain ⟨_, hf', rfl, rfl⟩ := hf'
    replace h := h'
    clear h'
    rcases fault_inv h1 (by omega) hf' with ⟨z, hz, hw, g, t, hc⟩ | ⟨a, hc, hw, g, t, rfl⟩
    · rw [if_pos hc] at h
      injection h with e1 e2
      subst e1 e2
      exact ⟨[], [(driveGet (codeParam n), z)], fun _ h => (by cases h),
        .inr ⟨by simp, z, hz, hw, rfl⟩, rfl, g, by simp [callsOf], by rw [t]; rfl⟩
    · rw [detailsOf_code, if_neg (ofNat_ne hw), word16] at h
      obtain ⟨s2, e, he, h⟩ := Prog.bind_eq_ok h
      unfold getFaultDescription at he
      cases hl : lookup (word a.code) with
      | none => rw [hl] at he; cases he
      | some e' =>
        rw [hl] at he
        injection he with x1 x2
        subst x1 x2
        obtain ⟨s3, u, hm, h⟩ := Prog.bind_eq_ok h
        injection hm with x1 _
        subst x1
        obtain ⟨s4, k', h4, h⟩ := Prog.bind_eq_ok h
        injection h with x1 x2
        subst x1 x2
        obtain ⟨fs, ending, i1, i2, i3, i4, i5, i6⟩ := ih (n + 1) _ _ _ _ (by omega) (by omega) h4
        refine ⟨(a, e') :: fs, ending, ?_, ?_, ?_, ?_, ?_, ?_⟩
        · intro p hp
          rcases List.mem_cons.1 hp with rfl | hp
          · exact ⟨hc, hw, lookup_some.1 hl⟩
          · exact i1 p hp
        · rcases i2 with ⟨he, hx⟩ | ⟨he, z, hz, hw, hx⟩
          · exact .inl ⟨by simpa using he, hx⟩
          · refine .inr ⟨by simpa using he, z, hz, hw, ?_⟩
            rw [hx, List.length_cons, show n + 1 + fs.length = n + (fs.length + 1) by omega]
        · rw [i3]; rfl
        · rw [faultExchanges, List.append_assoc]
          exact g.append i4
        · rw [i5]; simp [callsOf]
        · rw [i6, t]; simp [faultExchanges]

theorem ends_eq {k : Nat} {ending : List (Req × List Byte)} : EndsFrom 1 10 k ending ↔ ListingEnds k ending := by
  unfold EndsFrom ListingEnds
  rw [Nat.add_comm 1 k]

theorem command_ok {D : Device δ} {L : Link δ} {c : BitVec 8} {d : δ} {r : MessageRouterResponse}
    (h : D.answer (faultCommand c) L.dev = .ok d r) :
    writeCommand D c L = if r.status = 0x00#8 then .ok ⟨d, L.sent ++ [faultCommand c]⟩ ()
      else .throw ⟨d, L.sent ++ [faultCommand c]⟩ (.runtime "Failed to send command") := by
  refine (Prog.bind_ok (ask_ok (r := faultCommand c) h)).trans ?_
  by_cases hs : r.status = 0x00#8
  · rw [if_neg (fun h => h hs), if_pos hs]; rfl
  · rw [if_pos (show r.status ≠ GeneralStatus.success from hs), if_neg hs]; rfl

/-- C63. A drive that answers with the faults `fs`, whose codes are all described, and
then with a code of 0 (or `fs` are ten): the listener is called with the faults of the
drive, numbered from 1; the requests are those for the parameters of the faults, and the
queue is cleared afterwards if that was asked for and there are faults. -/
theorem C63_listing {rnd : Rat → Rat} {pow : Nat → Rat} (hr : SaneArithmetic rnd pow) (m : Mem) (D : Device δ) (M : FaultManager)
    (calls : List FaultInformation) (L : Link δ) (fs : List (FaultAnswer × FaultDescription))
    (ending clearing : List (Req × List Byte)) (d' : δ)
    (hf : ∀ p ∈ fs, Reportable M.getFaultDetails p) (he : ListingEnds fs.length ending)
    (hc : Clearing M.clearFaultsQueue fs.length clearing)
    (hg : Grants D L.dev (faultExchanges M.getFaultDetails 1 fs ++ ending ++ clearing) d') :
    ∃ new, handleFaultParameters rnd pow m D M (calls, L) =
        .ok (calls ++ new, ⟨d', L.sent ++ (faultExchanges M.getFaultDetails 1 fs ++ ending ++ clearing).map (·.1)⟩) () ∧
      new.map faultView = seenFaults rnd M.getFaultDetails 1 fs := by
  refine ⟨callsOf rnd pow M.getFaultDetails 1 fs, ?_, callsOf_view hr _ _ _⟩
  obtain ⟨d1, g1, g2⟩ := hg.split
  have := list_ok (rnd := rnd) (pow := pow) (m := m) fs hf 10 1 calls L ending d1 (by omega) (by omega) (ends_eq.2 he) g1
  refine (Prog.bind_ok this).trans ?_
  unfold Clearing at hc
  by_cases hq : M.clearFaultsQueue = true ∧ 0 < fs.length
  · rw [if_pos hq] at hc
    obtain ⟨ack, rfl⟩ := hc
    rw [if_pos (show M.clearFaultsQueue = true ∧ fs.length > 0 from hq)]
    cases g2 with
    | cons a s e g =>
      cases g
      refine (onLink_ok ((command_ok (D := D) (c := 2#8)
        (L := ⟨d1, L.sent ++ (faultExchanges M.getFaultDetails 1 fs ++ ending).map (·.1)⟩) a).trans (if_pos s))).trans ?_
      simp; rfl
  · rw [if_neg hq] at hc
    subst hc
    rw [if_neg (show ¬ (M.clearFaultsQueue = true ∧ fs.length > 0) from hq)]
    cases g2
    simp

theorem clear_inv {D : Device δ} {calls : List FaultInformation} {L : Link δ} {s' : List FaultInformation × Link δ}
    (h : onLink (writeCommand D clearFaultQueue) (calls, L) = .ok s' ()) :
    ∃ ack, Grants D L.dev [(clearQueue, ack)] s'.2.dev ∧ s'.1 = calls ∧ s'.2.sent = L.sent ++ [clearQueue] := by
  unfold onLink at h
  simp only at h
  match hx : writeCommand D clearFaultQueue L, h with
  | .ok L2 b, h =>
    injection h with e1 e2
    subst e1
    obtain ⟨L1, r, h1, h2⟩ := Prog.bind_eq_ok hx
    obtain ⟨ha, ht⟩ := ask_run_inv h1
    by_cases hs : r.status = GeneralStatus.success
    · rw [if_neg (fun h => h hs)] at h2
      injection h2 with e3 e4
      subst e3
      exact ⟨r.data, Grants.cons ha hs rfl Grants.nil, rfl, ht⟩
    · rw [if_pos (show r.status ≠ GeneralStatus.success from hs)] at h2
      cases h2

/-- C63, conversely. If the call returns (and nothing is read beyond the end of an
answer), the drive answered with described faults and an end of the list, all with
success; the listener was called with exactly these faults; and the queue was cleared,
with success, exactly if that was asked for and there were faults. -/
theorem C63_sound {rnd : Rat → Rat} {pow : Nat → Rat} (hr : SaneArithmetic rnd pow) (D : Device δ) (M : FaultManager)
    (calls calls' : List FaultInformation) (L L' : Link δ)
    (h : handleFaultParameters rnd pow Mem.strict D M (calls, L) = .ok (calls', L') ()) :
    ∃ fs ending clearing new, (∀ p ∈ fs, Reportable M.getFaultDetails p) ∧ ListingEnds fs.length ending ∧
      Clearing M.clearFaultsQueue fs.length clearing ∧
      Grants D L.dev (faultExchanges M.getFaultDetails 1 fs ++ ending ++ clearing) L'.dev ∧
      L'.sent = L.sent ++ (faultExchanges M.getFaultDetails 1 fs ++ ending ++ clearing).map (·.1) ∧
      calls' = calls ++ new ∧ new.map faultView = seenFaults rnd M.getFaultDetails 1 fs := by
  obtain ⟨s1, k, h1, h2⟩ := Prog.bind_eq_ok h
  obtain ⟨fs, ending, i1, i2, rfl, i4, i5, i6⟩ := list_inv 10 1 calls L s1 k (by omega) (by omega) h1
  obtain ⟨c1, L1⟩ := s1
  simp only at i4 i5 i6
  by_cases hq : M.clearFaultsQueue = true ∧ 0 < fs.length
  · rw [if_pos (show M.clearFaultsQueue = true ∧ fs.length > 0 from hq)] at h2
    obtain ⟨ack, j1, j2, j3⟩ := clear_inv h2
    refine ⟨fs, ending, [(clearQueue, ack)], _, i1, ends_eq.1 i2, ?_, i4.append j1, ?_, j2.trans i5, callsOf_view hr _ _ _⟩
    · unfold Clearing; rw [if_pos hq]; exact ⟨ack, rfl⟩
    · rw [show L'.sent = _ from j3, i6]; simp
  · rw [if_neg (show ¬ (M.clearFaultsQueue = true ∧ fs.length > 0) from hq)] at h2
    injection h2 with e1 _
    injection e1 with e1 e2
    subst e1 e2
    refine ⟨fs, ending, [], _, i1, ends_eq.1 i2, ?_, ?_, ?_, i5, callsOf_view hr _ _ _⟩
    · unfold Clearing; rw [if_neg hq]
    · rw [List.append_nil]; exact i4
    · rw [List.append_nil]; exact i6

/-! ## Failures -/

theorem list_throw {rnd : Rat → Rat} {pow : Nat → Rat} {D : Device δ} {details : Bool} :
    ∀ (left n : Nat) (calls : List FaultInformation) (L : Link δ) (s' : List FaultInformation × Link δ) (e : Exn),
    1 ≤ n → n + left = 11 → listFaults rnd pow Mem.strict D details left n (calls, L) = .throw s' e →
    ∃ fs tr d1, (∀ p ∈ fs, Reportable details p) ∧ fs.length < left ∧
      Grants D L.dev (faultExchanges details n fs) d1 ∧ s'.1 = calls ++ callsOf rnd pow details n fs ∧
      s'.2.sent = L.sent ++ (faultExchanges details n fs).map (·.1) ++ tr ∧ tr <+: faultRequests details (n + fs.length) := by
  intro left
  induction left with
  | zero =>
    intro n calls L s' e h1 h2 h
    cases h
  | succ left ih =>
    intro n calls L s' e h1 h2 h
    unfold listFaults at h
    rw [Prog.bind_run] at h
    match hx : faultParameter rnd pow Mem.strict D n details L with
    | .ub => rw [onLink_ub hx] at h; cases h
    | .throw L1 x =>
      rw [onLink_throw hx] at h
      injection h with e1 e2
      subst e1 e2
      obtain ⟨tr, t1, t2⟩ := fault_throw h1 (by omega) hx
      exact ⟨[], tr, L.dev, fun _ h => (by cases h), by simp, Grants.nil, by simp [callsOf], by simp [t1, faultExchanges], t2⟩
    | .ok L1 f =>
      rw [onLink_ok hx] at h
      simp only at h
      rcases fault_inv h1 (by omega) hx with ⟨z, hz, hw, g, t, hc⟩ | ⟨a, hc, hw, g, t, rfl⟩
      · rw [if_pos hc] at h
        cases h
      · rw [detailsOf_code, if_neg (ofNat_ne hw), word16, Prog.bind_run] at h
        unfold getFaultDescription at h
        cases hl : lookup (word a.code) with
        | none =>
          rw [hl] at h
          injection h with e1 e2
          subst e1 e2
          refine ⟨[], (faultExchange details n a).map (·.1), L.dev, fun _ h => (by cases h), by simp, Grants.nil,
            by simp [callsOf], by simp [t, faultExchanges], ?_⟩
          refine ⟨[], ?_⟩
          cases details <;> rfl
        | some e' =>
          rw [hl] at h
          simp only [Prog.lift_ok] at h
          rw [Prog.bind_ok (Prog.modify_run _ _), Prog.bind_run] at h
          match hy : listFaults rnd pow Mem.strict D details left (n + 1 : Nat)
            (calls ++ [⟨detailsOf rnd pow details n a, e'⟩], L1) with
          | .ub =>
            have hy' : listFaults rnd pow Mem.strict D details left ((n : Int) + 1) _ = _ := hy
            rw [hy'] at h; cases h
          | .ok _ _ =>
            have hy' : listFaults rnd pow Mem.strict D details left ((n : Int) + 1) _ = _ := hy
            rw [hy'] at h; cases h
          | .throw s2 x =>
            have hy' : listFaults rnd pow Mem.strict D details left ((n : Int) + 1) _ = _ := hy
            rw [hy'] at h
            injection h with e1 e2
            subst e1 e2
            obtain ⟨fs, tr, d1, i1, i2, i3, i4, i5, i6⟩ := ih (n + 1) _ _ _ _ (by omega) (by omega) hy
            refine ⟨(a, e') :: fs, tr, d1, ?_, by simpa using i2, ?_, ?_, ?_, ?_⟩
            · intro p hp
              rcases List.mem_cons.1 hp with rfl | hp
              · exact ⟨hc, hw, lookup_some.1 hl⟩
              · exact i1 p hp
            · exact g.append i3
            · rw [i4]; simp [callsOf]
            · rw [i5, t]; simp [faultExchanges]
            · rw [List.length_cons, show n + (fs.length + 1) = n + 1 + fs.length by omega]
              exact i6

/-- C63. If the call throws, the listener was called with the faults that were read
before, in order, and there were two ways: the reading of the next fault failed, and no
command was sent; or the list was complete, clearing was asked for, and the command to
clear was sent but not granted. -/
theorem C63_throws {rnd : Rat → Rat} {pow : Nat → Rat} (hr : SaneArithmetic rnd pow) (D : Device δ) (M : FaultManager)
    (calls calls' : List FaultInformation) (L L' : Link δ) (e : Exn)
    (h : handleFaultParameters rnd pow Mem.strict D M (calls, L) = .throw (calls', L') e) :
    ∃ fs new d1 ending, (∀ p ∈ fs, Reportable M.getFaultDetails p) ∧ calls' = calls ++ new ∧
      new.map faultView = seenFaults rnd M.getFaultDetails 1 fs ∧
      Grants D L.dev (faultExchanges M.getFaultDetails 1 fs ++ ending) d1 ∧
      ((fs.length < 10 ∧ ending = [] ∧ ∃ tr, tr <+: faultRequests M.getFaultDetails (fs.length + 1) ∧
          L'.sent = L.sent ++ (faultExchanges M.getFaultDetails 1 fs).map (·.1) ++ tr) ∨
       (M.clearFaultsQueue = true ∧ 0 < fs.length ∧ ListingEnds fs.length ending ∧
          L'.sent = L.sent ++ (faultExchanges M.getFaultDetails 1 fs ++ ending).map (·.1) ++ [clearQueue])) := by
  unfold handleFaultParameters at h
  rw [Prog.bind_run] at h
  match hx : listFaults rnd pow Mem.strict D M.getFaultDetails 10 1 (calls, L) with
  | .ub => rw [hx] at h; cases h
  | .throw s x =>
    rw [hx] at h
    injection h with e1 e2
    subst e1 e2
    obtain ⟨fs, tr, d1, i1, i2, i3, i4, i5, i6⟩ := list_throw 10 1 calls L _ x (by omega) (by omega) hx
    refine ⟨fs, _, d1, [], i1, i4, callsOf_view hr _ _ _, ?_, .inl ⟨i2, rfl, tr, ?_, i5⟩⟩
    · rw [List.append_nil]; exact i3
    · rw [Nat.add_comm]; exact i6
  | .ok s k =>
    rw [hx] at h
    simp only at h
    obtain ⟨fs, ending, i1, i2, rfl, i4, i5, i6⟩ := list_inv 10 1 calls L s k (by omega) (by omega) hx
    obtain ⟨c1, L1⟩ := s
    simp only at i4 i5 i6
    by_cases hq : M.clearFaultsQueue = true ∧ 0 < fs.length
    · rw [if_pos (show M.clearFaultsQueue = true ∧ fs.length > 0 from hq)] at h
      have hd : Does (writeCommand D clearFaultQueue) L1 (fun _ _ => True) (· = [clearQueue]) := by
        refine Does.bind Does.ask ?_ ?_
        · rintro tr rfl; rfl
        · rintro L' r tr rfl
          exact Does.ite (fun _ => Does.throw rfl) fun _ => Does.pure trivial
      match hw : writeCommand D clearFaultQueue L1 with
      | .ub => rw [onLink_ub hw] at h; cases h
      | .ok L2 _ => rw [onLink_ok hw] at h; cases h
      | .throw L2 x =>
        rw [onLink_throw hw] at h
        injection h with e1 e2
        injection e1 with e1 e3
        subst e1 e2 e3
        obtain ⟨tr, t1, rfl⟩ := hd.2 _ _ hw
        exact ⟨fs, _, L1.dev, ending, i1, i5, callsOf_view hr _ _ _, i4, .inr ⟨hq.1, hq.2, ends_eq.1 i2, by rw [t1, i6]⟩⟩
    · rw [if_neg (show ¬ (M.clearFaultsQueue = true ∧ fs.length > 0) from hq)] at h
      cases h

/-! ## Unknown codes -/

theorem table_described : faultTable.map (fun e => (e.1, e.2.faultType, e.2.faultText)) =
    describedFaults.map fun f => ((f.1 : Int), f.2) := by decide +kernel

/-- C64. A code has a description exactly if it is one of these, and then its type and text are the ones listed. -/
theorem C64_known (c : Nat) :
    (c ∈ describedCodes → ∃ e, getFaultDescription c = .ok e ∧ (c, e.faultType, e.faultText) ∈ describedFaults) ∧
    (c ∉ describedCodes → getFaultDescription c = .throw (.runtime "Fault code doesn't exist for Powerflex 525.")) := by
  constructor
  · intro h
    unfold getFaultDescription
    cases hl : lookup c with
    | none =>
      refine absurd h (not_described fun e he => ?_)
      rw [lookup_some.2 he] at hl
      cases hl
    | some e =>
      have hm : ((c : Int), e.faultType, e.faultText) ∈ faultTable.map (fun e => (e.1, e.2.faultType, e.2.faultText)) :=
        List.mem_map.mpr ⟨_, lookup_some.1 hl, rfl⟩
      rw [table_described] at hm
      obtain ⟨⟨n, f⟩, hf, he⟩ := List.mem_map.mp hm
      simp only [Prod.mk.injEq, Int.natCast_inj] at he
      obtain ⟨rfl, rfl⟩ := he
      exact ⟨e, rfl, hf⟩
  · intro h
    unfold getFaultDescription
    rw [lookup_none h]

theorem list_unknown {rnd : Rat → Rat} {pow : Nat → Rat} {m : Mem} {D : Device δ} {details : Bool}
    (fs : List (FaultAnswer × FaultDescription)) (hf : ∀ p ∈ fs, Reportable details p) (a : FaultAnswer)
    (hc : a.Complete details) (hw : word a.code ∉ describedCodes) :
    ∀ (left n : Nat) (calls : List FaultInformation) (L : Link δ) (d' : δ),
    1 ≤ n → n + left = 11 → fs.length < left →
    Grants D L.dev (faultExchanges details n fs ++ faultExchange details (n + fs.length) a) d' →
    listFaults rnd pow m D details left n (calls, L) =
      .throw (calls ++ callsOf rnd pow details n fs,
        ⟨d', L.sent ++ (faultExchanges details n fs ++ faultExchange details (n + fs.length) a).map (·.1)⟩)
        (.runtime "Fault code doesn't exist for Powerflex 525.") := by
  have hz : word a.code ≠ 0 := fun h => hw (by rw [h]; decide)
  induction fs with
  | nil =>
    intro left n calls L d' h1 h2 h3 hg
    obtain ⟨left, rfl⟩ : ∃ k, left = k + 1 := ⟨left - 1, by omega⟩
    refine (Prog.bind_ok (onLink_ok (fault_ok h1 (by omega) hc hz hg))).trans ?_
    rw [detailsOf_code, if_neg (ofNat_ne hz), word16, (C64_known _).2 hw]
    refine (Prog.bind_throw (Prog.lift_throw _ _)).trans ?_
    simp [callsOf, faultExchanges]
  | cons p fs ih =>
    intro left n calls L d' h1 h2 h3 hg
    obtain ⟨left, rfl⟩ : ∃ k, left = k + 1 := ⟨left - 1, by omega⟩
    have hp := hf p (List.mem_cons_self ..)
    have hn : n + (p :: fs).length = n + 1 + fs.length := by rw [List.length_cons]; omega
    rw [faultExchanges, List.append_assoc, hn] at hg
    obtain ⟨d1, g1, g2⟩ := hg.split
    refine (Prog.bind_ok (onLink_ok (fault_ok h1 (by omega) hp.1 hp.2.1 g1))).trans ?_
    rw [detailsOf_code, if_neg (ofNat_ne hp.2.1), description_ok hp]
    refine (Prog.bind_ok (Prog.lift_ok _ _)).trans ?_
    refine (Prog.bind_ok (Prog.modify_run _ _)).trans ?_
    have := ih (fun q hq => hf q (List.mem_cons_of_mem _ hq)) left (n + 1)
      (calls ++ [⟨detailsOf rnd pow details n p.1, p.2⟩]) ⟨d1, L.sent ++ (faultExchange details n p.1).map (·.1)⟩ d'
      (by omega) (by omega) (by rw [List.length_cons] at h3; omega) g2
    refine (Prog.bind_throw this).trans ?_
    rw [hn]
    simp [callsOf, faultExchanges]

/-- C64. After the faults `fs` the drive answers with a code that is not described: the
call throws.  The listener got the faults before; later faults are not read, and the
queue is not cleared, whatever was asked for. -/
theorem C64_unknown {rnd : Rat → Rat} {pow : Nat → Rat} (hr : SaneArithmetic rnd pow) (m : Mem) (D : Device δ) (M : FaultManager)
    (calls : List FaultInformation) (L : Link δ) (fs : List (FaultAnswer × FaultDescription)) (a : FaultAnswer) (d' : δ)
    (hf : ∀ p ∈ fs, Reportable M.getFaultDetails p) (hl : fs.length < 10) (hc : a.Complete M.getFaultDetails)
    (hw : word a.code ∉ describedCodes)
    (hg : Grants D L.dev (faultExchanges M.getFaultDetails 1 fs ++ faultExchange M.getFaultDetails (fs.length + 1) a) d') :
    ∃ new, handleFaultParameters rnd pow m D M (calls, L) =
        .throw (calls ++ new, ⟨d', L.sent ++
          (faultExchanges M.getFaultDetails 1 fs ++ faultExchange M.getFaultDetails (fs.length + 1) a).map (·.1)⟩)
          (.runtime "Fault code doesn't exist for Powerflex 525.") ∧
      new.map faultView = seenFaults rnd M.getFaultDetails 1 fs := by
  refine ⟨callsOf rnd pow M.getFaultDetails 1 fs, ?_, callsOf_view hr _ _ _⟩
  rw [Nat.add_comm] at hg ⊢
  exact Prog.bind_throw (list_unknown (rnd := rnd) (pow := pow) (m := m) fs hf a hc hw 10 1 calls L d' (by omega) (by omega) hl hg)

/-! ## Single faults and commands -/

/-- C63. Fault numbers are 1 to 10; with any other number nothing is asked. -/
theorem C63_number (rnd : Rat → Rat) (pow : Nat → Rat) (m : Mem) (D : Device δ) (L : Link δ) (n : Int) (details : Bool)
    (h : n < 1 ∨ 10 < n) :
    faultParameter rnd pow m D n details L = .throw L (.runtime "Invalid fault code (Fault code must be 1-10)") := by
  have : faultParams n = none := by
    unfold faultParams
    split <;> first | omega | rfl
  unfold faultParameter
  rw [this]
  rfl

/-- C63. A command is one request with the command as its data; it returns if the drive
grants it and throws otherwise. -/
theorem C63_command (D : Device δ) (L : Link δ) (c : BitVec 8) :
    (∀ d r, D.answer (faultCommand c) L.dev = .ok d r → writeCommand D c L =
      if r.status = 0x00#8 then .ok ⟨d, L.sent ++ [faultCommand c]⟩ ()
      else .throw ⟨d, L.sent ++ [faultCommand c]⟩ (.runtime "Failed to send command")) ∧
    (∀ d e, D.answer (faultCommand c) L.dev = .throw d e → writeCommand D c L = .throw ⟨d, L.sent ++ [faultCommand c]⟩ e) :=
  ⟨fun _ _ h => command_ok h, fun _ _ h => Prog.bind_throw (ask_throw (r := faultCommand c) h)⟩

/-! ## A drive -/

/-- A fault recorded in a drive. -/
structure DriveEntry where
  code : Nat
  volts : Nat
  current : Nat
  frequency : Nat
deriving Repr, DecidableEq

/-- The value of a parameter of a drive with these faults; 0 where there is no fault. -/
def driveValue (s : List DriveEntry) (param : Nat) : Nat :=
  let at' (n : Nat) (f : DriveEntry → Nat) : Nat := match s[n]? with | some e => f e | none => 0
  if 7 ≤ param ∧ param ≤ 9 then at' (param - 7) (·.code)
  else if 604 ≤ param ∧ param ≤ 610 then at' (param - 601) (·.code)
  else if 631 ≤ param ∧ param ≤ 640 then at' (param - 631) (·.frequency)
  else if 641 ≤ param ∧ param ≤ 650 then at' (param - 641) (·.current)
  else at' (param - 651) (·.volts)

/-- A drive: it answers GetAttributeSingle with the value of a parameter and forgets its
faults on the command to clear the queue. -/
def drive : Device (List DriveEntry) :=
  ⟨fun r s =>
    if r.service = 0x0E#8 then
      .ok s { MessageRouterResponse.default with status := 0, data := le 2 (driveValue s r.path.objectId.toNat) }
    else if r.service = 0x10#8 ∧ r.data = [2#8] then .ok [] { MessageRouterResponse.default with status := 0, data := [] }
    else .ok s { MessageRouterResponse.default with status := 8, data := [] }⟩

/-- The answers of the drive about one of its faults. -/
def DriveEntry.answer (e : DriveEntry) : FaultAnswer := ⟨le 2 e.code, le 2 e.volts, le 2 e.current, le 2 e.frequency⟩

/-- What should be seen of one of its faults. -/
def DriveEntry.seen (rnd : Rat → Rat) (details : Bool) (n : Nat) (e : DriveEntry) (desc : FaultDescription) : SeenFault :=
  { number := n, code := e.code
    volts := if details then (e.volts : Rat) else 0
    current := if details then rnd ((e.current : Rat) / 100) else 0
    frequency := if details then rnd ((e.frequency : Rat) / 100) else 0
    description := desc }

theorem word_le {v : Nat} (h : v < 65536) : word (le 2 v) = v := by
  have := field_here 2 v [] (by simpa using h)
  rwa [List.append_nil] at this

theorem drive_get (s : List DriveEntry) (p v : Nat) (hp : p < 65536) (hv : driveValue s p = v) :
    Grants drive s [(driveGet p, le 2 v)] s := by
  refine Grants.cons (d' := s) (resp := { MessageRouterResponse.default with status := 0, data := le 2 v }) ?_ rfl rfl Grants.nil
  unfold drive driveGet paramGet
  simp only [if_true]
  rw [BitVec.toNat_ofNat, Nat.mod_eq_of_lt (by omega), hv]

theorem drive_fault (s : List DriveEntry) (e : DriveEntry) (details : Bool) (n : Nat) (hn : n < 10) (he : s[n]? = some e) :
    Grants drive s (faultExchange details (n + 1) e.answer) s := by
  have h1 : driveValue s (codeParam (n + 1)) = e.code := by
    unfold codeParam driveValue
    simp only
    by_cases h3 : n + 1 ≤ 3
    · rw [if_pos h3, if_pos (by omega), show 6 + (n + 1) - 7 = n by omega, he]
    · rw [if_neg h3, if_neg (by omega), if_pos (by omega), show 600 + (n + 1) - 601 = n by omega, he]
  have h2 : driveValue s (voltsParam (n + 1)) = e.volts := by
    unfold voltsParam driveValue
    simp only
    rw [if_neg (by omega), if_neg (by omega), if_neg (by omega), if_neg (by omega), show 650 + (n + 1) - 651 = n by omega, he]
  have h3 : driveValue s (currentParam (n + 1)) = e.current := by
    unfold currentParam driveValue
    simp only
    rw [if_neg (by omega), if_neg (by omega), if_neg (by omega), if_pos (by omega), show 640 + (n + 1) - 641 = n by omega, he]
  have h4 : driveValue s (frequencyParam (n + 1)) = e.frequency := by
    unfold frequencyParam driveValue
    simp only
    rw [if_neg (by omega), if_neg (by omega), if_pos (by omega), show 630 + (n + 1) - 631 = n by omega, he]
  have c1 : codeParam (n + 1) < 65536 := by unfold codeParam; split <;> omega
  have g1 := drive_get s _ _ c1 h1
  unfold faultExchange
  cases details with
  | false => exact g1
  | true =>
    exact g1.append ((drive_get s _ _ (by unfold voltsParam; omega) h2).append
      ((drive_get s _ _ (by unfold currentParam; omega) h3).append (drive_get s _ _ (by unfold frequencyParam; omega) h4)))

theorem drive_faults (s : List DriveEntry) (desc : DriveEntry → FaultDescription) (details : Bool) (k : Nat) (hk : s.length ≤ 10) :
    Grants drive s (faultExchanges details (k + 1) ((s.drop k).map fun e => (e.answer, desc e))) s := by
  induction hj : s.length - k generalizing k with
  | zero =>
    rw [List.drop_eq_nil_of_le (by omega)]
    exact Grants.nil
  | succ j ih =>
    have hlt : k < s.length := by omega
    rw [List.drop_eq_getElem_cons hlt]
    exact (drive_fault s s[k] details k (by omega) (List.getElem?_eq_getElem hlt)).append (ih (k + 1) (by omega))

theorem drive_end (s : List DriveEntry) (hk : s.length < 10) :
    Grants drive s [(driveGet (codeParam (s.length + 1)), le 2 0)] s := by
  refine drive_get s _ _ (by unfold codeParam; split <;> omega) ?_
  have hn : s[s.length]? = none := List.getElem?_eq_none (Nat.le_refl _)
  unfold codeParam driveValue
  simp only
  by_cases h3 : s.length + 1 ≤ 3
  · rw [if_pos h3, if_pos (by omega), show 6 + (s.length + 1) - 7 = s.length by omega, hn]
  · rw [if_neg h3, if_neg (by omega), if_pos (by omega), show 600 + (s.length + 1) - 601 = s.length by omega, hn]

theorem seen_drive (rnd : Rat → Rat) (details : Bool) (desc : DriveEntry → FaultDescription) (s : List DriveEntry)
    (hs : ∀ e ∈ s, e.code < 65536 ∧ e.volts < 65536 ∧ e.current < 65536 ∧ e.frequency < 65536) (n : Nat) :
    seenFaults rnd details n (s.map fun e => (e.answer, desc e)) = (s.zipIdx n).map fun x => x.1.seen rnd details x.2 (desc x.1) := by
  induction s generalizing n with
  | nil => rfl
  | cons e s ih =>
    obtain ⟨h1, h2, h3, h4⟩ := hs e (List.mem_cons_self ..)
    rw [List.map_cons, seenFaults, ih (fun x hx => hs x (List.mem_cons_of_mem _ hx)), List.zipIdx_cons, List.map_cons]
    simp only [seenFault, DriveEntry.seen, DriveEntry.answer, word_le h1, word_le h2, word_le h3, word_le h4]

/-- C63, C76. A drive with at most ten described faults: every fault is reported once, in
order, and afterwards the drive has forgotten them if clearing was asked for and has
kept them otherwise. -/
theorem C76_drive {rnd : Rat → Rat} {pow : Nat → Rat} (hr : SaneArithmetic rnd pow) (m : Mem) (M : FaultManager)
    (calls : List FaultInformation) (sent : List Req) (s : List DriveEntry) (desc : DriveEntry → FaultDescription)
    (hk : s.length ≤ 10)
    (hs : ∀ e ∈ s, e.code < 65536 ∧ e.volts < 65536 ∧ e.current < 65536 ∧ e.frequency < 65536)
    (hd : ∀ e ∈ s, e.code ≠ 0 ∧ ((e.code : Int), desc e) ∈ faultTable) :
    ∃ new sent', handleFaultParameters rnd pow m drive M (calls, ⟨s, sent⟩) =
        .ok (calls ++ new, ⟨if M.clearFaultsQueue then [] else s, sent'⟩) () ∧
      new.map faultView = (s.zipIdx 1).map fun x => x.1.seen rnd M.getFaultDetails x.2 (desc x.1) := by
  have hf : ∀ p ∈ s.map fun e => (e.answer, desc e), Reportable M.getFaultDetails p := by
    intro p hp
    obtain ⟨e, he, rfl⟩ := List.mem_map.1 hp
    refine ⟨⟨Nat.le_refl 2, fun _ => ⟨Nat.le_refl 2, Nat.le_refl 2, Nat.le_refl 2⟩⟩, ?_, ?_⟩
    · simp only [DriveEntry.answer]; rw [word_le (hs e he).1]; exact (hd e he).1
    · simp only [DriveEntry.answer]; rw [word_le (hs e he).1]; exact (hd e he).2
  have g1 := drive_faults s desc M.getFaultDetails 0 hk
  rw [List.drop_zero] at g1
  obtain ⟨ending, he, g2⟩ : ∃ ending, ListingEnds (s.map fun e => (e.answer, desc e)).length ending ∧ Grants drive s ending s := by
    rw [List.length_map]
    by_cases h10 : s.length = 10
    · exact ⟨[], .inl ⟨h10, rfl⟩, Grants.nil⟩
    · exact ⟨_, .inr ⟨by omega, le 2 0, Nat.le_refl 2, word_le (by omega), rfl⟩, drive_end s (by omega)⟩
  by_cases hq : M.clearFaultsQueue = true
  · rw [if_pos hq]
    by_cases h0 : 0 < s.length
    · obtain ⟨new, h1, h2⟩ := C63_listing hr m drive M calls ⟨s, sent⟩ _ ending [(clearQueue, [])] [] hf he
        (by unfold Clearing; rw [if_pos ⟨hq, by rw [List.length_map]; exact h0⟩]; exact ⟨_, rfl⟩)
        ((g1.append g2).append (Grants.cons (d' := [])
          (resp := { MessageRouterResponse.default with status := 0, data := [] }) rfl rfl rfl Grants.nil))
      exact ⟨new, _, h1, h2.trans (seen_drive rnd _ desc s hs 1)⟩
    · obtain rfl : s = [] := List.length_eq_zero_iff.1 (by omega)
      obtain ⟨new, h1, h2⟩ := C63_listing hr m drive M calls ⟨[], sent⟩ _ ending [] [] hf he
        (by unfold Clearing; rw [if_neg (fun h => absurd h.2 (by simp))]) (by rw [List.append_nil]; exact g1.append g2)
      exact ⟨new, _, h1, h2⟩
  · rw [if_neg hq]
    obtain ⟨new, h1, h2⟩ := C63_listing hr m drive M calls ⟨s, sent⟩ _ ending [] s hf he
      (by unfold Clearing; rw [if_neg (fun h => absurd h.1 hq)]) (by rw [List.append_nil]; exact g1.append g2)
    exact ⟨new, _, h1, h2.trans (seen_drive rnd _ desc s hs 1)⟩

/-- C76. Listing twice on a drive without new faults: with clearing nothing is reported
the second time; without, all faults are reported again although none is new. -/
theorem C76_twice {rnd : Rat → Rat} {pow : Nat → Rat} (hr : SaneArithmetic rnd pow) (m : Mem) (M : FaultManager)
    (sent : List Req) (s : List DriveEntry) (desc : DriveEntry → FaultDescription)
    (hk : s.length ≤ 10)
    (hs : ∀ e ∈ s, e.code < 65536 ∧ e.volts < 65536 ∧ e.current < 65536 ∧ e.frequency < 65536)
    (hd : ∀ e ∈ s, e.code ≠ 0 ∧ ((e.code : Int), desc e) ∈ faultTable) :
    ∃ once again L', (do handleFaultParameters rnd pow m drive M; handleFaultParameters rnd pow m drive M) ([], ⟨s, sent⟩) =
        .ok (once ++ again, L') () ∧
      (once.map faultView).map (·.code) = s.map (·.code) ∧
      again.map faultView = if M.clearFaultsQueue then [] else once.map faultView := by
  obtain ⟨new, t1, h1, h2⟩ := C76_drive hr m M [] sent s desc hk hs hd
  have hcodes : (new.map faultView).map (·.code) = s.map (·.code) := by
    rw [h2, List.map_map]
    have : ((fun x : SeenFault => x.code) ∘ fun x : DriveEntry × Nat => x.1.seen rnd M.getFaultDetails x.2 (desc x.1)) =
        (fun e : DriveEntry => e.code) ∘ Prod.fst := rfl
    rw [this, ← List.map_map, List.zipIdx_map_fst]
  by_cases hq : M.clearFaultsQueue = true
  · rw [if_pos hq] at h1
    obtain ⟨new2, t2, h3, h4⟩ := C76_drive hr m M ([] ++ new) t1 [] desc (Nat.zero_le _) (fun _ h => (by cases h))
      (fun _ h => (by cases h))
    rw [List.nil_append] at h1 h3
    refine ⟨new, new2, _, (Prog.bind_ok h1).trans h3, hcodes, ?_⟩
    rw [h4, if_pos hq]; rfl
  · rw [if_neg hq] at h1
    obtain ⟨new2, t2, h3, h4⟩ := C76_drive hr m M ([] ++ new) t1 s desc hk hs hd
    rw [List.nil_append] at h1 h3
    refine ⟨new, new2, _, (Prog.bind_ok h1).trans h3, hcodes, ?_⟩
    rw [h4, if_neg hq, h2]

/-! ## Concrete cases -/

/-- Exact arithmetic. -/
theorem exactArithmetic : SaneArithmetic id (fun k => (10 : Rat) ^ k) := by
  refine ⟨fun _ _ => rfl, ?_, ?_⟩ <;> decide +kernel

/-- An undervoltage at 12.34 A and 50.00 Hz. -/
def underVoltage : DriveEntry := ⟨4, 311, 1234, 5000⟩

/-- A fault as reported: code, volts, current, frequency, text. -/
structure ReportedFault where
  code : Nat
  volts : Rat
  current : Rat
  frequency : Rat
  text : String
deriving DecidableEq

/-- What was reported, what the drive then holds, and if the call returned. -/
structure Reported where
  faults : List ReportedFault
  left : List DriveEntry
  returned : Bool
deriving DecidableEq

def reportOf (s : List FaultInformation × Link (List DriveEntry)) (b : Bool) : Reported :=
  ⟨s.1.map fun f => ⟨f.faultDetails.faultCode.toNat, f.faultDetails.busVoltage, f.faultDetails.current,
      f.faultDetails.frequency, f.faultDescription.faultText⟩, s.2.dev, b⟩

def reported : Res (List FaultInformation × Link (List DriveEntry)) Unit → Option Reported
  | .ok s _ => some (reportOf s true)
  | .throw s _ => some (reportOf s false)
  | .ub => none

example : reported (handleFaultParameters id (fun k => (10 : Rat) ^ k) Mem.strict drive ⟨true, false, true⟩
      ([], ⟨[underVoltage, ⟨13, 5, 6, 7⟩], []⟩)) =
    some ⟨[⟨4, 311, 1234 / 100, 50, "UnderVoltage"⟩, ⟨13, 5, 6 / 100, 7 / 100, "Ground Fault"⟩], [], true⟩ := by
  decide +kernel

example : ∃ desc : DriveEntry → FaultDescription, ∀ e ∈ [underVoltage, ⟨13, 5, 6, 7⟩],
    e.code ≠ 0 ∧ ((e.code : Int), desc e) ∈ faultTable :=
  ⟨fun e => (lookup e.code).getD ⟨0, "", ""⟩, by decide +kernel⟩

/-- C64. Code 1 is not described.  A drive with the faults 4, 1, 13: the call throws after
the first one, nothing is cleared, and it will be the same at every further call. -/
theorem C64_violated : reported (handleFaultParameters id (fun k => (10 : Rat) ^ k) Mem.strict drive ⟨true, false, false⟩
      ([], ⟨[underVoltage, ⟨1, 0, 0, 0⟩, ⟨13, 5, 6, 7⟩], []⟩)) =
    some ⟨[⟨4, 0, 0, 0, "UnderVoltage"⟩], [underVoltage, ⟨1, 0, 0, 0⟩, ⟨13, 5, 6, 7⟩], false⟩ := by
  decide +kernel

/-! ## C65 -/

/-- The request of a fault object. -/
def faultObjectReq (inst : BitVec 16) : Req := ⟨0x0E#8, ⟨0x97, inst, 0, 3⟩, []⟩

/-- What the getters of a fault object return. -/
def faultObjectView (o : FaultObject) : DriveFault :=
  { code := o.faultCode.toNat, port := o.dsiPort.toNat, device := o.dsiDeviceObject.toNat, text := o.faultText.data
    time := o.timerValue.toNat, valid := o.isValidData, real := o.isRealTime }

theorem bit0 (d : BitVec 16) : (d &&& 1#16 != 0#16) = (d.toNat % 2 == 1) := by
  have h2 : d.getLsbD 0 = decide (d.toNat / 1 % 2 = 1) := Nat.testBit_eq_decide_div_mod_eq
  rw [Nat.div_one] at h2
  rw [show 1#16 = BitVec.twoPow 16 0 from rfl, BitVec.and_twoPow, h2]
  by_cases hc : d.toNat % 2 = 1
  · simp only [hc, decide_true, if_true]; decide
  · simp [hc]

theorem bit1 (d : BitVec 16) : (d &&& 2#16 != 0#16) = (d.toNat / 2 % 2 == 1) := by
  have h2 : d.getLsbD 1 = decide (d.toNat / 2 % 2 = 1) := Nat.testBit_eq_decide_div_mod_eq
  rw [show 2#16 = BitVec.twoPow 16 1 from rfl, BitVec.and_twoPow, h2]
  by_cases hc : d.toNat / 2 % 2 = 1
  · simp only [hc, decide_true, if_true]; decide
  · simp [hc]

theorem faultObject_at (m : Mem) (inst : BitVec 16) (data : List Byte) (h : 30 ≤ data.length) :
    ∃ o, (faultObjectRd inst).from m data = .ok o ∧ o.instanceId = inst ∧ faultObjectView o = driveFaultIn data := by
  have h1 : (faultObjectRd inst).from m data = .ok
      { instanceId := inst, faultCode := BitVec.ofNat 16 (field data 0 2), dsiPort := BitVec.ofNat 8 (field data 2 1)
        dsiDeviceObject := BitVec.ofNat 8 (field data 3 1), faultText := CipString.ofBytes 16 ((data.drop 4).take 16)
        timerValue := BitVec.ofNat 64 (field data 20 8)
        isValidData := BitVec.ofNat 16 (field data 28 2) &&& 1#16 != 0#16
        isRealTime := BitVec.ofNat 16 (field data 28 2) &&& 2#16 != 0#16 } := by
    refine Rd.from_ok (b := ⟨data, 30⟩) ?_
    unfold faultObjectRd
    refine (Rd.bind_ok (u16_at m (Buffer.ofData data) (by simp [Buffer.ofData]; omega))).trans ?_
    refine (Rd.bind_ok (u8_at m _ (by simp [Buffer.ofData]; omega))).trans ?_
    refine (Rd.bind_ok (u8_at m _ (by simp [Buffer.ofData]; omega))).trans ?_
    refine (Rd.bind_ok (bytes_eq m 16 _ (by simp [Buffer.ofData]; omega))).trans ?_
    refine (Rd.bind_ok (u64_at m _ (by simp [Buffer.ofData]; omega))).trans ?_
    refine (Rd.bind_ok (u16_at m _ (by simp [Buffer.ofData]; omega))).trans ?_
    rfl
  refine ⟨_, h1, rfl, ?_⟩
  simp only [faultObjectView, driveFaultIn, CipString.ofBytes, bit0, bit1, toNat_field8, toNat_field16, toNat_field64]

/-- C65. An answer of at least 30 bytes: the object holds what is in it. -/
theorem C65_read (m : Mem) (D : Device δ) (L : Link δ) (inst : BitVec 16) (d : δ) (r : MessageRouterResponse)
    (ha : D.answer (faultObjectReq inst) L.dev = .ok d r) (hs : r.status = 0x00#8) (hl : 30 ≤ r.data.length) :
    ∃ o, faultObject m D inst L = .ok ⟨d, L.sent ++ [faultObjectReq inst]⟩ o ∧ o.instanceId = inst ∧
      faultObjectView o = driveFaultIn r.data := by
  obtain ⟨o, h1, h2, h3⟩ := faultObject_at m inst r.data hl
  refine ⟨o, ?_, h2, h3⟩
  refine (Prog.bind_ok (ask_ok (r := faultObjectReq inst) ha)).trans ?_
  rw [if_pos (show r.status = GeneralStatus.success from hs), h1]
  rfl

/-- C65. Any other status throws. -/
theorem C65_failed (m : Mem) (D : Device δ) (L : Link δ) (inst : BitVec 16) (d : δ) (r : MessageRouterResponse)
    (ha : D.answer (faultObjectReq inst) L.dev = .ok d r) (hs : r.status ≠ 0x00#8) :
    faultObject m D inst L =
      .throw ⟨d, L.sent ++ [faultObjectReq inst]⟩ (.runtime "Failed to read FULL_INFORMATION attribute") := by
  refine (Prog.bind_ok (ask_ok (r := faultObjectReq inst) ha)).trans ?_
  rw [if_neg (show ¬ r.status = GeneralStatus.success from hs)]
  rfl

/-- C65. An answer with success that is shorter is read beyond its end. -/
theorem C65_short_violated (D : Device δ) (L : Link δ) (inst : BitVec 16) (d : δ) (r : MessageRouterResponse)
    (ha : D.answer (faultObjectReq inst) L.dev = .ok d r) (hs : r.status = 0x00#8) (hl : r.data.length < 30) :
    faultObject Mem.strict D inst L = .ub := by
  have hsz : Sized (faultObjectRd inst) 30 :=
    (Sized.u16.bind fun _ => Sized.u8.bind fun _ => Sized.u8.bind fun _ => (Sized.bytes 16).bind fun _ =>
      Sized.u64.bind fun _ => Sized.u16.map _).cast (by decide)
  refine (Prog.bind_ok (ask_ok (r := faultObjectReq inst) ha)).trans ?_
  rw [if_pos (show r.status = GeneralStatus.success from hs),
    Rd.from_ub (hsz.short (Buffer.ofData r.data) (by simp [Buffer.ofData]) (by simp [Buffer.ofData]; omega))]
  rfl

example :
    let data : List Byte := le 2 4 ++ [1, 2] ++ List.replicate 16 0x41 ++ le 8 0x1122334455667788 ++ le 2 2
    30 ≤ data.length ∧ driveFaultIn data = ⟨4, 1, 2, List.replicate 16 0x41, 0x1122334455667788, false, true⟩ := by
  decide +kernel

end Verif.Props
