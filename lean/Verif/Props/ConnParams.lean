import Verif.Model.ConnParams
import Verif.Spec.ConnMgr
import Verif.Props.Buffer

/-!
# Properties C17-C20, C69, C70 (connection parameters and connection manager messages)
-/

namespace Verif.Props

open Verif Verif.Spec

/-! ## C18, C17 -/

/-- The values given for each field by a list of setter calls, in order. -/
def ownersOf (ss : List NcpSetter) : List (BitVec 1) :=
  ss.filterMap fun | .redundantOwner v => some v | _ => none
def typesOf (ss : List NcpSetter) : List (BitVec 2) :=
  ss.filterMap fun | .connectionType v => some v | _ => none
def prioritiesOf (ss : List NcpSetter) : List (BitVec 2) :=
  ss.filterMap fun | .priority v => some v | _ => none
def variablesOf (ss : List NcpSetter) : List (BitVec 1) :=
  ss.filterMap fun | .type v => some v | _ => none
def sizesOf (ss : List NcpSetter) : List (BitVec 16) :=
  ss.filterMap fun | .connectionSize v => some v | _ => none

theorem mask_or {w : Nat} (a b m : BitVec w) : (a ||| b) &&& m = (a &&& m) ||| (b &&& m) := by
  ext i; simp; cases a[i] <;> cases b[i] <;> simp

theorem getter_or (v w : BitVec 32) (lfo : Bool) :
    (NcpBuilder.mk (v ||| w) lfo).getRedundantOwner =
      (NcpBuilder.mk v lfo).getRedundantOwner ||| (NcpBuilder.mk w lfo).getRedundantOwner ∧
    (NcpBuilder.mk (v ||| w) lfo).getConnectionType =
      (NcpBuilder.mk v lfo).getConnectionType ||| (NcpBuilder.mk w lfo).getConnectionType ∧
    (NcpBuilder.mk (v ||| w) lfo).getPriority =
      (NcpBuilder.mk v lfo).getPriority ||| (NcpBuilder.mk w lfo).getPriority ∧
    (NcpBuilder.mk (v ||| w) lfo).getType =
      (NcpBuilder.mk v lfo).getType ||| (NcpBuilder.mk w lfo).getType ∧
    (NcpBuilder.mk (v ||| w) lfo).getConnectionSize =
      (NcpBuilder.mk v lfo).getConnectionSize ||| (NcpBuilder.mk w lfo).getConnectionSize := by
  refine ⟨?_, ?_, ?_, ?_, ?_⟩ <;> cases lfo <;>
    simp only [NcpBuilder.getRedundantOwner, NcpBuilder.getConnectionType, NcpBuilder.getPriority,
      NcpBuilder.getType, NcpBuilder.getConnectionSize, if_true, Bool.false_eq_true, if_false,
      mask_or, BitVec.ushiftRight_or_distrib, BitVec.setWidth_or]

/-- What one setter adds to each field. -/
theorem size_mask_getters (v : BitVec 16) (lfo : Bool) :
    let b := NcpBuilder.mk (v.setWidth 32 &&& (if lfo then 0x0000FFFF#32 else 0x000001FF#32)) lfo
    b.getRedundantOwner = 0 ∧ b.getConnectionType = 0 ∧ b.getPriority = 0 ∧ b.getType = 0 ∧
    b.getConnectionSize = v &&& (if lfo then 0xFFFF#16 else 0x1FF#16) := by
  have small : ∀ (m k : BitVec 32), (if lfo then 0x0000FFFF#32 else 0x000001FF#32) &&& m = 0#32 →
      (v.setWidth 32 &&& (if lfo then 0x0000FFFF#32 else 0x000001FF#32)) &&& m = 0#32 := by
    intro m _ h
    rw [BitVec.and_assoc, h, BitVec.and_zero]
  refine ⟨?_, ?_, ?_, ?_, ?_⟩
  · cases lfo <;> simp only [NcpBuilder.getRedundantOwner, if_true, Bool.false_eq_true, if_false] <;>
      rw [BitVec.and_assoc] <;> simp
  · cases lfo <;> simp only [NcpBuilder.getConnectionType, if_true, Bool.false_eq_true, if_false] <;>
      rw [BitVec.and_assoc] <;> simp
  · cases lfo <;> simp only [NcpBuilder.getPriority, if_true, Bool.false_eq_true, if_false] <;>
      rw [BitVec.and_assoc] <;> simp
  · cases lfo <;> simp only [NcpBuilder.getType, if_true, Bool.false_eq_true, if_false] <;>
      rw [BitVec.and_assoc] <;> simp
  · cases lfo <;> simp only [NcpBuilder.getConnectionSize, if_true, Bool.false_eq_true, if_false] <;>
      rw [BitVec.and_assoc, BitVec.and_self, BitVec.setWidth_and] <;>
      simp [BitVec.setWidth_setWidth_of_le]

theorem contribution_getters (lfo : Bool) (s : NcpSetter) :
    let b := NcpBuilder.mk (NcpBuilder.contribution lfo s) lfo
    b.getRedundantOwner = orAll (ownersOf [s]) ∧ b.getConnectionType = orAll (typesOf [s]) ∧
    b.getPriority = orAll (prioritiesOf [s]) ∧ b.getType = orAll (variablesOf [s]) ∧
    b.getConnectionSize = orAll (sizesOf [s]) &&& (if lfo then 0xFFFF#16 else 0x1FF#16) := by
  cases s with
  | connectionSize v =>
    obtain ⟨h1, h2, h3, h4, h5⟩ := size_mask_getters v lfo
    simp only [NcpBuilder.contribution, h1, h2, h3, h4, h5]
    simp [ownersOf, typesOf, prioritiesOf, variablesOf, sizesOf, orAll]
  | _ v => revert v lfo; decide +kernel

theorem set_getters (b : NcpBuilder) (s : NcpSetter) :
    (b.set s).lfo = b.lfo ∧
    (b.set s).getRedundantOwner = b.getRedundantOwner ||| orAll (ownersOf [s]) ∧
    (b.set s).getConnectionType = b.getConnectionType ||| orAll (typesOf [s]) ∧
    (b.set s).getPriority = b.getPriority ||| orAll (prioritiesOf [s]) ∧
    (b.set s).getType = b.getType ||| orAll (variablesOf [s]) ∧
    (b.set s).getConnectionSize = b.getConnectionSize |||
      (orAll (sizesOf [s]) &&& (if b.lfo then 0xFFFF#16 else 0x1FF#16)) := by
  obtain ⟨value, lfo⟩ := b
  obtain ⟨h1, h2, h3, h4, h5⟩ := contribution_getters lfo s
  refine ⟨rfl, ?_⟩
  simp only [NcpBuilder.set, getter_or, h1, h2, h3, h4, h5, and_self]

theorem orAll_append {w : Nat} (a b : List (BitVec w)) : orAll (a ++ b) = orAll a ||| orAll b := by
  induction a with
  | nil => simp [orAll]
  | cons x a ih => simp [orAll, ih, BitVec.or_assoc]

/-- C18. After any sequence of setter calls every getter returns the OR of what was
there and all the values given for that field, the size being cut to 16 (large
forward open) or 9 bits. -/
theorem C18_accumulate (b : NcpBuilder) (ss : List NcpSetter) :
    (ss.foldl NcpBuilder.set b).getRedundantOwner = b.getRedundantOwner ||| orAll (ownersOf ss) ∧
    (ss.foldl NcpBuilder.set b).getConnectionType = b.getConnectionType ||| orAll (typesOf ss) ∧
    (ss.foldl NcpBuilder.set b).getPriority = b.getPriority ||| orAll (prioritiesOf ss) ∧
    (ss.foldl NcpBuilder.set b).getType = b.getType ||| orAll (variablesOf ss) ∧
    (ss.foldl NcpBuilder.set b).getConnectionSize = b.getConnectionSize |||
      (orAll (sizesOf ss) &&& (if b.lfo then 0xFFFF#16 else 0x1FF#16)) := by
  induction ss generalizing b with
  | nil => simp [ownersOf, typesOf, prioritiesOf, variablesOf, sizesOf, orAll]
  | cons s ss ih =>
    obtain ⟨h0, h1, h2, h3, h4, h5⟩ := set_getters b s
    obtain ⟨i1, i2, i3, i4, i5⟩ := ih (b.set s)
    have c1 : ownersOf (s :: ss) = ownersOf [s] ++ ownersOf ss := by
      simp only [ownersOf, ← List.filterMap_append]; rfl
    have c2 : typesOf (s :: ss) = typesOf [s] ++ typesOf ss := by
      simp only [typesOf, ← List.filterMap_append]; rfl
    have c3 : prioritiesOf (s :: ss) = prioritiesOf [s] ++ prioritiesOf ss := by
      simp only [prioritiesOf, ← List.filterMap_append]; rfl
    have c4 : variablesOf (s :: ss) = variablesOf [s] ++ variablesOf ss := by
      simp only [variablesOf, ← List.filterMap_append]; rfl
    have c5 : sizesOf (s :: ss) = sizesOf [s] ++ sizesOf ss := by
      simp only [sizesOf, ← List.filterMap_append]; rfl
    simp only [List.foldl_cons, i1, i2, i3, i4, i5, h0, h1, h2, h3, h4, h5, c1, c2, c3, c4, c5, orAll_append,
      BitVec.or_assoc, mask_or, and_self]

/-- C18. So setting a field again does not replace it: MULTICAST (1) then P2P (2)
gives RESERVED (3). -/
theorem C18_last_write_wins_violated (lfo : Bool) :
    (((NcpBuilder.mk 0#32 lfo).set (.connectionType 1#2)).set (.connectionType 2#2)).getConnectionType = 3#2 := by
  cases lfo <;> decide

/-- C17. From an empty builder, setting each field at most once in any order (the
list of calls is arbitrary): every getter returns the value set, and 0 when the
field was not set. -/
theorem C17_independent (lfo : Bool) (ss : List NcpSetter) :
    let b := ss.foldl NcpBuilder.set ⟨0#32, lfo⟩
    (∀ v, ownersOf ss = [v] → b.getRedundantOwner = v) ∧ (ownersOf ss = [] → b.getRedundantOwner = 0) ∧
    (∀ v, typesOf ss = [v] → b.getConnectionType = v) ∧ (typesOf ss = [] → b.getConnectionType = 0) ∧
    (∀ v, prioritiesOf ss = [v] → b.getPriority = v) ∧ (prioritiesOf ss = [] → b.getPriority = 0) ∧
    (∀ v, variablesOf ss = [v] → b.getType = v) ∧ (variablesOf ss = [] → b.getType = 0) ∧
    (∀ v, sizesOf ss = [v] → b.getConnectionSize.toNat = v.toNat % (if lfo then 65536 else 512)) ∧
    (sizesOf ss = [] → b.getConnectionSize = 0) := by
  obtain ⟨h1, h2, h3, h4, h5⟩ := C18_accumulate ⟨0#32, lfo⟩ ss
  have z1 : (NcpBuilder.mk 0#32 lfo).getRedundantOwner = 0 := by cases lfo <;> decide
  have z2 : (NcpBuilder.mk 0#32 lfo).getConnectionType = 0 := by cases lfo <;> decide
  have z3 : (NcpBuilder.mk 0#32 lfo).getPriority = 0 := by cases lfo <;> decide
  have z4 : (NcpBuilder.mk 0#32 lfo).getType = 0 := by cases lfo <;> decide
  have z5 : (NcpBuilder.mk 0#32 lfo).getConnectionSize = 0 := by cases lfo <;> decide
  simp only [h1, h2, h3, h4, h5, z1, z2, z3, z4, z5]
  refine ⟨fun v h => ?_, fun h => ?_, fun v h => ?_, fun h => ?_, fun v h => ?_, fun h => ?_, fun v h => ?_,
    fun h => ?_, fun v h => ?_, fun h => ?_⟩ <;> rw [h] <;> simp [orAll]
  cases lfo
  · have := Nat.and_two_pow_sub_one_eq_mod v.toNat 9
    simpa using this
  · exact Nat.and_two_pow_sub_one_eq_mod v.toNat 16

example : let ss : List NcpSetter := [.priority 2#2, .connectionSize 32#16, .connectionType 2#2, .type 1#1]
    ownersOf ss = [] ∧ typesOf ss = [2#2] ∧ prioritiesOf ss = [2#2] ∧ variablesOf ss = [1#1] ∧ sizesOf ss = [32#16]
    ∧ (ss.foldl NcpBuilder.set ⟨0#32, false⟩).value = 0x4A20#32 := by decide

/-- C17. The order of the calls does not matter for the word itself. -/
theorem C17_order_irrelevant (lfo : Bool) (v : BitVec 32) (ss ts : List NcpSetter) (h : ss.Perm ts) :
    ss.foldl NcpBuilder.set ⟨v, lfo⟩ = ts.foldl NcpBuilder.set ⟨v, lfo⟩ := by
  have comm : ∀ (b : NcpBuilder) (s t : NcpSetter), (b.set s).set t = (b.set t).set s := by
    intro b s t
    simp only [NcpBuilder.set, BitVec.or_assoc]
    rw [BitVec.or_comm (NcpBuilder.contribution b.lfo s)]
  exact h.foldl_eq' (fun a _ b _ z => comm z a b) _

/-! ## C69 -/

/-- C69. Without `setRedundantOwner` a chain of setters changes the builder it was
started on; with it, the builder only gets the settings up to and including the
first `setRedundantOwner`, while the value of the expression has all of them. -/
theorem C69_chain (b : NcpBuilder) (pre post : List NcpSetter) (v : BitVec 1)
    (hpre : ∀ w, NcpSetter.redundantOwner w ∉ pre) :
    pre.foldl NcpBuilder.Chain.set (.start b) = .start (pre.foldl NcpBuilder.set b) ∧
    ((pre ++ NcpSetter.redundantOwner v :: post).foldl NcpBuilder.Chain.set (.start b)).cur =
      (pre ++ NcpSetter.redundantOwner v :: post).foldl NcpBuilder.set b ∧
    ((pre ++ NcpSetter.redundantOwner v :: post).foldl NcpBuilder.Chain.set (.start b)).self =
      (pre ++ [NcpSetter.redundantOwner v]).foldl NcpBuilder.set b := by
  have detached : ∀ (ss : List NcpSetter) (s d : NcpBuilder),
      ss.foldl NcpBuilder.Chain.set ⟨s, some d⟩ = ⟨s, some (ss.foldl NcpBuilder.set d)⟩ := by
    intro ss
    induction ss with
    | nil => intros; rfl
    | cons t ss ih => intro s d; simp only [List.foldl_cons, NcpBuilder.Chain.set, ih]
  have h1 : pre.foldl NcpBuilder.Chain.set (.start b) = .start (pre.foldl NcpBuilder.set b) := by
    induction pre generalizing b with
    | nil => rfl
    | cons s pre ih =>
      have e : NcpBuilder.Chain.set (.start b) s = .start (b.set s) := by
        cases s with
        | redundantOwner w => exact absurd (by simp) (hpre w)
        | _ => rfl
      rw [List.foldl_cons, e, ih (b.set s) (fun w hw => hpre w (by simp [hw]))]
      rfl
  have h2 : ∀ b : NcpBuilder, NcpBuilder.Chain.set (.start b) (.redundantOwner v) =
      ⟨b.set (.redundantOwner v), some (b.set (.redundantOwner v))⟩ := fun _ => rfl
  refine ⟨h1, ?_, ?_⟩ <;>
    simp only [List.foldl_append, List.foldl_cons, h1, h2, detached, List.foldl_nil]
  rfl

/-- C69. Hence settings chained after `setRedundantOwner` can be missing from the builder. -/
theorem C69_chained_settings_lost :
    let c := [NcpSetter.redundantOwner 0#1, .connectionType 2#2, .connectionSize 32#16].foldl
      NcpBuilder.Chain.set (.start ⟨0#32, false⟩)
    c.self.value = 0#32 ∧ c.cur.value = 0x4020#32 := by decide

/-! ## C70 -/

/-- C70. The enumeration constants for the 16-bit word are exactly what the builder
makes for the corresponding single setting. -/
theorem C70_constants_agree :
    let one (s : NcpSetter) : BitVec 16 := ((NcpBuilder.mk 0#32 false).set s).value.setWidth 16
    one (.redundantOwner 1#1) = NetworkConnectionParams.redundant ∧
    one (.redundantOwner 0#1) = NetworkConnectionParams.owned ∧
    one (.connectionType 1#2) = NetworkConnectionParams.multicast ∧
    one (.connectionType 2#2) = NetworkConnectionParams.p2p ∧
    one (.priority 0#2) = NetworkConnectionParams.lowPriority ∧
    one (.priority 1#2) = NetworkConnectionParams.highPriority ∧
    one (.priority 2#2) = NetworkConnectionParams.scheduledPriority ∧
    one (.priority 3#2) = NetworkConnectionParams.urgent ∧
    one (.type 0#1) = NetworkConnectionParams.fixed ∧
    one (.type 1#1) = NetworkConnectionParams.variable' := by decide +kernel

/-- C70. The 16-bit and the 32-bit word encode the same settings at positions 16 bits apart:
for every setter except the size, the large word is the small one shifted by 16. -/
theorem C70_large_is_shifted (s : NcpSetter) (h : ∀ v, s ≠ .connectionSize v) :
    ((NcpBuilder.mk 0#32 true).set s).value = ((NcpBuilder.mk 0#32 false).set s).value <<< 16 := by
  cases s with
  | connectionSize v => exact absurd rfl (h v)
  | redundantOwner v => clear h; revert v; decide +kernel
  | connectionType v => clear h; revert v; decide +kernel
  | priority v => clear h; revert v; decide +kernel
  | type v => clear h; revert v; decide +kernel

open NetworkConnectionParams in
/-- C70. The constants for the transport class and trigger byte combine: for every direction, trigger and class, the
byte has the direction in bit 7, the trigger in bits 4-6 and the class in bits 0-3 (Vol. 1, 3-4.4.3). -/
theorem C70_transport (server : Bool) (trigger : Fin 3) (cls : Fin 4) :
    let word := (if server then transpServer else 0#16) ||| ([trigCyclic, trigChange, trigApp][trigger]) |||
      ([class0, class1, class2, class3][cls])
    (word.setWidth 8).toNat = 128 * server.toNat + 16 * trigger.val + cls.val := by
  revert server trigger cls; decide +kernel

/-! ## C19 -/

theorem packHead_bytes (p : ConnectionParameters) :
    p.packHead.bytes = le 1 p.priorityTimeTick.toNat ++ (le 1 p.timeoutTicks.toNat ++
      (le 4 p.o2tNetworkConnectionId.toNat ++ (le 4 p.t2oNetworkConnectionId.toNat ++
      (le 2 p.connectionSerialNumber.toNat ++ (le 2 p.originatorVendorId.toNat ++
      (le 4 p.originatorSerialNumber.toNat ++ (le 1 p.connectionTimeoutMultiplier.toNat ++
      (le 1 0 ++ (le 1 0 ++ le 1 0))))))))) := by
  simp [ConnectionParameters.packHead, C02_little_endian, Buffer.empty]

/-- What every forward open request starts with. -/
def OpenHead (bs : List Byte) (p : ConnectionParameters) : Prop :=
    field bs 0 1 = p.priorityTimeTick.toNat ∧ field bs 1 1 = p.timeoutTicks.toNat ∧
    field bs 2 4 = p.o2tNetworkConnectionId.toNat ∧ field bs 6 4 = p.t2oNetworkConnectionId.toNat ∧
    field bs 10 2 = p.connectionSerialNumber.toNat ∧ field bs 12 2 = p.originatorVendorId.toNat ∧
    field bs 14 4 = p.originatorSerialNumber.toNat ∧ field bs 18 1 = p.connectionTimeoutMultiplier.toNat ∧
    field bs 19 3 = 0 ∧ field bs 22 4 = p.o2tRPI.toNat

/-- C19. Forward open: 36 bytes and the path, every field at its offset; the
assertion never fires. -/
theorem C19_forwardOpen (p : ConnectionParameters) :
    ∃ bs, forwardOpenPack p = .ok bs ∧ bs.length = 36 + p.connectionPath.length ∧ OpenHead bs p ∧
    field bs 26 2 = p.o2tNetworkConnectionParams.toNat % 65536 ∧
    field bs 28 4 = p.t2oRPI.toNat ∧ field bs 32 2 = p.t2oNetworkConnectionParams.toNat % 65536 ∧
    field bs 34 1 = p.transportTypeTrigger.toNat ∧ field bs 35 1 = p.connectionPathSize.toNat ∧
    bs.drop 36 = p.connectionPath := by
  refine ⟨_, by
    simp only [forwardOpenPack, C02_little_endian, packHead_bytes, Buffer.putBytes]
    rw [if_pos (by simp)], ?_⟩
  have e0 : ∀ b : List Byte, field (le 1 0 ++ (le 1 0 ++ (le 1 0 ++ b))) 0 3 = 0 := fun b => by
    simp [field, le, ofLe]
  have e16 : ∀ v : BitVec 32, v.toNat % 65536 = (v.setWidth 16).toNat := fun v => by simp
  simp only [List.append_assoc, OpenHead, e16]
  refine ⟨by simp; omega, ⟨?_, ?_, ?_, ?_, ?_, ?_, ?_, ?_, ?_, ?_⟩, ?_, ?_, ?_, ?_, ?_, ?_⟩
  all_goals
    repeat rw [field_skip _ _ _ _ _ (by decide)]
    first | rw [field8] | rw [field16] | rw [field32] | rw [e0] | skip
  repeat rw [drop_skip _ _ _ _ (by decide)]
  rfl

/-- C19. Large forward open: 40 bytes and the path. -/
theorem C19_largeForwardOpen (p : ConnectionParameters) :
    ∃ bs, largeForwardOpenPack p = .ok bs ∧ bs.length = 40 + p.connectionPath.length ∧ OpenHead bs p ∧
    field bs 26 4 = p.o2tNetworkConnectionParams.toNat ∧
    field bs 30 4 = p.t2oRPI.toNat ∧ field bs 34 4 = p.t2oNetworkConnectionParams.toNat ∧
    field bs 38 1 = p.transportTypeTrigger.toNat ∧ field bs 39 1 = p.connectionPathSize.toNat ∧
    bs.drop 40 = p.connectionPath := by
  refine ⟨_, by
    simp only [largeForwardOpenPack, C02_little_endian, packHead_bytes, Buffer.putBytes]
    rw [if_pos (by simp)], ?_⟩
  have e0 : ∀ b : List Byte, field (le 1 0 ++ (le 1 0 ++ (le 1 0 ++ b))) 0 3 = 0 := fun b => by
    simp [field, le, ofLe]
  simp only [List.append_assoc, OpenHead]
  refine ⟨by simp; omega, ⟨?_, ?_, ?_, ?_, ?_, ?_, ?_, ?_, ?_, ?_⟩, ?_, ?_, ?_, ?_, ?_, ?_⟩
  all_goals
    repeat rw [field_skip _ _ _ _ _ (by decide)]
    first | rw [field8] | rw [field16] | rw [field32] | rw [e0] | skip
  repeat rw [drop_skip _ _ _ _ (by decide)]
  rfl

/-- C19. Forward close: 12 bytes and the path.  The path size in words is the
rounded down half, modulo 256. -/
theorem C19_forwardClose (r : ForwardCloseRequest) :
    r.pack.length = 12 + r.connectionPath.length ∧ field r.pack 0 2 = 0 ∧
    field r.pack 2 2 = r.connectionSerialNumber.toNat ∧ field r.pack 4 2 = r.originatorVendorId.toNat ∧
    field r.pack 6 4 = r.originatorSerialNumber.toNat ∧
    field r.pack 10 1 = r.connectionPath.length / 2 % 256 ∧ field r.pack 11 1 = 0 ∧
    r.pack.drop 12 = r.connectionPath := by
  have e : r.pack = le 1 0 ++ (le 1 0 ++ (le 2 r.connectionSerialNumber.toNat ++ (le 2 r.originatorVendorId.toNat ++
      (le 4 r.originatorSerialNumber.toNat ++ (le 1 (BitVec.ofNat 8 (r.connectionPath.length / 2)).toNat ++
      (le 1 0 ++ r.connectionPath)))))) := by
    simp [ForwardCloseRequest.pack, C02_little_endian, Buffer.empty, Buffer.putBytes]
  have e0 : ∀ b : List Byte, field (le 1 0 ++ (le 1 0 ++ b)) 0 2 = 0 := fun b => by
    simp [field, le, ofLe]
  have e8 : r.connectionPath.length / 2 % 256 = (BitVec.ofNat 8 (r.connectionPath.length / 2)).toNat := by simp
  rw [e, e8]
  refine ⟨by simp; omega, ?_, ?_, ?_, ?_, ?_, ?_, ?_⟩
  all_goals
    repeat rw [field_skip _ _ _ _ _ (by decide)]
    first | exact e0 _ | exact field8 _ _ | exact field16 _ _ | exact field32 _ _ | exact field8 0#8 _ | skip
  repeat rw [drop_skip _ _ _ _ (by decide)]
  rfl

example : (ForwardCloseRequest.mk 0x1234#16 1#16 2#32 [0x20#8, 4#8]).pack =
    [0#8, 0#8, 0x34#8, 0x12#8, 1#8, 0#8, 2#8, 0#8, 0#8, 0#8, 1#8, 0#8, 0x20#8, 4#8] := by decide

/-! ## C20 -/

theorem reads_openReply (r : ForwardOpenResponse) (reserved : Byte)
    (h : r.applicationReplay.length = r.applicationReplaySize.toNat * 2) :
    Reads ForwardOpenResponse.rd
      (openReply r.o2tNetworkConnectionId.toNat r.t2oNetworkConnectionId.toNat r.connectionSerialNumber.toNat
        r.originatorVendorId.toNat r.originatorSerialNumber.toNat r.o2tAPI.toNat r.t2oAPI.toNat reserved.toNat
        r.applicationReplay) r := by
  have h0 : Reads ForwardOpenResponse.rd _ _ :=
    (Reads.u32 r.o2tNetworkConnectionId).bind ((Reads.u32 r.t2oNetworkConnectionId).bind
    ((Reads.u16 r.connectionSerialNumber).bind ((Reads.u16 r.originatorVendorId).bind
    ((Reads.u32 r.originatorSerialNumber).bind ((Reads.u32 r.o2tAPI).bind ((Reads.u32 r.t2oAPI).bind
    ((Reads.u8 r.applicationReplaySize).bind ((Reads.u8 reserved).bind
    ((Reads.bytes' h).map_pure fun app => ForwardOpenResponse.mk _ _ _ _ _ _ _ _ app)))))))))
  refine h0.cast ?_ rfl
  have : r.applicationReplay.length / 2 = r.applicationReplaySize.toNat := by omega
  simp only [openReply, this, le_one]
  simp

/-- C20. A reply with at least 26 bytes and the announced application data decodes
to the fields at their offsets, and bytes beyond it are ignored. -/
theorem C20_accepts (r : ForwardOpenResponse) (reserved : Byte) (post : List Byte) (m : Mem)
    (h : r.applicationReplay.length = r.applicationReplaySize.toNat * 2) :
    ForwardOpenResponse.expand m
      (openReply r.o2tNetworkConnectionId.toNat r.t2oNetworkConnectionId.toNat r.connectionSerialNumber.toNat
        r.originatorVendorId.toNat r.originatorSerialNumber.toNat r.o2tAPI.toNat r.t2oAPI.toNat reserved.toNat
        r.applicationReplay ++ post) = .ok r := by
  unfold ForwardOpenResponse.expand
  rw [(reads_openReply r reserved h).start (post := post) m]

/-- C20. Complete classification by length only: with enough bytes the fields are
those at the specified offsets; otherwise the decoder reads out of bounds. -/
theorem C20_classification (data : List Byte) :
    (26 + 2 * field data 24 1 ≤ data.length ∧ 26 ≤ data.length → ∃ r, (∀ m, ForwardOpenResponse.expand m data = .ok r) ∧
      r.o2tNetworkConnectionId.toNat = field data 0 4 ∧ r.t2oNetworkConnectionId.toNat = field data 4 4 ∧
      r.connectionSerialNumber.toNat = field data 8 2 ∧ r.originatorVendorId.toNat = field data 10 2 ∧
      r.originatorSerialNumber.toNat = field data 12 4 ∧ r.o2tAPI.toNat = field data 16 4 ∧
      r.t2oAPI.toNat = field data 20 4 ∧ r.applicationReplaySize.toNat = field data 24 1 ∧
      r.applicationReplay = (data.drop 26).take (2 * field data 24 1)) ∧
    (data.length < 26 ∨ data.length < 26 + 2 * field data 24 1 → ForwardOpenResponse.expand Mem.strict data = .ub) := by
  constructor
  · rintro ⟨h1, h2⟩
    refine ⟨⟨BitVec.ofNat 32 (field data 0 4), BitVec.ofNat 32 (field data 4 4), BitVec.ofNat 16 (field data 8 2),
      BitVec.ofNat 16 (field data 10 2), BitVec.ofNat 32 (field data 12 4), BitVec.ofNat 32 (field data 16 4),
      BitVec.ofNat 32 (field data 20 4), BitVec.ofNat 8 (field data 24 1),
      (data.drop 26).take (2 * field data 24 1)⟩, fun m => ?_, ?_⟩
    · unfold ForwardOpenResponse.expand ForwardOpenResponse.rd Buffer.ofData
      rw [Rd.bind_ok (u32_at m _ (by simp; omega)), Rd.bind_ok (u32_at m _ (by simp; omega)),
        Rd.bind_ok (u16_at m _ (by simp; omega)), Rd.bind_ok (u16_at m _ (by simp; omega)),
        Rd.bind_ok (u32_at m _ (by simp; omega)), Rd.bind_ok (u32_at m _ (by simp; omega)),
        Rd.bind_ok (u32_at m _ (by simp; omega)), Rd.bind_ok (u8_at m _ (by simp; omega)),
        Rd.bind_ok (u8_at m _ (by simp; omega)), toNat_field8,
        Rd.bind_ok (bytes_eq m _ _ (by simp; omega))]
      simp only [Rd.pure_run, Nat.mul_comm _ 2]
    · simp only [toNat_field8, toNat_field16, toNat_field32, and_self]
  · intro h
    unfold ForwardOpenResponse.expand
    by_cases h26 : data.length < 26
    · have hn : Needs ForwardOpenResponse.rd 26 :=
        Needs.bind Sized.u32 fun _ => Needs.bind Sized.u32 fun _ => Needs.bind Sized.u16 fun _ =>
        Needs.bind Sized.u16 fun _ => Needs.bind Sized.u32 fun _ => Needs.bind Sized.u32 fun _ =>
        Needs.bind Sized.u32 fun _ => Needs.bind Sized.u8 fun _ => Needs.bind Sized.u8 fun _ => Needs.zero _
      rw [hn _ (by simp [Buffer.ofData]) (by simpa [Buffer.ofData] using h26)]
    · unfold ForwardOpenResponse.rd Buffer.ofData
      have hub : (Rd.bytes (field data 24 1 * 2)) Mem.strict ⟨data, 26⟩ = .ub :=
        (Sized.bytes _).short ⟨data, 26⟩ (by simp; omega) (by simp; omega)
      rw [Rd.bind_ok (u32_at _ _ (by simp; omega)), Rd.bind_ok (u32_at _ _ (by simp; omega)),
        Rd.bind_ok (u16_at _ _ (by simp; omega)), Rd.bind_ok (u16_at _ _ (by simp; omega)),
        Rd.bind_ok (u32_at _ _ (by simp; omega)), Rd.bind_ok (u32_at _ _ (by simp; omega)),
        Rd.bind_ok (u32_at _ _ (by simp; omega)), Rd.bind_ok (u8_at _ _ (by simp; omega)),
        Rd.bind_ok (u8_at _ _ (by simp; omega)), toNat_field8, Rd.bind_ub hub]

example : ForwardOpenResponse.expand Mem.strict
    [1#8, 0#8, 0#8, 0#8, 2#8, 0#8, 1#8, 0#8, 3#8, 0#8, 4#8, 0#8, 5#8, 0#8, 0#8, 0#8, 0x10#8, 0x27#8, 0#8, 0#8,
     0x20#8, 0x4E#8, 0#8, 0#8, 1#8, 0#8, 7#8, 8#8] =
    .ok ⟨1#32, 0x10002#32, 3#16, 4#16, 5#32, 10000#32, 20000#32, 1#8, [7#8, 8#8]⟩ := by decide +kernel

end Verif.Props
