import Verif.Model.Accessors
import Verif.Spec.Accessors
import Verif.Props.Scaling

/-!
# C99: objects made by hand

`ParameterObject` and `IdentityObject` can be made without a device and filled with setters.
-/

namespace Verif.Props

open Verif Verif.Spec Verif.ParameterObject

/-- Does this call set the limit? -/
def setsLimit : Limit → ParameterObject.Setter → Bool
  | .min, .engMin _ _ => true
  | .max, .engMax _ _ => true
  | .dflt, .engDefault _ _ => true
  | _, _ => false

/-- The setter of a limit, as a call. -/
def limitCall (T : IntType) (e : Rat) : Limit → ParameterObject.Setter
  | .min => .engMin T e
  | .max => .engMax T e
  | .dflt => .engDefault T e

theorem set_limit (rnd : Rat → Rat) (pow : Nat → Rat) (o : ParameterObject) (T : IntType) (e : Rat) (l : Limit) :
    ParameterObject.set rnd pow o (limitCall T e l) = setEng rnd pow T l o e := by
  cases l <;> rfl

/-- A setter of a limit changes that limit only. -/
theorem setEng_changes {rnd : Rat → Rat} {pow : Nat → Rat} {T : IntType} {l : Limit} {o o' : ParameterObject} {e : Rat}
    (h : setEng rnd pow T l o e = .ok o') : ∃ bs, o' = withLimit l o bs := by
  rw [setEng_eq] at h
  cases hb : engBytes rnd pow T o e with
  | ub => rw [hb] at h; cases h
  | throw x => rw [hb] at h; cases h
  | ok bs => rw [hb] at h; cases h; exact ⟨bs, rfl⟩

/-- What holds of one setter holds of a series. -/
theorem sets_last {α : Type} (rnd : Rat → Rat) (pow : Nat → Rat) (get : ParameterObject → α)
    (pick : ParameterObject.Setter → Option α)
    (one : ∀ o o' s, ParameterObject.set rnd pow o s = .ok o' → get o' = (pick s).getD (get o))
    (ss : List ParameterObject.Setter) :
    ∀ o o', ParameterObject.sets rnd pow o ss = .ok o' → get o' = lastSet pick (get o) ss := by
  induction ss with
  | nil => intro o o' h; cases h; rfl
  | cons s ss ih =>
    intro o o' h
    unfold ParameterObject.sets at h
    split at h
    · cases h
    · cases h
    · rename_i o1 h1
      rw [ih o1 o' h, one o o1 s h1]
      rfl

theorem set_cases {rnd : Rat → Rat} {pow : Nat → Rat} {o o' : ParameterObject} {T : IntType} {e : Rat} :
    (ParameterObject.set rnd pow o (.engMin T e) = .ok o' → ∃ bs, o' = withLimit .min o bs) ∧
    (ParameterObject.set rnd pow o (.engMax T e) = .ok o' → ∃ bs, o' = withLimit .max o bs) ∧
    (ParameterObject.set rnd pow o (.engDefault T e) = .ok o' → ∃ bs, o' = withLimit .dflt o bs) :=
  ⟨fun h => setEng_changes (l := .min) h, fun h => setEng_changes (l := .max) h, fun h => setEng_changes (l := .dflt) h⟩

/-- C99. After any setters, every attribute is what its setter was last called with, or
what it was before; the instance, the parameter number, the actual value and the kind of
the object have no setter. -/
theorem C99_parameter (rnd : Rat → Rat) (pow : Nat → Rat) (ss : List ParameterObject.Setter) (o o' : ParameterObject)
    (h : ParameterObject.sets rnd pow o ss = .ok o') :
    o'.isScalable = lastSet (fun | .scalable b => some b | _ => none) o.isScalable ss ∧
    o'.isReadOnly = lastSet (fun | .readOnly b => some b | _ => none) o.isReadOnly ss ∧
    o'.type = lastSet (fun | .type t => some t | _ => none) o.type ss ∧
    o'.name = lastSet (fun | .name s => some s | _ => none) o.name ss ∧
    o'.units = lastSet (fun | .units s => some s | _ => none) o.units ss ∧
    o'.help = lastSet (fun | .help s => some s | _ => none) o.help ss ∧
    o'.scalingMultiplier = lastSet (fun | .multiplier v => some v | _ => none) o.scalingMultiplier ss ∧
    o'.scalingDivisor = lastSet (fun | .divisor v => some v | _ => none) o.scalingDivisor ss ∧
    o'.scalingBase = lastSet (fun | .base v => some v | _ => none) o.scalingBase ss ∧
    o'.scalingOffset = lastSet (fun | .offset v => some v | _ => none) o.scalingOffset ss ∧
    o'.precision = lastSet (fun | .precision v => some v | _ => none) o.precision ss ∧
    o'.instanceId = o.instanceId ∧ o'.parameter = o.parameter ∧ o'.value = o.value ∧
    o'.hasFullAttributes = o.hasFullAttributes ∧ o'.hasRouter = o.hasRouter := by
  have none_last : ∀ {α : Type} (a : α) (l : List ParameterObject.Setter), lastSet (fun _ => none) a l = a := by
    intro α a l
    induction l with
    | nil => rfl
    | cons s l ih => exact ih
  refine ⟨sets_last rnd pow (·.isScalable) _ ?_ ss o o' h, sets_last rnd pow (·.isReadOnly) _ ?_ ss o o' h,
    sets_last rnd pow (·.type) _ ?_ ss o o' h, sets_last rnd pow (·.name) _ ?_ ss o o' h,
    sets_last rnd pow (·.units) _ ?_ ss o o' h, sets_last rnd pow (·.help) _ ?_ ss o o' h,
    sets_last rnd pow (·.scalingMultiplier) _ ?_ ss o o' h, sets_last rnd pow (·.scalingDivisor) _ ?_ ss o o' h,
    sets_last rnd pow (·.scalingBase) _ ?_ ss o o' h, sets_last rnd pow (·.scalingOffset) _ ?_ ss o o' h,
    sets_last rnd pow (·.precision) _ ?_ ss o o' h,
    (sets_last rnd pow (·.instanceId) (fun _ => none) ?_ ss o o' h).trans (none_last _ _),
    (sets_last rnd pow (·.parameter) (fun _ => none) ?_ ss o o' h).trans (none_last _ _),
    (sets_last rnd pow (·.value) (fun _ => none) ?_ ss o o' h).trans (none_last _ _),
    (sets_last rnd pow (·.hasFullAttributes) (fun _ => none) ?_ ss o o' h).trans (none_last _ _),
    (sets_last rnd pow (·.hasRouter) (fun _ => none) ?_ ss o o' h).trans (none_last _ _)⟩
  all_goals
    intro o o' s h
    cases s
    case engMin => obtain ⟨bs, rfl⟩ := set_cases.1 h; rfl
    case engMax => obtain ⟨bs, rfl⟩ := set_cases.2.1 h; rfl
    case engDefault => obtain ⟨bs, rfl⟩ := set_cases.2.2 h; rfl
    all_goals (cases h; rfl)

theorem sets_append (rnd : Rat → Rat) (pow : Nat → Rat) (ss ts : List ParameterObject.Setter) :
    ∀ o o', ParameterObject.sets rnd pow o (ss ++ ts) = .ok o' ↔
      ∃ o1, ParameterObject.sets rnd pow o ss = .ok o1 ∧ ParameterObject.sets rnd pow o1 ts = .ok o' := by
  induction ss with
  | nil => intro o o'; exact ⟨fun h => ⟨o, rfl, h⟩, fun ⟨o1, h1, h2⟩ => by cases h1; exact h2⟩
  | cons s ss ih =>
    intro o o'
    rw [List.cons_append, ParameterObject.sets, ParameterObject.sets]
    cases hs : ParameterObject.set rnd pow o s with
    | ub => simp
    | throw x => simp
    | ok o1 => exact ih o1 o'

/-- Setters other than that of a limit leave the limit alone. -/
theorem limit_kept (rnd : Rat → Rat) (pow : Nat → Rat) (l : Limit) (ss : List ParameterObject.Setter)
    (hl : ∀ s ∈ ss, setsLimit l s = false) :
    ∀ o o', ParameterObject.sets rnd pow o ss = .ok o' → limitOf l o' = limitOf l o := by
  induction ss with
  | nil => intro o o' h; cases h; rfl
  | cons s ss ih =>
    intro o o' h
    unfold ParameterObject.sets at h
    split at h
    · cases h
    · cases h
    · rename_i o1 h1
      rw [ih (fun s' hs => hl s' (List.mem_cons_of_mem _ hs)) o1 o' h]
      have hn := hl s List.mem_cons_self
      cases s
      case engMin =>
        obtain ⟨bs, rfl⟩ := set_cases.1 h1
        cases l <;> first | rfl | cases hn
      case engMax =>
        obtain ⟨bs, rfl⟩ := set_cases.2.1 h1
        cases l <;> first | rfl | cases hn
      case engDefault =>
        obtain ⟨bs, rfl⟩ := set_cases.2.2 h1
        cases l <;> first | rfl | cases hn
      all_goals (cases h1; cases l <;> rfl)

/-- C99. A limit is what was last set, converted with the scaling in force at that call
(and without its fraction): setting the scaling later does not convert it again. -/
theorem C99_limit (rnd : Rat → Rat) (pow : Nat → Rat) (m : Mem) (l : Limit) (T : IntType) (e : Rat)
    (before after : List ParameterObject.Setter) (o o' : ParameterObject)
    (h : ParameterObject.sets rnd pow o (before ++ limitCall T e l :: after) = .ok o')
    (last : ∀ s ∈ after, setsLimit l s = false) :
    ∃ o1 q, ∃ v : Int, ParameterObject.sets rnd pow o before = .ok o1 ∧ engToActual rnd pow o1 e = .ok q ∧
      (0 ≤ q → (v : Rat) ≤ q ∧ q < v + 1) ∧ (q < 0 → (v : Rat) - 1 < q ∧ q ≤ v) ∧
      encodeValue m T (limitOf l o') = .ok v := by
  obtain ⟨o1, h1, h2⟩ := (sets_append rnd pow _ _ o o').mp h
  unfold ParameterObject.sets at h2
  rw [set_limit] at h2
  split at h2
  · cases h2
  · cases h2
  rename_i o2 h3
  have hk := limit_kept rnd pow l after last o2 o' h2
  rw [setEng_eq] at h3
  unfold engBytes castInt at h3
  cases hq : engToActual rnd pow o1 e with
  | ub => rw [hq] at h3; cases h3
  | throw x => rw [hq] at h3; cases h3
  | ok q =>
    rw [hq] at h3
    refine ⟨o1, q, if q < 0 then q.ceil else q.floor, h1, hq, ?_, ?_, ?_⟩
    · intro h0
      rw [if_neg (by grind)]
      refine ⟨Rat.floor_le q, ?_⟩
      have := @Rat.lt_floor q
      grind
    · intro h0
      rw [if_pos h0]
      refine ⟨?_, Rat.le_ceil⟩
      have := @Rat.ceil_lt q
      grind
    · rw [hk]
      dsimp only at h3
      generalize (if q < 0 then q.ceil else q.floor) = v at h3 ⊢
      by_cases hh : T.has v
      · simp only [if_pos hh] at h3
        cases h3
        have := decode_encode m T v hh
        cases l <;> exact this
      · simp only [if_neg hh] at h3
        cases h3

/-- C99. A limit that was not set is what it was. -/
theorem C99_limit_kept (rnd : Rat → Rat) (pow : Nat → Rat) (l : Limit) (ss : List ParameterObject.Setter)
    (o o' : ParameterObject) (h : ParameterObject.sets rnd pow o ss = .ok o')
    (never : ∀ s ∈ ss, setsLimit l s = false) : limitOf l o' = limitOf l o :=
  limit_kept rnd pow l ss never o o' h

/-- A field of zeros is zero. -/
theorem zeros_field (n k : Nat) : field (List.replicate n (0 : Byte)) 0 k = 0 := by
  have : ∀ j, ofLe (List.replicate j (0 : Byte)) = 0 := by
    intro j
    induction j with
    | zero => rfl
    | succ j ih => rw [List.replicate_succ, ofLe, ih]; rfl
  unfold field
  rw [List.drop_zero, List.take_replicate, this]

/-- C99. A new object: zeros of the size given, no scaling, empty texts. -/
theorem C99_fresh (m : Mem) (id : BitVec 16) (full : Bool) (n : Nat) :
    let o := ParameterObject.empty id full n
    o.instanceId = id ∧ o.hasFullAttributes = full ∧ o.isScalable = false ∧ o.isReadOnly = false ∧ o.type = 0 ∧
    o.name = [] ∧ o.units = [] ∧ o.help = [] ∧ o.scalingMultiplier = 1 ∧ o.scalingDivisor = 1 ∧ o.scalingBase = 1 ∧
    o.scalingOffset = 0 ∧ o.precision = 0 ∧
    (∀ T bs, (bs = o.value ∨ ∃ l, bs = limitOf l o) →
      (size T ≤ n → encodeValue m T bs = .ok 0) ∧ (n < size T → encodeValue Mem.strict T bs = .ub)) := by
  refine ⟨rfl, rfl, rfl, rfl, rfl, rfl, rfl, rfl, rfl, rfl, rfl, rfl, rfl, ?_⟩
  intro T bs hb
  have : bs = List.replicate n 0 := by
    obtain h | ⟨l, h⟩ := hb
    · exact h
    · cases l <;> exact h
  subst this
  refine ⟨fun h => ?_, fun h => C74_short_violated T _ (by simpa using h)⟩
  rw [C74_reads m T _ (by simpa using h)]
  unfold intAt
  rw [zeros_field]
  have hp : 0 < 256 ^ size T := Nat.pow_pos (by decide)
  rw [if_neg (fun hc => by omega)]
  rfl

/-- C99. `getParameter()` of an object made by hand is 0, not the instance it stands for,
and no setter changes that. -/
theorem C99_number_violated (rnd : Rat → Rat) (pow : Nat → Rat) (id : BitVec 16) (full : Bool) (n : Nat)
    (ss : List ParameterObject.Setter) (o' : ParameterObject)
    (h : ParameterObject.sets rnd pow (ParameterObject.empty id full n) ss = .ok o') :
    o'.instanceId = id ∧ o'.parameter = 0 := by
  obtain ⟨_, _, _, _, _, _, _, _, _, _, _, h1, h2, _⟩ := C99_parameter rnd pow ss _ o' h
  exact ⟨h1, h2⟩

/-- C99. The same of `IdentityObject`. -/
theorem C99_identity (id : BitVec 16) (ss : List IdentityObject.Setter) :
    let o := IdentityObject.made id ss
    o.instanceId = id ∧
    o.vendorId = lastSet (fun | .vendorId v => some v | _ => none) 0 ss ∧
    o.deviceType = lastSet (fun | .deviceType v => some v | _ => none) 0 ss ∧
    o.productCode = lastSet (fun | .productCode v => some v | _ => none) 0 ss ∧
    o.revision = lastSet (fun | .revision v => some v | _ => none) ⟨0, 0⟩ ss ∧
    o.status = lastSet (fun | .status v => some v | _ => none) 0 ss ∧
    o.serialNumber = lastSet (fun | .serialNumber v => some v | _ => none) 0 ss ∧
    o.getProductName = lastSet (fun | .productName v => some v | _ => none) [] ss := by
  have all : ∀ (o : IdentityObject), let o' := ss.foldl IdentityObject.set o
      o'.instanceId = o.instanceId ∧
      o'.vendorId = lastSet (fun | .vendorId v => some v | _ => none) o.vendorId ss ∧
      o'.deviceType = lastSet (fun | .deviceType v => some v | _ => none) o.deviceType ss ∧
      o'.productCode = lastSet (fun | .productCode v => some v | _ => none) o.productCode ss ∧
      o'.revision = lastSet (fun | .revision v => some v | _ => none) o.revision ss ∧
      o'.status = lastSet (fun | .status v => some v | _ => none) o.status ss ∧
      o'.serialNumber = lastSet (fun | .serialNumber v => some v | _ => none) o.serialNumber ss ∧
      o'.getProductName = lastSet (fun | .productName v => some v | _ => none) o.getProductName ss := by
    induction ss with
    | nil => intro o; exact ⟨rfl, rfl, rfl, rfl, rfl, rfl, rfl, rfl⟩
    | cons s ss ih =>
      intro o
      cases s <;> exact ih _
  exact all _

/-! ## Concrete cases -/

/-- The lower limit is set twice, the scaling before, between and after. -/
def handCalls : List ParameterObject.Setter :=
  [.scalable true, .engMin .i16 7, .multiplier 3, .offset 0xfffc, .name [0x61], .engMin .i16 (-5), .divisor 2,
    .engMax .u8 200, .name [0x62, 0x63], .readOnly true, .readOnly false]

/-- C99: -5 = (v - 4) * 3 gives 2 + 1/3, so 2; the divisor set later makes that (2 - 4) * 3 / 2. -/
example : ParameterObject.sets id exactPow (ParameterObject.empty 9 true 2) handCalls =
      .ok { ParameterObject.empty 9 true 2 with
        isScalable := true, scalingMultiplier := 3, scalingOffset := 0xfffc, scalingDivisor := 2, name := [0x62, 0x63],
        minValue := [2, 0], maxValue := [137] } ∧
    (match ParameterObject.sets id exactPow (ParameterObject.empty 9 true 2) handCalls with
      | .ok o => engOf Mem.strict id exactPow .i16 o o.minValue
      | _ => .ub) = .ok (-3) := by
  decide +kernel

/-- C99: the hypothesis of `C99_limit` for the second setting of the lower limit. -/
example : handCalls = handCalls.take 5 ++ limitCall .i16 (-5) .min :: handCalls.drop 6 ∧
    ∀ s ∈ handCalls.drop 6, setsLimit .min s = false := by
  refine ⟨rfl, ?_⟩
  intro s hs
  simp only [handCalls, List.drop_succ_cons, List.drop_zero, List.mem_cons, List.not_mem_nil, or_false] at hs
  rcases hs with rfl | rfl | rfl | rfl | rfl <;> rfl

/-- C99: an identity object made by hand, with a name longer than a short string can say. -/
example : (IdentityObject.made 1 [.vendorId 5, .productName (List.replicate 300 0x61), .vendorId 6, .serialNumber 7]).vendorId = 6 ∧
    (IdentityObject.made 1 [.vendorId 5, .productName (List.replicate 300 0x61), .vendorId 6]).getProductName.length = 300 := by
  decide +kernel

end Verif.Props
