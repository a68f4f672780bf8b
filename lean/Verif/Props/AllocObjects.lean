import Verif.Spec.AllocObjects
import Verif.Props.Alloc
import Verif.Props.PowerFlex
import Verif.Props.DiscoveryFd

/-!
# Property C122: running out of memory in discovery and in the objects
-/

namespace Verif.Props

open Verif Verif.Spec Verif.PowerFlex

/-! ## Calls that may fail, one after the other -/

/-- The state that a call comes to is `R`. -/
def Ahead {σ α : Type} (R : σ → Prop) (r : Res σ α) : Prop := ∀ t, finalOf r = some t → R t

/-- `p` is `q` with allocations; states only move along `R`. -/
structure May {σ σA α : Type} (emb : σ → List Bool → σA) (R : σ → σ → Prop) (p : Prog σA α) (q : Prog σ α) : Prop where
  moves : ∀ s, Ahead (R s) (q s)
  falls : ∀ s fs, Falls emb (fun s' => R s s' ∧ Ahead (R s') (q s)) fs (p (emb s fs)) (q s)

section
variable {σ σA α β : Type} {emb : σ → List Bool → σA} {R : σ → σ → Prop}

theorem replicate_append (k j : Nat) (l : List Bool) :
    List.replicate k false ++ (List.replicate j false ++ l) = List.replicate (k + j) false ++ l := by
  rw [← List.append_assoc, List.replicate_append_replicate]

theorem May.bind (ht : ∀ a b c, R a b → R b c → R a c) {p : Prog σA α} {q : Prog σ α} {f : α → Prog σA β} {g : α → Prog σ β}
    (h : May emb R p q) (h' : ∀ a, May emb R (f a) (g a)) : May emb R (p >>= f) (q >>= g) := by
  have hm : ∀ s, Ahead (R s) ((q >>= g) s) := by
    intro s t e
    rw [Prog.bind_run] at e
    have := h.moves s
    cases hq : q s with
    | ub => rw [hq] at e; cases e
    | throw s' x => rw [hq] at e; exact this t (by rw [hq]; exact e)
    | ok s' a => rw [hq] at e; exact ht _ _ _ (this s' (by rw [hq]; rfl)) ((h' a).moves s' t e)
  refine ⟨hm, fun s fs => ?_⟩
  rw [Prog.bind_run, Prog.bind_run]
  rcases h.falls s fs with ⟨k, rest, e1, e2⟩ | ⟨k, rest, s', e1, e2, r1, r2⟩
  · rw [e2]
    have hms := h.moves s
    cases hq : q s with
    | ub => exact .inl ⟨k, rest, e1, rfl⟩
    | throw s' x => exact .inl ⟨k, rest, e1, rfl⟩
    | ok s' a =>
      have hss : R s s' := hms s' (by rw [hq]; rfl)
      rcases (h' a).falls s' rest with ⟨k', rest', e3, e4⟩ | ⟨k', rest', s'', e3, e4, r3, r4⟩
      · exact .inl ⟨k + k', rest', by rw [e1, e3, replicate_append], e4⟩
      · exact .inr ⟨k + k', rest', s'', by rw [e1, e3, replicate_append], e4, ht _ _ _ hss r3, r4⟩
  · rw [e2]
    refine .inr ⟨k, rest, s', e1, rfl, r1, ?_⟩
    cases hq : q s with
    | ub => intro t e; cases e
    | throw s'' x => intro t e; exact r2 t (by rw [hq]; exact e)
    | ok s'' a =>
      intro t e
      exact ht _ _ _ (r2 s'' (by rw [hq]; rfl)) ((h' a).moves s'' t e)

theorem May.ite (c : Prop) [Decidable c] {p p' : Prog σA α} {q q' : Prog σ α}
    (h : May emb R p q) (h' : May emb R p' q') : May emb R (if c then p else p') (if c then q else q') := by
  split
  · exact h
  · exact h'

theorem May.pure (hr : ∀ a, R a a) (x : α) : May emb R (Pure.pure x) (Pure.pure x) :=
  ⟨fun s t e => (by injection e with e; exact e ▸ hr s), fun _ fs => .inl ⟨0, fs, rfl, rfl⟩⟩

theorem May.throw (hr : ∀ a, R a a) (x : Exn) : May (α := α) emb R (Prog.throw x) (Prog.throw x) :=
  ⟨fun s t e => (by injection e with e; exact e ▸ hr s), fun _ fs => .inl ⟨0, fs, rfl, rfl⟩⟩

theorem May.undefined : May (α := α) emb R Prog.undefined Prog.undefined :=
  ⟨fun s t e => (by cases e), fun _ fs => .inl ⟨0, fs, rfl, rfl⟩⟩

theorem May.lift (hr : ∀ a, R a a) (x : Outcome α) : May emb R (Prog.lift x) (Prog.lift x) := by
  cases x with
  | ok a => exact ⟨fun s t e => (by injection e with e; exact e ▸ hr s), fun _ fs => .inl ⟨0, fs, rfl, rfl⟩⟩
  | throw a => exact ⟨fun s t e => (by injection e with e; exact e ▸ hr s), fun _ fs => .inl ⟨0, fs, rfl, rfl⟩⟩
  | ub => exact ⟨fun s t e => (by cases e), fun _ fs => .inl ⟨0, fs, rfl, rfl⟩⟩

/-- An allocation before a call. -/
theorem May.step (hr : ∀ a, R a a) {a : Prog σA Unit}
    (ha : ∀ s fs, a (emb s fs) = match fs with
      | [] => .ok (emb s []) () | false :: r => .ok (emb s r) () | true :: r => .throw (emb s r) .badAlloc)
    {f : Unit → Prog σA α} {q : Prog σ α} (h : May emb R (f ()) q) : May emb R (a >>= f) q := by
  refine ⟨h.moves, fun s fs => ?_⟩
  rw [Prog.bind_run, ha]
  match fs with
  | [] => exact h.falls s []
  | true :: r => exact .inr ⟨0, r, s, rfl, rfl, hr s, h.moves s⟩
  | false :: r =>
    rcases h.falls s r with ⟨k, rest, e1, e2⟩ | ⟨k, rest, s', e1, e2, e3⟩
    · exact .inl ⟨k + 1, rest, by rw [e1]; rfl, e2⟩
    · exact .inr ⟨k + 1, rest, s', by rw [e1]; rfl, e2, e3⟩

end

/-! ## Links and objects -/

variable {δ : Type}

theorem allocL_in (L : Link δ) (fs : List Bool) : FileObject.allocL (linkIn L fs) = match fs with
    | [] => .ok (linkIn L []) () | false :: r => .ok (linkIn L r) () | true :: r => .throw (linkIn L r) .badAlloc := by
  match fs with
  | [] => rfl
  | false :: r => rfl
  | true :: r => rfl

theorem allocF_in {ο : Type} (s : ο × Link δ) (fs : List Bool) : FileObject.allocF (objectIn s fs) = match fs with
    | [] => .ok (objectIn s []) () | false :: r => .ok (objectIn s r) () | true :: r => .throw (objectIn s r) .badAlloc := by
  match fs with
  | [] => rfl
  | false :: r => rfl
  | true :: r => rfl

theorem May.onLink {ο α : Type} {R : Link δ → Link δ → Prop} {O : ο → ο → Prop} (ho : ∀ o, O o o) {p : Prog (Link (Scarce δ)) α}
    {q : Prog (Link δ) α} (h : May linkIn R p q) :
    May objectIn (fun s t => O s.1 t.1 ∧ R s.2 t.2) (Verif.onLink p) (Verif.onLink q) := by
  have key : ∀ (o : ο) (r : Res (Link δ) α) (P : Link δ → Prop), Ahead P r →
      Ahead (fun t : ο × Link δ => O o t.1 ∧ P t.2)
        (match r with | .ok L a => .ok (o, L) a | .throw L e => .throw (o, L) e | .ub => .ub : Res (ο × Link δ) α) := by
    intro o r P hP t e
    cases r with
    | ok L a => injection e with e; subst e; exact ⟨ho o, hP L rfl⟩
    | throw L x => injection e with e; subst e; exact ⟨ho o, hP L rfl⟩
    | ub => cases e
  refine ⟨fun s => key s.1 (q s.2) _ (h.moves s.2), fun s fs => ?_⟩
  unfold Verif.onLink
  rcases h.falls s.2 fs with ⟨k, rest, e1, e2⟩ | ⟨k, rest, L', e1, e2, r1, r2⟩
  · refine .inl ⟨k, rest, e1, ?_⟩
    simp only [objectIn]
    rw [e2]
    cases q s.2 <;> rfl
  · refine .inr ⟨k, rest, (s.1, L'), e1, ?_, ⟨ho _, r1⟩, key s.1 (q s.2) _ r2⟩
    simp only [objectIn]
    rw [e2]

theorem May.modify {ο : Type} {R : ο × Link δ → ο × Link δ → Prop} (f : ο → ο) (hf : ∀ s : ο × Link δ, R s (f s.1, s.2)) :
    May objectIn R (Prog.modify fun s => (f s.1, s.2)) (Prog.modify fun s => (f s.1, s.2)) :=
  ⟨fun s t e => by injection e with e; exact e ▸ hf s, fun _ fs => .inl ⟨0, fs, rfl, rfl⟩⟩

/-- Requests are only added. -/
def More (L L' : Link δ) : Prop := L.sent <+: L'.sent

theorem more_refl (L : Link δ) : More L L := List.prefix_rfl
theorem more_trans (a b c : Link δ) (h : More a b) (h' : More b c) : More a c := List.IsPrefix.trans h h'

theorem May.ask {DA : Device (Scarce δ)} {D : Device δ} (h : Scarcely DA D) (r : Req) : May linkIn More (ask DA r) (ask D r) := by
  refine ⟨fun L t e => ?_, fun L fs => ?_⟩
  · unfold Verif.ask at e
    cases hd : D.answer r L.dev with
    | ub => rw [hd] at e; cases e
    | ok d a => rw [hd] at e; injection e with e; subst e; exact List.prefix_append _ _
    | throw d a => rw [hd] at e; injection e with e; subst e; exact List.prefix_append _ _
  · unfold Verif.ask
    rcases h r L.dev fs with ⟨k, rest, e1, e2⟩ | ⟨k, rest, d', e1, e2, _⟩
    · refine .inl ⟨k, rest, e1, ?_⟩
      simp only [linkIn]
      rw [e2]
      cases D.answer r L.dev <;> rfl
    · refine .inr ⟨k, rest, ⟨d', L.sent ++ [r]⟩, e1, ?_, List.prefix_append _ _, ?_⟩
      · simp only [linkIn]
        rw [e2]
      · intro t e
        cases hd : D.answer r L.dev with
        | ub => rw [hd] at e; cases e
        | ok d a => rw [hd] at e; injection e with e; subst e; exact List.prefix_rfl
        | throw d a => rw [hd] at e; injection e with e; subst e; exact List.prefix_rfl

section
variable {DA : Device (Scarce δ)} {D : Device δ} {R : Link δ → Link δ → Prop}

theorem may_identity (hr : ∀ a, R a a) (ht : ∀ a b c, R a b → R b c → R a c)
    (ha : ∀ path, May linkIn R (ask DA ⟨0x01#8, path, []⟩) (ask D ⟨0x01#8, path, []⟩)) (m : Mem) (i : BitVec 16) :
    May linkIn R (IdentityObject.connectA m DA i) (IdentityObject.connect m D i) := by
  refine May.step hr allocL_in ?_
  refine May.bind ht (ha _) fun resp => ?_
  refine May.step hr allocL_in ?_
  exact .ite _ (.lift hr _) (.throw hr _)

theorem may_scaling (hr : ∀ a, R a a) (ht : ∀ a b c, R a b → R b c → R a c)
    (ha : ∀ path, May linkIn R (ask DA ⟨0x0E#8, path, []⟩) (ask D ⟨0x0E#8, path, []⟩)) (i : BitVec 16) (l : List (BitVec 16)) :
    May linkIn R (ParameterObject.scalingDataA DA i l) (ParameterObject.scalingData D i l) := by
  induction l with
  | nil => exact .pure hr _
  | cons a l ih =>
    refine May.bind ht (ha _) fun resp => ?_
    refine May.step hr allocL_in ?_
    exact .ite _ (.throw hr _) (.bind ht ih fun _ => .pure hr _)

theorem may_parameter (hr : ∀ a, R a a) (ht : ∀ a b c, R a b → R b c → R a c)
    (ha : ∀ path, May linkIn R (ask DA ⟨0x0E#8, path, []⟩) (ask D ⟨0x0E#8, path, []⟩))
    (hb : ∀ path, May linkIn R (ask DA ⟨0x01#8, path, []⟩) (ask D ⟨0x01#8, path, []⟩)) (m : Mem) (i : BitVec 16) (full : Bool) :
    May linkIn R (ParameterObject.connectA m DA i full) (ParameterObject.connect m D i full) := by
  refine May.step hr allocL_in ?_
  refine May.bind ht (ha _) fun resp => ?_
  refine May.step hr allocL_in ?_
  refine .ite _ ?_ (.throw hr _)
  refine May.bind ht (.lift hr _) fun size => ?_
  refine May.step hr allocL_in ?_
  refine May.bind ht (hb _) fun resp => ?_
  refine May.step hr allocL_in ?_
  refine .ite _ ?_ (.throw hr _)
  refine May.bind ht (.lift hr _) fun o => ?_
  refine .ite _ ?_ (.pure hr _)
  refine May.bind ht (may_scaling hr ht ha _ _) fun data => ?_
  exact May.step hr allocL_in (.lift hr _)

theorem may_fault_object (hr : ∀ a, R a a) (ht : ∀ a b c, R a b → R b c → R a c)
    (ha : ∀ path, May linkIn R (ask DA ⟨0x0E#8, path, []⟩) (ask D ⟨0x0E#8, path, []⟩)) (m : Mem) (i : BitVec 16) :
    May linkIn R (faultObjectA m DA i) (faultObject m D i) := by
  refine May.step hr allocL_in ?_
  refine May.bind ht (ha _) fun resp => ?_
  refine May.step hr allocL_in ?_
  exact .ite _ (.lift hr _) (.throw hr _)

theorem may_detail (hr : ∀ a, R a a) (ht : ∀ a b c, R a b → R b c → R a c)
    (ha : ∀ path, May linkIn R (ask DA ⟨0x0E#8, path, []⟩) (ask D ⟨0x0E#8, path, []⟩)) (m : Mem) (i : BitVec 16) :
    May linkIn R (getFaultDetailA m DA i) (getFaultDetail m D i) := by
  refine May.bind ht (ha _) fun resp => ?_
  refine May.step hr allocL_in ?_
  exact .ite _ (.lift hr _) (.throw hr _)

theorem may_fault (hr : ∀ a, R a a) (ht : ∀ a b c, R a b → R b c → R a c)
    (ha : ∀ path, May linkIn R (ask DA ⟨0x0E#8, path, []⟩) (ask D ⟨0x0E#8, path, []⟩)) (rnd : Rat → Rat) (pow : Nat → Rat) (m : Mem)
    (n : Int) (details : Bool) :
    May linkIn R (faultParameterA rnd pow m DA n details) (faultParameter rnd pow m D n details) := by
  unfold faultParameterA faultParameter
  cases faultParams n with
  | none => exact May.step hr allocL_in (.throw hr _)
  | some p =>
    obtain ⟨a, b, c, d⟩ := p
    refine May.bind ht (may_detail hr ht ha _ _) fun code => ?_
    refine .ite _ ?_ (.pure hr _)
    refine May.bind ht (may_detail hr ht ha _ _) fun _ => ?_
    refine May.bind ht (may_detail hr ht ha _ _) fun _ => ?_
    refine May.bind ht (may_detail hr ht ha _ _) fun _ => ?_
    exact May.step hr allocL_in (.pure hr _)

theorem may_list (hr : ∀ a, R a a) (ht : ∀ a b c, R a b → R b c → R a c)
    (ha : ∀ path, May linkIn R (ask DA ⟨0x0E#8, path, []⟩) (ask D ⟨0x0E#8, path, []⟩)) (rnd : Rat → Rat) (pow : Nat → Rat) (m : Mem)
    (details : Bool) (left : Nat) (n : Int) :
    May objectIn (fun s t => s.1 <+: t.1 ∧ R s.2 t.2) (listFaultsA rnd pow m DA details left n)
      (listFaults rnd pow m D details left n) := by
  have hr' : ∀ s : List FaultInformation × Link δ, s.1 <+: s.1 ∧ R s.2 s.2 := fun s => ⟨List.prefix_rfl, hr _⟩
  have ht' : ∀ a b c : List FaultInformation × Link δ, a.1 <+: b.1 ∧ R a.2 b.2 → b.1 <+: c.1 ∧ R b.2 c.2 →
      a.1 <+: c.1 ∧ R a.2 c.2 := fun a b c h h' => ⟨h.1.trans h'.1, ht _ _ _ h.2 h'.2⟩
  induction left generalizing n with
  | zero => exact .pure hr' _
  | succ left ih =>
    refine May.bind ht' (.onLink (fun _ => List.prefix_rfl) (may_fault hr ht ha rnd pow m n details)) fun f => ?_
    refine .ite _ (.pure hr' _) ?_
    refine May.step hr' allocF_in ?_
    refine May.bind ht' (.lift hr' _) fun desc => ?_
    refine May.step hr' allocF_in ?_
    refine May.bind ht' (May.modify (R := fun s t => s.1 <+: t.1 ∧ R s.2 t.2) (fun l : List FaultInformation => l ++ [(⟨f, desc⟩ : FaultInformation)])
      fun s => ⟨List.prefix_append _ _, hr _⟩) fun _ => ?_
    exact May.bind ht' (ih _) fun _ => .pure hr' _

theorem may_command (hr : ∀ a, R a a) (ht : ∀ a b c, R a b → R b c → R a c) (c : BitVec 8)
    (ha : May linkIn R (ask DA (faultCommand c)) (ask D (faultCommand c))) :
    May linkIn R (writeCommandA DA c) (writeCommand D c) := by
  refine May.step hr allocL_in ?_
  refine May.bind ht ha fun resp => ?_
  refine May.step hr allocL_in ?_
  exact .ite _ (.throw hr _) (.pure hr _)

end

/-! ## Objects -/

theorem falls_mono {σ σA α : Type} {emb : σ → List Bool → σA} {P Q : σ → Prop} (h : ∀ s, P s → Q s) {fs : List Bool} {ra : Res σA α}
    {r : Res σ α} (hf : Falls emb P fs ra r) : Falls emb Q fs ra r := by
  rcases hf with ⟨k, rest, h1, h2⟩ | ⟨k, rest, s, h1, h2, h3⟩
  · exact .inl ⟨k, rest, h1, h2⟩
  · exact .inr ⟨k, rest, s, h1, h2, h _ h3⟩

theorem may_alloc {σ α : Type} {f : Unit → Prog (Scarce σ) α} {q : Prog σ α} (h : May Scarce.mk (fun _ _ => True) (f ()) q) :
    May Scarce.mk (fun _ _ => True) (alloc >>= f) q :=
  May.step (fun _ => trivial) (fun s fs => by match fs with | [] => rfl | false :: r => rfl | true :: r => rfl) h

theorem may_noAlloc {σ α : Type} (q : Prog σ α) : May Scarce.mk (fun _ _ => True) (noAlloc q) q :=
  ⟨fun _ _ _ => trivial, fun s fs => .inl ⟨0, fs, rfl, by unfold noAlloc; simp only; cases q s <;> rfl⟩⟩

theorem may_sar (m : Mem) (handle : BitVec 32) (packet : EncapsPacket) :
    May Scarce.mk (fun _ _ => True) (sendAndReceiveA m handle packet) (sendAndReceive m handle packet) := by
  have hr : ∀ a : Tcp, (fun _ _ => True : Tcp → Tcp → Prop) a a := fun _ => trivial
  have ht : ∀ a b c : Tcp, True → True → True := fun _ _ _ _ _ => trivial
  refine may_alloc (.bind ht (may_noAlloc _) fun _ => ?_)
  refine may_alloc (.bind ht (may_noAlloc _) fun _ => .bind ht (.lift hr _) fun _ => ?_)
  refine may_alloc (.bind ht (may_noAlloc _) fun _ => ?_)
  refine may_alloc (.bind ht (.lift hr _) fun _ => ?_)
  exact .ite _ (.throw hr _) (.ite _ (.throw hr _) (.pure hr _))

/-- C122. The devices that the theorems below are about: requests through the router over a TCP session, and any device behind code that
allocates before the request and after the reply. -/
theorem C122_devices : (∀ m handle, Scarcely (Device.tcpA m handle) (Device.tcp m handle)) ∧
    ∀ (δ : Type) (D : Device δ), Scarcely (scarce D) D := by
  have hr : ∀ {τ : Type} (a : τ), (fun _ _ => True : τ → τ → Prop) a a := fun _ => trivial
  have ht : ∀ {τ : Type} (a b c : τ), True → True → True := fun _ _ _ _ _ => trivial
  constructor
  · intro m handle r d fs
    have : May Scarce.mk (fun _ _ => True) ((Device.tcpA m handle).answer r) ((Device.tcp m handle).answer r) :=
      may_alloc (.bind ht (may_sar m handle _) fun _ => may_alloc (.lift hr _))
    exact falls_mono (fun _ _ => trivial) (this.falls d fs)
  · intro δ D r d fs
    have h2 : May Scarce.mk (fun _ _ => True) ((scarce D).answer r) (D.answer r >>= fun resp => pure resp) :=
      may_alloc (.bind ht (may_noAlloc _) fun _ => may_alloc (.pure hr _))
    have e : (D.answer r >>= fun resp => pure resp) d = D.answer r d := by
      rw [Prog.bind_run]
      cases D.answer r d <;> rfl
    have := h2.falls d fs
    rw [e] at this
    exact falls_mono (fun _ _ => trivial) this

section
variable {DA : Device (Scarce δ)} {D : Device δ}

theorem begun_of {α : Type} {p : Prog (Link (Scarce δ)) α} {q : Prog (Link δ) α} (h : May linkIn More p q) (L : Link δ)
    (fs : List Bool) : Falls linkIn (Begun L.sent (q L)) fs (p (linkIn L fs)) (q L) := h.falls L fs

/-- C122. An identity object, a parameter object and a fault object are made as when there is memory, or their constructors throw `std::bad_alloc`, after
some of the requests. -/
theorem C122_objects (h : Scarcely DA D) (m : Mem) (i : BitVec 16) (full : Bool) (L : Link δ) (fs : List Bool) :
    Falls linkIn (Begun L.sent (IdentityObject.connect m D i L)) fs (IdentityObject.connectA m DA i (linkIn L fs))
      (IdentityObject.connect m D i L) ∧
    Falls linkIn (Begun L.sent (ParameterObject.connect m D i full L)) fs (ParameterObject.connectA m DA i full (linkIn L fs))
      (ParameterObject.connect m D i full L) ∧
    Falls linkIn (Begun L.sent (faultObject m D i L)) fs (faultObjectA m DA i (linkIn L fs)) (faultObject m D i L) :=
  ⟨begun_of (may_identity more_refl more_trans (fun _ => .ask h _) m i) L fs,
   begun_of (may_parameter more_refl more_trans (fun _ => .ask h _) (fun _ => .ask h _) m i full) L fs,
   begun_of (may_fault_object more_refl more_trans (fun _ => .ask h _) m i) L fs⟩

/-- C122. `updateValue` does what it does when there is memory, or throws `std::bad_alloc` and leaves the parameter as it is. -/
theorem C122_update (h : Scarcely DA D) (m : Mem) (o : ParameterObject) (L : Link δ) (fs : List Bool) :
    Falls objectIn (fun s => s.1 = o ∧ s.2.sent = L.sent ++ [paramGet o.instanceId 1]) fs
      (ParameterObject.updateValueA m DA (objectIn (o, L) fs)) (ParameterObject.updateValue m D (o, L)) := by
  by_cases hh : o.hasRouter = true
  · have e1 : ParameterObject.updateValueA m DA (objectIn (o, L) fs) = (do
        let response ← onLink (ask DA (paramGet o.instanceId 1))
        FileObject.allocF
        if response.status = GeneralStatus.success then do
          let value ← Prog.lift ((Rd.bytes o.value.length).from m response.data)
          Prog.modify fun s => ({ s.1 with value }, s.2)
        else Prog.throw (.runtime "Failed to read value") : Prog (ParameterObject × Link (Scarce δ)) Unit) (objectIn (o, L) fs) := by
      refine (Prog.bind_ok (Prog.get_run _)).trans ?_
      exact congrFun (if_pos (show (objectIn (o, L) fs).1.hasRouter = true from hh)) _
    have e2 : ParameterObject.updateValue m D (o, L) = (do
        let response ← onLink (ask D (paramGet o.instanceId 1))
        if response.status = GeneralStatus.success then do
          let value ← Prog.lift ((Rd.bytes o.value.length).from m response.data)
          Prog.modify fun s => ({ s.1 with value }, s.2)
        else Prog.throw (.runtime "Failed to read value") : Prog (ParameterObject × Link δ) Unit) (o, L) := by
      refine (Prog.bind_ok (Prog.get_run _)).trans ?_
      simp only
      rw [if_pos hh]
      rfl
    rw [e1, e2, Prog.bind_run, Prog.bind_run]
    simp only [onLink, ask, objectIn, linkIn]
    rcases h (paramGet o.instanceId 1) L.dev fs with ⟨k, rest, f1, f2⟩ | ⟨k, rest, d', f1, f2, _⟩
    · rw [f2]
      cases D.answer (paramGet o.instanceId 1) L.dev with
      | ub => exact .inl ⟨k, rest, f1, rfl⟩
      | throw d x => exact .inl ⟨k, rest, f1, rfl⟩
      | ok d resp =>
        simp only [inMemory]
        have hB : ∀ rest, (if resp.status = GeneralStatus.success then do
            let value ← Prog.lift ((Rd.bytes o.value.length).from m resp.data)
            Prog.modify fun s => ({ s.1 with value }, s.2)
          else Prog.throw (.runtime "Failed to read value") : Prog (ParameterObject × Link (Scarce δ)) Unit)
            (o, ⟨⟨d, rest⟩, L.sent ++ [paramGet o.instanceId 1]⟩) =
          inMemory objectIn rest ((if resp.status = GeneralStatus.success then do
            let value ← Prog.lift ((Rd.bytes o.value.length).from m resp.data)
            Prog.modify fun s => ({ s.1 with value }, s.2)
          else Prog.throw (.runtime "Failed to read value") : Prog (ParameterObject × Link δ) Unit)
            (o, ⟨d, L.sent ++ [paramGet o.instanceId 1]⟩)) := by
          intro rest
          by_cases hs : resp.status = GeneralStatus.success
          · rw [if_pos hs, if_pos hs, Prog.bind_run, Prog.bind_run]
            cases (Rd.bytes o.value.length).from m resp.data <;> rfl
          · rw [if_neg hs, if_neg hs]; rfl
        rw [Prog.bind_run]
        match rest, f1 with
        | [], f1 => exact .inl ⟨k, [], f1, hB []⟩
        | false :: rest, f1 =>
          exact .inl ⟨k + 1, rest, by rw [f1, ← replicate_append k 1]; rfl, hB rest⟩
        | true :: rest, f1 =>
          exact .inr ⟨k, rest, (o, ⟨d, L.sent ++ [paramGet o.instanceId 1]⟩), f1, rfl, rfl, rfl⟩
    · rw [f2]
      exact .inr ⟨k, rest, (o, ⟨d', L.sent ++ [paramGet o.instanceId 1]⟩), f1, rfl, rfl, rfl⟩
  · refine .inl ⟨0, fs, rfl, ?_⟩
    refine (Prog.bind_ok (Prog.get_run _)).trans ?_
    refine (congrFun (if_neg (show ¬ (objectIn (o, L) fs).1.hasRouter = true from hh)) _).trans ?_
    have : ParameterObject.updateValue m D (o, L) = .ub := by
      refine (Prog.bind_ok (Prog.get_run _)).trans ?_
      simp only
      rw [if_neg hh]
      rfl
    rw [this]
    rfl

/-- C122. `handleFaultParameters` does what it does when there is memory, or throws `std::bad_alloc` when the listener has been called with the
first of the faults that it would have been called with, and some of the requests have been made. -/
theorem C122_faults (h : Scarcely DA D) (rnd : Rat → Rat) (pow : Nat → Rat) (m : Mem) (M : FaultManager) (calls : List FaultInformation)
    (L : Link δ) (fs : List Bool) :
    Falls objectIn (fun s => calls <+: s.1 ∧ L.sent <+: s.2.sent ∧
        ∀ t, finalOf (handleFaultParameters rnd pow m D M (calls, L)) = some t → s.1 <+: t.1 ∧ s.2.sent <+: t.2.sent) fs
      (handleFaultParametersA rnd pow m DA M (objectIn (calls, L) fs)) (handleFaultParameters rnd pow m D M (calls, L)) := by
  have hr : ∀ s : List FaultInformation × Link δ, s.1 <+: s.1 ∧ More s.2 s.2 := fun s => ⟨List.prefix_rfl, more_refl _⟩
  have ht : ∀ a b c : List FaultInformation × Link δ, a.1 <+: b.1 ∧ More a.2 b.2 → b.1 <+: c.1 ∧ More b.2 c.2 →
      a.1 <+: c.1 ∧ More a.2 c.2 := fun a b c h h' => ⟨h.1.trans h'.1, more_trans _ _ _ h.2 h'.2⟩
  have key : May objectIn (fun s t => s.1 <+: t.1 ∧ More s.2 t.2) (handleFaultParametersA rnd pow m DA M)
      (handleFaultParameters rnd pow m D M) := by
    refine May.step hr allocF_in ?_
    refine May.bind ht (may_list more_refl more_trans (fun _ => .ask h _) rnd pow m _ _ _) fun k => ?_
    exact .ite _ (.onLink (fun _ => List.prefix_rfl) (may_command more_refl more_trans _ (.ask h _))) (.pure hr _)
  exact falls_mono (fun s hs => ⟨hs.1.1, hs.1.2, hs.2⟩) (key.falls (calls, L) fs)

end

/-! ## No fault is lost -/

theorem scarce_falls (D : Device δ) (r : Req) (d : δ) (fs : List Bool) :
    Falls Scarce.mk (fun d' => d' = d ∨ finalOf (D.answer r d) = some d') fs ((scarce D).answer r ⟨d, fs⟩) (D.answer r d) := by
  have h2 : ∀ fs, Falls Scarce.mk (fun d' => d' = d ∨ finalOf (D.answer r d) = some d') fs
      ((do let resp ← noAlloc (D.answer r); alloc; pure resp : Prog (Scarce δ) MessageRouterResponse) ⟨d, fs⟩) (D.answer r d) := by
    intro fs
    rw [Prog.bind_run]
    unfold noAlloc
    simp only
    cases hd : D.answer r d with
    | ub => exact .inl ⟨0, fs, rfl, rfl⟩
    | throw d' e => exact .inl ⟨0, fs, rfl, rfl⟩
    | ok d' resp =>
      match fs with
      | [] => exact .inl ⟨0, [], rfl, rfl⟩
      | false :: fs => exact .inl ⟨1, fs, rfl, rfl⟩
      | true :: fs => exact .inr ⟨0, fs, d', rfl, rfl, .inr rfl⟩
  match fs with
  | [] => exact h2 []
  | true :: fs => exact .inr ⟨0, fs, d, rfl, rfl, .inl rfl⟩
  | false :: fs =>
    rcases h2 fs with ⟨k, rest, e1, e2⟩ | ⟨k, rest, s, e1, e2, e3⟩
    · exact .inl ⟨k + 1, rest, by rw [e1]; rfl, e2⟩
    · exact .inr ⟨k + 1, rest, s, by rw [e1]; rfl, e2, e3⟩

/-- The drive is as it was. -/
def Kept (L L' : Link (List DriveEntry)) : Prop := L'.dev = L.dev

theorem drive_reads (path : EPath) (s : List DriveEntry) : ∃ resp, drive.answer ⟨0x0E#8, path, []⟩ s = .ok s resp := ⟨_, rfl⟩

theorem may_read (path : EPath) : May linkIn Kept (ask (scarce drive) ⟨0x0E#8, path, []⟩) (ask drive ⟨0x0E#8, path, []⟩) := by
  refine ⟨fun L t e => ?_, fun L fs => ?_⟩
  · obtain ⟨resp, hd⟩ := drive_reads path L.dev
    unfold Verif.ask at e
    rw [hd] at e
    injection e with e
    subst e
    rfl
  · obtain ⟨resp, hd⟩ := drive_reads path L.dev
    have hf := scarce_falls drive ⟨0x0E#8, path, []⟩ L.dev fs
    rw [hd] at hf
    unfold Verif.ask
    rw [hd]
    simp only [linkIn]
    rcases hf with ⟨k, rest, e1, e2⟩ | ⟨k, rest, d', e1, e2, e3⟩
    · exact .inl ⟨k, rest, e1, by rw [e2]; rfl⟩
    · have : d' = L.dev := by
        rcases e3 with e3 | e3
        · exact e3
        · injection e3 with e3; exact e3.symm
      subst this
      refine .inr ⟨k, rest, ⟨L.dev, L.sent ++ [⟨0x0E#8, path, []⟩]⟩, e1, by rw [e2]; rfl, rfl, ?_⟩
      intro t e
      injection e with e
      subst e
      rfl

/-- A drive whose faults can all be listed. -/
def Listable (s : List DriveEntry) (desc : DriveEntry → FaultDescription) : Prop :=
  s.length ≤ 10 ∧ (∀ e ∈ s, e.code < 65536 ∧ e.volts < 65536 ∧ e.current < 65536 ∧ e.frequency < 65536) ∧
  ∀ e ∈ s, e.code ≠ 0 ∧ ((e.code : Int), desc e) ∈ faultTable

theorem drive_lists {rnd : Rat → Rat} {pow : Nat → Rat} (m : Mem) (details : Bool)
    (calls : List FaultInformation) (sent : List Req) (s : List DriveEntry) (desc : DriveEntry → FaultDescription) (h : Listable s desc) :
    ∃ sent', listFaults rnd pow m drive details 10 1 (calls, ⟨s, sent⟩) =
      .ok (calls ++ callsOf rnd pow details 1 (s.map fun e => (e.answer, desc e)), ⟨s, sent'⟩) s.length := by
  obtain ⟨hk, hs, hd⟩ := h
  have hf : ∀ p ∈ s.map fun e => (e.answer, desc e), Reportable details p := by
    intro p hp
    obtain ⟨e, he, rfl⟩ := List.mem_map.1 hp
    refine ⟨⟨Nat.le_refl 2, fun _ => ⟨Nat.le_refl 2, Nat.le_refl 2, Nat.le_refl 2⟩⟩, ?_, ?_⟩
    · simp only [DriveEntry.answer]; rw [word_le (hs e he).1]; exact (hd e he).1
    · simp only [DriveEntry.answer]; rw [word_le (hs e he).1]; exact (hd e he).2
  have g1 := drive_faults s desc details 0 hk
  rw [List.drop_zero] at g1
  obtain ⟨ending, he, g2⟩ : ∃ ending, ListingEnds (s.map fun e => (e.answer, desc e)).length ending ∧ Grants drive s ending s := by
    rw [List.length_map]
    by_cases h10 : s.length = 10
    · exact ⟨[], .inl ⟨h10, rfl⟩, Grants.nil⟩
    · exact ⟨_, .inr ⟨by omega, le 2 0, Nat.le_refl 2, word_le (by omega), rfl⟩, drive_end s (by omega)⟩
  have := list_ok (rnd := rnd) (pow := pow) (m := m) _ hf 10 1 calls ⟨s, sent⟩ ending s (by omega) (by omega) (ends_eq.2 he) (g1.append g2)
  rw [List.length_map] at this
  exact ⟨_, this⟩

theorem falls_bind_ok {σ σA α β : Type} {emb : σ → List Bool → σA} {P Q : σ → Prop} {fs : List Bool} {p : Prog σA α} {f : α → Prog σA β}
    {x : σ} {s : σ} {a : α} {r : Res σ β} (h : Falls emb P fs (p (emb x fs)) (.ok s a)) (hP : ∀ t, P t → Q t)
    (h' : ∀ fs', Falls emb Q fs' (f a (emb s fs')) r) : Falls emb Q fs ((p >>= f) (emb x fs)) r := by
  rw [Prog.bind_run]
  rcases h with ⟨k, rest, e1, e2⟩ | ⟨k, rest, s', e1, e2, e3⟩
  · rw [e2]
    rcases h' rest with ⟨k', rest', e3, e4⟩ | ⟨k', rest', s'', e3, e4, e5⟩
    · exact .inl ⟨k + k', rest', by rw [e1, e3, replicate_append], e4⟩
    · exact .inr ⟨k + k', rest', s'', by rw [e1, e3, replicate_append], e4, e5⟩
  · rw [e2]
    exact .inr ⟨k, rest, s', e1, rfl, hP _ e3⟩

theorem drive_falls {rnd : Rat → Rat} {pow : Nat → Rat} (m : Mem) (M : FaultManager)
    (calls : List FaultInformation) (sent : List Req) (s : List DriveEntry) (desc : DriveEntry → FaultDescription) (h : Listable s desc)
    (fs : List Bool) :
    ∃ sent', Falls objectIn (fun t => (t.2.dev = s ∧ ∃ some, some <+: callsOf rnd pow M.getFaultDetails 1 (s.map fun e => (e.answer, desc e)) ∧
          t.1 = calls ++ some) ∨
        (M.clearFaultsQueue = true ∧ t.2.dev = [] ∧ t.1 = calls ++ callsOf rnd pow M.getFaultDetails 1 (s.map fun e => (e.answer, desc e))))
      fs (handleFaultParametersA rnd pow m (scarce drive) M (objectIn (calls, ⟨s, sent⟩) fs))
      (.ok (calls ++ callsOf rnd pow M.getFaultDetails 1 (s.map fun e => (e.answer, desc e)),
        ⟨if M.clearFaultsQueue then [] else s, sent'⟩) ()) := by
  obtain ⟨sent1, hl⟩ := drive_lists (rnd := rnd) (pow := pow) m M.getFaultDetails calls sent s desc h
  generalize callsOf rnd pow M.getFaultDetails 1 (s.map fun e => (e.answer, desc e)) = all at hl
  have h1 : ∀ fs, Falls objectIn (fun t => t.2.dev = s ∧ ∃ some, some <+: all ∧ t.1 = calls ++ some) fs
      (listFaultsA rnd pow m (scarce drive) M.getFaultDetails 10 1 (objectIn (calls, ⟨s, sent⟩) fs))
      (.ok (calls ++ all, ⟨s, sent1⟩) s.length) := by
    intro fs
    have := (may_list (R := Kept) (fun _ => rfl) (fun a b c h h' => Eq.trans h' h) may_read rnd pow m M.getFaultDetails 10 1).falls
      (calls, ⟨s, sent⟩) fs
    rw [hl] at this
    refine falls_mono ?_ this
    rintro t ⟨⟨⟨some, hc⟩, hk⟩, ha⟩
    refine ⟨hk, some, ?_, hc.symm⟩
    have := (ha _ rfl).1
    rw [← hc] at this
    exact (List.prefix_append_right_inj _).1 this
  have h0 : ∀ r : Res (List FaultInformation × Link (List DriveEntry)) Unit,
      (∀ fs, Falls objectIn (fun t => (t.2.dev = s ∧ ∃ some, some <+: all ∧ t.1 = calls ++ some) ∨
          (M.clearFaultsQueue = true ∧ t.2.dev = [] ∧ t.1 = calls ++ all)) fs
        ((if M.clearFaultsQueue ∧ s.length > 0 then onLink (writeCommandA (scarce drive) clearFaultQueue) else pure ())
          (objectIn (calls ++ all, ⟨s, sent1⟩) fs)) r) →
      Falls objectIn (fun t => (t.2.dev = s ∧ ∃ some, some <+: all ∧ t.1 = calls ++ some) ∨
          (M.clearFaultsQueue = true ∧ t.2.dev = [] ∧ t.1 = calls ++ all)) fs
        (handleFaultParametersA rnd pow m (scarce drive) M (objectIn (calls, ⟨s, sent⟩) fs)) r := by
    intro r hc
    refine falls_bind_ok (P := fun t => t = (calls, ⟨s, sent⟩)) (s := (calls, ⟨s, sent⟩)) (a := ()) ?_ ?_ fun fs' => ?_
    · rw [allocF_in]
      match fs with
      | [] => exact .inl ⟨0, [], rfl, rfl⟩
      | false :: fs => exact .inl ⟨1, fs, rfl, rfl⟩
      | true :: fs => exact .inr ⟨0, fs, _, rfl, rfl, rfl⟩
    · rintro t rfl
      exact .inl ⟨rfl, [], List.nil_prefix, by simp⟩
    · exact falls_bind_ok (h1 fs') (fun t ht => .inl ht) hc
  by_cases hq : M.clearFaultsQueue = true ∧ s.length > 0
  · refine ⟨sent1 ++ [clearQueue], h0 _ fun fs' => ?_⟩
    rw [if_pos hq, if_pos hq.1]
    have hcmd : Falls linkIn (fun L => L.dev = s ∨ L.dev = []) fs' (writeCommandA (scarce drive) clearFaultQueue (linkIn ⟨s, sent1⟩ fs'))
        (.ok ⟨[], sent1 ++ [clearQueue]⟩ ()) := by
      have ha : ∀ (L : Link (List DriveEntry)) (fs : List Bool), Falls linkIn (fun t => t = L) fs (FileObject.allocL (linkIn L fs)) (.ok L ()) := by
        intro L fs
        rw [allocL_in]
        match fs with
        | [] => exact .inl ⟨0, [], rfl, rfl⟩
        | false :: fs => exact .inl ⟨1, fs, rfl, rfl⟩
        | true :: fs => exact .inr ⟨0, fs, _, rfl, rfl, rfl⟩
      refine falls_bind_ok (ha _ fs') (fun t ht => .inl (by rw [ht])) fun fs2 => ?_
      have hask : Falls linkIn (fun L => L.dev = s ∨ L.dev = []) fs2
          (ask (scarce drive) ⟨ServiceCode.setAttributeSingle, EPath.mk3 0x97 0 3, [clearFaultQueue]⟩ (linkIn ⟨s, sent1⟩ fs2))
          (.ok ⟨[], sent1 ++ [clearQueue]⟩ { MessageRouterResponse.default with status := 0, data := [] }) := by
        unfold Verif.ask
        simp only [linkIn]
        rcases scarce_falls drive clearQueue s fs2 with ⟨k, rest, e1, e2⟩ | ⟨k, rest, d', e1, e2, e3⟩
        · refine .inl ⟨k, rest, e1, ?_⟩
          rw [show (⟨ServiceCode.setAttributeSingle, EPath.mk3 0x97 0 3, [clearFaultQueue]⟩ : Req) = clearQueue from rfl, e2]
          rfl
        · refine .inr ⟨k, rest, ⟨d', sent1 ++ [clearQueue]⟩, e1, ?_, ?_⟩
          · rw [show (⟨ServiceCode.setAttributeSingle, EPath.mk3 0x97 0 3, [clearFaultQueue]⟩ : Req) = clearQueue from rfl, e2]
            rfl
          · rcases e3 with e3 | e3
            · exact .inl e3
            · exact .inr (by injection e3 with e3; exact e3.symm)
      refine falls_bind_ok hask (fun t ht => ht) fun fs3 => ?_
      refine falls_bind_ok (ha _ fs3) (fun t ht => .inr (by rw [ht])) fun fs4 => ?_
      exact .inl ⟨0, fs4, rfl, rfl⟩
    rcases hcmd with ⟨k, rest, e1, e2⟩ | ⟨k, rest, L', e1, e2, e3⟩
    · refine .inl ⟨k, rest, e1, ?_⟩
      unfold onLink
      simp only [objectIn]
      rw [e2]
      rfl
    · refine .inr ⟨k, rest, (calls ++ all, L'), e1, ?_, ?_⟩
      · unfold onLink
        simp only [objectIn]
        rw [e2]
      · rcases e3 with e3 | e3
        · exact .inl ⟨e3, all, List.prefix_rfl, rfl⟩
        · exact .inr ⟨hq.1, e3, rfl⟩
  · refine ⟨sent1, h0 _ fun fs' => ?_⟩
    rw [if_neg hq]
    have : (if M.clearFaultsQueue = true then [] else s) = s := by
      by_cases hc : M.clearFaultsQueue = true
      · rw [if_pos hc]
        have : ¬ s.length > 0 := fun h => hq ⟨hc, h⟩
        exact (List.length_eq_zero_iff.1 (by omega)).symm
      · rw [if_neg hc]
    rw [this]
    exact .inl ⟨0, fs', rfl, rfl⟩

/-- C122. A drive with at most ten described faults: `handleFaultParameters` reports all of them, or it throws `std::bad_alloc` and then the
drive still has all of them, or was told to forget them after all had been reported. -/
theorem C122_kept {rnd : Rat → Rat} {pow : Nat → Rat} (hr : SaneArithmetic rnd pow) (m : Mem) (M : FaultManager)
    (calls : List FaultInformation) (sent : List Req) (s : List DriveEntry) (desc : DriveEntry → FaultDescription) (h : Listable s desc)
    (fs : List Bool) :
    ∃ all sent', all.map faultView = ((s.zipIdx 1).map fun x => x.1.seen rnd M.getFaultDetails x.2 (desc x.1)) ∧
      Falls objectIn (fun t => (t.2.dev = s ∧ ∃ some, some <+: all ∧ t.1 = calls ++ some) ∨
          (M.clearFaultsQueue = true ∧ t.2.dev = [] ∧ t.1 = calls ++ all))
        fs (handleFaultParametersA rnd pow m (scarce drive) M (objectIn (calls, ⟨s, sent⟩) fs))
        (.ok (calls ++ all, ⟨if M.clearFaultsQueue then [] else s, sent'⟩) ()) := by
  obtain ⟨sent', hf⟩ := drive_falls (rnd := rnd) (pow := pow) m M calls sent s desc h fs
  exact ⟨_, sent', (callsOf_view hr _ _ _).trans (seen_drive rnd _ desc s h.2.1 1), hf⟩

/-- C122. A program that calls `handleFaultParameters` again whenever it threw `std::bad_alloc`, once more than allocations fail, gets it
through; every fault of the drive is reported at least once, and the last of the calls of the listener, without those before, are the
faults in order. -/
theorem C122_retry {rnd : Rat → Rat} {pow : Nat → Rat} (hr : SaneArithmetic rnd pow) (m : Mem) (M : FaultManager)
    (calls : List FaultInformation) (sent : List Req) (s : List DriveEntry) (desc : DriveEntry → FaultDescription) (h : Listable s desc)
    (fs : List Bool) (n : Nat) (hn : fs.count true < n) :
    ∃ (all : List FaultInformation) (tries : List (List FaultInformation)) (sent' : List Req) (rest : List Bool),
      all.map faultView = ((s.zipIdx 1).map fun x => x.1.seen rnd M.getFaultDetails x.2 (desc x.1)) ∧
      (∀ t ∈ tries, t <+: all) ∧ tries.length ≤ fs.count true ∧
      retryFaults rnd pow m (scarce drive) M n (objectIn (calls, ⟨s, sent⟩) fs) =
        .ok (objectIn (calls ++ tries.flatten ++ all, ⟨if M.clearFaultsQueue then [] else s, sent'⟩) rest) () := by
  have key : ∀ (n : Nat) (calls : List FaultInformation) (sent : List Req) (s : List DriveEntry) (fs : List Bool),
      Listable s desc → fs.count true < n →
      ∃ (tries : List (List FaultInformation)) (sent' : List Req) (rest : List Bool),
      (∀ t ∈ tries, t <+: callsOf rnd pow M.getFaultDetails 1 (s.map fun e => (e.answer, desc e))) ∧ tries.length ≤ fs.count true ∧
      retryFaults rnd pow m (scarce drive) M n (objectIn (calls, ⟨s, sent⟩) fs) =
        .ok (objectIn (calls ++ tries.flatten ++ callsOf rnd pow M.getFaultDetails 1 (s.map fun e => (e.answer, desc e)),
          ⟨if M.clearFaultsQueue then [] else s, sent'⟩) rest) () := by
    intro n
    induction n with
    | zero => intro _ _ _ _ _ h; omega
    | succ n ih =>
      intro calls sent s fs h hn
      obtain ⟨sent', hf⟩ := drive_falls (rnd := rnd) (pow := pow) m M calls sent s desc h fs
      rcases hf with ⟨k, rest, e1, e2⟩ | ⟨k, rest, ⟨c1, ⟨d1, sent1⟩⟩, e1, e2, e3⟩
      · refine ⟨[], sent', rest, fun _ h => (by cases h), Nat.zero_le _, ?_⟩
        unfold retryFaults
        rw [e2]
        simp only [inMemory, List.flatten_nil, List.append_nil]
      · have hc : fs.count true = rest.count true + 1 := by
          rw [e1, List.count_append, List.count_replicate]
          simp
        have hu : retryFaults rnd pow m (scarce drive) M (n + 1) (objectIn (calls, ⟨s, sent⟩) fs) =
            retryFaults rnd pow m (scarce drive) M n (objectIn (c1, ⟨d1, sent1⟩) rest) := by
          simp only [retryFaults]
          rw [e2]
        rw [hu]
        rcases e3 with ⟨hd, some, hp, hs⟩ | ⟨hq, hd, hs⟩
        · simp only at hd hs
          subst hd hs
          obtain ⟨tries, sent2, rest2, i1, i2, i3⟩ := ih (calls ++ some) sent1 d1 rest h (by omega)
          refine ⟨some :: tries, sent2, rest2, ?_, by simp only [List.length_cons]; omega, ?_⟩
          · intro t ht
            rcases List.mem_cons.1 ht with rfl | ht
            · exact hp
            · exact i1 t ht
          · rw [i3, List.flatten_cons, List.append_assoc calls]
        · simp only at hd hs
          subst hd hs
          obtain ⟨tries, sent2, rest2, i1, i2, i3⟩ := ih (calls ++ callsOf rnd pow M.getFaultDetails 1 (s.map fun e => (e.answer, desc e)))
            sent1 [] rest ⟨Nat.zero_le _, fun _ h => (by cases h), fun _ h => (by cases h)⟩ (by omega)
          have ht : tries.flatten = [] := by
            rw [List.flatten_eq_nil_iff]
            intro t ht
            exact List.prefix_nil.1 (i1 t ht)
          refine ⟨[], sent2, rest2, fun _ h => (by cases h), Nat.zero_le _, ?_⟩
          rw [i3, ht, if_pos hq, if_pos hq]
          simp [callsOf]
  obtain ⟨tries, sent', rest, h1, h2, h3⟩ := key n calls sent s fs h hn
  exact ⟨_, tries, sent', rest, (callsOf_view hr _ _ _).trans (seen_drive rnd _ desc s h.2.1 1), h1, h2, h3⟩

/-- What is left to see of a call of `handleFaultParameters` on a drive. -/
def reportedA (r : Res (List FaultInformation × Link (Scarce (List DriveEntry))) Unit) : Option (List Nat × Nat) :=
  match r with
  | .ok s _ => some (s.1.map fun f => f.faultDetails.faultCode.toNat, s.2.dev.st.length)
  | _ => none

/-- C122. "Every fault is reported once" is false: if memory runs out when the second fault is asked for, and the program tries again, the first is
reported twice. -/
theorem C122_once_violated : reportedA (retryFaults id (fun k => (10 : Rat) ^ k) Mem.strict (scarce drive) ⟨true, false, false⟩ 2
      (objectIn ([], ⟨[underVoltage, ⟨13, 5, 6, 7⟩], []⟩) [false, false, false, false, false, false, true])) =
    some ([4, 4, 13], 0) := by
  decide +kernel

example : ∃ desc : DriveEntry → FaultDescription, Listable [underVoltage, ⟨13, 5, 6, 7⟩] desc :=
  ⟨fun e => (lookup e.code).getD ⟨0, "", ""⟩, by decide, by decide, by decide +kernel⟩

/-! ## Discovery -/

/-- How the loop ended, with the descriptors. -/
def loopEnd (s : Fds) : Discovery.DiscRes → Res Fds (Option (List IdentityItem))
  | .done ds => .ok s (some ds)
  | .threw e => .throw s e
  | .ub => .ub
  | .waiting => .ok s none

theorem alloc_falls {σ : Type} (s : σ) (fs : List Bool) : Falls Scarce.mk (fun t => t = s) fs (alloc ⟨s, fs⟩) (.ok s ()) := by
  match fs with
  | [] => exact .inl ⟨0, [], rfl, rfl⟩
  | false :: fs => exact .inl ⟨1, fs, rfl, rfl⟩
  | true :: fs => exact .inr ⟨0, fs, s, rfl, rfl, rfl⟩

theorem loop_falls (m : Mem) (s : Fds) (rs : List Recv) (ds : List IdentityItem) (fs : List Bool) :
    Falls Scarce.mk (fun t => t = s) fs (Discovery.loopA m ds rs ⟨s, fs⟩) (loopEnd s (Discovery.loop m ds rs)) := by
  induction rs generalizing ds fs with
  | nil => exact falls_bind_ok (alloc_falls s fs) (fun t h => h) fun fs' => .inl ⟨0, fs', rfl, rfl⟩
  | cons r rs ih =>
    unfold Discovery.loopA
    refine falls_bind_ok (alloc_falls s fs) (fun t h => h) fun fs1 => ?_
    refine falls_bind_ok (alloc_falls s fs1) (fun t h => h) fun fs2 => ?_
    unfold Discovery.loop
    have hsys : ∀ code, Falls Scarce.mk (fun t => t = s) fs2
        ((if code ≠ Discovery.endError then Prog.throw (.system code) else pure (some ds) :
          Prog (Scarce Fds) (Option (List IdentityItem))) ⟨s, fs2⟩)
        (loopEnd s (if code ≠ Discovery.endError then .threw (.system code) else .done ds)) := by
      intro code
      by_cases hc : code ≠ Discovery.endError
      · rw [if_pos hc, if_pos hc]; exact .inl ⟨0, fs2, rfl, rfl⟩
      · rw [if_neg hc, if_neg hc]; exact .inl ⟨0, fs2, rfl, rfl⟩
    cases udpReceive 504 r with
    | ub => exact .inl ⟨0, fs2, rfl, rfl⟩
    | throw x =>
      cases x with
      | system code => exact hsys code
      | _ => exact .inl ⟨0, fs2, rfl, rfl⟩
    | ok data =>
      simp only
      cases Discovery.answer m data with
      | ub => exact .inl ⟨0, fs2, rfl, rfl⟩
      | throw x =>
        cases x with
        | system code => exact hsys code
        | _ => exact .inl ⟨0, fs2, rfl, rfl⟩
      | ok more => exact ih _ _

theorem makeSocket_falls (descriptor : Alloc) (ms : Int) (e : Discovery.Env) (s : Fds) (fs : List Bool) :
    Falls Scarce.mk (fun t => t = s ∨ ∃ x, Discovery.makeSocket descriptor ms e s = .throw t x) fs
      (Discovery.makeSocketA descriptor ms e ⟨s, fs⟩) (Discovery.makeSocket descriptor ms e s) := by
  refine falls_bind_ok (alloc_falls s fs) (fun t h => .inl h) fun fs1 => ?_
  simp only
  cases Discovery.makeSocket descriptor ms e s with
  | ub => exact .inl ⟨0, fs1, rfl, rfl⟩
  | ok s1 fd => exact .inl ⟨0, fs1, rfl, rfl⟩
  | throw s1 x => exact falls_bind_ok (alloc_falls s1 fs1) (fun t h => .inr ⟨x, by rw [h]⟩) fun fs2 => .inl ⟨0, fs2, rfl, rfl⟩

theorem exchange_falls (m : Mem) (ep : EndPoint) (e : Discovery.Env) (fd : Nat) (s : Fds) (fs : List Bool) :
    Falls Scarce.mk (fun t => t = s ∨ t = s.note [.sendto fd ep.addr EncapsPacketFactory.listIdentity.pack]) fs
      (Discovery.exchangeA m ep e fd ⟨s, fs⟩)
      (loopEnd (s.note [.sendto fd ep.addr EncapsPacketFactory.listIdentity.pack])
        (if udpSendThrows EncapsPacketFactory.listIdentity.pack e.sendCount then .threw (.system 0) else Discovery.loop m [] e.recvs)) := by
  refine falls_bind_ok (alloc_falls s fs) (fun t h => .inl h) fun fs1 => ?_
  refine falls_bind_ok (P := fun _ => False) (s := s.note [.sendto fd ep.addr EncapsPacketFactory.listIdentity.pack]) (a := ())
    (.inl ⟨0, fs1, rfl, rfl⟩) (fun t h => h.elim) fun fs2 => ?_
  cases udpSendThrows EncapsPacketFactory.listIdentity.pack e.sendCount with
  | true => exact falls_bind_ok (alloc_falls _ fs2) (fun t h => .inr h) fun fs3 => .inl ⟨0, fs3, rfl, rfl⟩
  | false => exact falls_mono (fun t h => .inr h) (loop_falls m _ e.recvs [] fs2)

/-- C122. `discover` ends as it does when there is memory, or throws `std::bad_alloc`; then its socket is closed, if it had one, and it has sent
the request or not, and nothing else. -/
theorem C122_discover (m : Mem) (descriptor : Alloc) (ep : EndPoint) (ms : Int) (e : Discovery.Env) (s : Fds) (fs : List Bool) :
    let fd := descriptor s.opened
    let plain := Discovery.discoverFd m descriptor ep ms e s
    let r := Discovery.discoverA m descriptor ep ms e ⟨s, fs⟩
    (∃ k rest, fs = List.replicate k false ++ rest ∧ discoveryEnd r = plain.2 ∧ ∀ t, finalOf r = some t → t = ⟨plain.1, rest⟩) ∨
    ∃ k rest t, fs = List.replicate k false ++ true :: rest ∧ r = .throw ⟨t, rest⟩ .badAlloc ∧ t.opened = s.opened ∧
      (t.calls = s.calls ∨ t.calls = s.calls ++ [.socketFailed] ∨
       ∃ j, (j = 3 ∨ j = 4) ∧ t.calls = s.calls ++ ((discCalls fd ep ms).take j ++ [.shutdown fd, .close fd])) := by
  intro fd plain r
  have hm := makeSocket_falls descriptor ms e s fs
  have hfd : ∀ s1 fd', Discovery.makeSocket descriptor ms e s = .ok s1 fd' → fd' = fd ∧ s1.opened = fd :: s.opened ∧
      s1.calls = s.calls ++ (discCalls fd ep ms).take 3 := by
    intro s1 fd' h
    obtain ⟨se, be, cnt, recvs⟩ := e
    cases se with
    | some code => cases h
    | none =>
      cases be with
      | some code => cases h
      | none =>
        injection h with h1 h2
        subst h1 h2
        exact ⟨rfl, rfl, by simp [Fds.note, Fds.add, discCalls, fd]⟩
  have hthrow : ∀ s1 x, Discovery.makeSocket descriptor ms e s = .throw s1 x → s1.opened = s.opened ∧
      (s1.calls = s.calls ++ [.socketFailed] ∨ s1.calls = s.calls ++ ((discCalls fd ep ms).take 3 ++ [.shutdown fd, .close fd])) := by
    intro s1 x h
    obtain ⟨se, be, cnt, recvs⟩ := e
    cases se with
    | some code => injection h with h1 h2; subst h1; exact ⟨rfl, .inl rfl⟩
    | none =>
      cases be with
      | some code =>
        injection h with h1 h2
        subst h1
        exact ⟨by simp [udpClose, Fds.note, Fds.add, Fds.remove],
          .inr (by simp [udpClose, Fds.note, Fds.add, Fds.remove, discCalls, fd])⟩
      | none => cases h
  have hr : r = match Discovery.makeSocketA descriptor ms e ⟨s, fs⟩ with
      | .ok s1 fd' => (match Discovery.exchangeA m ep e fd' s1 with
        | .ub => .ub
        | .throw s' x => .throw { s' with st := udpClose fd' s'.st } x
        | .ok s' (some devices) => .ok { s' with st := udpClose fd' s'.st } (some devices)
        | .ok s' none => .ok s' none)
      | .throw s1 x => .throw s1 x
      | .ub => .ub := by
    show Discovery.discoverA m descriptor ep ms e ⟨s, fs⟩ = _
    cases hx : Discovery.makeSocketA descriptor ms e ⟨s, fs⟩ with
    | ub => exact (Prog.bind_run _ _ _).trans (by rw [hx])
    | throw s1 x => exact (Prog.bind_run _ _ _).trans (by rw [hx])
    | ok s1 fd' => exact (Prog.bind_run _ _ _).trans (by rw [hx]; rfl)
  rcases hm with ⟨k, rest, e1, e2⟩ | ⟨k, rest, t, e1, e2, e3⟩
  · rw [e2] at hr
    cases hk : Discovery.makeSocket descriptor ms e s with
    | ub =>
      rw [hk] at hr
      have hp : plain = (s, .ub) := by show Discovery.discoverFd m descriptor ep ms e s = _; unfold Discovery.discoverFd; rw [hk]
      refine .inl ⟨k, rest, e1, by rw [hr, hp]; rfl, fun t ht => ?_⟩
      rw [hr] at ht; cases ht
    | throw s1 x =>
      rw [hk] at hr
      have hp : plain = (s1, .threw x) := by show Discovery.discoverFd m descriptor ep ms e s = _; unfold Discovery.discoverFd; rw [hk]
      refine .inl ⟨k, rest, e1, by rw [hr, hp]; rfl, fun t ht => ?_⟩
      rw [hr] at ht; injection ht with ht; rw [← ht, hp]
    | ok s1 fd' =>
      rw [hk] at hr
      simp only [inMemory] at hr
      obtain ⟨rfl, ho, hcl⟩ := hfd s1 fd' hk
      have hp : plain = (match (if udpSendThrows EncapsPacketFactory.listIdentity.pack e.sendCount then .threw (.system 0)
            else Discovery.loop m [] e.recvs : Discovery.DiscRes) with
          | .done ds => (udpClose fd (s1.note [.sendto fd ep.addr EncapsPacketFactory.listIdentity.pack]), .done ds)
          | .threw x => (udpClose fd (s1.note [.sendto fd ep.addr EncapsPacketFactory.listIdentity.pack]), .threw x)
          | .ub => (s1.note [.sendto fd ep.addr EncapsPacketFactory.listIdentity.pack], .ub)
          | .waiting => (s1.note [.sendto fd ep.addr EncapsPacketFactory.listIdentity.pack], .waiting)) := by
        show Discovery.discoverFd m descriptor ep ms e s = _
        unfold Discovery.discoverFd
        rw [hk]
        simp only
        cases udpSendThrows EncapsPacketFactory.listIdentity.pack e.sendCount <;> rfl
      rcases exchange_falls m ep e fd s1 rest with ⟨k', rest', f1, f2⟩ | ⟨k', rest', t, f1, f2, f3⟩
      · refine .inl ⟨k + k', rest', by rw [e1, f1, replicate_append], ?_⟩
        rw [f2] at hr
        revert hr hp
        generalize (if udpSendThrows EncapsPacketFactory.listIdentity.pack e.sendCount then .threw (.system 0)
            else Discovery.loop m [] e.recvs : Discovery.DiscRes) = dr
        intro hp hr
        cases dr with
        | done ds => exact ⟨by rw [hr, hp]; rfl, fun t ht => by rw [hr] at ht; injection ht with ht; rw [← ht, hp]⟩
        | threw x => exact ⟨by rw [hr, hp]; rfl, fun t ht => by rw [hr] at ht; injection ht with ht; rw [← ht, hp]⟩
        | ub => exact ⟨by rw [hr, hp]; rfl, fun t ht => by rw [hr] at ht; cases ht⟩
        | waiting => exact ⟨by rw [hr, hp]; rfl, fun t ht => by rw [hr] at ht; injection ht with ht; rw [← ht, hp]⟩
      · rw [f2] at hr
        refine .inr ⟨k + k', rest', udpClose fd t, by rw [e1, f1, replicate_append], hr, ?_, .inr (.inr ?_)⟩
        · rcases f3 with rfl | rfl
          · simp [udpClose, Fds.note, Fds.remove, ho]
          · simp [udpClose, Fds.note, Fds.remove, ho]
        · rcases f3 with rfl | rfl
          · exact ⟨3, .inl rfl, by simp [udpClose, Fds.note, Fds.remove, hcl]⟩
          · exact ⟨4, .inr rfl, by simp [udpClose, Fds.note, Fds.remove, hcl, discCalls, C10_listIdentity]⟩
  · rw [e2] at hr
    refine .inr ⟨k, rest, t, e1, hr, ?_⟩
    rcases e3 with rfl | ⟨x, hx⟩
    · exact ⟨rfl, .inl rfl⟩
    · obtain ⟨h1, h2⟩ := hthrow t x hx
      refine ⟨h1, .inr ?_⟩
      rcases h2 with h2 | h2
      · exact .inl h2
      · exact .inr ⟨3, .inl rfl, h2⟩

/-- A discovery that one device answers. -/
def oneAnswers (fs : List Bool) : Discovery.DiscRes :=
  discoveryEnd (Discovery.discoverA Mem.strict (fun _ => 3) ⟨"", 44818, ⟨2#16, 0x12af#16, 0xffffffff#32⟩⟩ 1000
    ⟨none, none, 24, [.dgram (List.replicate 24 0#8 ++
      (le 2 1 ++ cpfItem 0x0c (identityItem 44818 [10#8, 0#8, 0#8, 9#8] ⟨2, 43, 700, 3, 4, 0, 7, []⟩))), .err 11]⟩ ⟨⟨[], []⟩, fs⟩)

/-- C122. "The devices that were found are returned" is false: a device has answered, memory runs out for the next receive, and `discover` throws; with
memory it returns the device. -/
theorem C122_found_violated :
    foundBy (oneAnswers [false, false, false, false, false]) = some [("10.0.0.9", 44818, ⟨2, 43, 700, 3, 4, 0, 7, []⟩)] ∧
    oneAnswers [false, false, false, false, true] = .threw .badAlloc := by
  refine ⟨by decide +kernel, by decide +kernel⟩

/-- C122. A request of a Yaskawa drive's message router has the outcome that it has when there is memory, or throws `std::bad_alloc`. -/
theorem C122_yaskawa (m : Mem) (handle : BitVec 32) (service : BitVec 8) (path : YEPath) (data : List Byte) (extra : List CommonPacketItem)
    (s : Tcp) (fs : List Bool) :
    Falls Scarce.mk (fun _ => True) fs (yaskawaSendA m (SessionIf.tcpA m handle) service path data extra ⟨s, fs⟩)
      (yaskawaSend m (SessionIf.tcp m handle) service path data extra s) := by
  have hr : ∀ {τ : Type} (a : τ), (fun _ _ => True : τ → τ → Prop) a a := fun _ => trivial
  have ht : ∀ {τ : Type} (a b c : τ), True → True → True := fun _ _ _ _ _ => trivial
  have : May Scarce.mk (fun _ _ => True) (yaskawaSendA m (SessionIf.tcpA m handle) service path data extra)
      (yaskawaSend m (SessionIf.tcp m handle) service path data extra) :=
    may_alloc (.bind ht (may_sar m handle _) fun _ => may_alloc (.lift hr _))
  exact falls_mono (fun _ _ => trivial) (this.falls s fs)

end Verif.Props
