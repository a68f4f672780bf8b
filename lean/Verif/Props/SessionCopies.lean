import Verif.Spec.SessionCopies
import Verif.Props.ManagerWire

/-!
# C115: copies of sessions
-/

namespace Verif.Props

open Verif Verif.Spec

/-! ## The table of descriptors -/

theorem look_lowest (l : List (Option Opened)) : (l[SessProc.lowest l]?).join = none := by
  induction l with
  | nil => rfl
  | cons a l ih => cases a with
    | none => rfl
    | some y => simpa [SessProc.lowest] using ih

theorem look_give (x : Opened) (l : List (Option Opened)) (fd : Nat) :
    ((SessProc.give x l)[fd]?).join = if fd = SessProc.lowest l then some x else (l[fd]?).join := by
  induction l generalizing fd with
  | nil => cases fd <;> simp [SessProc.give, SessProc.lowest]
  | cons a l ih =>
    cases a with
    | none => cases fd <;> simp [SessProc.give, SessProc.lowest]
    | some y =>
      cases fd with
      | zero => simp [SessProc.give, SessProc.lowest]
      | succ k => simpa [SessProc.give, SessProc.lowest] using ih k

theorem look_set_none (l : List (Option Opened)) (a fd : Nat) :
    ((l.set a none)[fd]?).join = if fd = a then none else (l[fd]?).join := by
  rw [List.getElem?_set]
  by_cases h : fd = a
  · subst h
    by_cases hl : fd < l.length
    · simp [hl]
    · simp [hl]
  · rw [if_neg (fun e => h e.symm), if_neg h]

/-! ## A program over a descriptor -/

/-- What a program over the connection of a descriptor does to the process. -/
def onConn {α : Type} (p : SessProc) (n : Nat) (t : Tcp) (x : Prog Tcp α) : Res SessProc α :=
  match x t with
  | .ok t' a => .ok { p with conns := p.conns.set n t' } a
  | .throw t' e => .throw { p with conns := p.conns.set n t' } e
  | .ub => .ub

theorem over_conn {α : Type} (p : SessProc) (fd n : Nat) (t : Tcp) (x : Prog Tcp α)
    (h : p.look fd = some (.conn n)) (ht : p.conns[n]? = some t) : p.over fd x = onConn p n t x := by
  unfold SessProc.over onConn
  rw [h]
  dsimp only
  rw [ht]
  rfl

/-- The part of the process that is no connection. -/
def besides (p : SessProc) (p' : SessProc) : Prop :=
  p'.fds = p.fds ∧ p'.objs = p.objs ∧ p'.gone = p.gone ∧ p'.files = p.files ∧ p'.shut = p.shut ∧
    p'.conns.length = p.conns.length

theorem over_besides {α : Type} (p : SessProc) (fd : Nat) (x : Prog Tcp α) :
    (∀ p' a, p.over fd x = .ok p' a → besides p p') ∧ (∀ p' e, p.over fd x = .throw p' e → besides p p') := by
  unfold SessProc.over
  cases p.look fd with
  | none => dsimp only; cases x (SessProc.noSocket SessProc.ebadf) <;> simp_all [besides]
  | some y =>
    cases y with
    | file k => dsimp only; cases x (SessProc.noSocket SessProc.enotsock) <;> simp_all [besides]
    | conn n =>
      dsimp only
      cases p.conns[n]? with
      | none => simp
      | some t =>
        dsimp only
        cases x t <;> simp [besides] <;> (constructor <;> intros) <;> simp_all

/-- A program over a descriptor leaves all connections alone but that of the descriptor. -/
theorem over_others {α : Type} (p : SessProc) (fd : Nat) (x : Prog Tcp α) (n : Nat) (hn : p.look fd ≠ some (.conn n)) :
    (∀ p' a, p.over fd x = .ok p' a → p'.conns[n]? = p.conns[n]?) ∧
    (∀ p' e, p.over fd x = .throw p' e → p'.conns[n]? = p.conns[n]?) := by
  unfold SessProc.over
  cases hl : p.look fd with
  | none => dsimp only; cases x (SessProc.noSocket SessProc.ebadf) <;> simp_all
  | some y =>
    cases y with
    | file k => dsimp only; cases x (SessProc.noSocket SessProc.enotsock) <;> simp_all
    | conn k =>
      dsimp only
      have hk : k ≠ n := fun e => hn (by rw [hl, e])
      cases p.conns[k]? with
      | none => simp
      | some t =>
        dsimp only
        cases x t with
        | ub => simp
        | ok t' a =>
          simp only [Res.ok.injEq, and_imp, reduceCtorEq, false_implies, implies_true, and_true]
          intro p' a' h _
          subst h
          simp [hk]
        | throw t' e =>
          simp only [Res.throw.injEq, and_imp, reduceCtorEq, false_implies, implies_true, true_and]
          intro p' a' h _
          subst h
          simp [hk]

/-- Constructing a session. -/
theorem connect_eq (m : Mem) (p : SessProc) (t : Tcp) :
    p.step m (.connect t) = match registerSession m t with
      | .ok t' h => .ok { p with conns := p.conns ++ [t'], fds := SessProc.give (.conn p.conns.length) p.fds, objs := p.objs ++ [⟨SessProc.lowest p.fds, h⟩] } .unit
      | .throw t' e => .ok { p with conns := p.conns ++ [t'], fds := (SessProc.give (.conn p.conns.length) p.fds).set (SessProc.lowest p.fds) none } (.threw e)
      | .ub => .ub := by
  have h1 : ({ p with conns := p.conns ++ [t], fds := SessProc.give (.conn p.conns.length) p.fds } : SessProc).look
      (SessProc.lowest p.fds) = some (.conn p.conns.length) := by
    unfold SessProc.look
    dsimp only
    rw [look_give, if_pos rfl]
  unfold SessProc.step
  dsimp only
  rw [over_conn _ _ p.conns.length t _ h1 (by simp)]
  unfold onConn
  cases registerSession m t with
  | ub => rfl
  | ok t' h => simp
  | throw t' e => simp [SessProc.close]

/-! ## Origins -/

theorem originOf_snoc_connect (i : Nat) (tr : SessTrace) (t : Tcp) :
    originOf i (tr ++ [(.connect t, .unit)]) =
      if i = (tr.foldl addOrigin ([], 0)).1.length then some (tr.foldl addOrigin ([], 0)).2 else originOf i tr := by
  unfold originOf
  rw [List.foldl_append]
  simp only [List.foldl_cons, List.foldl_nil, addOrigin]
  generalize (tr.foldl addOrigin ([], 0)).1 = l
  rw [List.getElem?_append]
  by_cases h : i < l.length
  · rw [if_pos h, if_neg (by omega)]
  · rw [if_neg h]
    by_cases h2 : i = l.length
    · simp [h2]
    · rw [if_neg h2, List.getElem?_eq_none (by simp; omega), List.getElem?_eq_none (by omega)]

theorem originOf_snoc_copy (i k : Nat) (tr : SessTrace) (ret : SessRet) :
    originOf i (tr ++ [(.copy k, ret)]) =
      if i = (tr.foldl addOrigin ([], 0)).1.length then some ((originOf k tr).getD 0) else originOf i tr := by
  unfold originOf
  rw [List.foldl_append]
  simp only [List.foldl_cons, List.foldl_nil, addOrigin]
  generalize (tr.foldl addOrigin ([], 0)).1 = l
  rw [List.getElem?_append]
  by_cases h : i < l.length
  · rw [if_pos h, if_neg (by omega)]
  · rw [if_neg h]
    by_cases h2 : i = l.length
    · simp [h2]
    · rw [if_neg h2, List.getElem?_eq_none (by simp; omega), List.getElem?_eq_none (by omega)]

/-- Does an operation make an object? -/
def makesObj : SessOp × SessRet → Bool
  | (.connect _, .unit) => true
  | (.copy _, _) => true
  | _ => false

theorem originOf_snoc_other (i : Nat) (tr : SessTrace) (e : SessOp × SessRet) (he : makesObj e = false) :
    originOf i (tr ++ [e]) = originOf i tr := by
  unfold originOf
  rw [List.foldl_append]
  simp only [List.foldl_cons, List.foldl_nil]
  obtain ⟨op, ret⟩ := e
  cases op <;> cases ret <;> first | rfl | cases he

theorem originOf_mono (i n : Nat) (tr : SessTrace) (e : SessOp × SessRet) (h : originOf i tr = some n) :
    originOf i (tr ++ [e]) = some n := by
  have hlt : i < (tr.foldl addOrigin ([], 0)).1.length := by
    unfold originOf at h
    exact (List.getElem?_eq_some_iff.1 h).1
  cases he : makesObj e with
  | false => rw [originOf_snoc_other i tr e he, h]
  | true =>
    obtain ⟨op, ret⟩ := e
    cases op with
    | connect t =>
      cases ret with
      | unit => rw [originOf_snoc_connect, if_neg (by omega), h]
      | packet q => cases he
      | threw x => cases he
    | copy k => rw [originOf_snoc_copy, if_neg (by omega), h]
    | destroy k => cases he
    | request k q => cases he
    | openFile => cases he
    | closeFile k => cases he

theorem ended_mono (n : Nat) (tr : SessTrace) (e : SessOp × SessRet) (h : ended n tr) : ended n (tr ++ [e]) := by
  obtain ⟨i, ret, hm, ho⟩ := h
  exact ⟨i, ret, List.mem_append_left _ hm, originOf_mono i n tr e ho⟩

/-! ## What holds in every history -/

structure SInv (m : Mem) (p : SessProc) (tr : SessTrace) : Prop where
  len : (tr.foldl addOrigin ([], 0)).1.length = p.objs.length
  made : (tr.foldl addOrigin ([], 0)).2 = p.conns.length
  cons : (connectsOf tr).length = p.conns.length
  lt : ∀ (i n : Nat), originOf i tr = some n → n < p.conns.length
  same : ∀ (i j n : Nat) (o o' : SessObj), originOf i tr = some n → originOf j tr = some n →
    p.objs[i]? = some o → p.objs[j]? = some o' → o = o'
  held : ∀ (fd n : Nat), p.look fd = some (.conn n) →
    ∃ (i : Nat) (o : SessObj), originOf i tr = some n ∧ p.objs[i]? = some o ∧ o.fd = fd
  shut : ∀ (n : Nat), ended n tr → ∀ (fd : Nat), p.look fd ≠ some (.conn n)
  gone : ∀ (i : Nat) (ret : SessRet), (SessOp.destroy i, ret) ∈ tr → p.gone.contains i = true
  gone' : ∀ (i : Nat), p.gone.contains i = true → ∃ (ret : SessRet), (SessOp.destroy i, ret) ∈ tr
  handle : ∀ (i n : Nat) (o : SessObj), originOf i tr = some n → p.objs[i]? = some o →
    ∃ (t0 t1 : Tcp), (connectsOf tr)[n]? = some t0 ∧ registerSession m t0 = .ok t1 o.handle
  uses : ∀ (op : SessOp) (ret : SessRet), (op, ret) ∈ tr → ∀ (i : Nat), usedBy op = some i → i < p.objs.length

theorem originOf_some {m : Mem} {p : SessProc} {tr : SessTrace} (h : SInv m p tr) (i : Nat) (hi : i < p.objs.length) :
    ∃ n, originOf i tr = some n := by
  unfold originOf
  exact ⟨_, List.getElem?_eq_getElem (by rw [h.len]; exact hi)⟩

theorem originOf_lt {m : Mem} {p : SessProc} {tr : SessTrace} (h : SInv m p tr) (i n : Nat) (ho : originOf i tr = some n) :
    i < p.objs.length := by
  unfold originOf at ho
  rw [← h.len]
  exact (List.getElem?_eq_some_iff.1 ho).1

/-- An operation that makes no object and no connection. -/
def plainOp : SessOp → Bool
  | .connect _ => false
  | .copy _ => false
  | _ => true

theorem plain_makes (op : SessOp) (ret : SessRet) (h : plainOp op = true) : makesObj (op, ret) = false := by
  cases op <;> first | rfl | cases h

theorem fold_plain (tr : SessTrace) (op : SessOp) (ret : SessRet) (h : plainOp op = true) :
    (tr ++ [(op, ret)]).foldl addOrigin ([], 0) = tr.foldl addOrigin ([], 0) := by
  rw [List.foldl_append]
  cases op <;> first | rfl | cases h

theorem connects_plain (tr : SessTrace) (op : SessOp) (ret : SessRet) (h : plainOp op = true) :
    connectsOf (tr ++ [(op, ret)]) = connectsOf tr := by
  unfold connectsOf
  rw [List.filterMap_append]
  cases op <;> first | (cases h; done) | simp

theorem connects_snoc (tr : SessTrace) (t : Tcp) (ret : SessRet) :
    connectsOf (tr ++ [(.connect t, ret)]) = connectsOf tr ++ [t] := by
  unfold connectsOf
  rw [List.filterMap_append]
  rfl

/-- What destroys an object. -/
def destroys : SessOp → Option Nat
  | .destroy i => some i
  | _ => none

/-- A step that makes nothing keeps the invariant, if descriptors are only closed or given to files, what it destroys is
gone, and the descriptor of that closed. -/
theorem sess_inv_plain {m : Mem} {p p' : SessProc} {tr : SessTrace} (op : SessOp) (ret : SessRet) (h : SInv m p tr)
    (hp : plainOp op = true) (hobjs : p'.objs = p.objs) (hconns : p'.conns.length = p.conns.length)
    (hlook : ∀ (fd n : Nat), p'.look fd = some (.conn n) → p.look fd = some (.conn n))
    (huse : ∀ (i : Nat), usedBy op = some i → i < p.objs.length)
    (hgone : p'.gone = match destroys op with | some i => i :: p.gone | none => p.gone)
    (hclosed : ∀ (i : Nat) (o : SessObj), op = .destroy i → p.objs[i]? = some o → p'.look o.fd = none) :
    SInv m p' (tr ++ [(op, ret)]) := by
  have ho : ∀ i, originOf i (tr ++ [(op, ret)]) = originOf i tr := fun i =>
    originOf_snoc_other i tr _ (plain_makes op ret hp)
  refine ⟨?_, ?_, ?_, ?_, ?_, ?_, ?_, ?_, ?_, ?_, ?_⟩
  · rw [fold_plain _ _ _ hp, hobjs]; exact h.len
  · rw [fold_plain _ _ _ hp, hconns]; exact h.made
  · rw [connects_plain _ _ _ hp, hconns]; exact h.cons
  · intro i n hi
    rw [ho] at hi
    rw [hconns]
    exact h.lt i n hi
  · intro i j n o o' hi hj h1 h2
    rw [ho] at hi hj
    rw [hobjs] at h1 h2
    exact h.same i j n o o' hi hj h1 h2
  · intro fd n hl
    obtain ⟨i, o, a, b, c⟩ := h.held fd n (hlook fd n hl)
    exact ⟨i, o, by rw [ho]; exact a, by rw [hobjs]; exact b, c⟩
  · intro n hn fd hl
    obtain ⟨i, r, hm, hi⟩ := hn
    rw [ho] at hi
    rcases List.mem_append.1 hm with hm | hm
    · exact h.shut n ⟨i, r, hm, hi⟩ fd (hlook fd n hl)
    · have he : op = .destroy i := by
        have := List.mem_singleton.1 hm
        exact (Prod.mk.inj this).1.symm
      have hlt := originOf_lt h i n hi
      obtain ⟨j, o, a, b, c⟩ := h.held fd n (hlook fd n hl)
      have hoi := List.getElem?_eq_getElem hlt
      have hs := h.same i j n _ o hi a hoi b
      have hc := hclosed i _ he hoi
      rw [hs, c] at hc
      rw [hc] at hl
      cases hl
  · intro i r hm
    rw [hgone]
    rcases List.mem_append.1 hm with hm | hm
    · have := h.gone i r hm
      cases destroys op with
      | none => exact this
      | some k => simp_all
    · have he : op = .destroy i := by
        have := List.mem_singleton.1 hm
        exact (Prod.mk.inj this).1.symm
      subst he
      simp [destroys]
  · intro i hi
    rw [hgone] at hi
    cases hd : destroys op with
    | none =>
      rw [hd] at hi
      obtain ⟨r, hr⟩ := h.gone' i hi
      exact ⟨r, List.mem_append_left _ hr⟩
    | some k =>
      rw [hd] at hi
      have hop : op = .destroy k := by
        cases op <;> first | (simp only [destroys, Option.some.injEq] at hd; rw [hd]) | cases hd
      simp only [List.contains_cons, Bool.or_eq_true, beq_iff_eq] at hi
      rcases hi with hi | hi
      · exact ⟨ret, by rw [hop, hi]; simp⟩
      · obtain ⟨r, hr⟩ := h.gone' i hi
        exact ⟨r, List.mem_append_left _ hr⟩
  · intro i n o hi hoi
    rw [ho] at hi
    rw [hobjs] at hoi
    rw [connects_plain _ _ _ hp]
    exact h.handle i n o hi hoi
  · intro op' r hm i hu
    rw [hobjs]
    rcases List.mem_append.1 hm with hm | hm
    · exact h.uses op' r hm i hu
    · have := List.mem_singleton.1 hm
      cases this
      exact huse i hu

theorem look_besides {p p' : SessProc} (h : besides p p') (fd : Nat) : p'.look fd = p.look fd := by
  unfold SessProc.look
  rw [h.1]

theorem close_look (p : SessProc) (a fd : Nat) : (p.close a).look fd = if fd = a then none else p.look fd :=
  look_set_none _ _ _

/-- The origins after an object is made. -/
theorem mem_snoc_made {tr : SessTrace} {e : SessOp × SessRet} {i : Nat} {ret : SessRet}
    (he : ∀ k, e.1 ≠ .destroy k) (h : (SessOp.destroy i, ret) ∈ tr ++ [e]) : (SessOp.destroy i, ret) ∈ tr := by
  rcases List.mem_append.1 h with h | h
  · exact h
  · have := List.mem_singleton.1 h
    exact absurd (by rw [← this]) (he i)

theorem sess_inv_step (m : Mem) (p p' : SessProc) (tr : SessTrace) (op : SessOp) (ret : SessRet) (h : SInv m p tr)
    (hs : p.step m op = .ok p' ret) : SInv m p' (tr ++ [(op, ret)]) := by
  cases op with
  | connect t =>
    rw [connect_eq] at hs
    cases hr : registerSession m t with
    | ub => rw [hr] at hs; cases hs
    | throw t' e =>
      rw [hr] at hs
      cases hs
      have hlook : ∀ fd, ({ p with conns := p.conns ++ [t'], fds := (SessProc.give (.conn p.conns.length) p.fds).set (SessProc.lowest p.fds) none } : SessProc).look fd = p.look fd := by
        intro fd
        unfold SessProc.look
        rw [look_set_none, look_give]
        by_cases hf : fd = SessProc.lowest p.fds
        · rw [if_pos hf, hf, look_lowest]
        · rw [if_neg hf, if_neg hf]
      have ho : ∀ i, originOf i (tr ++ [(.connect t, .threw e)]) = originOf i tr := fun i =>
        originOf_snoc_other i tr _ rfl
      refine ⟨?_, ?_, ?_, ?_, ?_, ?_, ?_, ?_, ?_, ?_, ?_⟩
      · rw [List.foldl_append]; exact h.len
      · rw [List.foldl_append]; simp [addOrigin, h.made]
      · rw [connects_snoc]; simp [h.cons]
      · intro i n hi
        rw [ho] at hi
        have := h.lt i n hi
        simp; omega
      · intro i j n o o' hi hj
        rw [ho] at hi hj
        exact h.same i j n o o' hi hj
      · intro fd n hl
        rw [hlook] at hl
        obtain ⟨i, o, a, b, c⟩ := h.held fd n hl
        exact ⟨i, o, by rw [ho]; exact a, b, c⟩
      · intro n hn fd
        obtain ⟨i, r, hm, hi⟩ := hn
        rw [ho] at hi
        rw [hlook]
        exact h.shut n ⟨i, r, mem_snoc_made (by intro k hk; cases hk) hm, hi⟩ fd
      · intro i r hm
        exact h.gone i r (mem_snoc_made (by intro k hk; cases hk) hm)
      · intro i hi
        obtain ⟨r, hr⟩ := h.gone' i hi
        exact ⟨r, List.mem_append_left _ hr⟩
      · intro i n o hi hoi
        rw [ho] at hi
        obtain ⟨t0, t1, a, b⟩ := h.handle i n o hi hoi
        refine ⟨t0, t1, ?_, b⟩
        rw [connects_snoc, List.getElem?_append_left (List.getElem?_eq_some_iff.1 a).1]
        exact a
      · intro op' r hm i hu
        rcases List.mem_append.1 hm with hm | hm
        · exact h.uses op' r hm i hu
        · have := List.mem_singleton.1 hm
          cases this
          cases hu
    | ok t' hd =>
      rw [hr] at hs
      cases hs
      have hlook : ∀ fd, ({ p with conns := p.conns ++ [t'], fds := SessProc.give (.conn p.conns.length) p.fds, objs := p.objs ++ [⟨SessProc.lowest p.fds, hd⟩] } : SessProc).look fd = if fd = SessProc.lowest p.fds then some (.conn p.conns.length) else p.look fd := by
        intro fd
        unfold SessProc.look
        exact look_give _ _ _
      have ho : ∀ i, originOf i (tr ++ [(.connect t, .unit)]) = if i = p.objs.length then some p.conns.length else originOf i tr := by
        intro i
        rw [originOf_snoc_connect, h.len, h.made]
      refine ⟨?_, ?_, ?_, ?_, ?_, ?_, ?_, ?_, ?_, ?_, ?_⟩
      · rw [List.foldl_append]; simp [addOrigin, h.len]
      · rw [List.foldl_append]; simp [addOrigin, h.made]
      · rw [connects_snoc]; simp [h.cons]
      · intro i n hi
        rw [ho] at hi
        split at hi
        · cases hi; simp
        · have := h.lt i n hi
          simp; omega
      · intro i j n o o' hi hj h1 h2
        rw [ho] at hi hj
        dsimp only at h1 h2
        rw [List.getElem?_append] at h1 h2
        split at hi
        · rename_i hi'
          cases hi
          split at hj
          · rename_i hj'
            subst hi'
            subst hj'
            rw [h1] at h2
            exact Option.some.inj h2
          · have := h.lt j _ hj
            omega
        · split at hj
          · cases hj
            have := h.lt i _ hi
            omega
          · have hli := originOf_lt h i n hi
            have hlj := originOf_lt h j n hj
            rw [if_pos hli] at h1
            rw [if_pos hlj] at h2
            exact h.same i j n o o' hi hj h1 h2
      · intro fd n hl
        rw [hlook] at hl
        split at hl
        · rename_i hf
          cases hl
          exact ⟨p.objs.length, ⟨SessProc.lowest p.fds, hd⟩, by rw [ho, if_pos rfl], by simp, hf.symm⟩
        · obtain ⟨i, o, a, b, c⟩ := h.held fd n hl
          have hlt := originOf_lt h i n a
          exact ⟨i, o, by rw [ho, if_neg (by omega)]; exact a, by dsimp only; rw [List.getElem?_append_left hlt]; exact b, c⟩
      · intro n hn fd hl
        obtain ⟨i, r, hm, hi⟩ := hn
        have hm' := mem_snoc_made (by intro k hk; cases hk) hm
        have hlt := h.uses _ r hm' i rfl
        rw [ho, if_neg (by omega)] at hi
        have hn := h.lt i n hi
        rw [hlook] at hl
        split at hl
        · cases hl; omega
        · exact h.shut n ⟨i, r, hm', hi⟩ fd hl
      · intro i r hm
        exact h.gone i r (mem_snoc_made (by intro k hk; cases hk) hm)
      · intro i hi
        obtain ⟨r, hr⟩ := h.gone' i hi
        exact ⟨r, List.mem_append_left _ hr⟩
      · intro i n o hi hoi
        rw [ho] at hi
        dsimp only at hoi
        split at hi
        · rename_i hi'
          cases hi
          subst hi'
          rw [List.getElem?_append_right (Nat.le_refl _)] at hoi
          simp at hoi
          subst hoi
          refine ⟨t, t', ?_, hr⟩
          rw [connects_snoc, ← h.cons]
          simp
        · have hlt := originOf_lt h i n hi
          rw [List.getElem?_append_left hlt] at hoi
          obtain ⟨t0, t1, a, b⟩ := h.handle i n o hi hoi
          refine ⟨t0, t1, ?_, b⟩
          rw [connects_snoc, List.getElem?_append_left (List.getElem?_eq_some_iff.1 a).1]
          exact a
      · intro op' r hm i hu
        rcases List.mem_append.1 hm with hm | hm
        · have := h.uses op' r hm i hu
          simp; omega
        · have := List.mem_singleton.1 hm
          cases this
          cases hu
  | copy k =>
    simp only [SessProc.step] at hs
    cases hk : p.objs[k]? with
    | none => rw [hk] at hs; cases hs
    | some ok =>
      rw [hk] at hs
      dsimp only at hs
      split at hs
      · cases hs
      cases hs
      have hkl : k < p.objs.length := (List.getElem?_eq_some_iff.1 hk).1
      obtain ⟨nk, hnk⟩ := originOf_some h k hkl
      have ho : ∀ i, originOf i (tr ++ [(.copy k, .unit)]) = if i = p.objs.length then some nk else originOf i tr := by
        intro i
        rw [originOf_snoc_copy, h.len, hnk]
        rfl
      have hobj : ∀ i n o, originOf i (tr ++ [(.copy k, .unit)]) = some n → (p.objs ++ [ok])[i]? = some o →
          ∃ j, originOf j tr = some n ∧ p.objs[j]? = some o := by
        intro i n o hi hoi
        rw [ho] at hi
        split at hi
        · rename_i hi'
          cases hi
          subst hi'
          rw [List.getElem?_append_right (Nat.le_refl _)] at hoi
          simp at hoi
          subst hoi
          exact ⟨k, hnk, hk⟩
        · have hlt := originOf_lt h i n hi
          rw [List.getElem?_append_left hlt] at hoi
          exact ⟨i, hi, hoi⟩
      refine ⟨?_, ?_, ?_, ?_, ?_, ?_, ?_, ?_, ?_, ?_, ?_⟩
      · rw [List.foldl_append]; simp [addOrigin, h.len]
      · rw [List.foldl_append]; exact h.made
      · have : connectsOf (tr ++ [(.copy k, .unit)]) = connectsOf tr := by
          unfold connectsOf; rw [List.filterMap_append]; simp
        rw [this]; exact h.cons
      · intro i n hi
        rw [ho] at hi
        split at hi
        · cases hi; exact h.lt k _ hnk
        · exact h.lt i n hi
      · intro i j n o o' hi hj h1 h2
        obtain ⟨i', a, b⟩ := hobj i n o hi h1
        obtain ⟨j', c, d⟩ := hobj j n o' hj h2
        exact h.same i' j' n o o' a c b d
      · intro fd n hl
        obtain ⟨i, o, a, b, c⟩ := h.held fd n hl
        have hlt := originOf_lt h i n a
        exact ⟨i, o, by rw [ho, if_neg (by omega)]; exact a, by dsimp only; rw [List.getElem?_append_left hlt]; exact b, c⟩
      · intro n hn fd
        obtain ⟨i, r, hm, hi⟩ := hn
        have hm' := mem_snoc_made (by intro k hk; cases hk) hm
        have hlt := h.uses _ r hm' i rfl
        rw [ho, if_neg (by omega)] at hi
        exact h.shut n ⟨i, r, hm', hi⟩ fd
      · intro i r hm
        exact h.gone i r (mem_snoc_made (by intro k hk; cases hk) hm)
      · intro i hi
        obtain ⟨r, hr⟩ := h.gone' i hi
        exact ⟨r, List.mem_append_left _ hr⟩
      · intro i n o hi hoi
        obtain ⟨i', a, b⟩ := hobj i n o hi hoi
        have : connectsOf (tr ++ [(.copy k, .unit)]) = connectsOf tr := by
          unfold connectsOf; rw [List.filterMap_append]; simp
        rw [this]
        exact h.handle i' n o a b
      · intro op' r hm i hu
        rcases List.mem_append.1 hm with hm | hm
        · have := h.uses op' r hm i hu
          simp; omega
        · have := List.mem_singleton.1 hm
          cases this
          cases hu
  | destroy k =>
    simp only [SessProc.step] at hs
    cases hk : p.objs[k]? with
    | none => rw [hk] at hs; cases hs
    | some o =>
      rw [hk] at hs
      dsimp only at hs
      split at hs
      · cases hs
      have hb := over_besides p o.fd (unregisterSession o.handle)
      cases hv : p.over o.fd (unregisterSession o.handle) with
      | ub => rw [hv] at hs; cases hs
      | throw p1 e => rw [hv] at hs; cases hs
      | ok p1 u =>
        rw [hv] at hs
        have hb := hb.1 p1 u hv
        dsimp only at hs
        cases hs
        have hlook : ∀ fd, ({ p1.close o.fd with gone := k :: p1.gone } : SessProc).look fd = if fd = o.fd then none else p.look fd := by
          intro fd
          rw [← look_besides hb]
          exact close_look p1 o.fd fd
        refine sess_inv_plain (.destroy k) .unit h rfl hb.2.1 hb.2.2.2.2.2 ?_ ?_ (by rw [show ({ p1.close o.fd with gone := k :: p1.gone } : SessProc).gone = k :: p1.gone from rfl, hb.2.2.1]; rfl) ?_
        · intro fd n hl
          rw [hlook] at hl
          split at hl
          · cases hl
          · exact hl
        · intro i hi
          cases hi
          exact (List.getElem?_eq_some_iff.1 hk).1
        · intro i o' hi hoi
          cases hi
          rw [hk] at hoi
          cases hoi
          rw [hlook, if_pos rfl]
  | request k q =>
    simp only [SessProc.step] at hs
    cases hk : p.objs[k]? with
    | none => rw [hk] at hs; cases hs
    | some o =>
      rw [hk] at hs
      dsimp only at hs
      split at hs
      · cases hs
      have hb := over_besides p o.fd (sendAndReceive m o.handle q)
      have key : ∀ p1, besides p p1 → SInv m p1 (tr ++ [(.request k q, ret)]) := by
        intro p1 hb
        refine sess_inv_plain (.request k q) ret h rfl hb.2.1 hb.2.2.2.2.2 ?_ ?_ hb.2.2.1 ?_
        · intro fd n hl
          rw [look_besides hb] at hl
          exact hl
        · intro i hi
          cases hi
          exact (List.getElem?_eq_some_iff.1 hk).1
        · intro i o' hi
          cases hi
      cases hv : p.over o.fd (sendAndReceive m o.handle q) with
      | ub => rw [hv] at hs; cases hs
      | throw p1 e => rw [hv] at hs; cases hs; exact key _ (hb.2 _ _ hv)
      | ok p1 u => rw [hv] at hs; cases hs; exact key _ (hb.1 _ _ hv)
  | openFile =>
    simp only [SessProc.step] at hs
    cases hs
    refine sess_inv_plain .openFile .unit h rfl rfl rfl ?_ (by intro i hi; cases hi) rfl (by intro i o hi; cases hi)
    intro fd n hl
    unfold SessProc.look at hl ⊢
    dsimp only at hl
    rw [look_give] at hl
    split at hl
    · cases hl
    · exact hl
  | closeFile k =>
    simp only [SessProc.step] at hs
    cases hk : p.files[k]? with
    | none => rw [hk] at hs; cases hs
    | some fd0 =>
      rw [hk] at hs
      dsimp only at hs
      split at hs
      · cases hs
      cases hs
      refine sess_inv_plain (.closeFile k) .unit h rfl rfl rfl ?_ (by intro i hi; cases hi) rfl (by intro i o hi; cases hi)
      intro fd n hl
      have := close_look p fd0 fd
      rw [show ({ p.close fd0 with shut := k :: p.shut } : SessProc).look fd = (p.close fd0).look fd from rfl, this] at hl
      split at hl
      · cases hl
      · exact hl

/-! ## What holds as long as objects are used soundly -/

/-- The operation uses no object of a connection of which an object was destroyed. -/
def soundNext (tr : SessTrace) (op : SessOp) : Prop :=
  ∀ i n, usedBy op = some i → originOf i tr = some n → ¬ ended n tr

structure SLive (p : SessProc) (tr : SessTrace) : Prop where
  live : ∀ (i n : Nat) (o : SessObj), originOf i tr = some n → ¬ ended n tr → p.objs[i]? = some o →
    p.look o.fd = some (.conn n)
  files : ∀ (k fd : Nat), p.files[k]? = some fd → p.shut.contains k = false → p.look fd = some (.file k)

theorem sess_live_step (m : Mem) (p p' : SessProc) (tr : SessTrace) (op : SessOp) (ret : SessRet) (h : SInv m p tr)
    (hl : SLive p tr) (hn : soundNext tr op) (hs : p.step m op = .ok p' ret) : SLive p' (tr ++ [(op, ret)]) := by
  have hne : ∀ n, ¬ ended n (tr ++ [(op, ret)]) → ¬ ended n tr := fun n h1 h2 => h1 (ended_mono n tr _ h2)
  have hnone : ∀ fd x, p.look fd = some x → fd ≠ SessProc.lowest p.fds := by
    intro fd x hx e
    subst e
    unfold SessProc.look at hx
    rw [look_lowest] at hx
    cases hx
  cases op with
  | connect t =>
    rw [connect_eq] at hs
    cases hr : registerSession m t with
    | ub => rw [hr] at hs; cases hs
    | throw t' e =>
      rw [hr] at hs
      cases hs
      have hlook : ∀ fd, ({ p with conns := p.conns ++ [t'], fds := (SessProc.give (.conn p.conns.length) p.fds).set (SessProc.lowest p.fds) none } : SessProc).look fd = p.look fd := by
        intro fd
        unfold SessProc.look
        rw [look_set_none, look_give]
        by_cases hf : fd = SessProc.lowest p.fds
        · rw [if_pos hf, hf, look_lowest]
        · rw [if_neg hf, if_neg hf]
      constructor
      · intro i n o hi he ho
        rw [originOf_snoc_other _ _ _ rfl] at hi
        rw [hlook]
        exact hl.live i n o hi (hne n he) ho
      · intro k fd hk hsh
        rw [hlook]
        exact hl.files k fd hk hsh
    | ok t' hd =>
      rw [hr] at hs
      cases hs
      have hlook : ∀ fd, ({ p with conns := p.conns ++ [t'], fds := SessProc.give (.conn p.conns.length) p.fds, objs := p.objs ++ [⟨SessProc.lowest p.fds, hd⟩] } : SessProc).look fd = if fd = SessProc.lowest p.fds then some (.conn p.conns.length) else p.look fd := by
        intro fd
        unfold SessProc.look
        exact look_give _ _ _
      constructor
      · intro i n o hi he ho
        rw [originOf_snoc_connect, h.len, h.made] at hi
        dsimp only at ho
        rw [hlook]
        split at hi
        · rename_i hi'
          cases hi
          subst hi'
          rw [List.getElem?_append_right (Nat.le_refl _)] at ho
          simp at ho
          subst ho
          rw [if_pos rfl]
        · rw [List.getElem?_append_left (originOf_lt h i n hi)] at ho
          have hx := hl.live i n o hi (hne n he) ho
          rw [if_neg (hnone _ _ hx)]
          exact hx
      · intro k fd hk hsh
        have hx := hl.files k fd hk hsh
        rw [hlook, if_neg (hnone _ _ hx)]
        exact hx
  | copy k =>
    simp only [SessProc.step] at hs
    cases hk : p.objs[k]? with
    | none => rw [hk] at hs; cases hs
    | some ok =>
      rw [hk] at hs
      dsimp only at hs
      split at hs
      · cases hs
      cases hs
      have hkl : k < p.objs.length := (List.getElem?_eq_some_iff.1 hk).1
      obtain ⟨nk, hnk⟩ := originOf_some h k hkl
      constructor
      · intro i n o hi he ho
        rw [originOf_snoc_copy, h.len, hnk] at hi
        dsimp only at ho
        split at hi
        · rename_i hi'
          cases hi
          subst hi'
          rw [List.getElem?_append_right (Nat.le_refl _)] at ho
          simp at ho
          subst ho
          exact hl.live k _ _ hnk (hne _ he) hk
        · rw [List.getElem?_append_left (originOf_lt h i n hi)] at ho
          exact hl.live i n o hi (hne n he) ho
      · exact hl.files
  | destroy k =>
    simp only [SessProc.step] at hs
    cases hk : p.objs[k]? with
    | none => rw [hk] at hs; cases hs
    | some o =>
      rw [hk] at hs
      dsimp only at hs
      split at hs
      · cases hs
      have hb := over_besides p o.fd (unregisterSession o.handle)
      cases hv : p.over o.fd (unregisterSession o.handle) with
      | ub => rw [hv] at hs; cases hs
      | throw p1 e => rw [hv] at hs; cases hs
      | ok p1 u =>
        rw [hv] at hs
        have hb := hb.1 p1 u hv
        dsimp only at hs
        cases hs
        have hlook : ∀ fd, ({ p1.close o.fd with gone := k :: p1.gone } : SessProc).look fd = if fd = o.fd then none else p.look fd := by
          intro fd
          rw [← look_besides hb]
          exact close_look p1 o.fd fd
        have hkl : k < p.objs.length := (List.getElem?_eq_some_iff.1 hk).1
        obtain ⟨nk, hnk⟩ := originOf_some h k hkl
        have hlk := hl.live k nk o hnk (hn k nk rfl hnk) hk
        constructor
        · intro i n o' hi he ho
          rw [originOf_snoc_other _ _ _ rfl] at hi
          have ho' : p.objs[i]? = some o' := by rw [← hb.2.1]; exact ho
          have hx := hl.live i n o' hi (hne n he) ho'
          have hnn : n ≠ nk := by
            intro e
            subst e
            exact he ⟨k, .unit, by simp, originOf_mono _ _ _ _ hnk⟩
          have hf : o'.fd ≠ o.fd := by
            intro e
            rw [e, hlk] at hx
            cases hx
            exact hnn rfl
          rw [hlook, if_neg hf]
          exact hx
        · intro j fd hj hsh
          have hj' : p.files[j]? = some fd := by rw [← hb.2.2.2.1]; exact hj
          have hsh' : p.shut.contains j = false := by rw [← hb.2.2.2.2.1]; exact hsh
          have hx := hl.files j fd hj' hsh'
          have hf : fd ≠ o.fd := by
            intro e
            rw [e, hlk] at hx
            cases hx
          rw [hlook, if_neg hf]
          exact hx
  | request k q =>
    simp only [SessProc.step] at hs
    cases hk : p.objs[k]? with
    | none => rw [hk] at hs; cases hs
    | some o =>
      rw [hk] at hs
      dsimp only at hs
      split at hs
      · cases hs
      have hb := over_besides p o.fd (sendAndReceive m o.handle q)
      have key : ∀ p1, besides p p1 → SLive p1 (tr ++ [(.request k q, ret)]) := by
        intro p1 hb
        constructor
        · intro i n o' hi he ho
          rw [originOf_snoc_other _ _ _ rfl] at hi
          rw [look_besides hb]
          exact hl.live i n o' hi (hne n he) (by rw [← hb.2.1]; exact ho)
        · intro j fd hj hsh
          rw [look_besides hb]
          exact hl.files j fd (by rw [← hb.2.2.2.1]; exact hj) (by rw [← hb.2.2.2.2.1]; exact hsh)
      cases hv : p.over o.fd (sendAndReceive m o.handle q) with
      | ub => rw [hv] at hs; cases hs
      | throw p1 e => rw [hv] at hs; cases hs; exact key _ (hb.2 _ _ hv)
      | ok p1 u => rw [hv] at hs; cases hs; exact key _ (hb.1 _ _ hv)
  | openFile =>
    simp only [SessProc.step] at hs
    cases hs
    have hlook : ∀ fd, ({ p with fds := SessProc.give (.file p.files.length) p.fds, files := p.files ++ [SessProc.lowest p.fds] } : SessProc).look fd = if fd = SessProc.lowest p.fds then some (.file p.files.length) else p.look fd := by
      intro fd
      unfold SessProc.look
      exact look_give _ _ _
    constructor
    · intro i n o hi he ho
      rw [originOf_snoc_other _ _ _ rfl] at hi
      have hx := hl.live i n o hi (hne n he) ho
      rw [hlook, if_neg (hnone _ _ hx)]
      exact hx
    · intro k fd hk hsh
      dsimp only at hk
      rw [hlook]
      by_cases hkl : k < p.files.length
      · rw [List.getElem?_append_left hkl] at hk
        have hx := hl.files k fd hk hsh
        rw [if_neg (hnone _ _ hx)]
        exact hx
      · have hke : k = p.files.length := by
          have := (List.getElem?_eq_some_iff.1 hk).1
          simp at this
          omega
        subst hke
        simp at hk
        subst hk
        rw [if_pos rfl]
  | closeFile k =>
    simp only [SessProc.step] at hs
    cases hk : p.files[k]? with
    | none => rw [hk] at hs; cases hs
    | some fd0 =>
      rw [hk] at hs
      dsimp only at hs
      split at hs
      · cases hs
      rename_i hnot
      cases hs
      have hx0 := hl.files k fd0 hk (by simpa using hnot)
      have hlook : ∀ fd, ({ p.close fd0 with shut := k :: p.shut } : SessProc).look fd = if fd = fd0 then none else p.look fd :=
        fun fd => close_look p fd0 fd
      constructor
      · intro i n o hi he ho
        rw [originOf_snoc_other _ _ _ rfl] at hi
        have hx := hl.live i n o hi (hne n he) ho
        have hf : o.fd ≠ fd0 := by
          intro e
          rw [e, hx0] at hx
          cases hx
        rw [hlook, if_neg hf]
        exact hx
      · intro j fd hj hsh
        simp only [List.contains_cons, Bool.or_eq_false_iff, beq_eq_false_iff_ne] at hsh
        have hx := hl.files j fd hj hsh.2
        have hf : fd ≠ fd0 := by
          intro e
          rw [e, hx0] at hx
          cases hx
          exact hsh.1 rfl
        rw [hlook, if_neg hf]
        exact hx

/-! ## Histories -/

theorem sess_run_cons {m : Mem} {p p' : SessProc} {op : SessOp} {ops : List SessOp} {tr : SessTrace}
    (h : p.run m (op :: ops) = some (p', tr)) :
    ∃ p1 ret tr', p.step m op = .ok p1 ret ∧ p1.run m ops = some (p', tr') ∧ tr = (op, ret) :: tr' := by
  simp only [SessProc.run] at h
  cases hs : p.step m op with
  | ok p1 ret =>
    rw [hs] at h
    dsimp only at h
    cases hr : p1.run m ops with
    | none => rw [hr] at h; cases h
    | some r =>
      rw [hr] at h
      cases h
      exact ⟨p1, ret, r.2, rfl, hr, rfl⟩
  | aborted p1 => rw [hs] at h; cases h
  | ub => rw [hs] at h; cases h
  | noSuch => rw [hs] at h; cases h

theorem sess_inv_run (m : Mem) (ops : List SessOp) (p p' : SessProc) (tr0 tr : SessTrace) (h : SInv m p tr0)
    (hr : p.run m ops = some (p', tr)) : SInv m p' (tr0 ++ tr) := by
  induction ops generalizing p tr0 tr with
  | nil => cases hr; rw [List.append_nil]; exact h
  | cons op ops ih =>
    obtain ⟨p1, ret, tr', h1, h2, rfl⟩ := sess_run_cons hr
    have := ih p1 (tr0 ++ [(op, ret)]) tr' (sess_inv_step m p p1 tr0 op ret h h1) h2
    rw [List.append_assoc] at this
    exact this

theorem sess_inv_start (m : Mem) : SInv m {} [] := by
  refine ⟨rfl, rfl, rfl, ?_, ?_, ?_, ?_, ?_, ?_, ?_, ?_⟩
  · intro i n h; simp [originOf] at h
  · intro i j n o o' h; simp [originOf] at h
  · intro fd n h; simp [SessProc.look] at h
  · intro n h fd hl; simp [SessProc.look] at hl
  · intro i r h; cases h
  · intro i h; simp at h
  · intro i n o h; simp [originOf] at h
  · intro op r h; cases h

theorem sess_live_run (m : Mem) (ops : List SessOp) (p p' : SessProc) (tr0 tr : SessTrace) (h : SInv m p tr0)
    (hl : SLive p tr0) (hu : usedSoundly (tr0 ++ tr)) (hr : p.run m ops = some (p', tr)) : SLive p' (tr0 ++ tr) := by
  induction ops generalizing p tr0 tr with
  | nil => cases hr; rw [List.append_nil]; exact hl
  | cons op ops ih =>
    obtain ⟨p1, ret, tr', h1, h2, rfl⟩ := sess_run_cons hr
    have hn : soundNext tr0 op := fun i n hi ho => hu tr0 op ret tr' rfl i n hi ho
    have := ih p1 (tr0 ++ [(op, ret)]) tr' (sess_inv_step m p p1 tr0 op ret h h1) (sess_live_step m p p1 tr0 op ret h hl hn h1)
      (by rw [List.append_assoc]; exact hu) h2
    rw [List.append_assoc] at this
    exact this

theorem sess_live_start : SLive {} [] :=
  ⟨by intro i n o h; simp [originOf] at h, by intro k fd h; simp at h⟩

/-! ## What is sent -/

theorem sar_writes (m : Mem) (handle : BitVec 32) (q : EncapsPacket) (hq : q.pack.length < 2 ^ 63) (s : Tcp) (hs : s.sends = []) :
    (∀ s' a, sendAndReceive m handle q s = .ok s' a → s'.sends = [] ∧ s'.sent = s.sent ++ [q.pack]) ∧
    (∀ s' e, sendAndReceive m handle q s = .throw s' e → s'.sends = [] ∧ s'.sent = s.sent ++ [q.pack]) := by
  have heq : sendAndReceive m handle q s = sarRest m handle { s with sent := s.sent ++ [q.pack] } := by
    rw [sar_eq, Prog.bind_run, send_all s _ hs hq]
  have hx := silent_sarRest m handle { s with sent := s.sent ++ [q.pack] }
  rw [heq]
  constructor
  · intro s' a h
    have := (hx s').1 a h
    exact ⟨this.2.trans hs, this.1⟩
  · intro s' e h
    have := (hx s').2 e h
    exact ⟨this.2.trans hs, this.1⟩

theorem register_writes (m : Mem) (s : Tcp) (hs : s.sends = []) (s' : Tcp) (h : BitVec 32)
    (hr : registerSession m s = .ok s' h) : s'.sends = [] ∧ s'.sent = s.sent ++ [registerFrame] := by
  have hp : EncapsPacketFactory.registerSession.pack = registerFrame := C10_registerSession
  have hw := sar_writes m 0#32 EncapsPacketFactory.registerSession (by rw [hp]; decide) s hs
  rw [hp] at hw
  unfold registerSession at hr
  rw [Prog.bind_run] at hr
  cases hx : sendAndReceive m 0#32 EncapsPacketFactory.registerSession s with
  | ub => rw [hx] at hr; cases hr
  | throw t e => rw [hx] at hr; cases hr
  | ok t q =>
    rw [hx] at hr
    dsimp only at hr
    have hw := hw.1 t q hx
    split at hr
    · cases hr
    · cases hr
      exact hw

theorem unregisterFrame_short (h : BitVec 32) : (unregisterFrame h).length < 2 ^ 63 := by
  simp [unregisterFrame, encapsFrame]

theorem unregister_writes (h : BitVec 32) (s : Tcp) (hs : s.sends = []) :
    unregisterSession h s = .ok { s with sent := s.sent ++ [unregisterFrame h] } () := by
  have hp : (EncapsPacketFactory.unRegisterSession h).pack = unregisterFrame h := C10_unRegisterSession h
  unfold unregisterSession
  rw [hp, send_all s _ hs (unregisterFrame_short h)]

theorem sendsOn_snoc {m : Mem} {p : SessProc} {tr : SessTrace} (h : SInv m p tr) (n : Nat) (hd : BitVec 32)
    (e : SessOp × SessRet) :
    (tr.flatMap fun x => sendsOn n hd (tr ++ [e]) x.1) = tr.flatMap fun x => sendsOn n hd tr x.1 := by
  have key : ∀ x ∈ tr, sendsOn n hd (tr ++ [e]) x.1 = sendsOn n hd tr x.1 := by
    intro x hx
    obtain ⟨op, ret⟩ := x
    have hsame : ∀ i, usedBy op = some i → originOf i (tr ++ [e]) = originOf i tr := by
      intro i hi
      obtain ⟨k, hk⟩ := originOf_some h i (h.uses op ret hx i hi)
      rw [hk]
      exact originOf_mono i k tr e hk
    cases op with
    | request i q => simp only [sendsOn, hsame i rfl]
    | destroy i => simp only [sendsOn, hsame i rfl]
    | connect t => rfl
    | copy i => rfl
    | openFile => rfl
    | closeFile k => rfl
  rw [List.flatMap_def, List.flatMap_def, List.map_congr_left key]

/-- What was sent on a connection. -/
def SWire (p : SessProc) (tr : SessTrace) : Prop :=
  ∀ (i n : Nat) (o : SessObj) (t0 t : Tcp), originOf i tr = some n → p.objs[i]? = some o →
    (connectsOf tr)[n]? = some t0 → t0.sends = [] → p.conns[n]? = some t →
    t.sends = [] ∧ t.sent = t0.sent ++ registerFrame :: tr.flatMap fun x => sendsOn n o.handle tr x.1

theorem sess_wire_plain {m : Mem} {p p' : SessProc} {tr : SessTrace} (h : SInv m p tr) (hw : SWire p tr) (op : SessOp)
    (ret : SessRet) (hp : plainOp op = true) (hobjs : p'.objs = p.objs)
    (hc : ∀ (i n : Nat) (o : SessObj) (t t' : Tcp), originOf i tr = some n → p.objs[i]? = some o → p.conns[n]? = some t →
      p'.conns[n]? = some t' → t.sends = [] → t'.sends = [] ∧ t'.sent = t.sent ++ sendsOn n o.handle tr op) :
    SWire p' (tr ++ [(op, ret)]) := by
  intro i n o t0 t' hi ho h0 hs ht'
  have hoo : ∀ i, originOf i (tr ++ [(op, ret)]) = originOf i tr := fun i =>
    originOf_snoc_other i tr _ (plain_makes op ret hp)
  rw [hoo] at hi
  rw [hobjs] at ho
  rw [connects_plain _ _ _ hp] at h0
  have ht := List.getElem?_eq_getElem (h.lt i n hi)
  obtain ⟨a, b⟩ := hw i n o t0 _ hi ho h0 hs ht
  obtain ⟨c, d⟩ := hc i n o _ t' hi ho ht ht' a
  refine ⟨c, ?_⟩
  rw [d, b, List.flatMap_append, sendsOn_snoc h]
  have hlast : sendsOn n o.handle (tr ++ [(op, ret)]) op = sendsOn n o.handle tr op := by
    cases op <;> simp only [sendsOn, hoo]
  simp [hlast]

theorem sess_wire_step (m : Mem) (p p' : SessProc) (tr : SessTrace) (op : SessOp) (ret : SessRet) (h : SInv m p tr)
    (hl : SLive p tr) (hw : SWire p tr) (hn : soundNext tr op)
    (hfit : ∀ i q, op = .request i q → q.pack.length < 2 ^ 63) (hs : p.step m op = .ok p' ret) :
    SWire p' (tr ++ [(op, ret)]) := by
  cases op with
  | connect t =>
    rw [connect_eq] at hs
    cases hr : registerSession m t with
    | ub => rw [hr] at hs; cases hs
    | throw t' e =>
      rw [hr] at hs
      cases hs
      intro i n o t0 u hi ho h0 hsn hu
      rw [originOf_snoc_other _ _ _ rfl] at hi
      dsimp only at ho hu
      have hlt := h.lt i n hi
      rw [connects_snoc, List.getElem?_append_left (by rw [h.cons]; exact hlt)] at h0
      rw [List.getElem?_append_left hlt] at hu
      obtain ⟨a, b⟩ := hw i n o t0 u hi ho h0 hsn hu
      refine ⟨a, ?_⟩
      rw [b, List.flatMap_append, sendsOn_snoc h]
      simp [sendsOn]
    | ok t' hd =>
      rw [hr] at hs
      cases hs
      intro i n o t0 u hi ho h0 hsn hu
      rw [originOf_snoc_connect, h.len, h.made] at hi
      dsimp only at ho hu
      rw [List.flatMap_append, sendsOn_snoc h]
      split at hi
      · rename_i hi'
        cases hi
        subst hi'
        rw [connects_snoc, ← h.cons] at h0
        simp at h0
        subst h0
        simp at hu
        subst hu
        obtain ⟨a, b⟩ := register_writes m t hsn t' hd hr
        refine ⟨a, ?_⟩
        rw [b]
        have hnil : (tr.flatMap fun x => sendsOn p.conns.length o.handle tr x.1) = [] := by
          rw [List.flatMap_eq_nil_iff]
          intro x hx
          have hno : ∀ i, originOf i tr ≠ some p.conns.length := fun i e => by
            have := h.lt i _ e
            omega
          obtain ⟨op, r⟩ := x
          cases op with
          | request i q => simp only [sendsOn, if_neg (hno i)]
          | destroy i => simp only [sendsOn, if_neg (hno i)]
          | connect t => rfl
          | copy i => rfl
          | openFile => rfl
          | closeFile k => rfl
        rw [hnil]
        simp [sendsOn]
      · have hlt := h.lt i n hi
        rw [List.getElem?_append_left (originOf_lt h i n hi)] at ho
        rw [connects_snoc, List.getElem?_append_left (by rw [h.cons]; exact hlt)] at h0
        rw [List.getElem?_append_left hlt] at hu
        obtain ⟨a, b⟩ := hw i n o t0 u hi ho h0 hsn hu
        refine ⟨a, ?_⟩
        rw [b]
        simp [sendsOn]
  | copy k =>
    simp only [SessProc.step] at hs
    cases hk : p.objs[k]? with
    | none => rw [hk] at hs; cases hs
    | some ok =>
      rw [hk] at hs
      dsimp only at hs
      split at hs
      · cases hs
      cases hs
      have hkl : k < p.objs.length := (List.getElem?_eq_some_iff.1 hk).1
      obtain ⟨nk, hnk⟩ := originOf_some h k hkl
      intro i n o t0 u hi ho h0 hsn hu
      rw [originOf_snoc_copy, h.len, hnk] at hi
      dsimp only at ho hu
      have hcn : connectsOf (tr ++ [(.copy k, .unit)]) = connectsOf tr := by
        unfold connectsOf; rw [List.filterMap_append]; simp
      rw [hcn] at h0
      rw [List.flatMap_append, sendsOn_snoc h]
      have key : ∃ j, originOf j tr = some n ∧ p.objs[j]? = some o := by
        split at hi
        · rename_i hi'
          cases hi
          subst hi'
          rw [List.getElem?_append_right (Nat.le_refl _)] at ho
          simp at ho
          subst ho
          exact ⟨k, hnk, hk⟩
        · rw [List.getElem?_append_left (originOf_lt h i n hi)] at ho
          exact ⟨i, hi, ho⟩
      obtain ⟨j, hj, hoj⟩ := key
      obtain ⟨a, b⟩ := hw j n o t0 u hj hoj h0 hsn hu
      refine ⟨a, ?_⟩
      rw [b]
      simp [sendsOn]
  | destroy k =>
    simp only [SessProc.step] at hs
    cases hk : p.objs[k]? with
    | none => rw [hk] at hs; cases hs
    | some o =>
      rw [hk] at hs
      dsimp only at hs
      split at hs
      · cases hs
      have hkl : k < p.objs.length := (List.getElem?_eq_some_iff.1 hk).1
      obtain ⟨nk, hnk⟩ := originOf_some h k hkl
      have hlk := hl.live k nk o hnk (hn k nk rfl hnk) hk
      have htk := List.getElem?_eq_getElem (h.lt k nk hnk)
      have hb := over_besides p o.fd (unregisterSession o.handle)
      have hov := over_conn p o.fd nk _ (unregisterSession o.handle) hlk htk
      cases hv : p.over o.fd (unregisterSession o.handle) with
      | ub => rw [hv] at hs; cases hs
      | throw p1 e => rw [hv] at hs; cases hs
      | ok p1 u =>
        rw [hv] at hs
        have hb := hb.1 p1 u hv
        dsimp only at hs
        cases hs
        refine sess_wire_plain h hw (.destroy k) .unit rfl hb.2.1 ?_
        intro i n o' t t' hi ho ht ht' hsn
        change p1.conns[n]? = some t' at ht'
        by_cases hnn : n = nk
        · subst hnn
          have hoo := h.same i k n o' o hi hnk ho hk
          subst hoo
          rw [ht] at htk
          cases htk
          rw [hov] at hv
          unfold onConn at hv
          rw [unregister_writes o'.handle _ hsn] at hv
          cases hv
          simp only [List.getElem?_set, h.lt i n hi] at ht'
          simp only [if_true, Option.some.injEq] at ht'
          subst ht'
          simp only [sendsOn, if_pos hnk]
          exact ⟨hsn, trivial⟩
        · have hne : p.look o.fd ≠ some (.conn n) := by
            rw [hlk]
            intro e
            cases e
            exact hnn rfl
          have := (over_others p o.fd (unregisterSession o.handle) n hne).1 p1 u hv
          rw [this, ht] at ht'
          cases ht'
          have hno : originOf k tr ≠ some n := by
            rw [hnk]
            intro e
            cases e
            exact hnn rfl
          simp only [sendsOn, if_neg hno, List.append_nil]
          exact ⟨hsn, trivial⟩
  | request k q =>
    simp only [SessProc.step] at hs
    cases hk : p.objs[k]? with
    | none => rw [hk] at hs; cases hs
    | some o =>
      rw [hk] at hs
      dsimp only at hs
      split at hs
      · cases hs
      have hkl : k < p.objs.length := (List.getElem?_eq_some_iff.1 hk).1
      obtain ⟨nk, hnk⟩ := originOf_some h k hkl
      have hlk := hl.live k nk o hnk (hn k nk rfl hnk) hk
      have htk := List.getElem?_eq_getElem (h.lt k nk hnk)
      have hb := over_besides p o.fd (sendAndReceive m o.handle q)
      have hov := over_conn p o.fd nk _ (sendAndReceive m o.handle q) hlk htk
      have hot : ∀ n, n ≠ nk → originOf k tr ≠ some n := by
        intro n hnn e
        rw [hnk] at e
        cases e
        exact hnn rfl
      have hne : ∀ n, n ≠ nk → p.look o.fd ≠ some (.conn n) := by
        intro n hnn e
        rw [hlk] at e
        cases e
        exact hnn rfl
      have key : ∀ p1, besides p p1 → (∀ n, n ≠ nk → p1.conns[n]? = p.conns[n]?) →
          (∀ t t', p.conns[nk]? = some t → p1.conns[nk]? = some t' → t.sends = [] → t'.sends = [] ∧ t'.sent = t.sent ++ [q.pack]) →
          SWire p1 (tr ++ [(.request k q, ret)]) := by
        intro p1 hb ho1 ho2
        refine sess_wire_plain h hw (.request k q) ret rfl hb.2.1 ?_
        intro i n o' t t' hi ho ht ht' hsn
        by_cases hnn : n = nk
        · subst hnn
          simp only [sendsOn, if_pos hnk]
          exact ho2 t t' ht ht' hsn
        · rw [ho1 n hnn, ht] at ht'
          cases ht'
          simp only [sendsOn, if_neg (hot n hnn), List.append_nil]
          exact ⟨hsn, trivial⟩
      have hwr := sar_writes m o.handle q (hfit k q rfl)
      cases hv : p.over o.fd (sendAndReceive m o.handle q) with
      | ub => rw [hv] at hs; cases hs
      | throw p1 e =>
        rw [hv] at hs; cases hs
        refine key _ (hb.2 _ _ hv) (fun n hnn => (over_others p o.fd _ n (hne n hnn)).2 _ _ hv) ?_
        intro t t' ht ht' hsn
        rw [over_conn p o.fd nk t _ hlk ht] at hv
        unfold onConn at hv
        cases hx : sendAndReceive m o.handle q t with
        | ub => rw [hx] at hv; cases hv
        | ok s a => rw [hx] at hv; cases hv
        | throw s a =>
          rw [hx] at hv
          cases hv
          simp only [List.getElem?_set, h.lt k nk hnk] at ht'
          simp only [if_true, Option.some.injEq] at ht'
          subst ht'
          exact (hwr _ hsn).2 _ _ hx
      | ok p1 u =>
        rw [hv] at hs; cases hs
        refine key _ (hb.1 _ _ hv) (fun n hnn => (over_others p o.fd _ n (hne n hnn)).1 _ _ hv) ?_
        intro t t' ht ht' hsn
        rw [over_conn p o.fd nk t _ hlk ht] at hv
        unfold onConn at hv
        cases hx : sendAndReceive m o.handle q t with
        | ub => rw [hx] at hv; cases hv
        | throw s a => rw [hx] at hv; cases hv
        | ok s a =>
          rw [hx] at hv
          cases hv
          simp only [List.getElem?_set, h.lt k nk hnk] at ht'
          simp only [if_true, Option.some.injEq] at ht'
          subst ht'
          exact (hwr _ hsn).1 _ _ hx
  | openFile =>
    simp only [SessProc.step] at hs
    cases hs
    refine sess_wire_plain h hw .openFile .unit rfl rfl ?_
    intro i n o t t' hi ho ht ht' hsn
    rw [show p.conns[n]? = some t' from ht'] at ht
    cases ht
    simp [sendsOn, hsn]
  | closeFile k =>
    simp only [SessProc.step] at hs
    cases hk : p.files[k]? with
    | none => rw [hk] at hs; cases hs
    | some fd0 =>
      rw [hk] at hs
      dsimp only at hs
      split at hs
      · cases hs
      cases hs
      refine sess_wire_plain h hw (.closeFile k) .unit rfl rfl ?_
      intro i n o t t' hi ho ht ht' hsn
      rw [show p.conns[n]? = some t' from ht'] at ht
      cases ht
      simp [sendsOn, hsn]

theorem sess_wire_run (m : Mem) (ops : List SessOp) (p p' : SessProc) (tr0 tr : SessTrace) (h : SInv m p tr0)
    (hl : SLive p tr0) (hw : SWire p tr0) (hu : usedSoundly (tr0 ++ tr)) (hfit : packetsFit tr)
    (hr : p.run m ops = some (p', tr)) : SWire p' (tr0 ++ tr) := by
  induction ops generalizing p tr0 tr with
  | nil => cases hr; rw [List.append_nil]; exact hw
  | cons op ops ih =>
    obtain ⟨p1, ret, tr', h1, h2, rfl⟩ := sess_run_cons hr
    have hn : soundNext tr0 op := fun i n hi ho => hu tr0 op ret tr' rfl i n hi ho
    have := ih p1 (tr0 ++ [(op, ret)]) tr' (sess_inv_step m p p1 tr0 op ret h h1) (sess_live_step m p p1 tr0 op ret h hl hn h1)
      (sess_wire_step m p p1 tr0 op ret h hl hw hn (fun i q e => hfit i q ret (by rw [e]; simp)) h1)
      (by rw [List.append_assoc]; exact hu) (fun i q r hm => hfit i q r (by simp [hm])) h2
    rw [List.append_assoc] at this
    exact this

/-! ## The theorems -/

/-- C115. As long as no object of a connection was destroyed and then another one of it used: a session and its copies are
the same session.  A request by any object of a connection of which none was destroyed is exactly a request with the handle
that was registered, on that connection; no other connection is touched. -/
theorem C115_own (m : Mem) (ops : List SessOp) (p : SessProc) (tr : SessTrace) (hr : SessProc.run m {} ops = some (p, tr))
    (hu : usedSoundly tr) (i n : Nat) (hi : originOf i tr = some n) (hn : ¬ ended n tr) (packet : EncapsPacket) :
    ∃ t0 t1 handle t, (connectsOf tr)[n]? = some t0 ∧ registerSession m t0 = .ok t1 handle ∧ p.conns[n]? = some t ∧
      p.step m (.request i packet) = match sendAndReceive m handle packet t with
        | .ok t' reply => .ok { p with conns := p.conns.set n t' } (.packet reply)
        | .throw t' e => .ok { p with conns := p.conns.set n t' } (.threw e)
        | .ub => .ub := by
  have h := sess_inv_run m ops {} p [] tr (sess_inv_start m) hr
  have hl := sess_live_run m ops {} p [] tr (sess_inv_start m) sess_live_start hu hr
  rw [List.nil_append] at h hl
  have ho := List.getElem?_eq_getElem (originOf_lt h i n hi)
  have ht := List.getElem?_eq_getElem (h.lt i n hi)
  obtain ⟨t0, t1, h0, hreg⟩ := h.handle i n _ hi ho
  refine ⟨t0, t1, _, _, h0, hreg, ht, ?_⟩
  have hg : ¬ p.gone.contains i = true := by
    intro hg
    obtain ⟨r, hm⟩ := h.gone' i hg
    exact hn ⟨i, r, hm, hi⟩
  simp only [SessProc.step]
  rw [ho]
  dsimp only
  rw [if_neg hg, over_conn p _ n _ _ (hl.live i n _ hi hn ho) ht]
  unfold onConn
  cases sendAndReceive m _ packet _ <;> rfl

/-- C115. Under the same condition, if the network takes all bytes: what is sent on a connection is the registration, and
then, in order, the packets of the requests of all objects of that connection, and the end of the session when one of them
is destroyed; nothing of other sessions. -/
theorem C115_wire (m : Mem) (ops : List SessOp) (p : SessProc) (tr : SessTrace) (hr : SessProc.run m {} ops = some (p, tr))
    (hu : usedSoundly tr) (hfit : packetsFit tr) (i n : Nat) (hi : originOf i tr = some n) (t0 t1 : Tcp) (handle : BitVec 32)
    (h0 : (connectsOf tr)[n]? = some t0) (hs : t0.sends = []) (hreg : registerSession m t0 = .ok t1 handle) :
    ∃ t, p.conns[n]? = some t ∧ t.sent = t0.sent ++ registerFrame :: tr.flatMap fun x => sendsOn n handle tr x.1 := by
  have h := sess_inv_run m ops {} p [] tr (sess_inv_start m) hr
  have hw := sess_wire_run m ops {} p [] tr (sess_inv_start m) sess_live_start
    (by intro i n o t0 t h; simp [originOf] at h) hu hfit hr
  rw [List.nil_append] at h hw
  have ho := List.getElem?_eq_getElem (originOf_lt h i n hi)
  have ht := List.getElem?_eq_getElem (h.lt i n hi)
  obtain ⟨a, b, h0', hreg'⟩ := h.handle i n _ hi ho
  rw [h0] at h0'
  cases h0'
  rw [hreg] at hreg'
  cases hreg'
  exact ⟨_, ht, (hw i n _ t0 _ hi ho h0 hs ht).2⟩

/-- C115. Under the same condition, destroying an object of a connection of which none was destroyed ends the session with
its handle on that connection and closes the descriptor of that connection, and no other descriptor of the process. -/
theorem C115_destroy (m : Mem) (ops : List SessOp) (p : SessProc) (tr : SessTrace) (hr : SessProc.run m {} ops = some (p, tr))
    (hu : usedSoundly tr) (i n : Nat) (hi : originOf i tr = some n) (hn : ¬ ended n tr) :
    ∃ t0 t1 handle t fd, (connectsOf tr)[n]? = some t0 ∧ registerSession m t0 = .ok t1 handle ∧ p.conns[n]? = some t ∧
      p.look fd = some (.conn n) ∧ (t.sends = [] → ∃ p', p.step m (.destroy i) = .ok p' .unit ∧
        p'.conns = p.conns.set n { t with sent := t.sent ++ [unregisterFrame handle] } ∧ p'.look fd = none ∧
        ∀ fd', fd' ≠ fd → p'.look fd' = p.look fd') := by
  have h := sess_inv_run m ops {} p [] tr (sess_inv_start m) hr
  have hl := sess_live_run m ops {} p [] tr (sess_inv_start m) sess_live_start hu hr
  rw [List.nil_append] at h hl
  have ho := List.getElem?_eq_getElem (originOf_lt h i n hi)
  have ht := List.getElem?_eq_getElem (h.lt i n hi)
  obtain ⟨t0, t1, h0, hreg⟩ := h.handle i n _ hi ho
  have hlk := hl.live i n _ hi hn ho
  refine ⟨t0, t1, _, _, _, h0, hreg, ht, hlk, fun hs => ?_⟩
  have hg : ¬ p.gone.contains i = true := by
    intro hg
    obtain ⟨r, hm⟩ := h.gone' i hg
    exact hn ⟨i, r, hm, hi⟩
  simp only [SessProc.step]
  rw [ho]
  dsimp only
  rw [if_neg hg, over_conn p _ n _ _ hlk ht]
  unfold onConn
  rw [unregister_writes _ _ hs]
  refine ⟨_, rfl, rfl, ?_, fun fd' hne => ?_⟩
  · exact (close_look _ _ _).trans (if_pos rfl)
  · exact (close_look _ _ _).trans (if_neg hne)

/-! ## When an object is used after another one of its connection was destroyed -/

theorem noSocket_sar (m : Mem) (handle : BitVec 32) (packet : EncapsPacket) (code : Int) (hp : packet.pack.length < 2 ^ 63) :
    ∃ s, sendAndReceive m handle packet (SessProc.noSocket code) = .throw s (.system code) := by
  have hsend : Tcp.send packet.pack (SessProc.noSocket code) = .ok { net := [.err code], sends := [], sent := [[]] } () := by
    unfold Tcp.send SessProc.noSocket
    simp
    omega
  refine ⟨{ net := [], sends := [], sent := [[]] }, ?_⟩
  rw [sar_eq, Prog.bind_run, hsend]
  rfl

theorem noSocket_unregister (handle : BitVec 32) (code : Int) :
    ∃ s, unregisterSession handle (SessProc.noSocket code) = .ok s () := by
  have hp : (EncapsPacketFactory.unRegisterSession handle).pack = unregisterFrame handle := C10_unRegisterSession handle
  refine ⟨{ net := [.err code], sends := [], sent := [[]] }, ?_⟩
  unfold unregisterSession Tcp.send SessProc.noSocket
  rw [hp]
  have : ¬ 18446744073709551615 < (unregisterFrame handle).length := by
    have := unregisterFrame_short handle
    omega
  simp [this]

/-- C115. What the code does otherwise, in any history: after one object of a connection was destroyed, no request of another
one reaches that connection.  It fails with `EBADF`, or with `ENOTSOCK` when the number now is that of a file, or else it is
sent, with the old handle, on the connection of another session. -/
theorem C115_stale_violated (m : Mem) (ops : List SessOp) (p : SessProc) (tr : SessTrace)
    (hr : SessProc.run m {} ops = some (p, tr)) (j n : Nat) (hj : originOf j tr = some n) (hn : ended n tr)
    (hg : ∀ ret, (SessOp.destroy j, ret) ∉ tr) (packet : EncapsPacket) (hp : packet.pack.length < 2 ^ 63) :
    p.step m (.request j packet) = .ok p (.threw (.system 9)) ∨
    p.step m (.request j packet) = .ok p (.threw (.system 88)) ∨
    ∃ t0 t1 handle k t, (connectsOf tr)[n]? = some t0 ∧ registerSession m t0 = .ok t1 handle ∧ k ≠ n ∧ ¬ ended k tr ∧
      p.conns[k]? = some t ∧ p.step m (.request j packet) = match sendAndReceive m handle packet t with
        | .ok t' reply => .ok { p with conns := p.conns.set k t' } (.packet reply)
        | .throw t' e => .ok { p with conns := p.conns.set k t' } (.threw e)
        | .ub => .ub := by
  have h := sess_inv_run m ops {} p [] tr (sess_inv_start m) hr
  rw [List.nil_append] at h
  have ho := List.getElem?_eq_getElem (originOf_lt h j n hj)
  generalize p.objs[j]'(originOf_lt h j n hj) = o at ho
  have hg : ¬ p.gone.contains j = true := by
    intro hc
    obtain ⟨r, hm⟩ := h.gone' j hc
    exact hg r hm
  obtain ⟨t0, t1, h0, hreg⟩ := h.handle j n o hj ho
  have hstep : p.step m (.request j packet) = match p.over o.fd (sendAndReceive m o.handle packet) with
      | .ok p1 r => .ok p1 (.packet r)
      | .throw p1 e => .ok p1 (.threw e)
      | .ub => .ub := by
    simp only [SessProc.step]
    rw [ho]
    dsimp only
    rw [if_neg hg]
    cases p.over o.fd (sendAndReceive m o.handle packet) <;> rfl
  cases hlk : p.look o.fd with
  | none =>
    left
    obtain ⟨s, hs⟩ := noSocket_sar m o.handle packet SessProc.ebadf hp
    have : p.over o.fd (sendAndReceive m o.handle packet) = .throw p (.system 9) := by
      unfold SessProc.over
      rw [hlk]
      dsimp only
      rw [hs]
      rfl
    rw [hstep, this]
  | some x =>
    cases x with
    | file k =>
      right; left
      obtain ⟨s, hs⟩ := noSocket_sar m o.handle packet SessProc.enotsock hp
      have : p.over o.fd (sendAndReceive m o.handle packet) = .throw p (.system 88) := by
        unfold SessProc.over
        rw [hlk]
        dsimp only
        rw [hs]
        rfl
      rw [hstep, this]
    | conn k =>
      right; right
      have hk : ∀ c, ended c tr → k ≠ c := by
        intro c hc e
        subst e
        exact h.shut _ hc o.fd hlk
      obtain ⟨i', o', a, _, _⟩ := h.held o.fd k hlk
      have ht := List.getElem?_eq_getElem (h.lt i' k a)
      refine ⟨t0, t1, o.handle, k, _, h0, hreg, hk n hn, fun hc => hk k hc rfl, ht, ?_⟩
      rw [hstep, over_conn p o.fd k _ _ hlk ht]
      unfold onConn
      cases sendAndReceive m o.handle packet _ <;> rfl

/-- C115. In particular right after: a session is copied, the copy or the original is destroyed, as by a `vector` of sessions
that grows; the next request of the other one throws `EBADF`, and nothing is sent. -/
theorem C115_vector_violated (m : Mem) (ops : List SessOp) (p p' : SessProc) (tr : SessTrace)
    (hr : SessProc.run m {} ops = some (p, tr)) (i j n : Nat) (hij : i ≠ j) (hi : originOf i tr = some n)
    (hj : originOf j tr = some n) (hg : ∀ ret, (SessOp.destroy j, ret) ∉ tr) (hd : p.step m (.destroy i) = .ok p' .unit)
    (packet : EncapsPacket) (hp : packet.pack.length < 2 ^ 63) :
    p'.step m (.request j packet) = .ok p' (.threw (.system 9)) := by
  have h := sess_inv_run m ops {} p [] tr (sess_inv_start m) hr
  rw [List.nil_append] at h
  have hoi := List.getElem?_eq_getElem (originOf_lt h i n hi)
  have hoj := List.getElem?_eq_getElem (originOf_lt h j n hj)
  generalize p.objs[i]'(originOf_lt h i n hi) = o at hoi
  generalize p.objs[j]'(originOf_lt h j n hj) = o' at hoj
  have hs := h.same i j n o o' hi hj hoi hoj
  subst hs
  have hg : ¬ p.gone.contains j = true := by
    intro hc
    obtain ⟨r, hm⟩ := h.gone' j hc
    exact hg r hm
  simp only [SessProc.step] at hd
  rw [hoi] at hd
  dsimp only at hd
  split at hd
  · cases hd
  have hb := over_besides p o.fd (unregisterSession o.handle)
  cases hv : p.over o.fd (unregisterSession o.handle) with
  | ub => rw [hv] at hd; cases hd
  | throw p1 e => rw [hv] at hd; cases hd
  | ok p1 u =>
    rw [hv] at hd
    have hb := hb.1 p1 u hv
    dsimp only at hd
    cases hd
    have hlook : ({ p1.close o.fd with gone := i :: p1.gone } : SessProc).look o.fd = none :=
      (close_look p1 o.fd o.fd).trans (if_pos rfl)
    have hg' : ¬ ({ p1.close o.fd with gone := i :: p1.gone } : SessProc).gone.contains j = true := by
      rw [show ({ p1.close o.fd with gone := i :: p1.gone } : SessProc).gone = i :: p1.gone from rfl, hb.2.2.1]
      simp only [List.contains_cons, Bool.or_eq_true, beq_iff_eq, not_or]
      exact ⟨fun e => hij e.symm, hg⟩
    have ho' : ({ p1.close o.fd with gone := i :: p1.gone } : SessProc).objs[j]? = some o := by
      rw [show ({ p1.close o.fd with gone := i :: p1.gone } : SessProc).objs = p1.objs from rfl, hb.2.1]
      exact hoj
    generalize ({ p1.close o.fd with gone := i :: p1.gone } : SessProc) = q at hlook hg' ho'
    obtain ⟨s, hs⟩ := noSocket_sar m o.handle packet SessProc.ebadf hp
    have : q.over o.fd (sendAndReceive m o.handle packet) = .throw q (.system 9) := by
      unfold SessProc.over
      rw [hlook]
      dsimp only
      rw [hs]
      rfl
    simp only [SessProc.step]
    rw [ho']
    dsimp only
    rw [if_neg hg', this]

/-- C115. And later: after the original was destroyed, the next session that is constructed gets its descriptor, if all lower
ones are open.  The requests of the copy then go, with the old handle, to the new device; destroying the copy sends the new
device the end of a session with the old handle and closes the new connection: the new session, of which no object was
destroyed, then throws `EBADF` at every request. -/
theorem C115_next_violated (m : Mem) (ops : List SessOp) (p p1 : SessProc) (tr : SessTrace)
    (hr : SessProc.run m {} ops = some (p, tr)) (i j n : Nat) (hij : i ≠ j) (hi : originOf i tr = some n)
    (hj : originOf j tr = some n) (hg : ∀ ret, (SessOp.destroy j, ret) ∉ tr) (hd : p.step m (.destroy i) = .ok p1 .unit)
    (hopen : ∀ o, p.objs[i]? = some o → ∀ fd, fd < o.fd → p1.look fd ≠ none)
    (t t' : Tcp) (handle' : BitVec 32) (hc : registerSession m t = .ok t' handle') (hs : t'.sends = []) :
    ∃ t0 t1 handle p2 p3, (connectsOf tr)[n]? = some t0 ∧ registerSession m t0 = .ok t1 handle ∧
      p1.step m (.connect t) = .ok p2 .unit ∧ p2.conns = p1.conns ++ [t'] ∧
      (∀ packet : EncapsPacket, p2.step m (.request j packet) = match sendAndReceive m handle packet t' with
        | .ok t'' reply => .ok { p2 with conns := p1.conns ++ [t''] } (.packet reply)
        | .throw t'' e => .ok { p2 with conns := p1.conns ++ [t''] } (.threw e)
        | .ub => .ub) ∧
      p2.step m (.destroy j) = .ok p3 .unit ∧
      p3.conns = p1.conns ++ [{ t' with sent := t'.sent ++ [unregisterFrame handle] }] ∧
      ∀ packet : EncapsPacket, packet.pack.length < 2 ^ 63 →
        p3.step m (.request p.objs.length packet) = .ok p3 (.threw (.system 9)) := by
  have h := sess_inv_run m ops {} p [] tr (sess_inv_start m) hr
  rw [List.nil_append] at h
  have hoi := List.getElem?_eq_getElem (originOf_lt h i n hi)
  have hoj := List.getElem?_eq_getElem (originOf_lt h j n hj)
  have hjl := originOf_lt h j n hj
  generalize p.objs[i]'(originOf_lt h i n hi) = o at hoi
  generalize p.objs[j]'(originOf_lt h j n hj) = o' at hoj
  have hsame := h.same i j n o o' hi hj hoi hoj
  subst hsame
  obtain ⟨t0, t1, h0, hreg⟩ := h.handle i n o hi hoi
  have hg : ¬ p.gone.contains j = true := by
    intro hc
    obtain ⟨r, hm⟩ := h.gone' j hc
    exact hg r hm
  have hgl : ¬ p.gone.contains p.objs.length = true := by
    intro hc
    obtain ⟨r, hm⟩ := h.gone' _ hc
    have := h.uses _ r hm p.objs.length rfl
    omega
  simp only [SessProc.step] at hd
  rw [hoi] at hd
  dsimp only at hd
  split at hd
  · cases hd
  have hb := over_besides p o.fd (unregisterSession o.handle)
  have hil : i ≠ p.objs.length := by
    have := originOf_lt h i n hi
    omega
  have facts : p1.look o.fd = none ∧ p1.objs = p.objs ∧ p1.gone = i :: p.gone := by
    cases hv : p.over o.fd (unregisterSession o.handle) with
    | ub => rw [hv] at hd; cases hd
    | throw p1 e => rw [hv] at hd; cases hd
    | ok q u =>
      rw [hv] at hd
      have hb := hb.1 q u hv
      dsimp only at hd
      cases hd
      exact ⟨(close_look q o.fd o.fd).trans (if_pos rfl), hb.2.1, by
        rw [show ({ q.close o.fd with gone := i :: q.gone } : SessProc).gone = i :: q.gone from rfl, hb.2.2.1]⟩
  obtain ⟨hnone, hobjs, hgone⟩ := facts
  have hlow : SessProc.lowest p1.fds = o.fd := by
    have h1 : ¬ SessProc.lowest p1.fds < o.fd := by
      intro hlt
      exact hopen o hoi _ hlt (look_lowest p1.fds)
    have h2 : ∀ l : List (Option Opened), ∀ a, (l[a]?).join = none → SessProc.lowest l ≤ a := by
      intro l
      induction l with
      | nil => intro a _; exact Nat.zero_le _
      | cons x l ih =>
        intro a ha
        cases x with
        | none => exact Nat.zero_le _
        | some y =>
          cases a with
          | zero => simp at ha
          | succ b =>
            have := ih b (by simpa using ha)
            simp only [SessProc.lowest]
            omega
    have := h2 p1.fds o.fd hnone
    omega
  have hcon := connect_eq m p1 t
  rw [hc] at hcon
  dsimp only at hcon
  have hlook : ({ p1 with conns := p1.conns ++ [t'], fds := SessProc.give (.conn p1.conns.length) p1.fds, objs := p1.objs ++ [⟨SessProc.lowest p1.fds, handle'⟩] } : SessProc).look o.fd = some (.conn p1.conns.length) := by
    unfold SessProc.look
    dsimp only
    rw [look_give, if_pos hlow.symm]
  have hobj : ({ p1 with conns := p1.conns ++ [t'], fds := SessProc.give (.conn p1.conns.length) p1.fds, objs := p1.objs ++ [⟨SessProc.lowest p1.fds, handle'⟩] } : SessProc).objs[j]? = some o := by
    dsimp only
    rw [hobjs, List.getElem?_append_left hjl]
    exact hoj
  have hobjn : ({ p1 with conns := p1.conns ++ [t'], fds := SessProc.give (.conn p1.conns.length) p1.fds, objs := p1.objs ++ [⟨SessProc.lowest p1.fds, handle'⟩] } : SessProc).objs[p.objs.length]? = some ⟨o.fd, handle'⟩ := by
    dsimp only
    rw [hobjs, hlow]
    simp
  have hgj : ¬ ({ p1 with conns := p1.conns ++ [t'], fds := SessProc.give (.conn p1.conns.length) p1.fds, objs := p1.objs ++ [⟨SessProc.lowest p1.fds, handle'⟩] } : SessProc).gone.contains j = true := by
    dsimp only
    rw [hgone]
    simp only [List.contains_cons, Bool.or_eq_true, beq_iff_eq, not_or]
    exact ⟨fun e => hij e.symm, hg⟩
  have hgn : ¬ ({ p1 with conns := p1.conns ++ [t'], fds := SessProc.give (.conn p1.conns.length) p1.fds, objs := p1.objs ++ [⟨SessProc.lowest p1.fds, handle'⟩] } : SessProc).gone.contains p.objs.length = true := by
    dsimp only
    rw [hgone]
    simp only [List.contains_cons, Bool.or_eq_true, beq_iff_eq, not_or]
    exact ⟨fun e => hil e.symm, hgl⟩
  have hcs : ({ p1 with conns := p1.conns ++ [t'], fds := SessProc.give (.conn p1.conns.length) p1.fds, objs := p1.objs ++ [⟨SessProc.lowest p1.fds, handle'⟩] } : SessProc).conns = p1.conns ++ [t'] := rfl
  generalize ({ p1 with conns := p1.conns ++ [t'], fds := SessProc.give (.conn p1.conns.length) p1.fds, objs := p1.objs ++ [⟨SessProc.lowest p1.fds, handle'⟩] } : SessProc) = p2 at hcon hlook hobj hobjn hgj hgn hcs
  have htn : p2.conns[p1.conns.length]? = some t' := by rw [hcs]; simp
  have hset : ∀ x, p2.conns.set p1.conns.length x = p1.conns ++ [x] := by intro x; rw [hcs]; simp
  have hdes : p2.step m (.destroy j) = .ok { ({ p2 with conns := p1.conns ++ [{ t' with sent := t'.sent ++ [unregisterFrame o.handle] }] } : SessProc).close o.fd with gone := j :: p2.gone } .unit := by
    simp only [SessProc.step]
    rw [hobj]
    dsimp only
    rw [if_neg hgj, over_conn p2 o.fd _ t' _ hlook htn]
    unfold onConn
    rw [unregister_writes _ _ hs]
    dsimp only
    rw [hset]
  refine ⟨t0, t1, o.handle, p2, _, h0, hreg, hcon, hcs, ?_, hdes, rfl, ?_⟩
  · intro packet
    simp only [SessProc.step]
    rw [hobj]
    dsimp only
    rw [if_neg hgj, over_conn p2 o.fd _ t' _ hlook htn]
    unfold onConn
    cases sendAndReceive m o.handle packet t' with
    | ub => rfl
    | ok a b => simp only [hset]
    | throw a b => simp only [hset]
  · intro packet hp
    obtain ⟨s, hs⟩ := noSocket_sar m handle' packet SessProc.ebadf hp
    have hlook3 : ({ ({ p2 with conns := p1.conns ++ [{ t' with sent := t'.sent ++ [unregisterFrame o.handle] }] } : SessProc).close o.fd with gone := j :: p2.gone } : SessProc).look o.fd = none :=
      (close_look _ _ _).trans (if_pos rfl)
    have hobj3 : ({ ({ p2 with conns := p1.conns ++ [{ t' with sent := t'.sent ++ [unregisterFrame o.handle] }] } : SessProc).close o.fd with gone := j :: p2.gone } : SessProc).objs[p.objs.length]? = some ⟨o.fd, handle'⟩ := hobjn
    have hgn3 : ¬ ({ ({ p2 with conns := p1.conns ++ [{ t' with sent := t'.sent ++ [unregisterFrame o.handle] }] } : SessProc).close o.fd with gone := j :: p2.gone } : SessProc).gone.contains p.objs.length = true := by
      dsimp only
      simp only [List.contains_cons, Bool.or_eq_true, beq_iff_eq, not_or]
      exact ⟨by omega, hgn⟩
    generalize ({ ({ p2 with conns := p1.conns ++ [{ t' with sent := t'.sent ++ [unregisterFrame o.handle] }] } : SessProc).close o.fd with gone := j :: p2.gone } : SessProc) = p3 at hlook3 hobj3 hgn3
    have : p3.over o.fd (sendAndReceive m handle' packet) = .throw p3 (.system 9) := by
      unfold SessProc.over
      rw [hlook3]
      dsimp only
      rw [hs]
      rfl
    simp only [SessProc.step]
    rw [hobj3]
    dsimp only
    rw [if_neg hgn3, this]

/-- C115. The same with a file: when the rest of the process has opened something that got the number of the closed
descriptor, destroying the copy closes that. -/
theorem C115_file_violated (m : Mem) (ops : List SessOp) (p : SessProc) (tr : SessTrace)
    (hr : SessProc.run m {} ops = some (p, tr)) (j k : Nat) (o : SessObj)
    (hg : ∀ ret, (SessOp.destroy j, ret) ∉ tr) (ho : p.objs[j]? = some o) (hk : p.look o.fd = some (.file k)) :
    ∃ p', p.step m (.destroy j) = .ok p' .unit ∧ p'.conns = p.conns ∧ p'.look o.fd = none := by
  have h := sess_inv_run m ops {} p [] tr (sess_inv_start m) hr
  rw [List.nil_append] at h
  have hg : ¬ p.gone.contains j = true := by
    intro hc
    obtain ⟨r, hm⟩ := h.gone' j hc
    exact hg r hm
  obtain ⟨s, hs⟩ := noSocket_unregister o.handle SessProc.enotsock
  have : p.over o.fd (unregisterSession o.handle) = .ok p () := by
    unfold SessProc.over
    rw [hk]
    dsimp only
    rw [hs]
  simp only [SessProc.step]
  rw [ho]
  dsimp only
  rw [if_neg hg, this]
  exact ⟨_, rfl, rfl, (close_look _ _ _).trans (if_pos rfl)⟩

/-! ## Cases -/

/-- A test for sound use. -/
def soundTest (pre : SessTrace) : SessTrace → Bool
  | [] => true
  | e :: tr =>
    (match usedBy e.1 with
      | none => true
      | some i => (pre.all fun x => match x.1 with
        | .destroy k => decide (originOf i pre = none ∨ originOf k pre ≠ originOf i pre)
        | _ => true)) && soundTest (pre ++ [e]) tr

theorem sound_of_test (pre tr : SessTrace) (h : soundTest pre tr = true) (tr1 tr2 : SessTrace) (op : SessOp) (ret : SessRet)
    (he : tr = tr1 ++ (op, ret) :: tr2) (i n : Nat) (hu : usedBy op = some i) (ho : originOf i (pre ++ tr1) = some n) :
    ¬ ended n (pre ++ tr1) := by
  induction tr1 generalizing pre tr with
  | nil =>
    subst he
    rw [List.append_nil] at ho ⊢
    simp only [List.nil_append, soundTest, Bool.and_eq_true, hu] at h
    rintro ⟨k, r, hm, hk⟩
    have := List.all_eq_true.1 h.1 _ hm
    simp only [decide_eq_true_eq] at this
    rcases this with h1 | h1
    · rw [ho] at h1; cases h1
    · exact h1 (hk.trans ho.symm)
  | cons e tr1 ih =>
    subst he
    simp only [List.cons_append, soundTest, Bool.and_eq_true] at h
    have := ih (pre ++ [e]) _ h.2 rfl (by rw [List.append_assoc]; exact ho)
    rw [List.append_assoc] at this
    exact this

/-- A device that grants a session with handle `h` and answers once. -/
def granting (h : Nat) : Tcp :=
  ⟨[.seg 0x65#8 ([0#8, 4#8, 0#8] ++ le 4 h ++ List.replicate 16 0#8 ++ [1#8, 0#8, 0#8, 0#8]),
    .seg 0x6f#8 ([0#8, 0#8, 0#8] ++ le 4 h ++ List.replicate 16 0#8)], [], []⟩

/-- A file is open; a session, and a copy of it that makes a request. -/
def copied : List SessOp :=
  [.openFile, .connect (granting 7), .copy 0, .request 1 (EncapsPacketFactory.sendRRData 7#32 0#16 [])]

/-- What is looked at. -/
structure SessSeen where
  rets : List (Option SessRet)
  sent : List (List (List Byte))
deriving DecidableEq

def sessSeen (x : Option (SessProc × SessTrace)) : Option SessSeen :=
  x.map fun r => ⟨r.2.map fun e => (match e.2 with | .packet _ => none | y => some y), r.1.conns.map (·.sent)⟩

/-- C115. Hypotheses of `C115_own`, `C115_wire` and `C115_destroy` are met: object 1 is a copy of object 0, both of
connection 0, none destroyed, and the device was sent the registration and the request. -/
example : ∃ p tr, SessProc.run Mem.strict {} copied = some (p, tr) ∧ usedSoundly tr ∧ packetsFit tr ∧
    originOf 0 tr = some 0 ∧ originOf 1 tr = some 0 ∧ ¬ ended 0 tr ∧
    (∃ t0 t1, (connectsOf tr)[0]? = some t0 ∧ t0.sends = [] ∧ registerSession Mem.strict t0 = .ok t1 7#32) ∧
    (p.conns.map (·.sent.length)) = [2] := by
  have hrun : (SessProc.run Mem.strict {} copied).isSome = true := by decide +kernel
  obtain ⟨⟨p, tr⟩, hr⟩ := Option.isSome_iff_exists.1 hrun
  have htr : (SessProc.run Mem.strict {} copied).map (fun r => (r.2.map (·.1), r.2.map fun e => decide (e.2 = .unit))) =
      some (copied, [true, true, true, false]) := by decide +kernel
  have hall : (SessProc.run Mem.strict {} copied).map (fun r => (soundTest [] r.2, originOf 0 r.2, originOf 1 r.2,
      (connectsOf r.2), r.1.conns.map (·.sent.length))) = some (true, some 0, some 0, [granting 7], [2]) := by decide +kernel
  rw [hr] at htr hall
  simp only [Option.map_some, Option.some.injEq, Prod.mk.injEq] at htr hall
  obtain ⟨hops, _⟩ := htr
  obtain ⟨h1, h2, h3, h4, h5⟩ := hall
  have hmem : ∀ op ret, (op, ret) ∈ tr → op ∈ copied := by
    intro op ret hm
    rw [← hops]
    exact List.mem_map_of_mem hm
  refine ⟨p, tr, hr, ?_, ?_, h2, h3, ?_, ⟨granting 7, ?_⟩, h5⟩
  · intro tr1 op ret tr2 he i n hu ho
    exact sound_of_test [] tr h1 tr1 tr2 op ret he i n hu ho
  · intro i q ret hm
    have := hmem _ _ hm
    simp only [copied, List.mem_cons, reduceCtorEq, SessOp.request.injEq, List.not_mem_nil, or_false, false_or] at this
    rw [this.2]
    decide +kernel
  · rintro ⟨i, ret, hm, _⟩
    have := hmem _ _ hm
    simp [copied] at this
  · have : (match registerSession Mem.strict (granting 7) with | .ok _ h => h == 7#32 | _ => false) = true := by decide +kernel
    cases hreg : registerSession Mem.strict (granting 7) with
    | ok t1 h =>
      rw [hreg] at this
      have he : h = 7#32 := by simpa using this
      subst he
      exact ⟨t1, by rw [h4]; rfl, rfl, rfl⟩
    | throw t e => rw [hreg] at this; cases this
    | ub => rw [hreg] at this; cases this

/-- C115. The failures happen: the original is destroyed; the copy throws `EBADF`; a second device is connected and gets the
old descriptor; the copy's request with handle 7 goes there, and is refused since the device answers with its own handle 9;
the copy is destroyed, and the session with the second device, never destroyed, throws `EBADF`.  The second device was sent
its registration, the foreign request and the end of session 7. -/
example : sessSeen (SessProc.run Mem.strict {} (copied ++ [.destroy 0,
      .request 1 (EncapsPacketFactory.sendRRData 7#32 0#16 []), .connect (granting 9),
      .request 1 (EncapsPacketFactory.sendRRData 7#32 0#16 []), .destroy 1,
      .request 2 (EncapsPacketFactory.sendRRData 9#32 0#16 [])])) =
    some ⟨[some .unit, some .unit, some .unit, none, some .unit, some (.threw (.system 9)), some .unit,
      some (.threw (.runtime "Wrong session handle received")), some .unit, some (.threw (.system 9))],
      [[registerFrame, (EncapsPacketFactory.sendRRData 7#32 0#16 []).pack, unregisterFrame 7#32],
       [registerFrame, (EncapsPacketFactory.sendRRData 7#32 0#16 []).pack, unregisterFrame 7#32]]⟩ := by
  decide +kernel

/-- C115. With a file: it gets the old descriptor; the copy throws `ENOTSOCK`; destroying it closes the file. -/
example : (SessProc.run Mem.strict {} (copied ++ [.destroy 0, .openFile,
      .request 1 (EncapsPacketFactory.sendRRData 7#32 0#16 []), .destroy 1])).map
    (fun r => ((r.2.map (·.2)).drop 4, r.1.fds)) =
    some ([.unit, .unit, .threw (.system 88), .unit], [some (.file 0), none]) := by
  decide +kernel

end Verif.Props
