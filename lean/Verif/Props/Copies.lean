import Verif.Props.ProcessOrder
import Verif.Spec.Copies
import Verif.Props.ManagerSample

/-!
# C114: copies of a connection manager
-/

namespace Verif.Props

open Verif Verif.Spec

/-! ## The handler does not look at the pointers of the program -/

/-- A manager with other strong pointers. -/
def withHeld (l : List Nat) (m : Mgr) : Mgr := { m with held := l }

/-- The same for a stage. -/
def stageWithHeld (l : List Nat) : Mgr.Stage → Mgr.Stage
  | .go m evs => .go (withHeld l m) evs
  | .threw m evs e => .threw (withHeld l m) evs e
  | .ub evs => .ub evs

theorem deliver_withHeld (P : Plat) (l : List Nat) (r : Recv) (m : Mgr) :
    Mgr.deliver P r (withHeld l m) =
      match Mgr.deliver P r m with
      | .ok (m', evs) => .ok (withHeld l m', evs)
      | .throw e => .throw e
      | .ub => .ub := by
  unfold Mgr.deliver
  cases udpReceive 8192 r with
  | ub => rfl
  | throw e => rfl
  | ok d =>
    dsimp only
    cases CommonPacket.expand P.mem d with
    | ub => rfl
    | throw e => rfl
    | ok items =>
      dsimp only
      cases items[0]? with
      | none => rfl
      | some a =>
        dsimp only
        cases Rd.u32 P.mem (Buffer.ofData a.data) with
        | ub => rfl
        | throw e => rfl
        | ok x =>
          dsimp only
          have ht : (withHeld l m).table = m.table := rfl
          have hh : (withHeld l m).heap = m.heap := rfl
          rw [ht, hh]
          cases tblFind (x.1.setWidth 16) m.table with
          | none => rfl
          | some id =>
            dsimp only
            cases items[1]? with
            | none => rfl
            | some it =>
              cases m.heap[id]? with
              | none => rfl
              | some c =>
                dsimp only
                cases c.notifyReceiveData P.mem it.data with
                | ub => rfl
                | throw e => rfl
                | ok y => rfl

theorem deliverAll_withHeld (P : Plat) (l : List Nat) (rs : List Arrival) (m : Mgr) :
    Mgr.deliverAll P rs (withHeld l m) = stageWithHeld l (Mgr.deliverAll P rs m) := by
  induction rs generalizing m with
  | nil => rfl
  | cons r rs ih =>
    simp only [Mgr.deliverAll, deliver_withHeld]
    cases Mgr.deliver P r.recv m with
    | ub => rfl
    | throw e => rfl
    | ok x =>
      obtain ⟨m', evs⟩ := x
      dsimp only
      cases Mgr.raised r.throws evs with
      | some e => rfl
      | none =>
        simp only [ih]
        cases Mgr.deliverAll P rs m' <;> rfl

theorem selectLoop_withHeld (P : Plat) (l : List Nat) (stop : Int) (rs : List Round) (now : Int) (m : Mgr) :
    Mgr.selectLoop P stop now rs (withHeld l m) = stageWithHeld l (Mgr.selectLoop P stop now rs m) := by
  induction rs generalizing now m with
  | nil => rfl
  | cons r rs ih =>
    cases r with
    | fail code => rfl
    | ready r1 rest now' =>
      simp only [Mgr.selectLoop, deliverAll_withHeld]
      cases Mgr.deliverAll P (r1 :: rest) m with
      | ub evs => rfl
      | threw m' evs e => rfl
      | go m' evs =>
        simp only [stageWithHeld, ih]
        cases Mgr.selectLoop P stop now' rs m' <;> rfl

/-! ## Steps -/

theorem set_of_getElem? {α : Type} {l : List α} {i : Nat} {a : α} (h : l[i]? = some a) : l.set i a = l := by
  obtain ⟨hlt, rfl⟩ := List.getElem?_eq_some_iff.mp h
  exact List.set_getElem_self hlt


/-- What `handleConnections` of a manager with face `f` does. -/
structure Handled (P : Plat) (p p' : Copies) (i : Nat) (f : Face) (evs : List MEv) : Prop where
  replay : applyEvs P.mem p.heap evs = some p'.heap
  socks : f.sockets ≠ []
  statics : p'.statics = p.statics
  held : p'.held = p.held
  gone : p'.gone = p.gone
  faces : ∃ g : BitVec 16 × Nat → Bool, p'.faces = p.faces.set i { f with table := f.table.filter g }
  evs : ∀ e ∈ evs, (∃ tv, e = .waited tv) ∨
    (∃ id data io, e = .conn id (.recv data) io ∧ ∃ t k, p.handlerTable f.owner = some t ∧ (k, id) ∈ t) ∨
    (∃ id now hook count io, e = .conn id (.tick now hook count) io ∧ ∃ k, (k, id) ∈ f.table)

theorem handled (P : Plat) (p p' : Copies) (i : Nat) (f : Face) (hf : p.faces[i]? = some f) (start : Nat) (t : Int)
    (rounds : List Round) (ticks : Nat → TickEnv) (evs : List MEv) (ret : MRet)
    (h : p.handle P i f start t rounds ticks = .ok p' evs ret) : Handled P p p' i f evs := by
  have hset : p.faces = p.faces.set i { f with table := f.table.filter fun _ => true } := by
    rw [List.filter_eq_self.mpr (by simp)]
    exact (set_of_getElem? hf).symm
  unfold Copies.handle at h
  split at h
  · cases h
  · next hs =>
    have hne : f.sockets ≠ [] := by rw [hs]; simp
    split at h
    · unfold Copies.stray at h
      split at h
      · cases h
      · cases h
        exact ⟨rfl, hne, rfl, rfl, rfl, ⟨_, hset⟩, fun e he => .inl ⟨_, List.mem_singleton.mp he⟩⟩
      · cases h
    · next tbl rounds _ _ =>
      unfold Copies.serve at h
      have hmem : ∀ k id, (k, id) ∈ (p.handlerTable f.owner).getD [] → ∃ t k, p.handlerTable f.owner = some t ∧ (k, id) ∈ t := by
        intro k id hm
        cases ht : p.handlerTable f.owner with
        | none => rw [ht] at hm; simp at hm
        | some t => rw [ht] at hm; exact ⟨t, k, rfl, hm⟩
      split at h
      · cases h
      · next m evs1 e hsel =>
        cases h
        have q := (selectLoop_quiet P _ _ _ _).2 _ _ _ hsel
        refine ⟨q.replay, hne, rfl, rfl, rfl, ⟨_, hset⟩, fun e he => ?_⟩
        rcases q.only e he with hw | ⟨id, d, io, rfl, k, hk⟩
        · exact .inl hw
        · exact .inr (.inl ⟨id, d, io, rfl, hmem k id hk⟩)
      · next m evs1 hsel =>
        have q := (selectLoop_quiet P _ _ _ _).1 _ _ hsel
        have hq : ∀ e ∈ evs1, (∃ tv, e = .waited tv) ∨
            (∃ id data io, e = .conn id (.recv data) io ∧ ∃ t k, p.handlerTable f.owner = some t ∧ (k, id) ∈ t) := by
          intro e he
          rcases q.only e he with hw | ⟨id, d, io, rfl, k, hk⟩
          · exact .inl hw
          · exact .inr ⟨id, d, io, rfl, hmem k id hk⟩
        have ts := tickAll_spec P.mem ticks f.table m.heap
        split at h
        · next heap evs2 keys hta =>
          cases h
          rw [hta] at ts
          refine ⟨?_, hne, rfl, rfl, rfl, ⟨_, rfl⟩, fun e he => ?_⟩
          · rw [applyEvs_append, show p.heap = (p.view f).heap from rfl, show applyEvs P.mem (p.view f).heap evs1 = some m.heap from q.replay]
            exact ts.1
          · rcases List.mem_append.mp he with he | he
            · rcases hq e he with h | h
              · exact .inl h
              · exact .inr (.inl h)
            · exact .inr (.inr (ts.2 e he))
        · next heap evs2 keys x hta =>
          cases h
          rw [hta] at ts
          refine ⟨?_, hne, rfl, rfl, rfl, ⟨_, hset⟩, fun e he => ?_⟩
          · rw [applyEvs_append, show p.heap = (p.view f).heap from rfl, show applyEvs P.mem (p.view f).heap evs1 = some m.heap from q.replay]
            exact ts.1
          · rcases List.mem_append.mp he with he | he
            · rcases hq e he with h | h
              · exact .inl h
              · exact .inr (.inl h)
            · exact .inr (.inr (ts.2 e he))

/-- The cases of a call. -/
theorem call_cases (P : Plat) (p p' : Copies) (i : Nat) (op : MOp) (evs : List MEv) (ret : MRet)
    (h : p.call P i op = .ok p' evs ret) :
    ∃ f, p.faces[i]? = some f ∧ p.callable i op = true ∧
      ((∃ start t rounds ticks, op = .handle start t rounds ticks ∧ p.handle P i f start t rounds ticks = .ok p' evs ret) ∨
       (∀ start t rounds ticks, op ≠ .handle start t rounds ticks) ∧
        ∃ m, (p.view f).step P op = .ok m evs ret ∧ p' = p.store i f op m evs) := by
  unfold Copies.call at h
  split at h
  · cases h
  · next f hf =>
    refine ⟨f, hf, ?_⟩
    split at h
    · next hc =>
      refine ⟨hc, ?_⟩
      split at h
      · exact .inl ⟨_, _, _, _, rfl, h⟩
      · next op hne =>
        refine .inr ⟨fun a b c d e => hne a b c d e, ?_⟩
        split at h
        · cases h
        · next m evs ret hs => cases h; exact ⟨m, hs, rfl⟩
    · cases h

/-- What an assignment does. -/
theorem assign_cases {P : Plat} {p p' : Copies} {a b : Nat} {evs : List MEv} {ret : MRet}
    (h : p.step P (.assign a b) = .ok p' evs ret) :
    ∃ fa fb, p.faces[a]? = some fa ∧ p.faces[b]? = some fb ∧ a ∉ p.gone ∧ b ∉ p.gone ∧
      p' = { p with faces := p.faces.set a fb } ∧ evs = [] ∧ ret = .unit := by
  simp only [Copies.step] at h
  cases ha : p.faces[a]? with
  | none => rw [ha] at h; cases h
  | some fa =>
    cases hb : p.faces[b]? with
    | none => rw [ha, hb] at h; cases h
    | some fb =>
      rw [ha, hb] at h
      dsimp only at h
      split at h
      · cases h
      · next hg =>
        cases h
        simp only [Bool.or_eq_true, List.contains_iff_mem, not_or] at hg
        exact ⟨fa, fb, rfl, rfl, hg.1, hg.2, rfl, rfl, rfl⟩

theorem copyStep_replay (P : Plat) (p p' : Copies) (op : CopyOp) (evs : List MEv) (ret : MRet) (h : p.step P op = .ok p' evs ret) :
    applyEvs P.mem p.heap evs = some p'.heap := by
  cases op with
  | create inc => cases h; rfl
  | copy i =>
    simp only [Copies.step] at h
    split at h
    · cases h
    · split at h
      · cases h
      · cases h; rfl
  | assign i k =>
    obtain ⟨_, _, -, -, -, -, rfl, rfl, -⟩ := assign_cases h
    rfl
  | destroy i =>
    simp only [Copies.step] at h
    split at h
    · cases h
    · split at h
      · cases h
      · cases h; rfl
  | call i op =>
    obtain ⟨f, hf, -, h | ⟨-, m, hm, rfl⟩⟩ := call_cases P p p' i op evs ret h
    · obtain ⟨a, b, c, d, -, h⟩ := h
      exact (handled P p p' i f hf a b c d evs ret h).replay
    · exact step_replay P (p.view f) m op evs ret hm

theorem copyRun_cons {P : Plat} {p p' : Copies} {op : CopyOp} {ops : List CopyOp} {tr : CopyTrace}
    (h : p.run P (op :: ops) = some (p', tr)) :
    ∃ p1 evs ret tr', p.step P op = .ok p1 evs ret ∧ p1.run P ops = some (p', tr') ∧ tr = (op, evs, ret) :: tr' := by
  simp only [Copies.run] at h
  split at h
  · next p1 evs ret hs =>
    cases hr : p1.run P ops with
    | none => rw [hr] at h; cases h
    | some r =>
      obtain ⟨p2, tr'⟩ := r
      rw [hr] at h
      cases h
      exact ⟨p1, evs, ret, tr', hs, hr, rfl⟩
  · cases h

theorem copyRun_replay (P : Plat) (p p' : Copies) (ops : List CopyOp) (tr : CopyTrace) (h : p.run P ops = some (p', tr)) :
    applyEvs P.mem p.heap (copyEvs tr) = some p'.heap := by
  induction ops generalizing p tr with
  | nil => cases h; rfl
  | cons op ops ih =>
    obtain ⟨p1, evs, ret, tr', h1, h2, rfl⟩ := copyRun_cons h
    rw [show copyEvs ((op, evs, ret) :: tr') = evs ++ copyEvs tr' from by simp [copyEvs], applyEvs_append,
      copyStep_replay P p p1 op evs ret h1]
    exact ih p1 tr' h2

/-- **C114 (objects).**  However managers are copied and whichever of them is used, what happens to a connection is a history
of this one object: a connection that several managers share goes on with its numbers and times. -/
theorem C114_objects (P : Plat) (ops : List CopyOp) (p : Copies) (tr : CopyTrace) (h : ({} : Copies).run P ops = some (p, tr))
    (id : Nat) (c : Conn) (hc : MEv.created id c ∈ copyEvs tr) :
    ∃ c', p.heap[id]? = some c' ∧
      c.run P.mem ((connTrace id (copyEvs tr)).map Prod.fst) = some (c', connTrace id (copyEvs tr)) :=
  replay_created P.mem [] p.heap (copyEvs tr) id c (copyRun_replay P _ p ops tr h) hc (Nat.zero_le _)

/-! ## Who made the socket -/

theorem bound_any (evs : List MEv) : Copies.bound evs = evs.any MEv.isBound := by
  induction evs with
  | nil => rfl
  | cons e es ih => cases e <;> simp [Copies.bound, MEv.isBound, ih]

theorem makersFrom_cons (ms : List (Option Nat)) (e : CopyOp × List MEv × MRet) (tr : CopyTrace) :
    makersFrom ms (e :: tr) = makersFrom (makersFrom ms [e]) tr := by
  obtain ⟨op, evs, ret⟩ := e
  cases op <;> rfl

theorem onObject_step (P : Plat) (s m : Mgr) (op : MOp) (evs : List MEv) (ret : MRet) (ho : Proc.onObject op = true)
    (h : s.step P op = .ok m evs ret) : m.table = s.table ∧ m.sockets = s.sockets ∧ evs.any MEv.isBound = false := by
  cases op with
  | setData id data =>
    simp only [Mgr.step] at h
    split at h
    · cases h; exact ⟨rfl, rfl, rfl⟩
    · cases h; exact ⟨rfl, rfl, rfl⟩
  | lock id =>
    simp only [Mgr.step] at h
    split at h <;> (cases h; exact ⟨rfl, rfl, rfl⟩)
  | release id => cases h; exact ⟨rfl, rfl, rfl⟩
  | _ => cases ho

/-- What holds after every history. -/
structure CopyInv (p : Copies) (ms : List (Option Nat)) : Prop where
  len : ms.length = p.faces.length
  sock : ∀ (i : Nat) (f : Face), p.faces[i]? = some f → f.sockets.length ≤ 1 ∧ ∀ e ∈ f.sockets, e.port = 2222
  gone : ∀ (i : Nat) (f : Face), p.faces[i]? = some f → i ∈ p.gone → f.table = [] ∧ f.sockets = []
  used : ∀ (i : Nat) (f : Face), p.faces[i]? = some f → i ∉ p.gone → (f.sockets ≠ [] ↔ ∃ o, ms[i]? = some (some o))
  maker : ∀ (i o : Nat) (f : Face), p.faces[i]? = some f → ms[i]? = some (some o) → f.owner = o ∧ o < ms.length
  goneLt : ∀ i ∈ p.gone, i < p.faces.length

/-- What a call other than `handleConnections` does to the socket. -/
theorem call_sock (P : Plat) (p : Copies) (ms : List (Option Nat)) (hi : CopyInv p ms) (i : Nat) (f : Face)
    (hf : p.faces[i]? = some f) (op : MOp) (m : Mgr) (evs : List MEv) (ret : MRet) (hm : (p.view f).step P op = .ok m evs ret) :
    (m.sockets.length ≤ 1 ∧ ∀ e ∈ m.sockets, e.port = 2222) ∧
    ((evs.any MEv.isBound = true ∧ f.sockets = [] ∧ m.sockets ≠ []) ∨
      (evs.any MEv.isBound = false ∧ (m.sockets ≠ [] ↔ f.sockets ≠ []))) := by
  have hs : SockInv (p.view f) f.sockets.length := ⟨rfl, (hi.sock i f hf).1, (hi.sock i f hf).2⟩
  obtain ⟨g, -, -⟩ := sock_step P (p.view f) m op evs ret _ hs hm
  refine ⟨⟨by rw [g.len]; exact g.one, g.port⟩, ?_⟩
  have h1 := g.len
  have h2 := g.one
  cases hb : evs.any MEv.isBound with
  | true =>
    have h3 : 0 < evs.countP MEv.isBound := by
      rw [List.countP_pos_iff]
      obtain ⟨e, he, hb⟩ := List.any_eq_true.mp hb
      exact ⟨e, he, hb⟩
    refine .inl ⟨rfl, List.eq_nil_of_length_eq_zero (by omega), fun h => ?_⟩
    rw [h] at h1; simp at h1; omega
  | false =>
    have h3 : evs.countP MEv.isBound = 0 := by
      rw [List.countP_eq_zero]
      intro e he hb'
      rw [List.any_eq_true.mpr ⟨e, he, hb'⟩] at hb
      cases hb
    refine .inr ⟨rfl, ?_⟩
    rw [h3] at h1
    cases hx : m.sockets <;> cases hy : f.sockets <;> rw [hx, hy] at h1 <;> simp at h1 ⊢

theorem copyInv_step (P : Plat) (p p' : Copies) (ms : List (Option Nat)) (op : CopyOp) (evs : List MEv) (ret : MRet)
    (hi : CopyInv p ms) (h : p.step P op = .ok p' evs ret) : CopyInv p' (makersFrom ms [(op, evs, ret)]) := by
  cases op with
  | create inc =>
    cases h
    refine ⟨by simp [makersFrom, hi.len], ?_, ?_, ?_, ?_, ?_⟩
    all_goals simp only [makersFrom]
    · intro i f hf
      rw [List.getElem?_append] at hf
      split at hf
      · exact hi.sock i f hf
      · rw [List.getElem?_singleton] at hf
        split at hf
        · cases hf; simp
        · cases hf
    · intro i f hf hg
      rw [List.getElem?_append_left (hi.goneLt i hg)] at hf
      exact hi.gone i f hf hg
    · intro i f hf hg
      rw [List.getElem?_append] at hf ⊢
      rw [hi.len]
      split at hf
      · next hlt => rw [if_pos hlt]; exact hi.used i f hf hg
      · next hlt =>
        rw [if_neg hlt]
        rw [List.getElem?_singleton] at hf ⊢
        split at hf
        · next h0 => cases hf; rw [if_pos h0]; simp
        · cases hf
    · intro i o f hf hm
      rw [List.getElem?_append] at hf hm
      rw [hi.len] at hm
      split at hf
      · next hlt =>
        rw [if_pos hlt] at hm
        obtain ⟨h1, h2⟩ := hi.maker i o f hf hm
        exact ⟨h1, by rw [List.length_append]; omega⟩
      · next hlt =>
        rw [if_neg hlt, List.getElem?_singleton] at hm
        split at hm <;> cases hm
    · intro i hg
      have := hi.goneLt i hg
      simp; omega
  | copy i0 =>
    simp only [Copies.step] at h
    split at h
    · cases h
    · next f0 hf0 =>
      split at h
      · cases h
      · next hg0 =>
        cases h
        have hg0 : i0 ∉ p.gone := by simpa using hg0
        refine ⟨by simp [makersFrom, hi.len], ?_, ?_, ?_, ?_, ?_⟩
        all_goals simp only [makersFrom]
        · intro i f hf
          rw [List.getElem?_append] at hf
          split at hf
          · exact hi.sock i f hf
          · rw [List.getElem?_singleton] at hf
            split at hf
            · cases hf; exact hi.sock i0 f0 hf0
            · cases hf
        · intro i f hf hg
          rw [List.getElem?_append_left (hi.goneLt i hg)] at hf
          exact hi.gone i f hf hg
        · intro i f hf hg
          rw [List.getElem?_append] at hf ⊢
          rw [hi.len]
          split at hf
          · next hlt => rw [if_pos hlt]; exact hi.used i f hf hg
          · next hlt =>
            rw [if_neg hlt]
            rw [List.getElem?_singleton] at hf ⊢
            split at hf
            · next h0 =>
              cases hf
              rw [if_pos h0, hi.used i0 f0 hf0 hg0]
              cases hm : ms[i0]? with
              | none => simp
              | some x => simp
            · cases hf
        · intro i o f hf hm
          rw [List.getElem?_append] at hf hm
          rw [hi.len] at hm
          have key : o < ms.length → o < (ms ++ [(ms[i0]?).join]).length := fun h2 => by
            rw [List.length_append]; omega
          split at hf
          · next hlt =>
            rw [if_pos hlt] at hm
            obtain ⟨h1, h2⟩ := hi.maker i o f hf hm
            exact ⟨h1, key h2⟩
          · next hlt =>
            rw [if_neg hlt, List.getElem?_singleton] at hm
            rw [List.getElem?_singleton] at hf
            split at hm
            · next h0 =>
              rw [if_pos h0] at hf
              cases hf
              have hm' : ms[i0]? = some (some o) := by
                cases hx : ms[i0]? with
                | none => rw [hx] at hm; simp at hm
                | some x => rw [hx] at hm; simp at hm; rw [hm]
              obtain ⟨h1, h2⟩ := hi.maker i0 o f0 hf0 hm'
              exact ⟨h1, key h2⟩
            · cases hm
        · intro i hg
          have := hi.goneLt i hg
          simp; omega
  | assign a b =>
    obtain ⟨fa, fb, hfa, hfb, hga, hgb, rfl, rfl, rfl⟩ := assign_cases h
    have hlt := (List.getElem?_eq_some_iff.mp hfa).1
    have hnew : ∀ (i : Nat) (f : Face), (p.faces.set a fb)[i]? = some f → i = a ∧ f = fb ∨ i ≠ a ∧ p.faces[i]? = some f := by
      intro i f hf
      rw [List.getElem?_set] at hf
      split at hf
      · next he => cases hf; exact .inl ⟨he.symm, rfl⟩
      · next he => exact .inr ⟨fun h => he h.symm, hf⟩
    have hself : (ms.set a (ms[b]?).join)[a]? = some (ms[b]?).join := List.getElem?_set_self (by rw [hi.len]; exact hlt)
    have hjoin : ∀ o, (ms[b]?).join = some o ↔ ms[b]? = some (some o) := by
      intro o
      cases ms[b]? with
      | none => simp
      | some x => simp
    refine ⟨by simp [makersFrom, hi.len], ?_, ?_, ?_, ?_, ?_⟩
    all_goals simp only [makersFrom]
    · intro i f hf
      rcases hnew i f hf with ⟨rfl, rfl⟩ | ⟨-, h⟩
      · exact hi.sock b f hfb
      · exact hi.sock i f h
    · intro i f hf hg
      rcases hnew i f hf with ⟨rfl, rfl⟩ | ⟨-, h⟩
      · exact absurd hg hga
      · exact hi.gone i f h hg
    · intro i f hf hg
      rcases hnew i f hf with ⟨rfl, rfl⟩ | ⟨hne, h⟩
      · rw [hi.used b f hfb hgb, hself]
        simp only [Option.some.injEq, hjoin]
      · rw [hi.used i f h hg, List.getElem?_set_ne (fun e => hne e.symm)]
    · intro i o f hf hm
      rw [List.length_set]
      rcases hnew i f hf with ⟨rfl, rfl⟩ | ⟨hne, h⟩
      · rw [hself, Option.some.injEq, hjoin] at hm
        exact hi.maker b o f hfb hm
      · rw [List.getElem?_set_ne (fun e => hne e.symm)] at hm
        exact hi.maker i o f h hm
    · intro i hg
      rw [List.length_set]
      exact hi.goneLt i hg
  | destroy i0 =>
    simp only [Copies.step] at h
    split at h
    · cases h
    · next f0 hf0 =>
      split at h
      · cases h
      · next hg0 =>
        cases h
        have hlt := (List.getElem?_eq_some_iff.mp hf0).1
        refine ⟨by simp [makersFrom, hi.len], ?_, ?_, ?_, ?_, ?_⟩
        all_goals simp only [makersFrom]
        · intro i f hf
          rw [List.getElem?_set] at hf
          split at hf
          · cases hf; simp
          · exact hi.sock i f hf
        · intro i f hf hg
          rw [List.getElem?_set] at hf
          split at hf
          · cases hf; exact ⟨rfl, rfl⟩
          · next hne =>
            rcases List.mem_cons.mp hg with rfl | hg
            · exact absurd rfl hne
            · exact hi.gone i f hf hg
        · intro i f hf hg
          rw [List.mem_cons, not_or] at hg
          rw [List.getElem?_set, if_neg (fun h => hg.1 h.symm)] at hf
          exact hi.used i f hf hg.2
        · intro i o f hf hm
          rw [List.getElem?_set] at hf
          split at hf
          · next he =>
            cases hf; subst he; exact hi.maker _ o f0 hf0 hm
          · exact hi.maker i o f hf hm
        · intro i hg
          rw [List.length_set]
          rcases List.mem_cons.mp hg with rfl | hg
          · exact hlt
          · exact hi.goneLt i hg
  | call i0 op =>
    obtain ⟨f0, hf0, hca, h | ⟨-, m, hm, rfl⟩⟩ := call_cases P p p' i0 op evs ret h
    · obtain ⟨a, b, c, d, -, h⟩ := h
      have hd := handled P p p' i0 f0 hf0 a b c d evs ret h
      have hlt := (List.getElem?_eq_some_iff.mp hf0).1
      have hnb : evs.any MEv.isBound = false := by
        rw [List.any_eq_false]
        intro e he
        rcases hd.evs e he with ⟨_, rfl⟩ | ⟨_, _, _, rfl, _⟩ | ⟨_, _, _, _, _, rfl, _⟩ <;> simp [MEv.isBound]
      obtain ⟨g, hg⟩ := hd.faces
      have hf' : ∀ (i : Nat) (f : Face), p'.faces[i]? = some f → ∃ f1 : Face, p.faces[i]? = some f1 ∧ f.sockets = f1.sockets ∧ f.owner = f1.owner ∧
          (f1.table = [] → f.table = []) := by
        intro i f hf
        rw [hg, List.getElem?_set] at hf
        split at hf
        · next he =>
          cases hf; subst he
          exact ⟨f0, hf0, rfl, rfl, fun h => by simp [h]⟩
        · exact ⟨f, hf, rfl, rfl, id⟩
      simp only [makersFrom, hnb]
      refine ⟨by rw [hg, List.length_set]; exact hi.len, ?_, ?_, ?_, ?_, ?_⟩
      · intro i f hf
        obtain ⟨f1, h1, h2, -⟩ := hf' i f hf
        rw [h2]; exact hi.sock i f1 h1
      · intro i f hf hgo
        obtain ⟨f1, h1, h2, -, h4⟩ := hf' i f hf
        rw [hd.gone] at hgo
        have := hi.gone i f1 h1 hgo
        exact ⟨h4 this.1, h2.trans this.2⟩
      · intro i f hf hgo
        obtain ⟨f1, h1, h2, -⟩ := hf' i f hf
        rw [hd.gone] at hgo
        rw [h2]; exact hi.used i f1 h1 hgo
      · intro i o f hf hmk
        obtain ⟨f1, h1, -, h3, -⟩ := hf' i f hf
        rw [h3]; exact hi.maker i o f1 h1 hmk
      · intro i hgo
        rw [hd.gone] at hgo
        rw [hg, List.length_set]
        exact hi.goneLt i hgo
    · have hlt := (List.getElem?_eq_some_iff.mp hf0).1
      obtain ⟨hsk, hcase⟩ := call_sock P p ms hi i0 f0 hf0 op m evs ret hm
      have hgo0 : i0 ∈ p.gone → m.table = [] ∧ m.sockets = [] ∧ evs.any MEv.isBound = false := by
        intro hg
        have ho : Proc.onObject op = true := by
          cases op <;> simp_all [Copies.callable, Proc.onObject]
        obtain ⟨h1, h2, h3⟩ := onObject_step P _ m op evs ret ho hm
        have := hi.gone i0 f0 hf0 hg
        exact ⟨h1.trans this.1, h2.trans this.2, h3⟩
      have hlen : ms.length = p.faces.length := hi.len
      have hnew : ∀ (i : Nat) (f : Face), (p.store i0 f0 op m evs).faces[i]? = some f →
          (i = i0 ∧ f.table = m.table ∧ f.sockets = m.sockets ∧ f.owner = if evs.any MEv.isBound then i0 else f0.owner) ∨
          (i ≠ i0 ∧ p.faces[i]? = some f) := by
        intro i f hf
        simp only [Copies.store, List.getElem?_set] at hf
        split at hf
        · next he =>
          cases hf; subst he
          exact .inl ⟨rfl, rfl, rfl, by rw [bound_any]⟩
        · next he => exact .inr ⟨fun h => he h.symm, hf⟩
      refine ⟨?_, ?_, ?_, ?_, ?_, ?_⟩
      · simp only [makersFrom, Copies.store, List.length_set]
        split <;> simp [hlen]
      · intro i f hf
        rcases hnew i f hf with ⟨rfl, -, h2, -⟩ | ⟨-, h⟩
        · rw [h2]; exact hsk
        · exact hi.sock i f h
      · intro i f hf hg
        rcases hnew i f hf with ⟨rfl, h1, h2, -⟩ | ⟨-, h⟩
        · rw [h1, h2]; exact ⟨(hgo0 hg).1, (hgo0 hg).2.1⟩
        · exact hi.gone i f h hg
      · intro i f hf hg
        have hg' : i ∉ p.gone := hg
        simp only [makersFrom]
        rcases hnew i f hf with ⟨rfl, -, h2, -⟩ | ⟨hne, h⟩
        · rw [h2]
          rcases hcase with ⟨hb, h3, h4⟩ | ⟨hb, h3⟩
          · rw [hb, if_pos rfl]
            simp only [h4, true_iff, ne_eq, not_false_eq_true]
            exact ⟨i, List.getElem?_set_self (by omega)⟩
          · rw [hb, h3]
            exact hi.used i f0 hf0 hg'
        · rw [hi.used i f h hg']
          split
          · rw [List.getElem?_set_ne (fun e => hne e.symm)]
          · rfl
      · intro i o f hf hmk
        simp only [makersFrom] at hmk ⊢
        cases hb : evs.any MEv.isBound with
        | false =>
          rw [hb] at hmk
          rcases hnew i f hf with ⟨rfl, -, -, h4⟩ | ⟨-, h⟩
          · rw [hb] at h4
            rw [h4]
            exact hi.maker i o f0 hf0 hmk
          · exact hi.maker i o f h hmk
        | true =>
          rw [hb, if_pos rfl] at hmk
          rw [if_pos rfl]
          rcases hnew i f hf with ⟨rfl, -, -, h4⟩ | ⟨hne, h⟩
          · rw [List.getElem?_set_self (by omega)] at hmk
            cases hmk
            rw [hb] at h4
            exact ⟨h4, by rw [List.length_set, hi.len]; omega⟩
          · rw [List.getElem?_set_ne (fun e => hne e.symm)] at hmk
            obtain ⟨h1, h2⟩ := hi.maker i o f h hmk
            exact ⟨h1, by rw [List.length_set]; exact h2⟩
      · intro i hg
        simp only [Copies.store, List.length_set]
        exact hi.goneLt i hg

theorem copyInv_run (P : Plat) (p p' : Copies) (ms : List (Option Nat)) (ops : List CopyOp) (tr : CopyTrace) (hi : CopyInv p ms)
    (h : p.run P ops = some (p', tr)) : CopyInv p' (makersFrom ms tr) := by
  induction ops generalizing p ms tr with
  | nil => cases h; exact hi
  | cons op ops ih =>
    obtain ⟨p1, evs, ret, tr', h1, h2, rfl⟩ := copyRun_cons h
    rw [makersFrom_cons]
    exact ih p1 _ tr' (copyInv_step P p p1 ms op evs ret hi h1) h2

theorem copyInv_new : CopyInv {} [] :=
  ⟨rfl, by simp, by simp, by simp, by simp, by simp⟩

/-! ## The members of a process -/

theorem copyGone_step (P : Plat) (p p' : Copies) (op : CopyOp) (evs : List MEv) (ret : MRet) (h : p.step P op = .ok p' evs ret)
    (i : Nat) : i ∈ p'.gone ↔ i ∈ p.gone ∨ op = .destroy i := by
  cases op with
  | create inc => cases h; simp
  | copy j =>
    simp only [Copies.step] at h
    split at h
    · cases h
    · split at h
      · cases h
      · cases h; simp
  | assign a b =>
    obtain ⟨_, _, -, -, -, -, rfl, -, -⟩ := assign_cases h
    simp
  | destroy j =>
    simp only [Copies.step] at h
    split at h
    · cases h
    · split at h
      · cases h
      · cases h
        simp only [List.mem_cons, CopyOp.destroy.injEq]
        constructor
        · rintro (h | h)
          · exact .inr h.symm
          · exact .inl h
        · rintro (h | h)
          · exact .inr h
          · exact .inl h.symm
  | call j op =>
    obtain ⟨f, hf, -, h | ⟨-, m, hm, rfl⟩⟩ := call_cases P p p' j op evs ret h
    · obtain ⟨a, b, c, d, -, h⟩ := h
      rw [(handled P p p' j f hf a b c d evs ret h).gone]
      simp
    · simp [Copies.store]

theorem copyGone_run (P : Plat) (p p' : Copies) (ops : List CopyOp) (tr : CopyTrace) (h : p.run P ops = some (p', tr)) (i : Nat) :
    i ∈ p'.gone ↔ i ∈ p.gone ∨ destroyedIn i tr := by
  induction ops generalizing p tr with
  | nil => cases h; simp [destroyedIn]
  | cons op ops ih =>
    obtain ⟨p1, evs, ret, tr', h1, h2, rfl⟩ := copyRun_cons h
    rw [ih p1 tr' h2, copyGone_step P p p1 op evs ret h1 i, or_assoc]
    apply or_congr_right
    constructor
    · rintro (rfl | ⟨e, he, h⟩)
      · exact ⟨_, List.mem_cons_self, evs, ret, rfl⟩
      · exact ⟨e, List.mem_cons_of_mem _ he, h⟩
    · rintro ⟨e, he, evs', ret', h⟩
      rcases List.mem_cons.mp he with rfl | he
      · cases h; exact .inl rfl
      · exact .inr ⟨e, he, evs', ret', h⟩

/-- The maker of the socket of a manager that was not destroyed. -/
theorem maker_face (P : Plat) (ops : List CopyOp) (p : Copies) (tr : CopyTrace) (h : ({} : Copies).run P ops = some (p, tr))
    (i : Nat) (f : Face) (hf : p.faces[i]? = some f) (hl : ¬ destroyedIn i tr) :
    i ∉ p.gone ∧ (makerOf i tr = none ∧ f.sockets = [] ∨
      ∃ o, makerOf i tr = some o ∧ f.owner = o ∧ f.sockets ≠ [] ∧ ∃ g, p.faces[o]? = some g) := by
  have hi := copyInv_run P {} p [] ops tr copyInv_new h
  have hg : i ∉ p.gone := by
    rw [copyGone_run P _ p ops tr h i]
    rintro (h | h)
    · cases h
    · exact hl h
  refine ⟨hg, ?_⟩
  have hu := hi.used i f hf hg
  have hlt : i < (makersFrom [] tr).length := by rw [hi.len]; exact (List.getElem?_eq_some_iff.mp hf).1
  cases hm : (makersFrom [] tr)[i] with
  | none =>
    have he : (makersFrom [] tr)[i]? = some none := by rw [List.getElem?_eq_getElem hlt, hm]
    refine .inl ⟨by simp [makerOf, he], Classical.byContradiction fun hne => ?_⟩
    obtain ⟨o, ho⟩ := hu.mp hne
    rw [he] at ho; cases ho
  | some o =>
    have he : (makersFrom [] tr)[i]? = some (some o) := by rw [List.getElem?_eq_getElem hlt, hm]
    obtain ⟨h1, h2⟩ := hi.maker i o f hf he
    have ho : o < p.faces.length := by rw [← hi.len]; exact h2
    exact .inr ⟨o, by simp [makerOf, he], h1, hu.mpr ⟨o, he⟩, _, List.getElem?_eq_getElem ho⟩

/-! ## A manager that made its socket -/

/-- **C114 (own).**  A manager that was not destroyed, and that either made the socket it uses or has none, behaves in every
call as the class does without copies: the same requests, the same deliveries and ticks, the same result, and the same
members afterwards; the other managers keep their members. -/
theorem C114_own (P : Plat) (ops : List CopyOp) (p : Copies) (tr : CopyTrace) (h : ({} : Copies).run P ops = some (p, tr))
    (i : Nat) (f : Face) (hf : p.faces[i]? = some f) (hl : ¬ destroyedIn i tr)
    (hm : makerOf i tr = none ∨ makerOf i tr = some i) (op : MOp) (hop : ∀ a b c, op ≠ .otherOpen a b c) :
    (∀ evs why, (p.view f).step P op = .stop evs why → p.step P (.call i op) = .stop evs why) ∧
    ∀ m evs ret, (p.view f).step P op = .ok m evs ret → ∃ p' f', p.step P (.call i op) = .ok p' evs ret ∧
      p'.statics = m.statics ∧ p'.heap = m.heap ∧ p'.faces = p.faces.set i f' ∧
      f'.incarnation = f.incarnation ∧ f'.table = m.table ∧ f'.sockets = m.sockets := by
  obtain ⟨hg, hmk⟩ := maker_face P ops p tr h i f hf hl
  have hc : p.callable i op = true := by
    cases op <;> simp_all [Copies.callable]
  cases op with
  | handle start t rounds ticks =>
    simp only [Copies.step, Copies.call, hf, hc, if_true, Mgr.step]
    rcases hmk with ⟨-, hs⟩ | ⟨o, ho, hw, hs, -⟩
    · have hv : (p.view f).sockets = [] := hs
      simp only [Mgr.handle, Copies.handle, hs, hv]
      exact ⟨fun evs why h => by cases h; rfl, fun m evs ret h => by cases h⟩
    · have hoi : o = i := by
        rcases hm with hm | hm
        · rw [hm] at ho; cases ho
        · rw [hm] at ho; cases ho; rfl
      have ht : p.handlerTable f.owner = some f.table := by
        rw [hw, hoi]
        simp [Copies.handlerTable, hg, hf]
      obtain ⟨e, es, hse⟩ := List.exists_cons_of_ne_nil hs
      have hv : (p.view f).sockets = e :: es := hse
      simp only [Mgr.handle, Copies.handle, Copies.serve, hse, hv, ht, Option.getD_some]
      rw [show (⟨(p.view f).incarnation, (p.view f).statics, f.table, e :: es, (p.view f).heap, (p.view f).held⟩ : Mgr) =
        p.view f from by rw [← hv]; rfl]
      cases hsel : Mgr.selectLoop P (start + t * 1000000) start rounds (p.view f) with
      | ub evs => exact ⟨fun evs why h => by cases h; rfl, fun m evs ret h => by cases h⟩
      | threw m evs1 x =>
        have q := (selectLoop_quiet P _ _ _ _).2 _ _ _ hsel
        refine ⟨fun evs why h => (by cases h), fun m' evs ret h => ?_⟩
        cases h
        exact ⟨_, f, rfl, q.statics.symm, rfl, (set_of_getElem? hf).symm, rfl, q.table.symm, q.sockets.symm⟩
      | go m evs1 =>
        have q := (selectLoop_quiet P _ _ _ _).1 _ _ hsel
        have hqt : m.table = f.table := q.table
        dsimp only
        rw [hqt]
        generalize Mgr.tickAll ticks f.table m.heap = r
        obtain ⟨heap, evs2, keys, x⟩ := r
        cases x with
        | none =>
          refine ⟨fun evs why h => (by cases h), fun m' evs ret h => ?_⟩
          cases h
          exact ⟨_, _, rfl, q.statics.symm, rfl, rfl, rfl, rfl, (q.sockets.trans hv).symm⟩
        | some x =>
          refine ⟨fun evs why h => (by cases h), fun m' evs ret h => ?_⟩
          cases h
          exact ⟨_, f, rfl, q.statics.symm, rfl, (set_of_getElem? hf).symm, rfl, rfl, q.sockets.symm⟩
  | otherOpen a b c => exact absurd rfl (hop a b c)
  | _ =>
    simp only [Copies.step, Copies.call, hf, hc, if_true]
    refine ⟨fun evs why h => by rw [h], fun m evs ret h => ?_⟩
    rw [h]
    exact ⟨_, _, rfl, rfl, rfl, rfl, rfl, rfl, rfl⟩

/-! ## Pointers of the program -/

theorem kept_iff (p : Copies) (id : Nat) : id ∈ p.kept ↔ Lives p id := by
  simp [Copies.kept, Lives]

theorem view_alive (p : Copies) (f : Face) (hf : f ∈ p.faces) (id : Nat) : (p.view f).alive id = true ↔ Lives p id := by
  rw [← kept_iff]
  unfold Mgr.alive Copies.view
  simp only [Bool.or_eq_true, List.any_eq_true, List.contains_iff_mem]
  constructor
  · rintro (⟨e, he, hid⟩ | h)
    · rw [kept_iff]
      refine .inr ⟨f, hf, e.1, ?_⟩
      have : e.2 = id := by simpa using hid
      rw [← this]; exact he
    · exact h
  · exact .inr

/-- **C114 (pointers).**  `lock` of a pointer to a connection gives a strong pointer exactly if the program still has one or
some manager, whichever, still has the connection; one is given up by a release; nothing else, no copy and no destruction,
changes which strong pointers the program has.  Data can be set through a pointer exactly as long as the object exists. -/
theorem C114_pointers (P : Plat) (p p' : Copies) (op : CopyOp) (evs : List MEv) (ret : MRet)
    (h : p.step P op = .ok p' evs ret) :
    (∀ i id, op = .call i (.lock id) →
      (Lives p id → p'.held = id :: p.held) ∧ (¬ Lives p id → p'.held = p.held)) ∧
    (∀ i id, op = .call i (.release id) → p'.held = p.held.erase id) ∧
    ((∀ i id, op ≠ .call i (.lock id) ∧ op ≠ .call i (.release id)) → p'.held = p.held) ∧
    (∀ i id data, op = .call i (.setData id data) → id < p.heap.length →
      ((∃ io, MEv.conn id (.setData data) io ∈ evs) ↔ Lives p id)) := by
  have hheld : p'.held = match op with
      | .call _ op => p.heldAfter op
      | _ => p.held := by
    cases op with
    | create inc => cases h; rfl
    | copy i =>
      simp only [Copies.step] at h
      split at h
      · cases h
      · split at h <;> cases h; rfl
    | assign a b =>
      obtain ⟨_, _, -, -, -, -, rfl, -, -⟩ := assign_cases h
      rfl
    | destroy i =>
      simp only [Copies.step] at h
      split at h
      · cases h
      · split at h <;> cases h; rfl
    | call i op =>
      obtain ⟨f, hf, -, ⟨a, b, c, d, rfl, hd⟩ | ⟨-, m, -, rfl⟩⟩ := call_cases P p p' i op evs ret h
      · exact (handled P p p' i f hf a b c d evs ret hd).held
      · rfl
  refine ⟨?_, ?_, ?_, ?_⟩
  · rintro i id rfl
    simp only [hheld, Copies.heldAfter]
    exact ⟨fun hl => if_pos (List.contains_iff_mem.mpr ((kept_iff p id).mpr hl)),
      fun hl => if_neg fun hx => hl ((kept_iff p id).mp (List.contains_iff_mem.mp hx))⟩
  · rintro i id rfl
    simp only [hheld, Copies.heldAfter]
  · intro hn
    rw [hheld]
    cases op with
    | call i op =>
      cases op with
      | lock id => exact absurd rfl (hn i id).1
      | release id => exact absurd rfl (hn i id).2
      | _ => rfl
    | _ => rfl
  · rintro i id data rfl hlt
    obtain ⟨f, hf, -, ⟨_, _, _, _, he, _⟩ | ⟨-, m, hm, -⟩⟩ := call_cases P p p' i _ evs ret h
    · cases he
    · rw [← view_alive p f (List.mem_of_getElem? hf)]
      have hh : ∃ c, (p.view f).heap[id]? = some c := ⟨_, List.getElem?_eq_getElem hlt⟩
      obtain ⟨c, hc⟩ := hh
      simp only [Mgr.step, hc] at hm
      cases hal : (p.view f).alive id
      · rw [hal] at hm; cases hm; simp
      · rw [hal] at hm; cases hm; simp

/-- The hypotheses of `C114_pointers` are met: the first manager closes the connection, which lives on in the copy; when the
copy is destroyed, a pointer can be locked no more. -/
example :
    ((({} : Copies).run samplePlat [.create 1, .call 0 (sampleOpen 0xA 0x10001 1), .copy 0,
      .call 0 (.forwardClose (some 0) (.ok (sampleReply 0 0 0))), .call 0 (.lock 0)]).map fun r => r.1.held) = some [0] ∧
    ((({} : Copies).run samplePlat [.create 1, .call 0 (sampleOpen 0xA 0x10001 1), .copy 0,
      .call 0 (.forwardClose (some 0) (.ok (sampleReply 0 0 0))), .destroy 1, .call 0 (.lock 0)]).map fun r => r.1.held) = some [] := by
  decide +kernel

/-! ## A manager that uses the socket of another -/

theorem nonhandle_no_recv (P : Plat) (s m : Mgr) (op : MOp) (evs : List MEv) (ret : MRet)
    (hn : ∀ start t rounds ticks, op ≠ .handle start t rounds ticks) (h : s.step P op = .ok m evs ret) (id : Nat)
    (data : List Byte) (io : List IoEv) : MEv.conn id (.recv data) io ∉ evs := by
  intro hr
  cases op with
  | forwardOpen host p large e =>
    obtain ⟨st, data', _, _, hh⟩ := forwardOpen_cases P host p large e s m evs ret h
    rcases hh with ⟨-, rfl, _⟩ | ⟨resp, _, _, r, mult, ep, socks, bs, _, _, _, _, hf, -, rfl, _⟩
    · simp at hr
    · simp only [List.cons_append, List.mem_cons, List.mem_append, reduceCtorEq, List.not_mem_nil, or_false, false_or] at hr
      obtain ⟨ep, he⟩ := findOrCreate_events _ _ _ _ _ hf _ hr
      cases he
  | handle start t rounds ticks => exact hn _ _ _ _ rfl
  | setData id' data' =>
    simp only [Mgr.step] at h
    split at h
    · cases h; simp at hr
    · cases h; simp at hr
  | otherOpen inc mc p2p =>
    simp only [Mgr.step] at h
    split at h
    · cases h
    · cases h; simp at hr
  | forwardClose ptr reply =>
    simp only [Mgr.step, Mgr.forwardClose] at h
    split at h
    · cases h; simp at hr
    · split at h
      · split at h
        · cases h; simp at hr
        · split at h
          · cases h
          · cases h; simp at hr
          · split at h
            · cases h; simp at hr
            · split at h
              · cases h; simp at hr
              · cases h
      · cases h; simp at hr
  | hasOpen => cases h; simp at hr
  | lock id =>
    simp only [Mgr.step] at h
    split at h <;> (cases h; simp at hr)
  | release id => cases h; simp at hr

/-- **C114 (who is given data).**  A datagram that arrives while manager `i` handles connections can only be given to a
connection that the manager that made the socket has; that `i` has it is neither needed nor enough. -/
theorem C114_handler (P : Plat) (ops : List CopyOp) (p : Copies) (tr : CopyTrace) (h : ({} : Copies).run P ops = some (p, tr))
    (i : Nat) (hl : ¬ destroyedIn i tr) (op : MOp) (p' : Copies) (evs : List MEv) (ret : MRet)
    (hs : p.step P (.call i op) = .ok p' evs ret) (id : Nat) (data : List Byte) (io : List IoEv)
    (hr : MEv.conn id (.recv data) io ∈ evs) :
    ∃ o g k, makerOf i tr = some o ∧ ¬ destroyedIn o tr ∧ p.faces[o]? = some g ∧ (k, id) ∈ g.table := by
  obtain ⟨f, hf, hca, hd | ⟨hnh, m, hm, rfl⟩⟩ := call_cases P p p' i op evs ret hs
  · obtain ⟨a, b, c, d, -, hd⟩ := hd
    have hd := handled P p p' i f hf a b c d evs ret hd
    rcases hd.evs _ hr with ⟨_, he⟩ | ⟨id', data', io', he, t, k, ht, hk⟩ | ⟨_, _, _, _, _, he, _⟩
    · cases he
    · cases he
      rcases (maker_face P ops p tr h i f hf hl).2 with ⟨-, hs⟩ | ⟨o, ho, hw, -, g, hg⟩
      · exact absurd hs hd.socks
      · unfold Copies.handlerTable at ht
        split at ht
        · cases ht
        · next hng =>
          rw [hw] at ht hng
          rw [hg] at ht
          cases ht
          refine ⟨o, g, k, ho, fun hx => hng ?_, hg, hk⟩
          rw [List.contains_iff_mem, copyGone_run P _ p ops tr h]
          exact .inr hx
    · cases he
  · exact absurd hr (nonhandle_no_recv P _ m op evs ret hnh hm id data io)

/-- **C114 violated (the maker is gone).**  A manager uses the socket that another one made, and this one was destroyed, as
happens when a vector of managers grows or a manager is returned by copy: the first datagram that arrives, if it is one
of any connection, known or not, is looked up in the map of a manager that does not exist.  A wait without a datagram is
not affected. -/
theorem C114_destroyed_violated (P : Plat) (ops : List CopyOp) (p : Copies) (tr : CopyTrace)
    (h : ({} : Copies).run P ops = some (p, tr)) (i o : Nat) (f : Face) (hf : p.faces[i]? = some f) (hl : ¬ destroyedIn i tr)
    (hm : makerOf i tr = some o) (ho : destroyedIn o tr) (start : Nat) (t : Int) (ticks : Nat → TickEnv) :
    (∀ d t0 addr items throws more now rest, CpfAccepts (asReceived d) ((t0, addr) :: items) → 4 ≤ addr.length → ∃ evs,
      p.step P (.call i (.handle start t (.ready { recv := .dgram d, throws := throws } more now :: rest) ticks)) = .stop evs .ub) ∧
    ∃ p' evs ret, p.step P (.call i (.handle start t [] ticks)) = .ok p' evs ret := by
  obtain ⟨hg, hmk⟩ := maker_face P ops p tr h i f hf hl
  rcases hmk with ⟨hn, -⟩ | ⟨o', ho', hw, hs, -⟩
  · rw [hn] at hm; cases hm
  · rw [hm] at ho'
    cases ho'
    have hgo : o ∈ p.gone := by
      rw [copyGone_run P _ p ops tr h]; exact .inr ho
    have hto : p.handlerTable f.owner = none := by simp [Copies.handlerTable, hw, hgo]
    obtain ⟨e, es, hse⟩ := List.exists_cons_of_ne_nil hs
    have hc : ∀ rounds, p.callable i (.handle start t rounds ticks) = true := by simp [Copies.callable, hg]
    refine ⟨fun d t0 addr items throws more now rest ha h4 => ?_, ?_⟩
    · have hdl := deliver_unknown P { p.view f with table := [] } d t0 addr items ha h4 (by simp)
      simp only [Copies.step, Copies.call, hf, hc, if_true, Copies.handle, hse, hto, Copies.stray]
      simp only [Copies.view] at hdl ⊢
      rw [hdl]
      exact ⟨_, rfl⟩
    · simp only [Copies.step, Copies.call, hf, hc, if_true, Copies.handle, Copies.serve, hse, hto, Mgr.selectLoop]
      generalize Mgr.tickAll ticks f.table _ = r
      obtain ⟨heap, evs2, keys, x⟩ := r
      cases x <;> exact ⟨_, _, _, rfl⟩

theorem call_table (P : Plat) (s m : Mgr) (op : MOp) (evs : List MEv) (ret : MRet) (h : s.step P op = .ok m evs ret) :
    s.heap.length ≤ m.heap.length ∧ ∀ key id, id < s.heap.length → (key, id) ∈ m.table → (key, id) ∈ s.table := by
  have hlen : s.heap.length ≤ m.heap.length := by
    have := replay_length P.mem _ _ _ (step_replay P s m op evs ret h)
    omega
  refine ⟨hlen, fun key id hid hm => ?_⟩
  cases step_shape P s m op evs ret h with
  | still _ _ ht =>
    rcases ht with ht | ⟨k, ht⟩
    · rw [ht] at hm; exact hm
    · rw [ht] at hm; exact (List.mem_filter.mp hm).1
  | opened c _ _ ht =>
    rcases ht with ⟨_, _, ht⟩ | ⟨_, ht⟩
    · rw [ht] at hm; exact hm
    · rw [ht] at hm
      rcases tblPut_mem.mp hm with he | he
      · cases he; omega
      · exact he
  | handled _ _ ht =>
    obtain ⟨g, ht⟩ := ht
    rw [ht] at hm; exact (List.mem_filter.mp hm).1
  | wrote _ _ _ _ ht => rw [ht] at hm; exact hm

theorem call_table_new (P : Plat) (s m : Mgr) (op : MOp) (evs : List MEv) (ret : MRet) (h : s.step P op = .ok m evs ret)
    (hb : ∀ key id, (key, id) ∈ s.table → id < s.heap.length) (key : BitVec 16) (id : Nat) (hm : (key, id) ∈ m.table) :
    id < s.heap.length ∨ id = s.heap.length ∧ s.heap.length < m.heap.length := by
  cases step_shape P s m op evs ret h with
  | still _ _ ht =>
    rcases ht with ht | ⟨k, ht⟩
    · rw [ht] at hm; exact .inl (hb _ _ hm)
    · rw [ht] at hm; exact .inl (hb _ _ ((List.mem_filter.mp hm).1))
  | opened c hh _ ht =>
    rcases ht with ⟨_, _, ht⟩ | ⟨_, ht⟩
    · rw [ht] at hm; exact .inl (hb _ _ hm)
    · rw [ht] at hm
      rcases tblPut_mem.mp hm with he | he
      · cases he; exact .inr ⟨rfl, by rw [hh]; simp⟩
      · exact .inl (hb _ _ he)
  | handled _ _ ht =>
    obtain ⟨g, ht⟩ := ht
    rw [ht] at hm; exact .inl (hb _ _ ((List.mem_filter.mp hm).1))
  | wrote _ _ _ _ ht => rw [ht] at hm; exact .inl (hb _ _ hm)

/-- The maps only have connections that were made. -/
theorem objects_bounded (P : Plat) (p p' : Copies) (ops : List CopyOp) (tr : CopyTrace)
    (hb : ∀ (i : Nat) (f : Face), p.faces[i]? = some f → ∀ key id, (key, id) ∈ f.table → id < p.heap.length)
    (h : p.run P ops = some (p', tr)) :
    ∀ (i : Nat) (f : Face), p'.faces[i]? = some f → ∀ key id, (key, id) ∈ f.table → id < p'.heap.length := by
  induction ops generalizing p tr with
  | nil => cases h; exact hb
  | cons op ops ih =>
    obtain ⟨p1, evs, ret, tr', h1, h2, rfl⟩ := copyRun_cons h
    refine ih p1 tr' ?_ h2
    have hlen := replay_length P.mem _ _ _ (copyStep_replay P p p1 op evs ret h1)
    intro i f hf key id hk
    cases op with
    | create inc =>
      cases h1
      rw [List.getElem?_append] at hf
      split at hf
      · exact hb i f hf key id hk
      · rw [List.getElem?_singleton] at hf
        split at hf
        · cases hf; cases hk
        · cases hf
    | copy i0 =>
      simp only [Copies.step] at h1
      split at h1
      · cases h1
      · next f0 hf0 =>
        split at h1
        · cases h1
        · cases h1
          rw [List.getElem?_append] at hf
          split at hf
          · exact hb i f hf key id hk
          · rw [List.getElem?_singleton] at hf
            split at hf
            · cases hf; exact hb i0 _ hf0 key id hk
            · cases hf
    | assign a b =>
      obtain ⟨fa, fb, hfa, hfb, -, -, rfl, -, -⟩ := assign_cases h1
      have hlt := (List.getElem?_eq_some_iff.mp hfa).1
      rw [List.getElem?_set] at hf
      split at hf
      · cases hf; exact hb b _ hfb key id hk
      · exact hb i f hf key id hk
    | destroy i0 =>
      simp only [Copies.step] at h1
      split at h1
      · cases h1
      · next f0 hf0 =>
        split at h1
        · cases h1
        · cases h1
          have hlt := (List.getElem?_eq_some_iff.mp hf0).1
          rw [List.getElem?_set] at hf
          split at hf
          · cases hf; cases hk
          · exact hb i f hf key id hk
    | call i0 op =>
      obtain ⟨f0, hf0, hca, hh | ⟨hnh, m, hm, rfl⟩⟩ := call_cases P p p1 i0 op evs ret h1
      · obtain ⟨a, b, c, d, -, hh⟩ := hh
        have hq := handled P p p1 i0 f0 hf0 a b c d evs ret hh
        have hlt := (List.getElem?_eq_some_iff.mp hf0).1
        obtain ⟨g0, hg0⟩ := hq.faces
        rw [hg0, List.getElem?_set] at hf
        split at hf
        · cases hf
          have := hb i0 f0 hf0 key id ((List.mem_filter.mp hk).1)
          omega
        · have := hb i f hf key id hk
          omega
      · have hlt := (List.getElem?_eq_some_iff.mp hf0).1
        simp only [Copies.store, List.getElem?_set] at hf
        split at hf
        · cases hf
          obtain ⟨hle, htab⟩ := call_table P _ m op evs ret hm
          show id < m.heap.length
          refine Classical.byContradiction fun hge => ?_
          have hid : id < (p.view f0).heap.length ∨ id = (p.view f0).heap.length ∧ (p.view f0).heap.length < m.heap.length :=
            call_table_new P _ m op evs ret hm (fun key id hk => hb i0 f0 hf0 key id hk) key id hk
          omega
        · have := hb i f hf key id hk
          show id < m.heap.length
          have : m.heap.length ≥ p.heap.length := (call_table P _ m op evs ret hm).1
          omega

/-- No manager that has the connection is one whose map a handler looks in. -/
structure Deaf (p : Copies) (id : Nat) : Prop where
  known : id < p.heap.length
  deaf : ∀ (k : Nat) (f : Face), p.faces[k]? = some f → (∃ key, (key, id) ∈ f.table) →
    f.sockets ≠ [] ∧ ∀ (j : Nat) (g : Face), p.faces[j]? = some g → g.sockets ≠ [] → g.owner ≠ k

theorem owner_lt {p : Copies} {ms : List (Option Nat)} (hi : CopyInv p ms) (j : Nat) (g : Face) (hg : p.faces[j]? = some g)
    (hs : g.sockets ≠ []) : g.owner < p.faces.length := by
  have hng : j ∉ p.gone := fun h => hs (hi.gone j g hg h).2
  obtain ⟨o, ho⟩ := (hi.used j g hg hng).mp hs
  obtain ⟨h1, h2⟩ := hi.maker j o g hg ho
  rw [h1, ← hi.len]
  exact h2

theorem deaf_step (P : Plat) (p p' : Copies) (ms : List (Option Nat)) (hi : CopyInv p ms) (id : Nat) (hd : Deaf p id) (op : CopyOp)
    (hna : ∀ a b, op = .assign a b → ∀ k : Nat, ms[k]? ≠ some (some a))
    (evs : List MEv) (ret : MRet) (h : p.step P op = .ok p' evs ret) :
    Deaf p' id ∧ ∀ data io, MEv.conn id (.recv data) io ∉ evs := by
  cases op with
  | create inc =>
    cases h
    refine ⟨⟨hd.known, ?_⟩, by simp⟩
    intro k f hf ⟨key, hk⟩
    rw [List.getElem?_append] at hf
    split at hf
    · next hlt =>
      obtain ⟨h1, h2⟩ := hd.deaf k f hf ⟨key, hk⟩
      refine ⟨h1, fun j g hg hs => ?_⟩
      rw [List.getElem?_append] at hg
      split at hg
      · exact h2 j g hg hs
      · rw [List.getElem?_singleton] at hg
        split at hg
        · cases hg; exact absurd rfl hs
        · cases hg
    · rw [List.getElem?_singleton] at hf
      split at hf
      · cases hf; cases hk
      · cases hf
  | copy i0 =>
    simp only [Copies.step] at h
    split at h
    · cases h
    · next f0 hf0 =>
      split at h
      · cases h
      · cases h
        refine ⟨⟨hd.known, ?_⟩, by simp⟩
        intro k f hf ⟨key, hk⟩
        rw [List.getElem?_append] at hf
        split at hf
        · next hlt =>
          obtain ⟨h1, h2⟩ := hd.deaf k f hf ⟨key, hk⟩
          refine ⟨h1, fun j g hg hs => ?_⟩
          rw [List.getElem?_append] at hg
          split at hg
          · exact h2 j g hg hs
          · rw [List.getElem?_singleton] at hg
            split at hg
            · cases hg; exact h2 i0 f0 hf0 hs
            · cases hg
        · next hlt =>
          rw [List.getElem?_singleton] at hf
          split at hf
          · cases hf
            obtain ⟨h1, h2⟩ := hd.deaf i0 f0 hf0 ⟨key, hk⟩
            refine ⟨h1, fun j g hg hs => ?_⟩
            have hlt2 : g.owner < p.faces.length := by
              rw [List.getElem?_append] at hg
              split at hg
              · exact owner_lt hi j g hg hs
              · rw [List.getElem?_singleton] at hg
                split at hg
                · cases hg; exact owner_lt hi i0 f0 hf0 hs
                · cases hg
            omega
          · cases hf
  | assign a b =>
    obtain ⟨fa, fb, hfa, hfb, hga, hgb, rfl, rfl, -⟩ := assign_cases h
    refine ⟨⟨hd.known, ?_⟩, by simp⟩
    have hown : ∀ (j : Nat) (g : Face), p.faces[j]? = some g → g.sockets ≠ [] → g.owner ≠ a := by
      intro j g hg hs hgo
      have hng : j ∉ p.gone := fun h => hs (hi.gone j g hg h).2
      obtain ⟨o, ho⟩ := (hi.used j g hg hng).mp hs
      have := (hi.maker j o g hg ho).1
      rw [hgo] at this
      subst this
      exact hna _ b rfl j ho
    have hlt := (List.getElem?_eq_some_iff.mp hfa).1
    have hold : ∀ (j : Nat) (g : Face), (p.faces.set a fb)[j]? = some g → ∃ j', p.faces[j']? = some g ∧ (j = a ∨ j' = j) := by
      intro j g hg
      rw [List.getElem?_set] at hg
      split at hg
      · next he => cases hg; exact ⟨b, hfb, .inl he.symm⟩
      · exact ⟨j, hg, .inr rfl⟩
    intro k f hf hk
    obtain ⟨k', hk', hor⟩ := hold k f hf
    obtain ⟨h1, h2⟩ := hd.deaf k' f hk' hk
    refine ⟨h1, fun j g hg hs => ?_⟩
    obtain ⟨j', hj', -⟩ := hold j g hg
    rcases hor with rfl | rfl
    · exact hown j' g hj' hs
    · exact h2 j' g hj' hs
  | destroy i0 =>
    simp only [Copies.step] at h
    split at h
    · cases h
    · next f0 hf0 =>
      split at h
      · cases h
      · cases h
        have hlt := (List.getElem?_eq_some_iff.mp hf0).1
        refine ⟨⟨hd.known, ?_⟩, by simp⟩
        intro k f hf ⟨key, hk⟩
        rw [List.getElem?_set] at hf
        split at hf
        · cases hf; cases hk
        · obtain ⟨h1, h2⟩ := hd.deaf k f hf ⟨key, hk⟩
          refine ⟨h1, fun j g hg hs => ?_⟩
          rw [List.getElem?_set] at hg
          split at hg
          · cases hg; exact absurd rfl hs
          · exact h2 j g hg hs
  | call i0 op =>
    obtain ⟨f0, hf0, hca, hh | ⟨hnh, m, hm, rfl⟩⟩ := call_cases P p p' i0 op evs ret h
    · obtain ⟨a, b, c, d, -, hh⟩ := hh
      have hq := handled P p p' i0 f0 hf0 a b c d evs ret hh
      have hlt := (List.getElem?_eq_some_iff.mp hf0).1
      obtain ⟨g0, hg0⟩ := hq.faces
      refine ⟨⟨?_, ?_⟩, ?_⟩
      · have := replay_length P.mem _ _ _ hq.replay
        have := hd.known
        omega
      · have hold : ∀ (k : Nat) (f : Face), p'.faces[k]? = some f → ∃ f1 : Face, p.faces[k]? = some f1 ∧ f.sockets = f1.sockets ∧
            f.owner = f1.owner ∧ ∀ x ∈ f.table, x ∈ f1.table := by
          intro k f hf
          rw [hg0, List.getElem?_set] at hf
          split at hf
          · next he =>
            cases hf; subst he
            exact ⟨f0, hf0, rfl, rfl, fun x hx => (List.mem_filter.mp hx).1⟩
          · exact ⟨f, hf, rfl, rfl, fun _ hx => hx⟩
        intro k f hf ⟨key, hk⟩
        obtain ⟨f1, e1, e2, e3, e4⟩ := hold k f hf
        obtain ⟨h1, h2⟩ := hd.deaf k f1 e1 ⟨key, e4 _ hk⟩
        refine ⟨by rw [e2]; exact h1, fun j g hg hs => ?_⟩
        obtain ⟨g1, d1, d2, d3, -⟩ := hold j g hg
        rw [d3]
        exact h2 j g1 d1 (by rw [← d2]; exact hs)
      · intro data io hr
        rcases hq.evs _ hr with ⟨_, he⟩ | ⟨id', data', io', he, t, k, ht, hk⟩ | ⟨_, _, _, _, _, he, _⟩
        · cases he
        · cases he
          unfold Copies.handlerTable at ht
          split at ht
          · cases ht
          · cases hfo : p.faces[f0.owner]? with
            | none => rw [hfo] at ht; cases ht
            | some g =>
              rw [hfo] at ht
              cases ht
              exact (hd.deaf f0.owner g hfo ⟨k, hk⟩).2 i0 f0 hf0 hq.socks rfl
        · cases he
    · refine ⟨?_, fun data io => nonhandle_no_recv P _ m op evs ret hnh hm id data io⟩
      have hlt := (List.getElem?_eq_some_iff.mp hf0).1
      obtain ⟨-, hcase⟩ := call_sock P p ms hi i0 f0 hf0 op m evs ret hm
      obtain ⟨hlen, htab⟩ := call_table P _ m op evs ret hm
      have hkn := hd.known
      refine ⟨Nat.lt_of_lt_of_le hkn hlen, ?_⟩
      have hnew : ∀ (i : Nat) (f : Face), (p.store i0 f0 op m evs).faces[i]? = some f →
          (i = i0 ∧ f.table = m.table ∧ f.sockets = m.sockets ∧ f.owner = if evs.any MEv.isBound then i0 else f0.owner) ∨
          (i ≠ i0 ∧ p.faces[i]? = some f) := by
        intro i f hf
        simp only [Copies.store, List.getElem?_set] at hf
        split at hf
        · next he =>
          cases hf; subst he
          exact .inl ⟨rfl, rfl, rfl, by rw [bound_any]⟩
        · next he => exact .inr ⟨fun h => he h.symm, hf⟩
      intro k f hf ⟨key, hk⟩
      have hold : ∃ f1 : Face, p.faces[k]? = some f1 ∧ (key, id) ∈ f1.table ∧ (f1.sockets ≠ [] → f.sockets ≠ []) := by
        rcases hnew k f hf with ⟨rfl, h1, h2, -⟩ | ⟨-, h1⟩
        · refine ⟨f0, hf0, htab key id hkn (by rw [← h1]; exact hk), ?_⟩
          rw [h2]
          rcases hcase with ⟨-, h3, h4⟩ | ⟨-, h3⟩
          · exact fun _ => h4
          · exact h3.mpr
        · exact ⟨f, h1, hk, fun h => h⟩
      obtain ⟨f1, e1, e2, e3⟩ := hold
      obtain ⟨h1, h2⟩ := hd.deaf k f1 e1 ⟨key, e2⟩
      refine ⟨e3 h1, fun j g hg hs => ?_⟩
      rcases hnew j g hg with ⟨rfl, -, d2, d3⟩ | ⟨-, d1⟩
      · rcases hcase with ⟨hb, h3, h4⟩ | ⟨hb, h3⟩
        · rw [d3, hb, if_pos rfl]
          rintro rfl
          rw [hf0] at e1
          cases e1
          exact h1 h3
        · rw [d3, hb]
          exact h2 j f0 hf0 (h3.mp (by rw [← d2]; exact hs))
      · exact h2 j g d1 hs

/-- Who made a socket that is in use has made one. -/
theorem makers_made (ms : List (Option Nat)) (tr : CopyTrace) (i o : Nat) (h : (makersFrom ms tr)[i]? = some (some o)) :
    (∃ k : Nat, ms[k]? = some (some o)) ∨ madeSocket o tr := by
  induction tr generalizing ms with
  | nil => exact .inl ⟨i, h⟩
  | cons e tr ih =>
    have hcons : madeSocket o tr → madeSocket o (e :: tr) := fun ⟨x, hx, h⟩ => ⟨x, List.mem_cons_of_mem _ hx, h⟩
    have hjoin : ∀ k : Nat, (ms[k]?).join = some o → ms[k]? = some (some o) := by
      intro k
      cases ms[k]? with
      | none => simp
      | some x => simp
    obtain ⟨op, evs, ret⟩ := e
    cases op with
    | create inc =>
      rcases ih _ h with ⟨k, hk⟩ | h
      · rw [List.getElem?_append] at hk
        split at hk
        · exact .inl ⟨k, hk⟩
        · rw [List.getElem?_singleton] at hk
          split at hk <;> cases hk
      · exact .inr (hcons h)
    | copy j =>
      rcases ih _ h with ⟨k, hk⟩ | h
      · rw [List.getElem?_append] at hk
        split at hk
        · exact .inl ⟨k, hk⟩
        · rw [List.getElem?_singleton] at hk
          split at hk
          · exact .inl ⟨j, hjoin j (by simpa using hk)⟩
          · cases hk
      · exact .inr (hcons h)
    | assign a b =>
      rcases ih _ h with ⟨k, hk⟩ | h
      · rw [List.getElem?_set] at hk
        split at hk
        · split at hk
          · exact .inl ⟨b, hjoin b (by simpa using hk)⟩
          · cases hk
        · exact .inl ⟨k, hk⟩
      · exact .inr (hcons h)
    | destroy j =>
      rcases ih _ h with h | h
      · exact .inl h
      · exact .inr (hcons h)
    | call j op =>
      simp only [makersFrom] at h
      rcases ih _ h with ⟨k, hk⟩ | h
      · split at hk
        · next hb =>
          rw [List.getElem?_set] at hk
          split at hk
          · split at hk
            · cases hk; exact .inr ⟨_, List.mem_cons_self, op, evs, ret, rfl, hb⟩
            · cases hk
          · exact .inl ⟨k, hk⟩
        · exact .inl ⟨k, hk⟩
      · exact .inr (hcons h)

theorem deaf_run (P : Plat) (p p' : Copies) (ms : List (Option Nat)) (hi : CopyInv p ms) (id : Nat) (hd : Deaf p id)
    (ops : List CopyOp) (tr : CopyTrace) (h : p.run P ops = some (p', tr))
    (hna : ∀ a b, CopyOp.assign a b ∈ ops → (∀ k : Nat, ms[k]? ≠ some (some a)) ∧ ¬ madeSocket a tr) (data : List Byte)
    (io : List IoEv) : MEv.conn id (.recv data) io ∉ copyEvs tr := by
  induction ops generalizing p ms tr with
  | nil => cases h; simp [copyEvs]
  | cons op ops ih =>
    obtain ⟨p1, evs, ret, tr', h1, h2, rfl⟩ := copyRun_cons h
    rw [show copyEvs ((op, evs, ret) :: tr') = evs ++ copyEvs tr' from by simp [copyEvs], List.mem_append, not_or]
    obtain ⟨h3, h4⟩ := deaf_step P p p1 ms hi id hd op
      (fun a b he => (hna a b (by rw [he]; exact List.mem_cons_self)).1) evs ret h1
    refine ⟨h4 data io, ih p1 _ (copyInv_step P p p1 ms op evs ret hi h1) h3 tr' h2 fun a b hab => ?_⟩
    obtain ⟨g1, g2⟩ := hna a b (List.mem_cons_of_mem _ hab)
    refine ⟨fun k hk => ?_, fun ⟨x, hx, hy⟩ => g2 ⟨x, List.mem_cons_of_mem _ hx, hy⟩⟩
    rcases makers_made ms _ k a hk with ⟨k', hk'⟩ | ⟨x, hx, hy⟩
    · exact g1 k' hk'
    · rw [List.mem_singleton] at hx
      subst hx
      exact g2 ⟨_, List.mem_cons_self, hy⟩

/-- **C114 violated (deaf).**  A connection opened through a manager that uses the socket that another one made, and never
made one, is never given any data, whatever is done afterwards and whatever arrives, unless something is assigned to a
manager that made a socket: the handler looks in the map of the manager that made the socket, and this one does not have
the connection. -/
theorem C114_deaf_violated (P : Plat) (ops : List CopyOp) (p : Copies) (tr : CopyTrace)
    (h : ({} : Copies).run P ops = some (p, tr)) (i o : Nat) (hl : ¬ destroyedIn i tr) (hm : makerOf i tr = some o)
    (hne : ¬ madeSocket i tr)
    (host : String) (params : ConnectionParameters) (large : Bool) (e : OpenEnv) (p1 : Copies) (evs : List MEv) (id : Nat)
    (hopen : p.step P (.call i (.forwardOpen host params large e)) = .ok p1 evs (.ptr (some id)))
    (ops' : List CopyOp) (p' : Copies) (tr' : CopyTrace) (h' : p1.run P ops' = some (p', tr'))
    (hna : ∀ a b, CopyOp.assign a b ∈ ops' → ¬ madeSocket a (tr ++ tr')) (data : List Byte)
    (io : List IoEv) : MEv.conn id (.recv data) io ∉ copyEvs tr' := by
  have hi := copyInv_run P {} p [] ops tr copyInv_new h
  have hi1 := copyInv_step P p p1 _ _ evs _ hi hopen
  have hused : ∀ k o : Nat, (makersFrom [] tr)[k]? = some (some o) → madeSocket o tr := by
    intro k o hk
    rcases makers_made [] tr k o hk with ⟨_, hx⟩ | hx
    · simp at hx
    · exact hx
  have hnb : evs.any MEv.isBound = false := by
    obtain ⟨f, hf, -, ⟨_, _, _, _, he, _⟩ | ⟨-, m, hmm, -⟩⟩ := call_cases P p p1 i _ evs _ hopen
    · cases he
    · obtain ⟨-, ⟨-, h3, -⟩ | ⟨hb, -⟩⟩ := call_sock P p _ hi i f hf _ m evs _ hmm
      · rcases (maker_face P ops p tr h i f hf hl).2 with ⟨hn, -⟩ | ⟨_, -, -, hs, -⟩
        · rw [hn] at hm; cases hm
        · exact absurd h3 hs
      · exact hb
  refine deaf_run P p1 p' _ hi1 id ?_ ops' tr' h' (fun a b hab => ?_) data io
  rotate_left
  · have hx := hna a b hab
    refine ⟨fun k hk => ?_, fun ⟨x, hx', hy⟩ => hx ⟨x, List.mem_append_right _ hx', hy⟩⟩
    simp only [makersFrom, hnb, Bool.false_eq_true, if_false] at hk
    obtain ⟨x, hx', hy⟩ := hused k a hk
    exact hx ⟨x, List.mem_append_left _ hx', hy⟩
  obtain ⟨f, hf, hca, hh | ⟨hnh, m, hmm, rfl⟩⟩ := call_cases P p p1 i _ evs _ hopen
  · obtain ⟨_, _, _, _, he, _⟩ := hh; cases he
  · have hlt := (List.getElem?_eq_some_iff.mp hf).1
    obtain ⟨-, hcase⟩ := call_sock P p _ hi i f hf _ m evs _ hmm
    rcases (maker_face P ops p tr h i f hf hl).2 with ⟨hn, -⟩ | ⟨o', ho', hw, hs, -⟩
    · rw [hn] at hm; cases hm
    · rw [hm] at ho'
      cases ho'
      rcases hcase with ⟨-, h3, -⟩ | ⟨hb, h3⟩
      · exact absurd h3 hs
      · -- the new object is in no map but possibly that of manager `i`
        have hreach := objects_bounded P {} p ops tr (by simp) h
        obtain ⟨st, data', _, _, hh⟩ := forwardOpen_cases P host params large e (p.view f) m evs _ hmm
        rcases hh with ⟨-, -, ⟨_, h⟩ | ⟨h, _⟩⟩ | ⟨resp, _, _, r, mult, ep, socks, bs, _, _, _, _, _, hmr, -, hid⟩
        · cases h
        · cases h
        · cases hid
          obtain ⟨g1, -⟩ := register_shape (Mgr.newConn params large r mult ep e.now)
            { p.view f with statics := st, sockets := socks }
          have hheap : m.heap.length = p.heap.length + 1 := by
            rw [hmr, g1]; simp [Copies.view]
          refine ⟨by show p.heap.length < m.heap.length; omega, ?_⟩
          intro k f' hf' ⟨key, hk⟩
          simp only [Copies.store, List.getElem?_set] at hf'
          split at hf'
          · next he =>
            subst he
            cases hf'
            refine ⟨h3.mpr hs, fun j g hg hsg => ?_⟩
            simp only [Copies.store, List.getElem?_set] at hg
            split at hg
            · cases hg
              rw [bound_any, hb]
              show f.owner ≠ i
              rw [hw]
              rintro rfl
              have hmi : (makersFrom [] tr)[o]? = some (some o) := by
                simp only [makerOf] at hm
                cases hx : (makersFrom [] tr)[o]? with
                | none => rw [hx] at hm; simp at hm
                | some x => rw [hx] at hm; simp at hm; rw [hm]
              exact hne (hused _ _ hmi)
            · next hji =>
              intro hgo
              have hng : j ∉ p.gone := fun h => hsg (hi.gone j g hg h).2
              obtain ⟨o2, ho2⟩ := (hi.used j g hg hng).mp hsg
              obtain ⟨q1, q2⟩ := hi.maker j o2 g hg ho2
              rw [q1] at hgo
              subst hgo
              exact hne (hused j o2 ho2)
          · next hki =>
            have := hreach k f' hf' key _ hk
            exact absurd this (by simp [Copies.view])

/-! ## A connection that two managers have -/

theorem tickAll_visits (ticks : Nat → TickEnv) (t : List (BitVec 16 × Nat)) (heap heap' : List Conn) (evs : List MEv)
    (keys : List (BitVec 16)) (h : Mgr.tickAll ticks t heap = (heap', evs, keys, none)) (k : BitVec 16) (id : Nat)
    (hk : (k, id) ∈ t) (hid : id < heap.length) :
    ∃ io, MEv.conn id (.tick (ticks id).now (ticks id).hook (ticks id).count) io ∈ evs := by
  induction t generalizing heap heap' evs keys with
  | nil => cases hk
  | cons e t ih =>
    obtain ⟨k', id'⟩ := e
    simp only [Mgr.tickAll] at h
    cases hc : heap[id']? with
    | none =>
      rw [hc] at h
      rcases List.mem_cons.mp hk with he | hk
      · cases he
        rw [List.getElem?_eq_getElem hid] at hc
        cases hc
      · exact ih heap heap' evs keys h hk hid
    | some c =>
      rw [hc] at h
      dsimp only at h
      have hl : id < (heap.set id' (c.notifyTick (ticks id').now (ticks id').hook (ticks id').count).1).length := by
        rw [List.length_set]; exact hid
      have ihq := ih (heap.set id' (c.notifyTick (ticks id').now (ticks id').hook (ticks id').count).1)
      generalize Mgr.tickAll ticks t (heap.set id' (c.notifyTick (ticks id').now (ticks id').hook (ticks id').count).1) = q at h ihq
      obtain ⟨q1, q2, q3, q4⟩ := q
      split at h
      · cases h
      · cases h
        rcases List.mem_cons.mp hk with he | hk
        · cases he; exact ⟨_, List.mem_cons_self⟩
        · obtain ⟨io, hio⟩ := ihq _ _ _ rfl hk hl
          exact ⟨io, List.mem_cons_of_mem _ hio⟩
      · cases h
        rcases List.mem_cons.mp hk with he | hk
        · cases he; exact ⟨_, List.mem_cons_self⟩
        · obtain ⟨io, hio⟩ := ihq _ _ _ rfl hk hl
          exact ⟨io, List.mem_cons_of_mem _ hio⟩

/-- **C114 violated (close).**  `forwardClose` of a connection at one manager leaves it in the map of every other one that has
it: the object lives on, and the other manager goes on ticking it, so that it goes on sending and times out later. -/
theorem C114_close_violated (P : Plat) (p p1 : Copies) (i j : Nat) (hij : i ≠ j) (g : Face) (hg : p.faces[j]? = some g)
    (k : BitVec 16) (id : Nat) (hk : (k, id) ∈ g.table) (reply : Outcome MessageRouterResponse) (evs : List MEv) (ret : MRet)
    (h : p.step P (.call i (.forwardClose (some id) reply)) = .ok p1 evs ret) :
    p1.faces[j]? = some g ∧ id ∈ p1.kept ∧
    ∀ start t rounds ticks p2 evs' , id < p1.heap.length →
      p1.step P (.call j (.handle start t rounds ticks)) = .ok p2 evs' .unit →
      ∃ io, MEv.conn id (.tick (ticks id).now (ticks id).hook (ticks id).count) io ∈ evs' := by
  obtain ⟨f, hf, -, hh | ⟨-, m, hm, rfl⟩⟩ := call_cases P p p1 i _ evs ret h
  · obtain ⟨_, _, _, _, he, _⟩ := hh; cases he
  · have hg1 : (p.store i f (.forwardClose (some id) reply) m evs).faces[j]? = some g := by
      simp only [Copies.store]
      rw [List.getElem?_set_ne hij]; exact hg
    refine ⟨hg1, ?_, ?_⟩
    · simp only [Copies.kept, List.mem_append, List.mem_flatMap, List.mem_map]
      exact .inr ⟨g, List.mem_of_getElem? hg1, _, hk, rfl⟩
    · intro start t rounds ticks p2 evs' hid h2
      generalize p.store i f (.forwardClose (some id) reply) m evs = p1 at hg1 hid h2
      simp only [Copies.step, Copies.call, hg1] at h2
      split at h2
      · unfold Copies.handle at h2
        split at h2
        · cases h2
        · split at h2
          · unfold Copies.stray at h2
            split at h2 <;> cases h2
          · unfold Copies.serve at h2
            split at h2
            · cases h2
            · cases h2
            · next m2 evs2 hsel =>
              have q := (selectLoop_quiet P _ _ _ _).1 _ _ hsel
              have hl := replay_length P.mem _ _ _ q.replay
              split at h2
              · next heap evs3 keys hta =>
                cases h2
                obtain ⟨io, hio⟩ := tickAll_visits ticks g.table m2.heap heap evs3 keys hta k id hk (by
                  simp only [Copies.view] at hl; omega)
                exact ⟨io, List.mem_append_right _ hio⟩
              · cases h2
      · cases h2

theorem serve_other (P : Plat) (p q : Copies) (i : Nat) (f : Face) (hp : p.faces[i]? = some f) (hq : q.faces[i]? = some f)
    (hh : q.heap = p.heap) (hs : q.statics = p.statics) (tbl : List (BitVec 16 × Nat)) (start : Nat) (t : Int)
    (rounds : List Round) (ticks : Nat → TickEnv) :
    (∀ evs why, p.serve P i f tbl start t rounds ticks = .stop evs why → q.serve P i f tbl start t rounds ticks = .stop evs why) ∧
    ∀ p2 evs ret, p.serve P i f tbl start t rounds ticks = .ok p2 evs ret → ∃ q2,
      q.serve P i f tbl start t rounds ticks = .ok q2 evs ret ∧ q2.heap = p2.heap ∧ q2.faces[i]? = p2.faces[i]? := by
  have hv : ({ q.view f with table := tbl } : Mgr) = withHeld q.kept { p.view f with table := tbl } := by
    simp only [Copies.view, withHeld, hh, hs]
  have hlp := (List.getElem?_eq_some_iff.mp hp).1
  have hlq := (List.getElem?_eq_some_iff.mp hq).1
  unfold Copies.serve
  rw [hv, selectLoop_withHeld]
  cases Mgr.selectLoop P _ _ rounds { p.view f with table := tbl } with
  | ub evs => exact ⟨fun _ _ h => h, fun _ _ _ h => by cases h⟩
  | threw m evs x =>
    refine ⟨fun _ _ h => (by cases h), fun _ _ _ h => ?_⟩
    cases h
    exact ⟨_, rfl, rfl, by rw [hp, hq]⟩
  | go m evs =>
    simp only [stageWithHeld, withHeld]
    generalize Mgr.tickAll ticks f.table m.heap = r
    obtain ⟨heap, evs2, keys, x⟩ := r
    cases x with
    | none =>
      refine ⟨fun _ _ h => (by cases h), fun _ _ _ h => ?_⟩
      cases h
      refine ⟨_, rfl, rfl, ?_⟩
      dsimp only
      rw [List.getElem?_set_self hlp, List.getElem?_set_self hlq]
    | some x =>
      refine ⟨fun _ _ h => (by cases h), fun _ _ _ h => ?_⟩
      cases h
      exact ⟨_, rfl, rfl, by rw [hp, hq]⟩

theorem handle_other (P : Plat) (p q : Copies) (i : Nat) (f : Face) (hp : p.faces[i]? = some f) (hq : q.faces[i]? = some f)
    (hh : q.heap = p.heap) (hs : q.statics = p.statics) (ht : q.handlerTable f.owner = p.handlerTable f.owner) (start : Nat)
    (t : Int) (rounds : List Round) (ticks : Nat → TickEnv) :
    (∀ evs why, p.handle P i f start t rounds ticks = .stop evs why → q.handle P i f start t rounds ticks = .stop evs why) ∧
    ∀ p2 evs ret, p.handle P i f start t rounds ticks = .ok p2 evs ret → ∃ q2,
      q.handle P i f start t rounds ticks = .ok q2 evs ret ∧ q2.heap = p2.heap ∧ q2.faces[i]? = p2.faces[i]? := by
  unfold Copies.handle
  rw [ht]
  cases f.sockets with
  | nil => exact ⟨fun _ _ h => h, fun _ _ _ h => by cases h⟩
  | cons e es =>
    cases p.handlerTable f.owner with
    | some tb => exact serve_other P p q i f hp hq hh hs tb start t rounds ticks
    | none =>
      cases rounds with
      | nil => exact serve_other P p q i f hp hq hh hs [] start t [] ticks
      | cons r rest =>
        cases r with
        | fail code => exact serve_other P p q i f hp hq hh hs [] start t _ ticks
        | ready a b c =>
          have hv : ({ q.view f with table := [] } : Mgr) = withHeld q.kept { p.view f with table := [] } := by
            simp only [Copies.view, withHeld, hh, hs]
          dsimp only [Copies.stray]
          rw [hv, deliver_withHeld]
          cases Mgr.deliver P a.recv { p.view f with table := [] } with
          | ub => exact ⟨fun _ _ h => h, fun _ _ _ h => by cases h⟩
          | ok x => exact ⟨fun _ _ h => h, fun _ _ _ h => by cases h⟩
          | throw e =>
            refine ⟨fun _ _ h => (by cases h), fun _ _ _ h => ?_⟩
            cases h
            exact ⟨q, rfl, hh, by rw [hp, hq]⟩

/-- **C114 (destroy).**  Destroying a manager does not change what another one, whose socket it did not make, does when it
handles connections. -/
theorem C114_destroy (P : Plat) (ops : List CopyOp) (p p1 : Copies) (tr : CopyTrace) (h : ({} : Copies).run P ops = some (p, tr))
    (i j : Nat) (hij : i ≠ j) (hl : ¬ destroyedIn i tr) (hm : makerOf i tr ≠ some j) (evs0 : List MEv) (ret0 : MRet)
    (hd : p.step P (.destroy j) = .ok p1 evs0 ret0) (start : Nat) (t : Int) (rounds : List Round) (ticks : Nat → TickEnv) :
    (∀ evs why, p.step P (.call i (.handle start t rounds ticks)) = .stop evs why →
      p1.step P (.call i (.handle start t rounds ticks)) = .stop evs why) ∧
    ∀ p2 evs ret, p.step P (.call i (.handle start t rounds ticks)) = .ok p2 evs ret → ∃ p3,
      p1.step P (.call i (.handle start t rounds ticks)) = .ok p3 evs ret ∧ p3.heap = p2.heap ∧ p3.faces[i]? = p2.faces[i]? := by
  simp only [Copies.step] at hd
  split at hd
  · cases hd
  · next g hg =>
    split at hd
    · cases hd
    · cases hd
      simp only [Copies.step, Copies.call]
      rw [List.getElem?_set_ne (fun e => hij e.symm)]
      cases hf : p.faces[i]? with
      | none => exact ⟨fun _ _ h => (by cases h), fun _ _ _ h => (by cases h)⟩
      | some f =>
        obtain ⟨hng, hmk⟩ := maker_face P ops p tr h i f hf hl
        have hc : p.callable i (.handle start t rounds ticks) = true := by simp [Copies.callable, hng]
        have hc1 : Copies.callable { p with faces := p.faces.set j { g with table := [], sockets := [] }, gone := j :: p.gone } i
            (.handle start t rounds ticks) = true := by simp [Copies.callable, hng, hij]
        dsimp only
        rw [if_pos hc, if_pos hc1]
        rcases hmk with ⟨-, hs⟩ | ⟨o, ho, hw, hs, -⟩
        · simp only [Copies.handle, hs]
          exact ⟨fun _ _ h => h, fun _ _ _ h => by cases h⟩
        · have hoj : o ≠ j := fun e => hm (by rw [ho, e])
          have ht : Copies.handlerTable { p with faces := p.faces.set j { g with table := [], sockets := [] }, gone := j :: p.gone }
              f.owner = p.handlerTable f.owner := by
            rw [hw]
            simp only [Copies.handlerTable, List.contains_cons]
            rw [List.getElem?_set_ne (fun e => hoj e.symm)]
            simp [hoj]
          exact handle_other P p { p with faces := p.faces.set j { g with table := [], sockets := [] }, gone := j :: p.gone } i f hf
            ((List.getElem?_set_ne (fun e => hij e.symm)).trans hf) rfl rfl ht start t rounds ticks

/-! ## Assignment -/

/-- **C114 (assign).**  An assignment sends nothing and calls nothing; the manager then has what the other one has, everything
else stays, and a connection that only the manager assigned to had is gone. -/
theorem C114_assign (P : Plat) (p p' : Copies) (a b : Nat) (evs : List MEv) (ret : MRet)
    (h : p.step P (.assign a b) = .ok p' evs ret) :
    evs = [] ∧ ret = .unit ∧ p'.heap = p.heap ∧ p'.statics = p.statics ∧ p'.held = p.held ∧ p'.gone = p.gone ∧
    p'.faces[a]? = p.faces[b]? ∧ (∀ k, k ≠ a → p'.faces[k]? = p.faces[k]?) ∧
    ∀ id, Lives p' id ↔ id ∈ p.held ∨
      ∃ (k : Nat) (f : Face), (k ≠ a ∨ a = b) ∧ p.faces[k]? = some f ∧ ∃ key, (key, id) ∈ f.table := by
  obtain ⟨fa, fb, hfa, hfb, -, -, rfl, rfl, rfl⟩ := assign_cases h
  have hlt := (List.getElem?_eq_some_iff.mp hfa).1
  refine ⟨rfl, rfl, rfl, rfl, rfl, rfl, ?_, fun k hk => List.getElem?_set_ne (fun e => hk e.symm), fun id => ?_⟩
  · rw [hfb]; exact List.getElem?_set_self hlt
  · apply or_congr Iff.rfl
    constructor
    · rintro ⟨f, hf, key, hk⟩
      obtain ⟨k, hkf⟩ := List.mem_iff_getElem?.mp hf
      rw [List.getElem?_set] at hkf
      split at hkf
      · cases hkf
        by_cases hab : a = b
        · exact ⟨b, _, .inr hab, hfb, key, hk⟩
        · exact ⟨b, _, .inl fun e => hab e.symm, hfb, key, hk⟩
      · next hne => exact ⟨k, f, .inl fun e => hne e.symm, hkf, key, hk⟩
    · rintro ⟨k, f, hor, hkf, key, hk⟩
      by_cases hka : k = a
      · rcases hor with hor | hor
        · exact absurd hka hor
        · subst hka; subst hor
          rw [hfb] at hkf; cases hkf
          exact ⟨_, List.mem_iff_getElem?.mpr ⟨k, List.getElem?_set_self hlt⟩, key, hk⟩
      · exact ⟨f, List.mem_iff_getElem?.mpr ⟨k, (List.getElem?_set_ne (fun e => hka e.symm)).trans hkf⟩, key, hk⟩

/-- **C114 violated (swap).**  After two managers, each of which made its socket, were swapped, each has the connections of the
other, but whatever arrives while one of them is served goes to no connection that it has, unless it had it before. -/
theorem C114_swap_violated (P : Plat) (ops : List CopyOp) (p : Copies) (tr : CopyTrace)
    (h : ({} : Copies).run P ops = some (p, tr)) (a b : Nat) (hab : a ≠ b) (fa fb : Face) (hfa : p.faces[a]? = some fa)
    (hfb : p.faces[b]? = some fb) (hla : ¬ destroyedIn a tr) (hlb : ¬ destroyedIn b tr) (hma : makerOf a tr = some a)
    (hmb : makerOf b tr = some b) :
    ∃ p1 tr1 ga gb, p.run P (swapOps a b p.faces.length) = some (p1, tr1) ∧
      p1.faces[a]? = some ga ∧ ga.table = fb.table ∧ p1.faces[b]? = some gb ∧ gb.table = fa.table ∧ p1.heap = p.heap ∧
      ∀ op p' evs ret id data io, MEv.conn id (.recv data) io ∈ evs →
        (p1.step P (.call a op) = .ok p' evs ret → ∃ k, (k, id) ∈ fa.table) ∧
        (p1.step P (.call b op) = .ok p' evs ret → ∃ k, (k, id) ∈ fb.table) := by
  obtain ⟨hga, hka⟩ := maker_face P ops p tr h a fa hfa hla
  obtain ⟨hgb, hkb⟩ := maker_face P ops p tr h b fb hfb hlb
  have hoa : fa.owner = a := by
    rcases hka with ⟨hn, -⟩ | ⟨o, ho, hw, -⟩
    · rw [hma] at hn; cases hn
    · rw [hma] at ho; cases ho; exact hw
  have hob : fb.owner = b := by
    rcases hkb with ⟨hn, -⟩ | ⟨o, ho, hw, -⟩
    · rw [hmb] at hn; cases hn
    · rw [hmb] at ho; cases ho; exact hw
  have hi := copyInv_run P {} p [] ops tr copyInv_new h
  have hla' := (List.getElem?_eq_some_iff.mp hfa).1
  have hlb' := (List.getElem?_eq_some_iff.mp hfb).1
  have hgn : p.faces.length ∉ p.gone := fun hg => by have := hi.goneLt _ hg; omega
  let F1 := p.faces ++ [fa]
  let F2 := F1.set a fb
  let F3 := F2.set b fa
  let F4 := F3.set p.faces.length { fa with table := [], sockets := [] }
  have e1a : F1[a]? = some fa := by simp only [F1]; rw [List.getElem?_append_left hla']; exact hfa
  have e1b : F1[b]? = some fb := by simp only [F1]; rw [List.getElem?_append_left hlb']; exact hfb
  have e1n : F1[p.faces.length]? = some fa := by simp [F1]
  have l1 : F1.length = p.faces.length + 1 := by simp [F1]
  have e2b : F2[b]? = some fb := (List.getElem?_set_ne hab).trans e1b
  have e2n : F2[p.faces.length]? = some fa := (List.getElem?_set_ne (by omega)).trans e1n
  have e2a : F2[a]? = some fb := List.getElem?_set_self (by omega)
  have e3a : F3[a]? = some fb := (List.getElem?_set_ne (fun e => hab e.symm)).trans e2a
  have e3b : F3[b]? = some fa := List.getElem?_set_self (by simp [F2]; omega)
  have e3n : F3[p.faces.length]? = some fa := (List.getElem?_set_ne (by omega)).trans e2n
  have e4a : F4[a]? = some fb := (List.getElem?_set_ne (by omega)).trans e3a
  have e4b : F4[b]? = some fa := (List.getElem?_set_ne (by omega)).trans e3b
  have s1 : p.step P (.copy a) = .ok { p with faces := F1 } [] .unit := by
    simp [Copies.step, hfa, hga, F1]
  have s2 : Copies.step P { p with faces := F1 } (.assign a b) = .ok { p with faces := F2 } [] .unit := by
    simp [Copies.step, e1a, e1b, hga, hgb, F2]
  have s3 : Copies.step P { p with faces := F2 } (.assign b p.faces.length) = .ok { p with faces := F3 } [] .unit := by
    simp [Copies.step, e2b, e2n, hgb, hgn, F3]
  have s4 : Copies.step P { p with faces := F3 } (.destroy p.faces.length) =
      .ok { p with faces := F4, gone := p.faces.length :: p.gone } [] .unit := by
    simp [Copies.step, e3n, hgn, F4]
  refine ⟨{ p with faces := F4, gone := p.faces.length :: p.gone }, _, fb, fa,
    by simp only [swapOps, Copies.run, s1, s2, s3, s4, Option.map_some]; rfl, e4a, rfl, e4b, rfl, rfl, ?_⟩
  have key : ∀ (x y : Nat) (fx fy : Face), F4[x]? = some fy → F4[y]? = some fx → fy.owner = y → ∀ op p' evs ret id data io,
      MEv.conn id (.recv data) io ∈ evs →
      Copies.step P { p with faces := F4, gone := p.faces.length :: p.gone } (.call x op) = .ok p' evs ret →
      ∃ k, (k, id) ∈ fx.table := by
    intro x y fx fy hx hy ho op p' evs ret id data io hr hs
    obtain ⟨f, hf, hca, hd | ⟨hnh, m, hm, -⟩⟩ := call_cases P _ p' x op evs ret hs
    · obtain ⟨s0, t0, r0, k0, -, hd⟩ := hd
      have hq := handled P _ p' x f hf s0 t0 r0 k0 evs ret hd
      rcases hq.evs _ hr with ⟨_, he⟩ | ⟨id', data', io', he, t, k, ht, hk⟩ | ⟨_, _, _, _, _, he, _⟩
      · cases he
      · cases he
        have hff : f = fy := Option.some.inj (hf.symm.trans hx)
        rw [hff, ho] at ht
        unfold Copies.handlerTable at ht
        split at ht
        · cases ht
        · dsimp only at ht
          rw [hy] at ht
          cases ht
          exact ⟨k, hk⟩
      · cases he
    · exact absurd hr (nonhandle_no_recv P _ m op evs ret hnh hm id data io)
  intro op p' evs ret id data io hr
  exact ⟨fun hs => key a b fa fb e4a e4b hob op p' evs ret id data io hr hs,
    fun hs => key b a fb fa e4b e4a hoa op p' evs ret id data io hr hs⟩

/-! ## Concrete histories -/

/-- A manager with a connection is copied, and a second connection is opened through the copy. -/
def copyHistory : List CopyOp :=
  [.create 1, .call 0 (sampleOpen 0xA 0x10001 1), .copy 0, .call 1 (sampleOpen 0xB 0x10002 2)]

/-- A datagram for each of the two connections, to a manager. -/
def copyArrivals : MOp :=
  .handle 1000000 5 [.ready (.dgram (sampleDgram 0x10001 [7, 8])) [.dgram (sampleDgram 0x10002 [9, 9])] 2000000]
    fun _ => ⟨3000000, { left := some [1, 2] }, 22⟩

/-- What can be compared: the maps, the makers of the sockets, the deliveries, and how often each of the first two
connections was closed. -/
structure CopySummary where
  tables : List (List (BitVec 16 × Nat))
  makers : List (Option Nat)
  got : List (Nat × List Byte)
  closed : List Nat
deriving DecidableEq

def copySummary (r : Option (Copies × CopyTrace)) : Option CopySummary :=
  r.map fun r => ⟨r.1.faces.map (·.table), makersFrom [] r.2, deliveries (copyEvs r.2),
    [0, 1].map fun id => (connTrace id (copyEvs r.2)).countP fun d => decide (IoEv.closed ∈ d.2)⟩

/-- Only the connection that the maker of the socket has is given its data, whichever manager waits. -/
theorem copyHistory_run : copySummary (({} : Copies).run samplePlat (copyHistory ++ [.call 1 copyArrivals, .call 0 copyArrivals])) =
    some ⟨[[(1, 0)], [(1, 0), (2, 1)]], [some 0, some 0], [(0, [1, 0, 7, 8]), (0, [1, 0, 7, 8])], [0, 0]⟩ := by
  decide +kernel

/-- The history meets the hypotheses of `C114_deaf_violated`: manager 1 was not destroyed and made no
socket, manager 0 made the one it uses. -/
example : ∃ p tr, ({} : Copies).run samplePlat (copyHistory.take 3) = some (p, tr) ∧ ¬ destroyedIn 1 tr ∧ makerOf 1 tr = some 0 ∧
    ¬ madeSocket 1 tr ∧ ∃ p1 evs, p.step samplePlat (.call 1 (sampleOpen 0xB 0x10002 2)) = .ok p1 evs (.ptr (some 1)) := by
  have h : (match ({} : Copies).run samplePlat (copyHistory.take 3) with
    | none => false
    | some (p, tr) => (makerOf 1 tr == some 0) && !(p.gone.contains 1) &&
        (tr.all fun e => match e.1 with
          | .call i _ => i != 1
          | _ => true) &&
        (match p.step samplePlat (.call 1 (sampleOpen 0xB 0x10002 2)) with
         | .ok _ _ ret => ret == .ptr (some 1)
         | _ => false)) = true := by decide +kernel
  cases hr : ({} : Copies).run samplePlat (copyHistory.take 3) with
  | none => rw [hr] at h; cases h
  | some r =>
    obtain ⟨p, tr⟩ := r
    rw [hr] at h
    simp only [Bool.and_eq_true, beq_iff_eq, Bool.not_eq_true'] at h
    obtain ⟨⟨⟨h1, h2⟩, h4⟩, h3⟩ := h
    refine ⟨p, tr, rfl, fun hd => ?_, h1, ?_, ?_⟩
    · have := (copyGone_run samplePlat _ p _ tr hr 1).mpr (.inr hd)
      rw [← List.contains_iff_mem, h2] at this
      cases this
    · rintro ⟨e, he, op, evs, ret, rfl, -⟩
      have := List.all_eq_true.mp h4 _ he
      simp at this
    · split at h3
      · next p1 evs ret hs => exact ⟨p1, evs, by rw [hs, beq_iff_eq.mp h3]⟩
      · cases h3

/-- With a copy made before any connection is opened, each manager makes its own socket and gets the data of its
connections. -/
example : copySummary (({} : Copies).run samplePlat [.create 1, .copy 0, .call 0 (sampleOpen 0xA 0x10001 1),
      .call 1 (sampleOpen 0xB 0x10002 2), .call 1 copyArrivals, .call 0 copyArrivals]) =
    some ⟨[[(1, 0)], [(2, 1)]], [some 0, some 1], [(1, [1, 0, 9, 9]), (0, [1, 0, 7, 8])], [0, 0]⟩ := by
  decide +kernel

/-- C114 violated: a connection that times out is closed once for every manager that has it. -/
theorem C114_twice_violated :
    copySummary (({} : Copies).run samplePlat
      [.create 1, .call 0 (sampleOpen 0xA 0x10001 1), .copy 0, .call 0 (sampleHandle 41000000), .call 1 (sampleHandle 42000000)]) =
    some ⟨[[], []], [some 0, some 0], [], [2, 0]⟩ := by
  decide +kernel

/-- C114: closed through one manager, the connection is still in the map of the other. -/
example : copySummary (({} : Copies).run samplePlat
      [.create 1, .call 0 (sampleOpen 0xA 0x10001 1), .copy 0, .call 0 (.forwardClose (some 0) (.ok (sampleReply 0 0 0))),
       .call 1 (sampleHandle 42000000)]) =
    some ⟨[[], []], [some 0, some 0], [], [1, 0]⟩ := by
  decide +kernel

/-- The hypotheses of `C114_destroyed_violated` are met, and the datagram stops the process: the manager that made the socket
was destroyed after it was copied, as in a vector that grows. -/
example :
    (match ({} : Copies).run samplePlat [.create 1, .call 0 (sampleOpen 0xA 0x10001 1), .copy 0, .destroy 0] with
     | none => false
     | some (p, tr) => (makerOf 1 tr == some 0) && !(p.gone.contains 1) && p.gone.contains 0 &&
        (match p.step samplePlat (.call 1 copyArrivals) with
         | .stop _ .ub => true
         | _ => false) &&
        (match p.step samplePlat (.call 1 (sampleHandle 2000000)) with
         | .ok _ _ .unit => true
         | _ => false)) = true := by
  decide +kernel

/-- The hypotheses of `C114_own` and `C114_destroy` are met: the copy is destroyed, and the first manager goes on. -/
example : copySummary (({} : Copies).run samplePlat (copyHistory ++ [.destroy 1, .call 0 copyArrivals])) =
    some ⟨[[(1, 0)], []], [some 0, some 0], [(0, [1, 0, 7, 8])], [0, 0]⟩ := by
  decide +kernel

/-- The hypothesis of `C114_deaf_violated` about assignments cannot be left out: when the copy is assigned to the manager that
made the socket, its connection is given data. -/
example : copySummary (({} : Copies).run samplePlat (copyHistory ++ [.call 1 copyArrivals, .assign 0 1, .call 1 copyArrivals])) =
    some ⟨[[(1, 0), (2, 1)], [(1, 0), (2, 1)]], [some 0, some 0],
      [(0, [1, 0, 7, 8]), (0, [1, 0, 7, 8]), (1, [1, 0, 9, 9])], [0, 0]⟩ := by
  decide +kernel

/-- Two managers, each with a connection and its own socket. -/
def ownManagers : List CopyOp :=
  [.create 1, .create 9, .call 0 (sampleOpen 0xA 0x10001 1), .call 1 (sampleOpen 0xB 0x10002 2)]

/-- The hypotheses of `C114_swap_violated` are met by two managers; each is given its data. -/
example : copySummary (({} : Copies).run samplePlat (ownManagers ++ [.call 0 copyArrivals, .call 1 copyArrivals])) =
    some ⟨[[(1, 0)], [(2, 1)]], [some 0, some 1], [(0, [1, 0, 7, 8]), (1, [1, 0, 9, 9])], [0, 0]⟩ := by
  decide +kernel

/-- After a swap, serving one of them gives data only to the connection of the other. -/
example : copySummary (({} : Copies).run samplePlat (ownManagers ++ swapOps 0 1 2 ++ [.call 0 copyArrivals])) =
      some ⟨[[(2, 1)], [(1, 0)], []], [some 1, some 0, some 0], [(0, [1, 0, 7, 8])], [0, 0]⟩ ∧
    copySummary (({} : Copies).run samplePlat (ownManagers ++ swapOps 0 1 2 ++ [.call 1 copyArrivals])) =
      some ⟨[[(2, 1)], [(1, 0)], []], [some 1, some 0, some 0], [(1, [1, 0, 9, 9])], [0, 0]⟩ := by
  decide +kernel

/-- The hypotheses of `C114_assign` are met: the connection of the manager assigned to is gone, no listener is called and
no request is sent. -/
example : ((({} : Copies).run samplePlat (ownManagers ++ [.assign 0 1, .call 0 (.lock 0), .call 0 (.lock 1)])).map fun r =>
    (r.1.held, (r.2.drop 4).map fun e => e.2.1.length)) = some ([1], [0, 0, 0]) := by
  decide +kernel

end Verif.Props
