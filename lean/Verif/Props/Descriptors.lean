import Verif.Spec.Descriptors
import Verif.Props.ManagerTable

/-!
# C85: every descriptor is closed exactly once
-/

namespace Verif.Props

open Verif Verif.Spec

/-! ## Replaying calls -/

theorem replay_append (l : List Nat) (xs ys : List FdCall) :
    replay l (xs ++ ys) = (replay l xs).bind fun l' => replay l' ys := by
  induction xs generalizing l with
  | nil => rfl
  | cons x xs ih =>
    simp only [List.cons_append, replay]
    cases fdStep l x with
    | none => rfl
    | some l' => exact ih l'

theorem othersAfter_append (l : List Nat) (xs ys : List FdCall) :
    othersAfter l (xs ++ ys) = othersAfter (othersAfter l xs) ys := by
  induction xs generalizing l with
  | nil => rfl
  | cons x xs ih => cases x <;> simp only [List.cons_append, othersAfter, ih]

/-- The state is the result of its calls. -/
def Sound (l0 : List Nat) (f : Fds) : Prop := replay l0 f.calls = some f.opened

theorem Sound.note {l0 : List Nat} {f : Fds} (h : Sound l0 f) {cs : List FdCall} (hc : ∀ c ∈ cs, fdStep f.opened c = some f.opened) :
    Sound l0 (f.note cs) := by
  unfold Sound Fds.note
  rw [replay_append, h]
  simp only [Option.bind_some]
  induction cs with
  | nil => rfl
  | cons c cs ih =>
    simp only [replay, hc c List.mem_cons_self]
    exact ih fun x hx => hc x (List.mem_cons_of_mem _ hx)

theorem Sound.add {l0 : List Nat} {f : Fds} (h : Sound l0 f) {c : FdCall} {fd : Nat} (hc : fdStep f.opened c = some (fd :: f.opened)) :
    Sound l0 (f.add c fd) := by
  unfold Sound Fds.add
  rw [replay_append, h]
  simp [replay, hc]

theorem Sound.remove {l0 : List Nat} {f : Fds} (h : Sound l0 f) {c : FdCall} {fd : Nat} (hc : fdStep f.opened c = some (f.opened.erase fd)) :
    Sound l0 (f.remove c fd) := by
  unfold Sound Fds.remove
  rw [replay_append, h]
  simp [replay, hc]

theorem Sound.close {l0 : List Nat} {f : Fds} (h : Sound l0 f) {fd : Nat} (hfd : fd ∈ f.opened) : Sound l0 (udpClose fd f) := by
  unfold udpClose
  refine Sound.remove (h.note ?_) ?_
  · simp [fdStep, hfd]
  · simp [fdStep, Fds.note, hfd]

/-! ## Sockets -/

theorem udpClose_opened (fd : Nat) (f : Fds) : (udpClose fd f).opened = f.opened.erase fd := rfl

theorem udpClose_others (l : List Nat) (fd : Nat) (f : Fds) : othersAfter l (udpClose fd f).calls = othersAfter l f.calls := by
  simp [udpClose, Fds.note, Fds.remove, othersAfter_append, othersAfter]

theorem note_others (l : List Nat) (cs : List FdCall) (f : Fds) (h : ∀ l, othersAfter l cs = l) :
    othersAfter l (f.note cs).calls = othersAfter l f.calls := by
  simp [Fds.note, othersAfter_append, h]

/-- Making a bound socket: on success there is one more descriptor, on failure none. -/
theorem udpBoundOpen_spec (alloc : Alloc) (hf : ∀ l, alloc l ∉ l) (e : BoundEnv) (ep : EndPoint) (l0 : List Nat) (f : Fds)
    (h : Sound l0 f) :
    match e.err with
    | some x => ∃ f', udpBoundOpen alloc e ep f = .throw f' (.system x) ∧ f'.opened = f.opened ∧ Sound l0 f' ∧
        ∀ l, othersAfter l f'.calls = othersAfter l f.calls
    | none => ∃ f', udpBoundOpen alloc e ep f = .ok f' (alloc f.opened) ∧ f'.opened = alloc f.opened :: f.opened ∧ Sound l0 f' ∧
        ∀ l, othersAfter l f'.calls = othersAfter l f.calls := by
  rcases e with ⟨a, b, c⟩
  simp only [BoundEnv.err, udpBoundOpen, udpOpen]
  cases a with
  | some x => exact ⟨_, rfl, rfl, h.note (by simp [fdStep]), fun l => note_others _ _ _ (by simp [othersAfter])⟩
  | none =>
    have h1 : Sound l0 (f.add (.socket (alloc f.opened)) (alloc f.opened)) := h.add (by simp [fdStep, hf])
    have h2 : Sound l0 ((f.add (.socket (alloc f.opened)) (alloc f.opened)).note [.reuseAddr (alloc f.opened)]) :=
      h1.note (by simp [fdStep, Fds.add])
    cases b with
    | some x =>
      refine ⟨_, rfl, ?_, h2.close (by simp [Fds.add, Fds.note]), fun l => ?_⟩
      · simp [udpClose_opened, Fds.add, Fds.note]
      · rw [udpClose_others, note_others _ _ _ (by simp [othersAfter])]
        simp [Fds.add, othersAfter_append, othersAfter]
    | none =>
      have h3 : Sound l0 (((f.add (.socket (alloc f.opened)) (alloc f.opened)).note [.reuseAddr (alloc f.opened)]).note
          [.bind (alloc f.opened) { ep.addr with addr := 0 }]) := h2.note (by simp [fdStep, Fds.add, Fds.note])
      cases c with
      | some x =>
        refine ⟨_, rfl, ?_, h3.close (by simp [Fds.add, Fds.note]), fun l => ?_⟩
        · simp [udpClose_opened, Fds.add, Fds.note]
        · rw [udpClose_others, note_others _ _ _ (by simp [othersAfter]), note_others _ _ _ (by simp [othersAfter])]
          simp [Fds.add, othersAfter_append, othersAfter]
      | none =>
        refine ⟨_, rfl, by simp [Fds.add, Fds.note], h3, fun l => ?_⟩
        rw [note_others _ _ _ (by simp [othersAfter]), note_others _ _ _ (by simp [othersAfter])]
        simp [Fds.add, othersAfter_append, othersAfter]

theorem find_sock (ep : EndPoint) (b : List (EndPoint × Nat)) :
    (DMgr.find ep b = none ↔ sockFind ep (b.map (·.1)) = none) := by
  induction b with
  | nil => simp [DMgr.find, sockFind]
  | cons e es ih =>
    simp only [DMgr.find, sockFind, List.map_cons]
    split
    · exact ih
    · split <;> simp

theorem put_sock (ep : EndPoint) (fd : Nat) (b : List (EndPoint × Nat)) :
    (DMgr.put ep fd b).map (·.1) = sockPut ep (b.map (·.1)) := by
  induction b with
  | nil => rfl
  | cons e es ih =>
    simp only [DMgr.put, sockPut, List.map_cons]
    split <;> simp [ih]

theorem put_perm (ep : EndPoint) (fd : Nat) (b : List (EndPoint × Nat)) :
    ((DMgr.put ep fd b).map (·.2)).Perm (fd :: b.map (·.2)) := by
  induction b with
  | nil => exact .refl _
  | cons e es ih =>
    simp only [DMgr.put]
    split
    · simp only [List.map_cons]
      exact (ih.cons e.2).trans (.swap _ _ _)
    · exact .refl _

/-- Closing a list of descriptors that are open. -/
theorem closeAll_spec {l0 : List Nat} (fds : List Nat) (L : List Nat) (f : Fds) (hs : Sound l0 f) (hp : f.opened.Perm (fds ++ L)) :
    Sound l0 (fds.foldl (fun f fd => udpClose fd f) f) ∧ (fds.foldl (fun f fd => udpClose fd f) f).opened.Perm L ∧
      ∀ l, othersAfter l (fds.foldl (fun f fd => udpClose fd f) f).calls = othersAfter l f.calls := by
  induction fds generalizing f with
  | nil => exact ⟨hs, hp, fun _ => rfl⟩
  | cons fd fds ih =>
    have hm : fd ∈ f.opened := hp.mem_iff.2 (by simp)
    have hp' : (udpClose fd f).opened.Perm (fds ++ L) := by
      rw [udpClose_opened]
      have := hp.erase fd
      simpa using this
    obtain ⟨a, b, c⟩ := ih (udpClose fd f) (hs.close hm) hp'
    exact ⟨a, b, fun l => by rw [List.foldl_cons, c, udpClose_others]⟩

theorem drop_eq (send ids : List Nat) (f : Fds) (h : ∀ id ∈ ids, id < send.length) :
    DMgr.drop send ids f = (ids.map fun id => send.getD id 0).foldl (fun f fd => udpClose fd f) f := by
  unfold DMgr.drop
  induction ids generalizing f with
  | nil => rfl
  | cons id ids ih =>
    have h1 := h id List.mem_cons_self
    simp only [List.foldl_cons, List.map_cons]
    rw [List.getD_eq_getElem?_getD, List.getElem?_eq_getElem h1]
    exact ih _ fun x hx => h x (List.mem_cons_of_mem _ hx)

/-! ## The invariant -/

/-- The descriptors the program should have open. -/
def owned (s : DMgr) : List Nat :=
  s.others ++ s.bound.map (·.2) ++ (reachable s.mgr).map fun id => s.send.getD id 0

structure DInv (l0 : List Nat) (s : DMgr) : Prop where
  inv : Inv s.mgr
  socks : s.mgr.sockets = s.bound.map (·.1)
  len : s.send.length = s.mgr.heap.length
  sound : Sound l0 s.fds
  nodup : s.fds.opened.Nodup
  perm : s.fds.opened.Perm (owned s)
  others : s.others = othersAfter l0 s.fds.calls
  gone : s.gone = true → s.bound = [] ∧ s.mgr.table = []

theorem replay_nodup {l : List Nat} (cs : List FdCall) (hl : l.Nodup) {l' : List Nat} (h : replay l cs = some l') : l'.Nodup := by
  induction cs generalizing l with
  | nil => simp [replay] at h; rw [← h]; exact hl
  | cons c cs ih =>
    simp only [replay] at h
    split at h
    · cases h
    · rename_i l1 h1
      refine ih ?_ h
      cases c <;> simp only [fdStep] at h1 <;> first
        | (cases h1; exact hl)
        | (split at h1
           · first
              | (cases h1; done)
              | (injection h1 with h1; rw [← h1]
                 first
                  | exact hl
                  | exact hl.erase _)
           · first
              | (cases h1; done)
              | (injection h1 with h1; rw [← h1]; exact List.nodup_cons.2 ⟨by assumption, hl⟩))

theorem reachable_lt {m : Mgr} {id : Nat} (h : id ∈ reachable m) : id < m.heap.length := by
  simp [reachable] at h; exact h.1

/-- What is left after the objects without owner are gone. -/
theorem reachable_split {m m' : Mgr} (hl : m'.heap.length = m.heap.length) (ha : ∀ id, m'.alive id = true → m.alive id = true) :
    (reachable m).Perm (DMgr.died m m' ++ reachable m') := by
  unfold reachable DMgr.died
  rw [hl]
  generalize List.range m.heap.length = r
  induction r with
  | nil => exact .refl _
  | cons x xs ih =>
    simp only [List.filter_cons]
    cases h1 : m.alive x with
    | false =>
      have h2 : m'.alive x = false := by
        cases h : m'.alive x with
        | false => rfl
        | true => rw [ha x h] at h1; cases h1
      simpa [h2] using ih
    | true =>
      cases h2 : m'.alive x with
      | false => simpa using ih
      | true =>
        simp only [Bool.not_true, Bool.and_false, Bool.false_eq_true, if_false, if_true]
        exact (ih.cons x).trans List.perm_middle.symm

theorem collect_inv {l0 : List Nat} (hl0 : l0.Nodup) {s : DMgr} (hi : DInv l0 s) {m : Mgr} (hm : Inv m)
    (hlen : m.heap.length = s.mgr.heap.length) (ha : ∀ id, m.alive id = true → s.mgr.alive id = true)
    (hs : m.sockets = s.mgr.sockets) (ht : s.gone = true → m.table = []) : DInv l0 (s.collect m) := by
  have hd : ∀ id ∈ DMgr.died s.mgr m, id < s.send.length := by
    intro id h
    simp [DMgr.died] at h
    rw [hi.len]; exact h.1
  have hp : s.fds.opened.Perm ((DMgr.died s.mgr m).map (fun id => s.send.getD id 0) ++
      (s.others ++ s.bound.map (·.2) ++ (reachable m).map fun id => s.send.getD id 0)) := by
    refine hi.perm.trans ?_
    unfold owned
    have := (reachable_split hlen ha).map fun id => s.send.getD id 0
    rw [List.map_append] at this
    refine (this.append_left _).trans ?_
    rw [← List.append_assoc, ← List.append_assoc]
    exact (List.perm_append_comm).append_right _
  obtain ⟨a, b, c⟩ := closeAll_spec _ _ s.fds hi.sound hp
  unfold DMgr.collect
  rw [drop_eq _ _ _ hd]
  refine ⟨hm, hs.trans hi.socks, by rw [hi.len, hlen], a, replay_nodup _ hl0 a, b, ?_, fun hg => ⟨(hi.gone hg).1, ht hg⟩⟩
  simp only [c]
  exact hi.others

/-! ## Operations that make no socket -/

theorem alive_iff (m : Mgr) (id : Nat) : m.alive id = true ↔ (∃ k, (k, id) ∈ m.table) ∨ id ∈ m.held := by
  unfold Mgr.alive
  rw [Bool.or_eq_true, List.any_eq_true]
  constructor
  · rintro (⟨⟨k, i⟩, h, he⟩ | h)
    · have : i = id := by simpa using he
      subst this
      exact .inl ⟨k, h⟩
    · exact .inr (by simpa using h)
  · rintro (⟨k, h⟩ | h)
    · exact .inl ⟨(k, id), h, by simp⟩
    · exact .inr (by simpa using h)

def isForwardOpen : MOp → Bool
  | .forwardOpen _ _ _ _ => true
  | _ => false

theorem replay_same_length (m : Mem) (heap heap' : List Conn) (evs : List MEv) (h : applyEvs m heap evs = some heap')
    (hc : ∀ id c, MEv.created id c ∉ evs) : heap'.length = heap.length := by
  induction evs generalizing heap with
  | nil => simp [applyEvs] at h; rw [h]
  | cons e es ih =>
    simp only [applyEvs] at h
    split at h
    · cases h
    · rename_i h1 he
      rw [ih h1 h fun id c hm => hc id c (List.mem_cons_of_mem _ hm)]
      unfold applyEv at he
      split at he
      · exact absurd List.mem_cons_self (hc _ _)
      · split at he
        · cases he
        · split at he
          · cases he
          · split at he
            · injection he with he; rw [← he]; simp
            · cases he
      · injection he with he; rw [← he]

theorem handle_fewer (P : Plat) (start : Nat) (t : Int) (rounds : List Round) (ticks : Nat → TickEnv) (s s' : Mgr)
    (evs : List MEv) (ret : MRet) (h : s.handle P start t rounds ticks = .ok s' evs ret) :
    s'.heap.length = s.heap.length ∧ s'.held = s.held ∧ s'.sockets = s.sockets ∧
      (∃ f : BitVec 16 × Nat → Bool, s'.table = s.table.filter f) ∧
      ∀ e ∈ evs, (∃ tv, e = .waited tv) ∨ ∃ id op io, e = .conn id op io ∧ ∃ k, (k, id) ∈ s.table := by
  have hrep := step_replay P s s' (.handle start t rounds ticks) evs ret h
  have key : s'.held = s.held ∧ s'.sockets = s.sockets ∧ (∃ f : BitVec 16 × Nat → Bool, s'.table = s.table.filter f) ∧
      ∀ e ∈ evs, (∃ tv, e = .waited tv) ∨ ∃ id op io, e = .conn id op io ∧ ∃ k, (k, id) ∈ s.table := by
    unfold Mgr.handle at h
    split at h
    · cases h
    · split at h
      · cases h
      · rename_i s1 evs1 e hsel
        cases h
        have q := (selectLoop_quiet P _ rounds start s).2 _ _ _ hsel
        refine ⟨q.held, q.sockets, ⟨fun _ => true, by rw [List.filter_eq_self.mpr (by simp)]; exact q.table⟩, fun e he => ?_⟩
        rcases q.only e he with hw | ⟨id, d, io, rfl, hk⟩
        · exact .inl hw
        · exact .inr ⟨id, _, io, rfl, hk⟩
      · rename_i s1 evs1 hsel
        have q := (selectLoop_quiet P _ rounds start s).1 _ _ hsel
        have tk := tickAll_spec P.mem ticks s1.table s1.heap
        have hev : ∀ e ∈ evs1 ++ (Mgr.tickAll ticks s1.table s1.heap).2.1, (∃ tv, e = .waited tv) ∨
            ∃ id op ioevs, e = .conn id op ioevs ∧ ∃ k, (k, id) ∈ s.table := by
          intro e he
          rw [List.mem_append] at he
          rcases he with he | he
          · rcases q.only e he with hw | ⟨id, d, io, rfl, hk⟩
            · exact .inl hw
            · exact .inr ⟨id, _, io, rfl, hk⟩
          · obtain ⟨id, n, hk, c, io, rfl, k, hm⟩ := tk.2 e he
            exact .inr ⟨id, _, io, rfl, k, by rw [← q.table]; exact hm⟩
        split at h
        · rename_i heap evs2 keys hta
          cases h
          rw [hta] at hev
          exact ⟨q.held, q.sockets, ⟨_, by rw [← q.table]⟩, hev⟩
        · rename_i heap evs2 keys e hta
          cases h
          rw [hta] at hev
          exact ⟨q.held, q.sockets, ⟨fun _ => true, by rw [List.filter_eq_self.mpr (by simp)]; exact q.table⟩, hev⟩
  refine ⟨replay_same_length _ _ _ _ hrep fun id c hm => ?_, key⟩
  rcases key.2.2.2 _ hm with ⟨tv, h⟩ | ⟨i, op, io, h, _⟩ <;> cases h

theorem fewer_of (s s' : Mgr) (f : BitVec 16 × Nat → Bool) (ht : s'.table = s.table.filter f)
    (hh : ∀ id ∈ s'.held, s.alive id = true) (id : Nat) (h : s'.alive id = true) : s.alive id = true := by
  rw [alive_iff] at h
  rcases h with ⟨k, h⟩ | h
  · rw [ht, List.mem_filter] at h
    exact (alive_iff s id).2 (.inl ⟨k, h.1⟩)
  · exact hh id h

theorem held_alive (s : Mgr) (id : Nat) (h : id ∈ s.held) : s.alive id = true := (alive_iff s id).2 (.inr h)

theorem step_fewer (P : Plat) (s s' : Mgr) (op : MOp) (evs : List MEv) (ret : MRet) (ho : isForwardOpen op = false)
    (h : s.step P op = .ok s' evs ret) :
    s'.heap.length = s.heap.length ∧ (∀ id, s'.alive id = true → s.alive id = true) ∧ s'.sockets = s.sockets ∧
      ∃ f : BitVec 16 × Nat → Bool, s'.table = s.table.filter f := by
  have all : ∀ t : List (BitVec 16 × Nat), t = t.filter fun _ => true := fun t => (List.filter_eq_self.mpr (by simp)).symm
  have mk : ∀ s' : Mgr, s'.heap.length = s.heap.length → s'.sockets = s.sockets →
      (∃ f : BitVec 16 × Nat → Bool, s'.table = s.table.filter f) → (∀ id ∈ s'.held, s.alive id = true) →
      s'.heap.length = s.heap.length ∧ (∀ id, s'.alive id = true → s.alive id = true) ∧ s'.sockets = s.sockets ∧
      ∃ f : BitVec 16 × Nat → Bool, s'.table = s.table.filter f := by
    intro s' h1 h2 ⟨f, h3⟩ h4
    exact ⟨h1, fewer_of s s' f h3 h4, h2, f, h3⟩
  cases op with
  | forwardOpen => cases ho
  | otherOpen inc mc p2p =>
    simp only [Mgr.step] at h
    split at h
    · cases h
    · cases h; exact mk _ rfl rfl ⟨_, all _⟩ fun id hm => held_alive s id hm
  | forwardClose ptr reply =>
    simp only [Mgr.step, Mgr.forwardClose] at h
    repeat' split at h
    all_goals first
      | (cases h; exact mk _ rfl rfl ⟨_, all _⟩ fun id hm => held_alive s id hm)
      | (cases h; exact mk _ rfl rfl ⟨_, rfl⟩ fun id hm => held_alive s id hm)
      | cases h
  | handle start t rounds ticks =>
    obtain ⟨h1, h2, h3, h4, _⟩ := handle_fewer P start t rounds ticks s s' evs ret h
    exact mk _ h1 h3 h4 fun id hm => held_alive s id (by rw [← h2]; exact hm)
  | hasOpen => simp only [Mgr.step] at h; cases h; exact mk _ rfl rfl ⟨_, all _⟩ fun id hm => held_alive s id hm
  | setData id data =>
    simp only [Mgr.step] at h
    split at h
    · cases h; exact mk _ (by simp) rfl ⟨_, all _⟩ fun id hm => held_alive s id hm
    · cases h; exact mk _ rfl rfl ⟨_, all _⟩ fun id hm => held_alive s id hm
  | lock id =>
    simp only [Mgr.step] at h
    split at h
    · rename_i ha
      cases h
      refine mk _ rfl rfl ⟨_, all _⟩ fun i hm => ?_
      simp only [List.mem_cons] at hm
      rcases hm with rfl | hm
      · exact ha
      · exact held_alive s i hm
    · cases h; exact mk _ rfl rfl ⟨_, all _⟩ fun id hm => held_alive s id hm
  | release id =>
    simp only [Mgr.step] at h; cases h
    exact mk _ rfl rfl ⟨_, all _⟩ fun i hm => held_alive s i (List.mem_of_mem_erase hm)

/-! ## Opening -/

/-- The result without descriptors. -/
def DRes.plain : DRes → StepRes
  | .ok s evs ret => .ok s.mgr evs ret
  | .stop evs why => .stop evs why

theorem findOrCreate_spec (alloc : Alloc) (hf : ∀ l, alloc l ∉ l) (e : BoundEnv) (ep : EndPoint) (b : List (EndPoint × Nat))
    (l0 : List Nat) (f : Fds) (h : Sound l0 f) :
    (∃ f' b' evs, DMgr.findOrCreate alloc ep e b f = .ok f' (b', evs) ∧
      Mgr.findOrCreateSocket ep e.err (b.map (·.1)) = .ok (b'.map (·.1), evs) ∧ Sound l0 f' ∧
      (∀ l, othersAfter l f'.calls = othersAfter l f.calls) ∧
      ((f' = f ∧ b' = b ∧ evs = []) ∨
        (evs = [.bound ep] ∧ f'.opened = alloc f.opened :: f.opened ∧ b' = DMgr.put ep (alloc f.opened) b))) ∨
    ∃ f' x, DMgr.findOrCreate alloc ep e b f = .throw f' x ∧
      Mgr.findOrCreateSocket ep e.err (b.map (·.1)) = .throw x ∧ Sound l0 f' ∧ f'.opened = f.opened ∧
      ∀ l, othersAfter l f'.calls = othersAfter l f.calls := by
  unfold DMgr.findOrCreate Mgr.findOrCreateSocket
  have hfs := find_sock ep b
  cases h1 : DMgr.find ep b with
  | some fd =>
    cases h2 : sockFind ep (b.map (·.1)) with
    | none => rw [hfs.2 h2] at h1; cases h1
    | some _ => exact .inl ⟨f, b, [], rfl, rfl, h, fun _ => rfl, .inl ⟨rfl, rfl, rfl⟩⟩
  | none =>
    rw [hfs.1 h1]
    have hs := udpBoundOpen_spec alloc hf e ep l0 f h
    cases he : e.err with
    | some x =>
      rw [he] at hs
      obtain ⟨f', g1, g2, g3, g4⟩ := hs
      simp only [g1]
      exact .inr ⟨f', _, rfl, rfl, g3, g2, g4⟩
    | none =>
      rw [he] at hs
      obtain ⟨f', g1, g2, g3, g4⟩ := hs
      simp only [g1]
      exact .inl ⟨f', _, _, rfl, by rw [put_sock], g3, g4, .inr ⟨rfl, g2, rfl⟩⟩

theorem keep_mgr (c : Conn) (fd : Nat) (s : DMgr) : (s.keep c fd).mgr = s.mgr.register c := rfl

theorem register_alive {m : Mgr} (hi : Inv m) (c : Conn) (id : Nat) :
    (m.register c).alive id = (m.alive id || (decide (id = m.heap.length) && (m.register c).alive m.heap.length)) := by
  obtain ⟨_, ht, _, _, hh, _⟩ := register_shape c m
  have hnew : m.alive m.heap.length = false := by
    cases h : m.alive m.heap.length with
    | false => rfl
    | true => exact absurd (alive_lt hi h) (Nat.lt_irrefl _)
  rw [Bool.eq_iff_iff]
  simp only [Bool.or_eq_true, Bool.and_eq_true, decide_eq_true_eq]
  constructor
  · intro h
    by_cases he : id = m.heap.length
    · subst he; exact .inr ⟨rfl, h⟩
    · left
      rw [alive_iff, hh] at h
      rw [alive_iff]
      rcases h with ⟨k, h⟩ | h
      · left
        rcases ht with ⟨_, _, ht⟩ | ⟨_, ht⟩
        · rw [ht] at h; exact ⟨k, h⟩
        · rw [ht, tblPut_mem] at h
          rcases h with h | h
          · injection h with _ h; exact absurd h he
          · exact ⟨k, h⟩
      · exact .inr h
  · rintro (h | ⟨rfl, h⟩)
    · rw [alive_iff] at h ⊢
      rw [hh]
      rcases h with ⟨k, h⟩ | h
      · left
        rcases ht with ⟨_, _, ht⟩ | ⟨_, ht⟩
        · rw [ht]; exact ⟨k, h⟩
        · exact ⟨k, by rw [ht, tblPut_mem]; exact .inr h⟩
      · exact .inr h
    · exact h

theorem reachable_register {m : Mgr} (hi : Inv m) (c : Conn) :
    reachable (m.register c) = reachable m ++ if (m.register c).alive m.heap.length then [m.heap.length] else [] := by
  unfold reachable
  rw [(register_shape c m).1, List.length_append, List.length_singleton, List.range_succ, List.filter_append]
  congr 1
  · apply List.filter_congr
    intro id hid
    rw [List.mem_range] at hid
    rw [register_alive hi]
    have : ¬ id = m.heap.length := by omega
    simp [this]
  · simp only [List.filter_cons, List.filter_nil]

theorem accept_spec (P : Plat) (alloc : Alloc) (hf : ∀ l, alloc l ∉ l) (host : String) (p : ConnectionParameters) (large : Bool)
    (e : DOpenEnv) (resp : MessageRouterResponse) (ev : MEv) (l0 : List Nat) (hl0 : l0.Nodup) (s : DMgr) (hi : DInv l0 s)
    (hg : s.gone = false) :
    DRes.plain (s.accept P alloc host p large e resp ev) = s.mgr.accept P host p large e.plain resp ev ∧
    ∀ s' evs ret, s.accept P alloc host p large e resp ev = .ok s' evs ret → (Inv s'.mgr → DInv l0 s') ∧
      ((∀ id, ret ≠ .ptr (some id)) → s'.fds.opened = s.fds.opened) := by
  unfold DMgr.accept Mgr.accept
  cases h1 : ForwardOpenResponse.expand P.mem resp.data with
  | ub => exact ⟨rfl, fun _ _ _ h => by cases h⟩
  | throw x => exact ⟨rfl, fun _ _ _ h => by cases h; exact ⟨fun _ => hi, fun _ => rfl⟩⟩
  | ok r =>
    cases h2 : Mgr.timeoutMultiplier p.connectionTimeoutMultiplier with
    | ub => exact ⟨rfl, fun _ _ _ h => by cases h⟩
    | throw x => exact ⟨rfl, fun _ _ _ h => by cases h; exact ⟨fun _ => hi, fun _ => rfl⟩⟩
    | ok mult =>
      cases h3 : Mgr.sendEndPoint P host resp.additionalItems with
      | ub => exact ⟨rfl, fun _ _ _ h => by cases h⟩
      | throw x => exact ⟨rfl, fun _ _ _ h => by cases h; exact ⟨fun _ => hi, fun _ => rfl⟩⟩
      | ok ep =>
        simp only [udpOpen, DOpenEnv.plain]
        cases h4 : e.sockErr with
        | some x =>
          refine ⟨rfl, fun s' evs ret h => ?_⟩
          cases h
          refine ⟨fun _ => ⟨hi.inv, hi.socks, hi.len, hi.sound.note (by simp [fdStep]), hi.nodup, hi.perm, ?_, hi.gone⟩, fun _ => rfl⟩
          rw [note_others _ _ _ (by simp [othersAfter])]
          exact hi.others
        | none =>
          have hs1 : Sound l0 (s.fds.add (.socket (alloc s.fds.opened)) (alloc s.fds.opened)) := hi.sound.add (by simp [fdStep, hf])
          have ho1 : ∀ l, othersAfter l (s.fds.add (.socket (alloc s.fds.opened)) (alloc s.fds.opened)).calls = othersAfter l s.fds.calls := by
            intro l; simp [Fds.add, othersAfter_append, othersAfter]
          have hop : (s.fds.add (.socket (alloc s.fds.opened)) (alloc s.fds.opened)).opened = alloc s.fds.opened :: s.fds.opened := rfl
          generalize s.fds.add (.socket (alloc s.fds.opened)) (alloc s.fds.opened) = f1 at hs1 ho1 hop
          have hfc := findOrCreate_spec alloc hf e.bound (EndPoint.ofHost P.aton host Mgr.implicitPort) s.bound l0 f1 hs1
          rw [← hi.socks] at hfc
          rcases hfc with ⟨f', b', bs, g1, g2, g3, g4, g5⟩ | ⟨f', x, g1, g2, g3, g4, g5⟩
          · simp only [g1, g2]
            refine ⟨by simp only [DRes.plain, keep_mgr], fun s' evs ret h => ?_⟩
            cases h
            refine ⟨fun hinv => ?_, fun hne => absurd rfl (hne _)⟩
            have hmi : Inv ({ s.mgr with sockets := b'.map (·.1) } : Mgr) := ⟨hi.inv.sorted, hi.inv.obj, hi.inv.held⟩
            have hreach := reachable_register hmi (Mgr.newConn p large r mult ep e.now)
            have hperm : f'.opened.Perm (alloc s.fds.opened ::
                (s.others ++ b'.map (·.2) ++ (reachable s.mgr).map fun id => s.send.getD id 0)) := by
              rcases g5 with ⟨rfl, rfl, _⟩ | ⟨_, g5, g6⟩
              · rw [hop]; exact hi.perm.cons _
              · rw [g5, g6, hop]
                have hq := hi.perm
                unfold owned at hq
                refine ((hq.cons _).cons _).trans ?_
                refine (List.Perm.swap _ _ _).trans (List.Perm.cons _ ?_)
                have hb := (put_perm (EndPoint.ofHost P.aton host Mgr.implicitPort) (alloc f1.opened) s.bound)
                rw [hop] at hb
                refine .trans ?_ ((hb.symm.append_left s.others).append_right _)
                rw [List.append_assoc, List.append_assoc]
                exact List.perm_middle.symm
            have hmap : (reachable s.mgr).map (fun id => (s.send ++ [alloc s.fds.opened]).getD id 0) =
                (reachable s.mgr).map fun id => s.send.getD id 0 := by
              apply List.map_congr_left
              intro id hid
              have : id < s.send.length := by rw [hi.len]; exact reachable_lt hid
              simp [List.getElem?_append_left this]
            have hfd : alloc s.fds.opened ∈ f'.opened := hperm.mem_iff.2 (by simp)
            have hlast : (s.send ++ [alloc s.fds.opened]).getD s.mgr.heap.length 0 = alloc s.fds.opened := by
              rw [← hi.len]; simp
            have hrs : reachable ({ s.mgr with sockets := b'.map (·.1) } : Mgr) = reachable s.mgr := rfl
            have hal : ∀ b, (if b = true then f' else udpClose (alloc s.fds.opened) f').opened.Perm
                (s.others ++ b'.map (·.2) ++ ((reachable s.mgr ++ if b = true then [s.mgr.heap.length] else []).map fun id =>
                  (s.send ++ [alloc s.fds.opened]).getD id 0)) := by
              intro b
              rw [List.map_append, hmap]
              cases b with
              | true =>
                simp only [if_true, List.map_cons, List.map_nil, hlast]
                refine hperm.trans ?_
                rw [← List.append_assoc]
                exact (List.perm_append_singleton _ _).symm
              | false =>
                simp only [Bool.false_eq_true, if_false, List.map_nil, List.append_nil]
                rw [udpClose_opened]
                simpa using hperm.erase (alloc s.fds.opened)
            have hsd : ∀ b, Sound l0 (if b = true then f' else udpClose (alloc s.fds.opened) f') ∧
                othersAfter l0 (if b = true then f' else udpClose (alloc s.fds.opened) f').calls = othersAfter l0 s.fds.calls := by
              intro b
              cases b with
              | true => exact ⟨g3, by rw [if_pos rfl, g4, ho1]⟩
              | false => exact ⟨g3.close hfd, by rw [if_neg (by simp), udpClose_others, g4, ho1]⟩
            refine ⟨hinv, ?_, ?_, (hsd _).1, replay_nodup _ hl0 (hsd _).1, ?_, ?_, ?_⟩
            · rw [keep_mgr, (register_shape _ _).2.2.1]; rfl
            · rw [keep_mgr, (register_shape _ _).1]; simp [DMgr.keep, hi.len]
            · unfold owned
              rw [keep_mgr, hreach]
              exact hal _
            · exact hi.others.trans (hsd _).2.symm
            · intro h; exact absurd (show s.gone = true from h) (by simp [hg])
          · simp only [g1, g2]
            refine ⟨rfl, fun s' evs ret h => ?_⟩
            cases h
            have hfd : alloc s.fds.opened ∈ f'.opened := by rw [g4, hop]; simp
            have hopen : (udpClose (alloc s.fds.opened) f').opened = s.fds.opened := by
              rw [udpClose_opened, g4, hop]; simp
            refine ⟨fun _ => ⟨hi.inv, hi.socks, hi.len, g3.close hfd, ?_, ?_, ?_, hi.gone⟩, fun _ => hopen⟩
            · rw [hopen]; exact hi.nodup
            · show (udpClose (alloc s.fds.opened) f').opened.Perm _
              rw [hopen]; exact hi.perm
            · show s.others = othersAfter l0 (udpClose _ _).calls
              rw [udpClose_others, g5, ho1]; exact hi.others

theorem dopen_spec (P : Plat) (alloc : Alloc) (hf : ∀ l, alloc l ∉ l) (host : String) (p : ConnectionParameters) (large : Bool)
    (e : DOpenEnv) (l0 : List Nat) (hl0 : l0.Nodup) (s : DMgr) (hi : DInv l0 s) (hg : s.gone = false) :
    DRes.plain (s.forwardOpen P alloc host p large e) = s.mgr.forwardOpen P host p large e.plain ∧
    ∀ s' evs ret, s.forwardOpen P alloc host p large e = .ok s' evs ret → DInv l0 s' ∧
      ((∀ id, ret ≠ .ptr (some id)) → s'.fds.opened = s.fds.opened) := by
  have key : DRes.plain (s.forwardOpen P alloc host p large e) = s.mgr.forwardOpen P host p large e.plain ∧
    ∀ s' evs ret, s.forwardOpen P alloc host p large e = .ok s' evs ret → (Inv s'.mgr → DInv l0 s') ∧
      ((∀ id, ret ≠ .ptr (some id)) → s'.fds.opened = s.fds.opened) := by
    unfold DMgr.forwardOpen Mgr.forwardOpen
    cases h1 : Mgr.bumpStatics s.mgr.incarnation (Mgr.o2tMulticast p large) (Mgr.t2oP2P p large) s.mgr.statics with
    | none => exact ⟨rfl, fun _ _ _ h => by cases h⟩
    | some st =>
      have hi1 : DInv l0 { s with mgr := { s.mgr with statics := st } } :=
        ⟨⟨hi.inv.sorted, hi.inv.obj, hi.inv.held⟩, hi.socks, hi.len, hi.sound, hi.nodup, hi.perm, hi.others, hi.gone⟩
      dsimp only
      generalize (if large then largeForwardOpenPack (Mgr.sentParams p large st)
        else forwardOpenPack (Mgr.sentParams p large st)) = pk
      cases pk with
      | ub => exact ⟨rfl, fun _ _ _ h => by cases h⟩
      | throw _ => exact ⟨rfl, fun _ _ _ h => by cases h⟩
      | ok data =>
        have hrep : e.plain.reply = e.reply := rfl
        rw [hrep]
        cases h2 : e.reply with
        | ub => exact ⟨rfl, fun _ _ _ h => by cases h⟩
        | throw x => exact ⟨rfl, fun _ _ _ h => by cases h; exact ⟨fun _ => hi1, fun _ => rfl⟩⟩
        | ok resp =>
          dsimp only
          by_cases hs : resp.status = GeneralStatus.success
          · rw [if_pos hs, if_pos hs]
            exact accept_spec P alloc hf host p large e resp _ l0 hl0 _ hi1 hg
          · rw [if_neg hs, if_neg hs]
            exact ⟨rfl, fun _ _ _ h => by cases h; exact ⟨fun _ => hi1, fun _ => rfl⟩⟩
  refine ⟨key.1, fun s' evs ret h => ?_⟩
  obtain ⟨a, b⟩ := key.2 s' evs ret h
  refine ⟨a (inv_step P s.mgr s'.mgr (.forwardOpen host p large e.plain) evs ret hi.inv ?_), b⟩
  have := key.1
  rw [h] at this
  exact this.symm

/-! ## Waiting and sending -/

theorem foldl_max (fds : List Nat) (a : Nat) :
    a ≤ fds.foldl (fun m x => if m < x then x else m) a ∧ (∀ x ∈ fds, x ≤ fds.foldl (fun m x => if m < x then x else m) a) ∧
      (fds.foldl (fun m x => if m < x then x else m) a = a ∨ fds.foldl (fun m x => if m < x then x else m) a ∈ fds) := by
  induction fds generalizing a with
  | nil => simp
  | cons y ys ih =>
    simp only [List.foldl_cons]
    obtain ⟨h1, h2, h3⟩ := ih (if a < y then y else a)
    have hle : a ≤ (if a < y then y else a) ∧ y ≤ (if a < y then y else a) := by split <;> omega
    refine ⟨Nat.le_trans hle.1 h1, fun x hx => ?_, ?_⟩
    · rw [List.mem_cons] at hx
      rcases hx with rfl | hx
      · exact Nat.le_trans hle.2 h1
      · exact h2 x hx
    · rcases h3 with h3 | h3
      · rw [h3]
        split
        · exact .inr List.mem_cons_self
        · exact .inl rfl
      · exact .inr (List.mem_cons_of_mem _ h3)

theorem maxFd_spec {l : List Nat} {m : Nat} (h : maxFd l = some m) : m ∈ l ∧ ∀ x ∈ l, x ≤ m := by
  cases l with
  | nil => cases h
  | cons a l =>
    simp only [maxFd] at h
    injection h with h
    obtain ⟨h1, h2, h3⟩ := foldl_max l a
    rw [h] at h1 h2 h3
    refine ⟨?_, fun x hx => ?_⟩
    · rcases h3 with rfl | h3
      · exact List.mem_cons_self
      · exact List.mem_cons_of_mem _ h3
    · rw [List.mem_cons] at hx
      rcases hx with rfl | hx
      · exact h1
      · exact h2 x hx

theorem bound_opened {l0 : List Nat} {s : DMgr} (hi : DInv l0 s) {fd : Nat} (h : fd ∈ s.bound.map (·.2)) : fd ∈ s.fds.opened :=
  hi.perm.mem_iff.2 (by unfold owned; simp only [List.mem_append]; exact .inl (.inr h))

theorem send_opened {l0 : List Nat} {s : DMgr} (hi : DInv l0 s) {id fd : Nat} (ha : s.mgr.alive id = true)
    (h : s.send[id]? = some fd) : fd ∈ s.fds.opened := by
  refine hi.perm.mem_iff.2 ?_
  unfold owned
  simp only [List.mem_append, List.mem_map]
  refine .inr ⟨id, ?_, by simp [h]⟩
  simp only [reachable, List.mem_filter, List.mem_range]
  exact ⟨alive_lt hi.inv ha, ha⟩

theorem callsOf_ok {l0 : List Nat} {s : DMgr} (hi : DInv l0 s) (evs : List MEv)
    (h : ∀ e ∈ evs, (∃ tv, e = .waited tv) ∨ ∃ id op io, e = .conn id op io ∧ ∃ k, (k, id) ∈ s.mgr.table) :
    ∀ c ∈ evs.flatMap s.callsOf, fdStep s.fds.opened c = some s.fds.opened ∧ (∀ l, othersAfter l [c] = l) := by
  intro c hc
  rw [List.mem_flatMap] at hc
  obtain ⟨e, he, hc⟩ := hc
  rcases h e he with ⟨tv, rfl⟩ | ⟨id, op, io, rfl, k, hk⟩
  · simp only [DMgr.callsOf, List.mem_map, Option.mem_toList] at hc
    obtain ⟨m, hm, rfl⟩ := hc
    refine ⟨?_, by simp [othersAfter]⟩
    simp only [fdStep]
    rw [if_pos]
    intro fd hfd
    exact ⟨bound_opened hi hfd, Nat.lt_succ_of_le ((maxFd_spec hm).2 fd hfd)⟩
  · simp only [DMgr.callsOf, List.mem_filterMap] at hc
    obtain ⟨ev, _, hc⟩ := hc
    split at hc
    · rename_i hfd _
      injection hc with hc
      rw [← hc]
      refine ⟨?_, by simp [othersAfter]⟩
      simp only [fdStep]
      rw [if_pos (send_opened hi ((alive_iff _ _).2 (.inl ⟨k, hk⟩)) hfd)]
    · cases hc

theorem othersAfter_neutral (cs : List FdCall) (h : ∀ c ∈ cs, ∀ l, othersAfter l [c] = l) (l : List Nat) : othersAfter l cs = l := by
  induction cs generalizing l with
  | nil => rfl
  | cons c cs ih =>
    have := othersAfter_append l [c] cs
    rw [List.singleton_append] at this
    rw [this, h c List.mem_cons_self]
    exact ih (fun x hx => h x (List.mem_cons_of_mem _ hx)) l

theorem note_inv {l0 : List Nat} {s : DMgr} (hi : DInv l0 s) (cs : List FdCall)
    (h : ∀ c ∈ cs, fdStep s.fds.opened c = some s.fds.opened ∧ (∀ l, othersAfter l [c] = l)) :
    DInv l0 { s with fds := s.fds.note cs } := by
  refine ⟨hi.inv, hi.socks, hi.len, hi.sound.note fun c hc => (h c hc).1, hi.nodup, hi.perm, ?_, hi.gone⟩
  show s.others = othersAfter l0 (s.fds.note cs).calls
  rw [note_others _ _ _ (othersAfter_neutral cs fun c hc => (h c hc).2)]
  exact hi.others

/-! ## Steps -/

theorem destroy_inv {l0 : List Nat} (hl0 : l0.Nodup) {s : DMgr} (hi : DInv l0 s) : DInv l0 s.destroy := by
  have hp : s.fds.opened.Perm (s.bound.map (·.2) ++ (s.others ++ (reachable s.mgr).map fun id => s.send.getD id 0)) := by
    refine hi.perm.trans ?_
    unfold owned
    rw [← List.append_assoc]
    exact List.perm_append_comm.append_right _
  obtain ⟨a, b, c⟩ := closeAll_spec _ _ s.fds hi.sound hp
  have h1 : DInv l0 { s with fds := (s.bound.map (·.2)).foldl (fun f fd => udpClose fd f) s.fds, bound := [],
                             mgr := { s.mgr with sockets := [] } } := by
    refine ⟨⟨hi.inv.sorted, hi.inv.obj, hi.inv.held⟩, rfl, hi.len, a, replay_nodup _ hl0 a, ?_, ?_, fun hg => ⟨rfl, (hi.gone hg).2⟩⟩
    · show List.Perm _ (s.others ++ [] ++ (reachable s.mgr).map fun id => s.send.getD id 0)
      rw [List.append_nil]; exact b
    · exact hi.others.trans (c l0).symm
  have h2 := collect_inv hl0 h1 (m := { s.mgr with sockets := [], table := [] })
    ⟨List.Pairwise.nil, fun _ _ h => absurd h (by simp), hi.inv.held⟩ rfl
    (fun id h => by
      rw [alive_iff] at h
      rcases h with ⟨k, h⟩ | h
      · cases h
      · exact (alive_iff _ _).2 (.inr h)) rfl (fun _ => rfl)
  exact ⟨h2.inv, h2.socks, h2.len, h2.sound, h2.nodup, h2.perm, h2.others, fun _ => ⟨rfl, rfl⟩⟩

theorem call_spec (P : Plat) (op : MOp) {l0 : List Nat} (hl0 : l0.Nodup) {s s' : DMgr} (hi : DInv l0 s) (evs : List MEv) (ret : MRet)
    (ho : isForwardOpen op = false) (h : s.call P op = .ok s' evs ret) :
    DInv l0 s' ∧ s.mgr.step P op = .ok s'.mgr evs ret := by
  unfold DMgr.call at h
  split at h
  · cases h
  · rename_i m evs1 ret1 hs
    cases h
    obtain ⟨h1, h2, h3, f, h4⟩ := step_fewer P s.mgr m op _ _ ho hs
    refine ⟨collect_inv hl0 hi (inv_step P _ _ _ _ _ hi.inv hs) h1 h2 h3 fun hg => ?_, hs⟩
    rw [h4, (hi.gone hg).2]; rfl

theorem dhandle_spec (P : Plat) (start : Nat) (t : Int) (rounds : List Round) (ticks : Nat → TickEnv) {l0 : List Nat} (hl0 : l0.Nodup)
    {s s' : DMgr} (hi : DInv l0 s) (evs : List MEv) (ret : MRet) (h : s.handle P start t rounds ticks = .ok s' evs ret) :
    DInv l0 s' ∧ s.mgr.step P (.handle start t rounds ticks) = .ok s'.mgr evs ret := by
  unfold DMgr.handle at h
  split at h
  · cases h
  · split at h
    · cases h
    · rename_i m evs1 ret1 hs
      cases h
      obtain ⟨h1, h2, h3, f, h4⟩ := step_fewer P s.mgr m (.handle start t rounds ticks) _ _ rfl hs
      obtain ⟨_, _, _, _, h5⟩ := handle_fewer P start t rounds ticks s.mgr m _ _ hs
      refine ⟨collect_inv hl0 (note_inv hi _ (callsOf_ok hi _ h5)) (inv_step P _ _ (.handle start t rounds ticks) _ _ hi.inv hs)
        h1 h2 h3 fun hg => ?_, hs⟩
      show m.table = []
      rw [h4, (hi.gone hg).2]; rfl

/-- A step keeps the invariant, and the manager does what it does without descriptors. -/
theorem dstep_spec (P : Plat) (alloc : Alloc) (hf : ∀ l, alloc l ∉ l) {l0 : List Nat} (hl0 : l0.Nodup) {s s' : DMgr} (hi : DInv l0 s)
    (op : DOp) (evs : List MEv) (ret : MRet) (h : s.step P alloc op = .ok s' evs ret) :
    DInv l0 s' ∧ (op ≠ .destroy → match DOp.plain op with
      | some mop => s.mgr.step P mop = .ok s'.mgr evs ret
      | none => s'.mgr = s.mgr ∧ evs = [] ∧ ret = .unit) := by
  cases op with
  | forwardOpen host p large e =>
    simp only [DMgr.step] at h
    split at h
    · cases h
    · rename_i hg
      obtain ⟨a, b⟩ := dopen_spec P alloc hf host p large e l0 hl0 s hi (by simpa using hg)
      refine ⟨(b _ _ _ h).1, fun _ => ?_⟩
      rw [h] at a
      exact a.symm
  | call op =>
    cases op with
    | forwardOpen host p large e =>
      simp only [DMgr.step] at h
      split at h
      · cases h
      · rename_i hg
        obtain ⟨a, b⟩ := dopen_spec P alloc hf host p large ⟨e.reply, e.udpErr, { bindErr := e.bindErr }, e.now⟩ l0 hl0 s hi (by simpa using hg)
        refine ⟨(b _ _ _ h).1, fun _ => ?_⟩
        rw [h] at a
        exact a.symm
    | handle start t rounds ticks =>
      simp only [DMgr.step] at h
      split at h
      · cases h
      · obtain ⟨a, b⟩ := dhandle_spec P start t rounds ticks hl0 hi evs ret h
        exact ⟨a, fun _ => b⟩
    | otherOpen =>
      simp only [DMgr.step] at h
      split at h
      · cases h
      · obtain ⟨a, b⟩ := call_spec P _ hl0 hi evs ret rfl h; exact ⟨a, fun _ => b⟩
    | forwardClose =>
      simp only [DMgr.step] at h
      split at h
      · cases h
      · obtain ⟨a, b⟩ := call_spec P _ hl0 hi evs ret rfl h; exact ⟨a, fun _ => b⟩
    | hasOpen =>
      simp only [DMgr.step] at h
      split at h
      · cases h
      · obtain ⟨a, b⟩ := call_spec P _ hl0 hi evs ret rfl h; exact ⟨a, fun _ => b⟩
    | setData =>
      simp only [DMgr.step] at h
      split at h
      · cases h
      · obtain ⟨a, b⟩ := call_spec P _ hl0 hi evs ret rfl h; exact ⟨a, fun _ => b⟩
    | lock =>
      simp only [DMgr.step] at h
      split at h
      · cases h
      · obtain ⟨a, b⟩ := call_spec P _ hl0 hi evs ret rfl h; exact ⟨a, fun _ => b⟩
    | release =>
      simp only [DMgr.step] at h
      split at h
      · cases h
      · obtain ⟨a, b⟩ := call_spec P _ hl0 hi evs ret rfl h; exact ⟨a, fun _ => b⟩
  | otherOpens =>
    simp only [DMgr.step] at h
    cases h
    have hs := hi.sound.add (c := .otherOpened (alloc s.fds.opened)) (fd := alloc s.fds.opened) (by simp [fdStep, hf])
    refine ⟨⟨hi.inv, hi.socks, hi.len, hs, replay_nodup _ hl0 hs, ?_, ?_, hi.gone⟩, fun _ => ⟨rfl, rfl, rfl⟩⟩
    · exact hi.perm.cons _
    · simp [Fds.add, othersAfter_append, othersAfter, ← hi.others]
  | otherCloses fd =>
    simp only [DMgr.step] at h
    split at h
    · rename_i hc
      cases h
      have hm : fd ∈ s.others := by simpa using hc
      have hm' : fd ∈ s.fds.opened := hi.perm.mem_iff.2 (by unfold owned; simp [hm])
      have hs := hi.sound.remove (c := .otherClosed fd) (fd := fd) (by simp [fdStep, hm'])
      refine ⟨⟨hi.inv, hi.socks, hi.len, hs, replay_nodup _ hl0 hs, ?_, ?_, hi.gone⟩, fun _ => ⟨rfl, rfl, rfl⟩⟩
      · have := hi.perm.erase fd
        unfold owned at this
        rw [List.append_assoc, List.erase_append_left _ hm, ← List.append_assoc] at this
        exact this
      · simp [Fds.remove, othersAfter_append, othersAfter, ← hi.others]
    · cases h
      exact ⟨hi, fun _ => ⟨rfl, rfl, rfl⟩⟩
  | destroy =>
    simp only [DMgr.step] at h
    split at h
    · cases h
    · cases h
      exact ⟨destroy_inv hl0 hi, fun hne => absurd rfl hne⟩

theorem drun_cons {P : Plat} {alloc : Alloc} {s s' : DMgr} {op : DOp} {ops : List DOp} {tr : List (DOp × List MEv × MRet)}
    (h : s.run P alloc (op :: ops) = some (s', tr)) :
    ∃ s1 evs ret tr', s.step P alloc op = .ok s1 evs ret ∧ s1.run P alloc ops = some (s', tr') ∧ tr = (op, evs, ret) :: tr' := by
  simp only [DMgr.run] at h
  split at h
  · cases h
  · rename_i s1 evs ret hs
    split at h
    · cases h
    · rename_i s2 tr' hr
      cases h
      exact ⟨s1, evs, ret, tr', hs, hr, rfl⟩

theorem dinv_new (inc : BitVec 16) (st : Statics) (l0 : List Nat) (hl0 : l0.Nodup) : DInv l0 (DMgr.new inc st l0) := by
  refine ⟨inv_new inc st, rfl, rfl, rfl, hl0, ?_, rfl, fun h => by cases h⟩
  simp [owned, DMgr.new, reachable, Mgr.new]

theorem dinv_run (P : Plat) (alloc : Alloc) (hf : ∀ l, alloc l ∉ l) {l0 : List Nat} (hl0 : l0.Nodup) {s s' : DMgr} (hi : DInv l0 s)
    (ops : List DOp) (tr : List (DOp × List MEv × MRet)) (h : s.run P alloc ops = some (s', tr)) : DInv l0 s' := by
  induction ops generalizing s tr with
  | nil => simp [DMgr.run] at h; rw [← h.1]; exact hi
  | cons op ops ih =>
    obtain ⟨s1, evs, ret, tr', h1, h2, _⟩ := drun_cons h
    exact ih (dstep_spec P alloc hf hl0 hi op evs ret h1).1 tr' h2

/-! ## The theorems -/

/-- C85. Whatever a process does with a manager, its connections and other descriptors, every system call of the
library is made on a descriptor that is open (none is used after it was closed, none is closed twice), and the
descriptors open afterwards are those of the rest of the process, one for each implicit socket of the manager, and one
for each connection object that a pointer still reaches, all different. -/
theorem C85_descriptors (P : Plat) (alloc : Alloc) (hf : ∀ l, alloc l ∉ l) (inc : BitVec 16) (st : Statics) (l0 : List Nat)
    (hl0 : l0.Nodup) (s : DMgr) (ops : List DOp) (tr : List (DOp × List MEv × MRet))
    (h : (DMgr.new inc st l0).run P alloc ops = some (s, tr)) :
    replay l0 s.fds.calls = some s.fds.opened ∧ s.fds.opened.Nodup ∧
    s.fds.opened.Perm (othersAfter l0 s.fds.calls ++ s.bound.map (·.2) ++ (reachable s.mgr).map fun id => s.send.getD id 0) ∧
    s.bound.map (·.1) = s.mgr.sockets ∧ s.send.length = s.mgr.heap.length := by
  have hi := dinv_run P alloc hf hl0 (dinv_new inc st l0 hl0) ops tr h
  refine ⟨hi.sound, hi.nodup, ?_, hi.socks.symm, hi.len⟩
  rw [← hi.others]
  exact hi.perm

/-- C85. Once the manager is destroyed and the user holds no connection, exactly the descriptors of the rest of the
process are open. -/
theorem C85_nothing_left (P : Plat) (alloc : Alloc) (hf : ∀ l, alloc l ∉ l) (inc : BitVec 16) (st : Statics) (l0 : List Nat)
    (hl0 : l0.Nodup) (s : DMgr) (ops : List DOp) (tr : List (DOp × List MEv × MRet))
    (h : (DMgr.new inc st l0).run P alloc ops = some (s, tr)) (hg : s.gone = true) (hh : s.mgr.held = []) :
    s.fds.opened.Perm (othersAfter l0 s.fds.calls) := by
  have hi := dinv_run P alloc hf hl0 (dinv_new inc st l0 hl0) ops tr h
  have hp := hi.perm
  have hr : reachable s.mgr = [] := by
    unfold reachable
    rw [List.filter_eq_nil_iff]
    intro id _ ha
    rw [alive_iff, (hi.gone hg).2, hh] at ha
    simp at ha
  unfold owned at hp
  rw [(hi.gone hg).1, hr] at hp
  rw [← hi.others]
  simpa using hp

/-- C85. A forward open that yields no connection leaves the open descriptors as they were, whatever failed: the
request, the target, the sending socket, or any step of making the implicit socket. -/
theorem C85_failed_open (P : Plat) (alloc : Alloc) (hf : ∀ l, alloc l ∉ l) (inc : BitVec 16) (st : Statics) (l0 : List Nat)
    (hl0 : l0.Nodup) (s s' : DMgr) (ops : List DOp) (tr : List (DOp × List MEv × MRet))
    (h : (DMgr.new inc st l0).run P alloc ops = some (s, tr)) (host : String) (p : ConnectionParameters) (large : Bool) (e : DOpenEnv)
    (evs : List MEv) (ret : MRet) (hs : s.step P alloc (.forwardOpen host p large e) = .ok s' evs ret)
    (hr : ∀ id, ret ≠ .ptr (some id)) : s'.fds.opened = s.fds.opened := by
  have hi := dinv_run P alloc hf hl0 (dinv_new inc st l0 hl0) ops tr h
  simp only [DMgr.step] at hs
  split at hs
  · cases hs
  · rename_i hg
    exact ((dopen_spec P alloc hf host p large e l0 hl0 s hi (by simpa using hg)).2 _ _ _ hs).2 hr

/-- C85. Without destruction the manager does exactly what the model without descriptors does, so what is proved about
that model holds here. -/
theorem C85_refines (P : Plat) (alloc : Alloc) (hf : ∀ l, alloc l ∉ l) (inc : BitVec 16) (st : Statics) (l0 : List Nat)
    (hl0 : l0.Nodup) (s : DMgr) (ops : List DOp) (tr : List (DOp × List MEv × MRet))
    (h : (DMgr.new inc st l0).run P alloc ops = some (s, tr)) (hd : DOp.destroy ∉ ops) :
    (Mgr.new inc st).run P (ops.filterMap DOp.plain) =
      some (s.mgr, tr.filterMap fun e => (DOp.plain e.1).map fun op => (op, e.2)) := by
  have key : ∀ (ops : List DOp) (a s : DMgr) (tr : List (DOp × List MEv × MRet)), DInv l0 a → a.run P alloc ops = some (s, tr) →
      DOp.destroy ∉ ops → a.mgr.run P (ops.filterMap DOp.plain) =
        some (s.mgr, tr.filterMap fun e => (DOp.plain e.1).map fun op => (op, e.2)) := by
    intro ops
    induction ops with
    | nil => intro a s tr _ h _; simp [DMgr.run] at h; rw [← h.1, h.2]; rfl
    | cons op ops ih =>
      intro a s tr hi h hd
      obtain ⟨s1, evs, ret, tr', h1, h2, rfl⟩ := drun_cons h
      obtain ⟨hi', hm⟩ := dstep_spec P alloc hf hl0 hi op evs ret h1
      have hm := hm fun he => hd (by rw [he]; exact List.mem_cons_self)
      have hr := ih s1 s tr' hi' h2 fun hx => hd (List.mem_cons_of_mem _ hx)
      cases hp : DOp.plain op with
      | none =>
        rw [hp] at hm
        simp only [List.filterMap_cons, hp, Option.map_none]
        rw [← hm.1]; exact hr
      | some mop =>
        rw [hp] at hm
        simp only [List.filterMap_cons, hp, Option.map_some, Mgr.run, hm, hr]
  exact key ops _ s tr (dinv_new inc st l0 hl0) h hd

end Verif.Props
