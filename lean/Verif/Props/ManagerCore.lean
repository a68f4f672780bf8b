import Verif.Spec.Manager
import Verif.Props.IoTrace

/-!
# Lemmas about `ConnectionManager` used by its properties
-/

namespace Verif.Props

open Verif Verif.Spec

/-! ## Replaying events on the heap -/

/-- The effect of one event on the connection objects. -/
def applyEv (m : Mem) (heap : List Conn) : MEv → Option (List Conn)
  | .created id c => if id = heap.length then some (heap ++ [c]) else none
  | .conn id op evs =>
    match heap[id]? with
    | none => none
    | some c =>
      match c.step m op with
      | none => none
      | some (c', evs') => if evs' = evs then some (heap.set id c') else none
  | _ => some heap

/-- The effect of a list of events. -/
def applyEvs (m : Mem) : List Conn → List MEv → Option (List Conn)
  | heap, [] => some heap
  | heap, e :: es =>
    match applyEv m heap e with
    | none => none
    | some h => applyEvs m h es

theorem applyEvs_append (m : Mem) (h : List Conn) (xs ys : List MEv) :
    applyEvs m h (xs ++ ys) = (applyEvs m h xs).bind fun h' => applyEvs m h' ys := by
  induction xs generalizing h with
  | nil => rfl
  | cons x xs ih =>
    simp only [List.cons_append, applyEvs]
    cases applyEv m h x with
    | none => rfl
    | some h' => exact ih h'

theorem applyEvs_conn {m : Mem} {heap : List Conn} {id : Nat} {c c' : Conn} {op : ConnOp} {evs : List IoEv}
    (h : heap[id]? = some c) (hs : c.step m op = some (c', evs)) :
    applyEvs m heap [.conn id op evs] = some (heap.set id c') := by
  simp [applyEvs, applyEv, h, hs]

theorem tblFind_mem {k : BitVec 16} {id : Nat} {t : List (BitVec 16 × Nat)} (h : tblFind k t = some id) : (k, id) ∈ t := by
  induction t with
  | nil => simp [tblFind] at h
  | cons e es ih =>
    simp only [tblFind] at h
    split at h
    · rename_i he
      injection h with h
      rw [← he, ← h]
      exact List.mem_cons_self
    · exact List.mem_cons_of_mem _ (ih h)

theorem deliver_replay (P : Plat) (r : Recv) (s s' : Mgr) (evs : List MEv) (h : s.deliver P r = .ok (s', evs)) :
    applyEvs P.mem s.heap evs = some s'.heap ∧ s'.table = s.table ∧ s'.sockets = s.sockets ∧
      s'.statics = s.statics ∧ s'.held = s.held ∧ s'.incarnation = s.incarnation ∧
      (evs = [] ∨ ∃ id data ioevs, evs = [.conn id (.recv data) ioevs] ∧ ∃ k, (k, id) ∈ s.table) := by
  unfold Mgr.deliver at h
  split at h <;> try cases h
  split at h <;> try cases h
  split at h <;> try cases h
  split at h <;> try cases h
  split at h
  · cases h; exact ⟨rfl, rfl, rfl, rfl, rfl, rfl, .inl rfl⟩
  · rename_i id hid
    split at h
    · cases h
    · cases h; exact ⟨rfl, rfl, rfl, rfl, rfl, rfl, .inl rfl⟩
    · rename_i item c hi hc
      split at h
      · cases h
      · cases h
      · rename_i c' ioevs hn
        cases h
        refine ⟨applyEvs_conn hc (by simp [Conn.step, hn]), rfl, rfl, rfl, rfl, rfl, .inr ⟨id, _, _, rfl, ?_⟩⟩
        exact ⟨_, tblFind_mem hid⟩

/-- What delivering and waiting keep, and that all events are receptions by
connections of the table. -/
structure Quiet (P : Plat) (s s' : Mgr) (evs : List MEv) : Prop where
  replay : applyEvs P.mem s.heap evs = some s'.heap
  table : s'.table = s.table
  sockets : s'.sockets = s.sockets
  statics : s'.statics = s.statics
  held : s'.held = s.held
  incarnation : s'.incarnation = s.incarnation
  only : ∀ e ∈ evs, (∃ tv, e = .waited tv) ∨
    ∃ id data ioevs, e = .conn id (.recv data) ioevs ∧ ∃ k, (k, id) ∈ s.table

theorem Quiet.refl (P : Plat) (s : Mgr) : Quiet P s s [] :=
  ⟨rfl, rfl, rfl, rfl, rfl, rfl, by simp⟩

theorem Quiet.trans {P : Plat} {a b c : Mgr} {xs ys : List MEv} (h : Quiet P a b xs) (g : Quiet P b c ys) :
    Quiet P a c (xs ++ ys) := by
  refine ⟨?_, g.table.trans h.table, g.sockets.trans h.sockets, g.statics.trans h.statics, g.held.trans h.held,
    g.incarnation.trans h.incarnation, ?_⟩
  · rw [applyEvs_append, h.replay]; exact g.replay
  · intro e he
    rw [List.mem_append] at he
    rcases he with he | he
    · exact h.only e he
    · rcases g.only e he with hw | ⟨id, data, io, rfl, k, hk⟩
      · exact .inl hw
      · exact .inr ⟨id, data, io, rfl, k, by rw [← h.table]; exact hk⟩

theorem Quiet.wait {P : Plat} {a b : Mgr} {xs : List MEv} (tv : Int × Int) (h : Quiet P a b xs) :
    Quiet P a b (.waited tv :: xs) := by
  refine ⟨?_, h.table, h.sockets, h.statics, h.held, h.incarnation, ?_⟩
  · exact h.replay
  · intro e he
    rw [List.mem_cons] at he
    rcases he with rfl | he
    · exact .inl ⟨tv, rfl⟩
    · exact h.only e he

theorem deliver_quiet (P : Plat) (r : Recv) (s s' : Mgr) (evs : List MEv) (h : s.deliver P r = .ok (s', evs)) :
    Quiet P s s' evs := by
  obtain ⟨h1, h2, h3, h4, h5, h6, h7⟩ := deliver_replay P r s s' evs h
  refine ⟨h1, h2, h3, h4, h5, h6, ?_⟩
  rcases h7 with rfl | ⟨id, data, io, rfl, hk⟩
  · simp
  · intro e he
    simp at he
    exact .inr ⟨id, data, io, he, hk⟩

theorem deliverAll_quiet (P : Plat) (rs : List Arrival) (s : Mgr) :
    (∀ s' evs, Mgr.deliverAll P rs s = .go s' evs → Quiet P s s' evs) ∧
    (∀ s' evs e, Mgr.deliverAll P rs s = .threw s' evs e → Quiet P s s' evs) := by
  induction rs generalizing s with
  | nil =>
    refine ⟨fun s' evs h => ?_, fun s' evs e h => ?_⟩
    · cases h; exact .refl P s
    · cases h
  | cons r rs ih =>
    refine ⟨fun s' evs h => ?_, fun s' evs e h => ?_⟩
    · simp only [Mgr.deliverAll] at h
      split at h
      · cases h
      · cases h
      · rename_i s1 evs1 hd
        split at h
        · cases h
        split at h
        · rename_i s2 evs2 h2
          cases h
          exact (deliver_quiet P r.recv s s1 evs1 hd).trans ((ih s1).1 _ _ h2)
        · cases h
        · cases h
    · simp only [Mgr.deliverAll] at h
      split at h
      · cases h
      · cases h; exact .refl P s
      · rename_i s1 evs1 hd
        split at h
        · cases h
          exact deliver_quiet P r.recv s _ _ hd
        split at h
        · cases h
        · rename_i s2 evs2 e2 h2
          cases h
          exact (deliver_quiet P r.recv s s1 evs1 hd).trans ((ih s1).2 _ _ _ h2)
        · cases h

theorem selectLoop_quiet (P : Plat) (stop : Int) (rounds : List Round) (now : Int) (s : Mgr) :
    (∀ s' evs, Mgr.selectLoop P stop now rounds s = .go s' evs → Quiet P s s' evs) ∧
    (∀ s' evs e, Mgr.selectLoop P stop now rounds s = .threw s' evs e → Quiet P s s' evs) := by
  induction rounds generalizing s now with
  | nil =>
    refine ⟨fun s' evs h => ?_, fun s' evs e h => ?_⟩
    · simp only [Mgr.selectLoop] at h; cases h; exact (Quiet.refl P s).wait _
    · simp only [Mgr.selectLoop] at h; cases h
  | cons r rounds ih =>
    cases r with
    | fail code =>
      refine ⟨fun s' evs h => ?_, fun s' evs e h => ?_⟩
      · simp only [Mgr.selectLoop] at h; cases h
      · simp only [Mgr.selectLoop] at h; cases h; exact (Quiet.refl P s).wait _
    | ready r rs now' =>
      refine ⟨fun s' evs h => ?_, fun s' evs e h => ?_⟩
      · simp only [Mgr.selectLoop] at h
        split at h
        · cases h
        · cases h
        · rename_i s1 evs1 hd
          split at h
          · cases h
          · cases h
          · rename_i s2 evs2 h2
            cases h
            exact (((deliverAll_quiet P (r :: rs) s).1 _ _ hd).wait _).trans ((ih now' s1).1 _ _ h2)
      · simp only [Mgr.selectLoop] at h
        split at h
        · cases h
        · rename_i s1 evs1 e1 hd
          cases h
          exact ((deliverAll_quiet P (r :: rs) s).2 _ _ _ hd).wait _
        · rename_i s1 evs1 hd
          split at h
          · cases h
          · rename_i s2 evs2 e2 h2
            cases h
            exact (((deliverAll_quiet P (r :: rs) s).1 _ _ hd).wait _).trans ((ih now' s1).2 _ _ _ h2)
          · cases h

/-- The loop of ticks. -/
theorem tickAll_spec (m : Mem) (ticks : Nat → TickEnv) (t : List (BitVec 16 × Nat)) (heap : List Conn) :
    applyEvs m heap (Mgr.tickAll ticks t heap).2.1 = some (Mgr.tickAll ticks t heap).1 ∧
    (∀ e ∈ (Mgr.tickAll ticks t heap).2.1, ∃ id now hook count ioevs, e = .conn id (.tick now hook count) ioevs ∧
      ∃ k, (k, id) ∈ t) := by
  induction t generalizing heap with
  | nil => exact ⟨rfl, by simp [Mgr.tickAll]⟩
  | cons e t ih =>
    obtain ⟨k, id⟩ := e
    simp only [Mgr.tickAll]
    cases hc : heap[id]? with
    | none =>
      simp only
      refine ⟨(ih heap).1, fun x hx => ?_⟩
      obtain ⟨i, n, h, c, io, rfl, k', hk⟩ := (ih heap).2 x hx
      exact ⟨i, n, h, c, io, rfl, k', List.mem_cons_of_mem _ hk⟩
    | some c =>
      have hstep : c.step m (.tick (ticks id).now (ticks id).hook (ticks id).count) =
        some ((c.notifyTick (ticks id).now (ticks id).hook (ticks id).count).1,
          (c.notifyTick (ticks id).now (ticks id).hook (ticks id).count).2.1) := rfl
      have happ := applyEvs_conn hc hstep
      simp only
      split
      · refine ⟨happ, fun x hx => ?_⟩
        simp at hx
        exact ⟨id, _, _, _, _, hx, k, List.mem_cons_self⟩
      all_goals
        refine ⟨?_, fun x hx => ?_⟩
        · rw [← List.singleton_append, applyEvs_append, happ]; exact (ih _).1
        · rw [List.mem_cons] at hx
          rcases hx with rfl | hx
          · exact ⟨id, _, _, _, _, rfl, k, List.mem_cons_self⟩
          · obtain ⟨i, n, h, c, io, rfl, k', hk⟩ := (ih _).2 x hx
            exact ⟨i, n, h, c, io, rfl, k', List.mem_cons_of_mem _ hk⟩

/-- The shape of the events of a step and its effect on the objects and the table. -/
inductive StepShape (P : Plat) (s s' : Mgr) (evs : List MEv) : Prop
  /-- nothing happens to any object; entries may be removed -/
  | still (hheap : s'.heap = s.heap) (hev : ∀ e ∈ evs, ∃ a b c, e = .request a b c)
      (htable : s'.table = s.table ∨ ∃ k, s'.table = tblErase k s.table)
  /-- a connection is opened -/
  | opened (c : Conn) (hheap : s'.heap = s.heap ++ [c])
      (hev : ∃ a b d bs, evs = .request a b d :: bs ++ [.created s.heap.length c] ∧ ∀ e ∈ bs, ∃ ep, e = MEv.bound ep)
      (htable : (∃ id, tblFind (c.t2oNetworkConnectionId.setWidth 16) s.table = some id ∧ s'.table = s.table) ∨
        (tblFind (c.t2oNetworkConnectionId.setWidth 16) s.table = none ∧
          s'.table = tblPut (c.t2oNetworkConnectionId.setWidth 16) s.heap.length s.table))
  /-- connections of the table are given data or ticked -/
  | handled (hreplay : applyEvs P.mem s.heap evs = some s'.heap)
      (hev : ∀ e ∈ evs, (∃ tv, e = .waited tv) ∨ ∃ id op ioevs, e = .conn id op ioevs ∧ (∀ d, op ≠ .setData d) ∧
        ∃ k, (k, id) ∈ s.table)
      (htable : ∃ f : BitVec 16 × Nat → Bool, s'.table = s.table.filter f)
  /-- the user writes output data -/
  | wrote (id : Nat) (data : List Byte) (hev : evs = [.conn id (.setData data) []])
      (hreplay : applyEvs P.mem s.heap evs = some s'.heap) (htable : s'.table = s.table)

theorem handle_shape (P : Plat) (start : Nat) (t : Int) (rounds : List Round) (ticks : Nat → TickEnv) (s s' : Mgr)
    (evs : List MEv) (ret : MRet) (h : s.handle P start t rounds ticks = .ok s' evs ret) : StepShape P s s' evs := by
  unfold Mgr.handle at h
  split at h
  · cases h
  · split at h
    · cases h
    · rename_i s1 evs1 e hsel
      cases h
      have q := (selectLoop_quiet P _ rounds start s).2 _ _ _ hsel
      refine .handled q.replay (fun e he => ?_) ⟨fun _ => true, by rw [List.filter_eq_self.mpr (by simp)]; exact q.table⟩
      rcases q.only e he with hw | ⟨id, d, io, rfl, hk⟩
      · exact .inl hw
      · exact .inr ⟨id, _, io, rfl, by simp, hk⟩
    · rename_i s1 evs1 hsel
      have q := (selectLoop_quiet P _ rounds start s).1 _ _ hsel
      have tk := tickAll_spec P.mem ticks s1.table s1.heap
      have hev : ∀ e ∈ evs1 ++ (Mgr.tickAll ticks s1.table s1.heap).2.1, (∃ tv, e = .waited tv) ∨
          ∃ id op ioevs, e = .conn id op ioevs ∧ (∀ d, op ≠ .setData d) ∧ ∃ k, (k, id) ∈ s.table := by
        intro e he
        rw [List.mem_append] at he
        rcases he with he | he
        · rcases q.only e he with hw | ⟨id, d, io, rfl, hk⟩
          · exact .inl hw
          · exact .inr ⟨id, _, io, rfl, by simp, hk⟩
        · obtain ⟨id, n, hk, c, io, rfl, k, hm⟩ := tk.2 e he
          exact .inr ⟨id, _, io, rfl, by simp, k, by rw [← q.table]; exact hm⟩
      have hrep : applyEvs P.mem s.heap (evs1 ++ (Mgr.tickAll ticks s1.table s1.heap).2.1) =
          some (Mgr.tickAll ticks s1.table s1.heap).1 := by
        rw [applyEvs_append, q.replay]; exact tk.1
      split at h
      · rename_i heap evs2 keys hta
        cases h
        rw [hta] at hev hrep
        exact .handled hrep hev ⟨_, by rw [← q.table]⟩
      · rename_i heap evs2 keys e hta
        cases h
        rw [hta] at hev hrep
        exact .handled hrep hev ⟨fun _ => true, by rw [List.filter_eq_self.mpr (by simp)]; exact q.table⟩

theorem register_shape (c : Conn) (s : Mgr) :
    (s.register c).heap = s.heap ++ [c] ∧
    ((∃ id, tblFind (c.t2oNetworkConnectionId.setWidth 16) s.table = some id ∧ (s.register c).table = s.table) ∨
      (tblFind (c.t2oNetworkConnectionId.setWidth 16) s.table = none ∧
        (s.register c).table = tblPut (c.t2oNetworkConnectionId.setWidth 16) s.heap.length s.table)) ∧
    (s.register c).sockets = s.sockets ∧ (s.register c).statics = s.statics ∧ (s.register c).held = s.held ∧
    (s.register c).incarnation = s.incarnation := by
  unfold Mgr.register
  dsimp only
  split
  · rename_i id h; exact ⟨rfl, .inl ⟨id, h, rfl⟩, rfl, rfl, rfl, rfl⟩
  · rename_i h; exact ⟨rfl, .inr ⟨h, rfl⟩, rfl, rfl, rfl, rfl⟩

/-- The ways `accept` can end. -/
theorem accept_cases (P : Plat) (host : String) (p : ConnectionParameters) (large : Bool) (e : OpenEnv)
    (resp : MessageRouterResponse) (ev : MEv) (s s' : Mgr) (evs : List MEv) (ret : MRet)
    (h : s.accept P host p large e resp ev = .ok s' evs ret) :
    (s' = s ∧ evs = [ev] ∧ ∃ x, ret = .threw x) ∨
    ∃ r mult ep socks bs, ForwardOpenResponse.expand P.mem resp.data = .ok r ∧
      Mgr.timeoutMultiplier p.connectionTimeoutMultiplier = .ok mult ∧
      Mgr.sendEndPoint P host resp.additionalItems = .ok ep ∧ e.udpErr = none ∧
      Mgr.findOrCreateSocket (EndPoint.ofHost P.aton host Mgr.implicitPort) e.bindErr s.sockets = .ok (socks, bs) ∧
      s' = ({ s with sockets := socks } : Mgr).register (Mgr.newConn p large r mult ep e.now) ∧
      evs = ev :: bs ++ [.created s.heap.length (Mgr.newConn p large r mult ep e.now)] ∧
      ret = .ptr (some s.heap.length) := by
  unfold Mgr.accept at h
  split at h
  · cases h
  · cases h; exact .inl ⟨rfl, rfl, _, rfl⟩
  · rename_i r hr
    split at h
    · cases h
    · cases h; exact .inl ⟨rfl, rfl, _, rfl⟩
    · rename_i mult hm
      split at h
      · cases h
      · cases h; exact .inl ⟨rfl, rfl, _, rfl⟩
      · rename_i ep hep
        split at h
        · cases h; exact .inl ⟨rfl, rfl, _, rfl⟩
        · rename_i hu
          split at h
          · cases h
          · cases h; exact .inl ⟨rfl, rfl, _, rfl⟩
          · rename_i socks bs hs
            cases h
            exact .inr ⟨r, mult, ep, socks, bs, hr, hm, hep, hu, hs, rfl, rfl, rfl⟩

theorem findOrCreate_events (ep : EndPoint) (b : Option Int) (socks socks' : List EndPoint) (bs : List MEv)
    (h : Mgr.findOrCreateSocket ep b socks = .ok (socks', bs)) : ∀ e ∈ bs, ∃ x, e = MEv.bound x := by
  unfold Mgr.findOrCreateSocket at h
  split at h
  · cases h; simp
  · split at h
    · cases h
    · cases h; intro e he; simp at he; exact ⟨_, he⟩

/-- The ways `forwardOpen` can end. -/
theorem forwardOpen_cases (P : Plat) (host : String) (p : ConnectionParameters) (large : Bool) (e : OpenEnv)
    (s s' : Mgr) (evs : List MEv) (ret : MRet) (h : s.forwardOpen P host p large e = .ok s' evs ret) :
    ∃ st data, Mgr.bumpStatics s.incarnation (Mgr.o2tMulticast p large) (Mgr.t2oP2P p large) s.statics = some st ∧
      (if large then largeForwardOpenPack (Mgr.sentParams p large st)
        else forwardOpenPack (Mgr.sentParams p large st)) = .ok data ∧
      let ev := MEv.request (if large then 0x5B#8 else 0x54#8) (EPath.mk2 6 1) data
      (s' = { s with statics := st } ∧ evs = [ev] ∧ ((∃ x, ret = .threw x) ∨
        (ret = .ptr none ∧ ∃ resp, e.reply = .ok resp ∧ resp.status ≠ GeneralStatus.success))) ∨
      ∃ resp, e.reply = .ok resp ∧ resp.status = GeneralStatus.success ∧
      ∃ r mult ep socks bs, ForwardOpenResponse.expand P.mem resp.data = .ok r ∧
        Mgr.timeoutMultiplier p.connectionTimeoutMultiplier = .ok mult ∧
        Mgr.sendEndPoint P host resp.additionalItems = .ok ep ∧ e.udpErr = none ∧
        Mgr.findOrCreateSocket (EndPoint.ofHost P.aton host Mgr.implicitPort) e.bindErr s.sockets = .ok (socks, bs) ∧
        s' = ({ s with statics := st, sockets := socks } : Mgr).register (Mgr.newConn p large r mult ep e.now) ∧
        evs = ev :: bs ++ [.created s.heap.length (Mgr.newConn p large r mult ep e.now)] ∧
        ret = .ptr (some s.heap.length) := by
  unfold Mgr.forwardOpen at h
  split at h
  · cases h
  · rename_i st hst
    dsimp only at h
    split at h
    · cases h
    · cases h
    · rename_i data hdata
      refine ⟨st, data, hst, hdata, ?_⟩
      split at h
      · cases h
      · cases h; exact .inl ⟨rfl, rfl, .inl ⟨_, rfl⟩⟩
      · rename_i resp hresp
        split at h
        · rename_i hsucc
          rcases accept_cases P host p large e resp _ _ s' evs ret h with ⟨h1, h2, h3⟩ | hr
          · exact .inl ⟨h1, h2, .inl h3⟩
          · exact .inr ⟨resp, hresp, hsucc, hr⟩
        · rename_i hsucc
          cases h
          exact .inl ⟨rfl, rfl, .inr ⟨rfl, resp, hresp, hsucc⟩⟩

theorem step_shape (P : Plat) (s s' : Mgr) (op : MOp) (evs : List MEv) (ret : MRet)
    (h : s.step P op = .ok s' evs ret) : StepShape P s s' evs := by
  cases op with
  | forwardOpen host p large e =>
    obtain ⟨st, data, _, _, hh⟩ := forwardOpen_cases P host p large e s s' evs ret h
    rcases hh with ⟨rfl, rfl, _⟩ | ⟨resp, _, _, r, mult, ep, socks, bs, _, _, _, _, hf, rfl, rfl, _⟩
    · exact .still rfl (by simp) (.inl rfl)
    · obtain ⟨g1, g2, _⟩ := register_shape (Mgr.newConn p large r mult ep e.now)
        { s with statics := st, sockets := socks }
      exact .opened _ g1 ⟨_, _, _, bs, rfl, findOrCreate_events _ _ _ _ _ hf⟩ g2
  | otherOpen inc mc p2p =>
    simp only [Mgr.step] at h
    split at h
    · cases h
    · cases h; exact .still rfl (by simp) (.inl rfl)
  | forwardClose ptr reply =>
    simp only [Mgr.step, Mgr.forwardClose] at h
    split at h
    · cases h; exact .still rfl (by simp) (.inl rfl)
    · split at h
      · split at h
        · cases h; exact .still rfl (by simp) (.inl rfl)
        · split at h
          · cases h
          · cases h; exact .still rfl (by simp) (.inl rfl)
          · split at h
            · cases h; exact .still rfl (by simp) (.inr ⟨_, rfl⟩)
            · split at h
              · cases h; exact .still rfl (by simp) (.inl rfl)
              · cases h
      · cases h; exact .still rfl (by simp) (.inl rfl)
  | handle start t rounds ticks => exact handle_shape P start t rounds ticks s s' evs ret h
  | hasOpen => simp only [Mgr.step] at h; cases h; exact .still rfl (by simp) (.inl rfl)
  | setData id data =>
    simp only [Mgr.step] at h
    split at h
    · rename_i c ha hc
      cases h
      exact .wrote id data rfl (applyEvs_conn hc rfl) rfl
    · cases h; exact .still rfl (by simp) (.inl rfl)
  | lock id =>
    simp only [Mgr.step] at h
    split at h <;> cases h <;> exact .still rfl (by simp) (.inl rfl)
  | release id => simp only [Mgr.step] at h; cases h; exact .still rfl (by simp) (.inl rfl)

theorem applyEvs_neutral (m : Mem) (heap : List Conn) (evs : List MEv)
    (h : ∀ e ∈ evs, applyEv m heap e = some heap) : applyEvs m heap evs = some heap := by
  induction evs with
  | nil => rfl
  | cons e es ih =>
    simp only [applyEvs, h e List.mem_cons_self]
    exact ih fun x hx => h x (List.mem_cons_of_mem _ hx)

/-- Every step's effect on the objects is the replay of its events. -/
theorem step_replay (P : Plat) (s s' : Mgr) (op : MOp) (evs : List MEv) (ret : MRet)
    (h : s.step P op = .ok s' evs ret) : applyEvs P.mem s.heap evs = some s'.heap := by
  cases step_shape P s s' op evs ret h with
  | still hheap hev _ =>
    rw [hheap]
    refine applyEvs_neutral _ _ _ fun e he => ?_
    obtain ⟨a, b, c, rfl⟩ := hev e he
    rfl
  | opened c hheap hev _ =>
    obtain ⟨a, b, d, bs, rfl, hb⟩ := hev
    rw [hheap, applyEvs_append]
    have : applyEvs P.mem s.heap (.request a b d :: bs) = some s.heap := by
      refine applyEvs_neutral _ _ _ fun e he => ?_
      rw [List.mem_cons] at he
      rcases he with rfl | he
      · rfl
      · obtain ⟨ep, rfl⟩ := hb e he; rfl
    rw [this]
    simp [applyEvs, applyEv]
  | handled hr _ _ => exact hr
  | wrote _ _ _ hr _ => exact hr

/-! ## Runs -/

theorem mrun_cons {P : Plat} {s s' : Mgr} {op : MOp} {ops : List MOp} {tr : List (MOp × List MEv × MRet)}
    (h : s.run P (op :: ops) = some (s', tr)) :
    ∃ s1 evs ret tr', s.step P op = .ok s1 evs ret ∧ s1.run P ops = some (s', tr') ∧ tr = (op, evs, ret) :: tr' := by
  simp only [Mgr.run] at h
  split at h
  · cases h
  · rename_i s1 evs ret hs
    split at h
    · cases h
    · rename_i s2 tr' hr
      injection h with h; injection h with h1 h2
      subst h1
      exact ⟨s1, evs, ret, tr', hs, hr, h2.symm⟩

/-- A point of a history. -/
theorem mrun_split (P : Plat) (s s' : Mgr) (ops : List MOp) (pre post : List (MOp × List MEv × MRet))
    (e : MOp × List MEv × MRet) (h : s.run P ops = some (s', pre ++ e :: post)) :
    ∃ opsPre opsPost s1 s2, ops = opsPre ++ e.1 :: opsPost ∧ s.run P opsPre = some (s1, pre) ∧
      s1.step P e.1 = .ok s2 e.2.1 e.2.2 ∧ s2.run P opsPost = some (s', post) := by
  induction pre generalizing s ops with
  | nil =>
    cases ops with
    | nil => simp [Mgr.run] at h
    | cons op ops =>
      obtain ⟨s1, evs, ret, tr', h1, h2, h3⟩ := mrun_cons h
      simp only [List.nil_append, List.cons.injEq] at h3
      obtain ⟨rfl, rfl⟩ := h3
      exact ⟨[], ops, s, s1, rfl, rfl, h1, h2⟩
  | cons p pre ih =>
    cases ops with
    | nil => simp [Mgr.run] at h
    | cons op ops =>
      obtain ⟨s1, evs, ret, tr', h1, h2, h3⟩ := mrun_cons h
      simp only [List.cons_append, List.cons.injEq] at h3
      obtain ⟨rfl, rfl⟩ := h3
      obtain ⟨o1, o2, d1, d2, rfl, g2, g3, g4⟩ := ih s1 ops h2
      refine ⟨op :: o1, o2, d1, d2, rfl, ?_, g3, g4⟩
      simp only [Mgr.run, h1, g2]

theorem run_replay (P : Plat) (s s' : Mgr) (ops : List MOp) (tr : List (MOp × List MEv × MRet))
    (h : s.run P ops = some (s', tr)) : applyEvs P.mem s.heap (allEvs tr) = some s'.heap := by
  induction ops generalizing s tr with
  | nil => simp [Mgr.run] at h; simp [h.1, h.2, allEvs, applyEvs]
  | cons op ops ih =>
    obtain ⟨s1, evs, ret, tr', h1, h2, rfl⟩ := mrun_cons h
    have e : allEvs ((op, evs, ret) :: tr') = evs ++ allEvs tr' := by simp [allEvs]
    rw [e, applyEvs_append, step_replay P s s1 op evs ret h1]
    exact ih s1 tr' h2

theorem connTrace_append (id : Nat) (xs ys : List MEv) : connTrace id (xs ++ ys) = connTrace id xs ++ connTrace id ys := by
  induction xs with
  | nil => rfl
  | cons x xs ih =>
    cases x with
    | conn i op evs => simp only [List.cons_append, connTrace]; split <;> simp [ih]
    | _ => simp only [List.cons_append, connTrace]; exact ih

/-- One connection's share of a replay is a history of that connection. -/
theorem replay_project (m : Mem) (heap heap' : List Conn) (evs : List MEv) (h : applyEvs m heap evs = some heap')
    (id : Nat) (c : Conn) (hc : heap[id]? = some c) :
    ∃ c', heap'[id]? = some c' ∧ c.run m ((connTrace id evs).map Prod.fst) = some (c', connTrace id evs) := by
  induction evs generalizing heap c with
  | nil => simp [applyEvs] at h; rw [← h]; exact ⟨c, hc, rfl⟩
  | cons e es ih =>
    simp only [applyEvs] at h
    split at h
    · cases h
    · rename_i h1 he
      cases e with
      | request a b d => simp [applyEv] at he; subst he; exact ih _ h c hc
      | bound a => simp [applyEv] at he; subst he; exact ih _ h c hc
      | waited a => simp [applyEv] at he; subst he; exact ih _ h c hc
      | created i d =>
        simp only [applyEv] at he
        split at he
        · injection he with he
          subst he
          refine ih _ h c ?_
          rw [List.getElem?_append_left (by have := List.getElem?_eq_some_iff.mp hc; exact this.1)]
          exact hc
        · cases he
      | conn i op ioevs =>
        simp only [applyEv] at he
        split at he
        · cases he
        · rename_i ci hci
          split at he
          · cases he
          · rename_i ci' evs' hstep
            split at he
            · rename_i heq
              injection he with he
              subst he
              subst heq
              by_cases hi : i = id
              · subst hi
                rw [hc] at hci
                injection hci with hci
                subst hci
                have hlt := (List.getElem?_eq_some_iff.mp hc).1
                obtain ⟨c', hc', hrun⟩ := ih _ h ci' (by rw [List.getElem?_set_self hlt])
                refine ⟨c', hc', ?_⟩
                simp only [connTrace, if_true, List.map_cons, Conn.run, hstep, hrun]
              · obtain ⟨c', hc', hrun⟩ := ih _ h c (by rw [List.getElem?_set_ne hi]; exact hc)
                refine ⟨c', hc', ?_⟩
                simp only [connTrace, if_neg hi]
                exact hrun
            · cases he

theorem replay_length (m : Mem) (heap heap' : List Conn) (evs : List MEv) (h : applyEvs m heap evs = some heap') :
    heap.length ≤ heap'.length := by
  induction evs generalizing heap with
  | nil => simp [applyEvs] at h; rw [h]; exact Nat.le_refl _
  | cons e es ih =>
    simp only [applyEvs] at h
    split at h
    · cases h
    · rename_i h1 he
      have := ih h1 h
      refine Nat.le_trans ?_ this
      unfold applyEv at he
      split at he
      · split at he
        · injection he with he; rw [← he]; simp
        · cases he
      · split at he
        · cases he
        · split at he
          · cases he
          · split at he
            · injection he with he; rw [← he]; simp
            · cases he
      · injection he with he; rw [← he]; exact Nat.le_refl _

/-! ## The invariant of the table -/

/-- Every entry is an existing object, stored under the low 16 bits of its T→O
identifier, and the keys increase. -/
structure Inv (s : Mgr) : Prop where
  sorted : s.table.Pairwise fun a b => a.1 < b.1
  obj : ∀ k id, (k, id) ∈ s.table → ∃ c, s.heap[id]? = some c ∧ k = c.t2oNetworkConnectionId.setWidth 16
  held : ∀ id ∈ s.held, id < s.heap.length

theorem alive_lt {s : Mgr} (hi : Inv s) {id : Nat} (h : s.alive id = true) : id < s.heap.length := by
  unfold Mgr.alive at h
  rw [Bool.or_eq_true] at h
  rcases h with h | h
  · rw [List.any_eq_true] at h
    obtain ⟨⟨k, i⟩, hm, he⟩ := h
    obtain ⟨c, hc, _⟩ := hi.obj k i hm
    have : i = id := by simpa using he
    subst this
    exact (List.getElem?_eq_some_iff.mp hc).1
  · exact hi.held id (by simpa using h)

theorem tblFind_none {k : BitVec 16} {t : List (BitVec 16 × Nat)} (h : tblFind k t = none) : ∀ e ∈ t, e.1 ≠ k := by
  induction t with
  | nil => simp
  | cons e es ih =>
    simp only [tblFind] at h
    split at h
    · cases h
    · rename_i hne
      intro x hx
      rw [List.mem_cons] at hx
      rcases hx with rfl | hx
      · exact hne
      · exact ih h x hx

theorem tblFind_of_mem {k : BitVec 16} {id : Nat} {t : List (BitVec 16 × Nat)}
    (hs : t.Pairwise fun a b => a.1 < b.1) (h : (k, id) ∈ t) : tblFind k t = some id := by
  induction t with
  | nil => simp at h
  | cons e es ih =>
    rw [List.pairwise_cons] at hs
    rw [List.mem_cons] at h
    simp only [tblFind]
    rcases h with rfl | h
    · simp
    · have hlt := hs.1 _ h
      rw [if_neg (fun heq => by rw [heq] at hlt; exact absurd hlt (BitVec.lt_irrefl _))]
      exact ih hs.2 h

theorem tblPut_mem {k : BitVec 16} {id : Nat} {t : List (BitVec 16 × Nat)} {e : BitVec 16 × Nat} :
    e ∈ tblPut k id t ↔ e = (k, id) ∨ e ∈ t := by
  induction t with
  | nil => simp [tblPut]
  | cons x xs ih =>
    simp only [tblPut]
    split
    · simp only [List.mem_cons, ih]
      constructor
      · rintro (h | h | h)
        · exact .inr (.inl h)
        · exact .inl h
        · exact .inr (.inr h)
      · rintro (h | h | h)
        · exact .inr (.inl h)
        · exact .inl h
        · exact .inr (.inr h)
    · simp [List.mem_cons]

theorem tblPut_sorted {k : BitVec 16} {id : Nat} {t : List (BitVec 16 × Nat)}
    (hs : t.Pairwise fun a b => a.1 < b.1) (hk : ∀ e ∈ t, e.1 ≠ k) :
    (tblPut k id t).Pairwise fun a b => a.1 < b.1 := by
  induction t with
  | nil => simp [tblPut]
  | cons x xs ih =>
    rw [List.pairwise_cons] at hs
    simp only [tblPut]
    split
    · rename_i hlt
      rw [List.pairwise_cons]
      refine ⟨fun e he => ?_, ih hs.2 fun e he => hk e (List.mem_cons_of_mem _ he)⟩
      rw [tblPut_mem] at he
      rcases he with rfl | he
      · exact hlt
      · exact hs.1 e he
    · rename_i hge
      have hlt : k < x.1 := by
        have hne := hk x List.mem_cons_self
        rw [BitVec.lt_def] at hge ⊢
        have : x.1.toNat ≠ k.toNat := fun h => hne (BitVec.eq_of_toNat_eq h)
        omega
      rw [List.pairwise_cons, List.pairwise_cons]
      refine ⟨fun e he => ?_, hs.1, hs.2⟩
      rw [List.mem_cons] at he
      rcases he with rfl | he
      · exact hlt
      · exact BitVec.lt_trans hlt (hs.1 e he)

/-- Objects never disappear and keep their configuration. -/
theorem replay_config {m : Mem} {heap heap' : List Conn} {evs : List MEv} (h : applyEvs m heap evs = some heap')
    {id : Nat} {c : Conn} (hc : heap[id]? = some c) : ∃ c', heap'[id]? = some c' ∧ SameConfig c c' := by
  obtain ⟨c', h1, h2⟩ := replay_project m heap heap' evs h id c hc
  exact ⟨c', h1, run_config m c c' _ _ h2⟩

/-- How the strong pointers of the user change. -/
theorem step_held (P : Plat) (s s' : Mgr) (op : MOp) (evs : List MEv) (ret : MRet)
    (h : s.step P op = .ok s' evs ret) :
    s'.held = s.held ∨ (∃ id, s.alive id = true ∧ s'.held = id :: s.held) ∨ ∃ id, s'.held = s.held.erase id := by
  cases op with
  | forwardOpen host p large e =>
    obtain ⟨st, data, _, _, hh⟩ := forwardOpen_cases P host p large e s s' evs ret h
    rcases hh with ⟨rfl, _⟩ | ⟨resp, _, _, r, mult, ep, socks, bs, _, _, _, _, _, rfl, _⟩
    · exact .inl rfl
    · exact .inl (register_shape _ _).2.2.2.2.1
  | otherOpen inc mc p2p =>
    simp only [Mgr.step] at h
    split at h
    · cases h
    · cases h; exact .inl rfl
  | forwardClose ptr reply =>
    simp only [Mgr.step, Mgr.forwardClose] at h
    repeat' split at h
    all_goals first | (cases h; exact .inl rfl) | cases h
  | handle start t rounds ticks =>
    simp only [Mgr.step, Mgr.handle] at h
    split at h
    · cases h
    · split at h
      · cases h
      · rename_i hsel
        cases h
        exact .inl ((selectLoop_quiet P _ rounds start s).2 _ _ _ hsel).held
      · rename_i hsel
        have q := (selectLoop_quiet P _ rounds start s).1 _ _ hsel
        split at h <;> cases h <;> exact .inl q.held
  | hasOpen => simp only [Mgr.step] at h; cases h; exact .inl rfl
  | setData id data =>
    simp only [Mgr.step] at h
    split at h <;> cases h <;> exact .inl rfl
  | lock id =>
    simp only [Mgr.step] at h
    split at h
    · rename_i ha; cases h; exact .inr (.inl ⟨id, ha, rfl⟩)
    · cases h; exact .inl rfl
  | release id => simp only [Mgr.step] at h; cases h; exact .inr (.inr ⟨id, rfl⟩)

theorem inv_step (P : Plat) (s s' : Mgr) (op : MOp) (evs : List MEv) (ret : MRet) (hi : Inv s)
    (h : s.step P op = .ok s' evs ret) : Inv s' := by
  have hrep := step_replay P s s' op evs ret h
  have hold : ∀ k id, (k, id) ∈ s.table → ∃ c, s'.heap[id]? = some c ∧ k = c.t2oNetworkConnectionId.setWidth 16 := by
    intro k id hm
    obtain ⟨c, hc, hk⟩ := hi.obj k id hm
    obtain ⟨c', hc', hs⟩ := replay_config hrep hc
    exact ⟨c', hc', by rw [hs.t2oId]; exact hk⟩
  have hlen := replay_length _ _ _ _ hrep
  have hheld : ∀ id ∈ s'.held, id < s'.heap.length := by
    intro id hid
    rcases step_held P s s' op evs ret h with he | ⟨i, ha, he⟩ | ⟨i, he⟩
    · rw [he] at hid; exact Nat.lt_of_lt_of_le (hi.held id hid) hlen
    · rw [he, List.mem_cons] at hid
      rcases hid with rfl | hid
      · exact Nat.lt_of_lt_of_le (alive_lt hi ha) hlen
      · exact Nat.lt_of_lt_of_le (hi.held id hid) hlen
    · rw [he] at hid
      exact Nat.lt_of_lt_of_le (hi.held id (List.mem_of_mem_erase hid)) hlen
  have hfil : ∀ f : BitVec 16 × Nat → Bool, s'.table = s.table.filter f → Inv s' := by
    intro f hf
    refine ⟨by rw [hf]; exact hi.sorted.filter _, fun k id hm => ?_, hheld⟩
    rw [hf, List.mem_filter] at hm
    exact hold k id hm.1
  have hsame : s'.table = s.table → Inv s' := fun hf => hfil (fun _ => true) (by rw [hf, List.filter_eq_self.mpr (by simp)])
  cases step_shape P s s' op evs ret h with
  | still _ _ ht =>
    rcases ht with ht | ⟨k, ht⟩
    · exact hsame ht
    · exact hfil _ ht
  | opened c hheap _ ht =>
    rcases ht with ⟨_, _, ht⟩ | ⟨hn, ht⟩
    · exact hsame ht
    · refine ⟨by rw [ht]; exact tblPut_sorted hi.sorted (tblFind_none hn), fun k id hm => ?_, hheld⟩
      rw [ht, tblPut_mem] at hm
      rcases hm with heq | hm
      · injection heq with h1 h2
        refine ⟨c, ?_, h1⟩
        rw [hheap, h2]
        simp
      · exact hold k id hm
  | handled _ _ ht => obtain ⟨f, hf⟩ := ht; exact hfil f hf
  | wrote _ _ _ _ ht => exact hsame ht

theorem inv_run (P : Plat) (s s' : Mgr) (ops : List MOp) (tr : List (MOp × List MEv × MRet)) (hi : Inv s)
    (h : s.run P ops = some (s', tr)) : Inv s' := by
  induction ops generalizing s tr with
  | nil => simp [Mgr.run] at h; rw [← h.1]; exact hi
  | cons op ops ih =>
    obtain ⟨s1, evs, ret, tr', h1, h2, _⟩ := mrun_cons h
    exact ih s1 tr' (inv_step P s s1 op evs ret hi h1) h2

theorem inv_new (inc : BitVec 16) (st : Statics) : Inv (Mgr.new inc st) :=
  ⟨List.Pairwise.nil, fun _ _ h => absurd h (by simp [Mgr.new]), fun _ h => absurd h (by simp [Mgr.new])⟩

/-! ## Sockets -/

/-- How the sockets change. -/
theorem step_sockets (P : Plat) (s s' : Mgr) (op : MOp) (evs : List MEv) (ret : MRet)
    (h : s.step P op = .ok s' evs ret) :
    (s'.sockets = s.sockets ∧ (∀ e ∈ evs, MEv.isBound e = false) ∧ ∀ id, ret ≠ .ptr (some id)) ∨
    ∃ host bs b, Mgr.findOrCreateSocket (EndPoint.ofHost P.aton host 2222) b s.sockets = .ok (s'.sockets, bs) ∧
      evs.filter MEv.isBound = bs ∧ ∃ id, ret = .ptr (some id) := by
  have shape := step_shape P s s' op evs ret h
  cases op with
  | forwardOpen host p large e =>
    obtain ⟨st, data, _, _, hh⟩ := forwardOpen_cases P host p large e s s' evs ret h
    rcases hh with ⟨rfl, rfl, hr⟩ | ⟨resp, _, _, r, mult, ep, socks, bs, _, _, _, _, hf, rfl, rfl, hret⟩
    · refine .inl ⟨rfl, by simp [MEv.isBound], fun id => ?_⟩
      rcases hr with ⟨x, rfl⟩ | ⟨rfl, _⟩ <;> simp
    · refine .inr ⟨host, bs, e.bindErr, ?_, ?_, _, hret⟩
      · rw [(register_shape _ _).2.2.1]; exact hf
      · have hb := findOrCreate_events _ _ _ _ _ hf
        have : bs.filter MEv.isBound = bs := by
          rw [List.filter_eq_self]
          intro e he
          obtain ⟨x, rfl⟩ := hb e he
          rfl
        simp [MEv.isBound, this]
  | otherOpen inc mc p2p =>
    simp only [Mgr.step] at h
    split at h
    · cases h
    · cases h; exact .inl ⟨rfl, by simp, by simp⟩
  | forwardClose ptr reply =>
    simp only [Mgr.step, Mgr.forwardClose] at h
    repeat' split at h
    all_goals first | (cases h; exact .inl ⟨rfl, by simp [MEv.isBound], by simp⟩) | cases h
  | handle start t rounds ticks =>
    have hb : ∀ e ∈ evs, MEv.isBound e = false := by
      intro e he
      cases shape with
      | still _ hev _ => obtain ⟨a, b, c, rfl⟩ := hev e he; rfl
      | opened c hheap hev _ =>
        exfalso
        obtain ⟨a, b, d, bs, rfl, _⟩ := hev
        simp only [Mgr.step, Mgr.handle] at h
        split at h
        · cases h
        · split at h
          · cases h
          · rename_i hsel
            cases h
            have := ((selectLoop_quiet P _ rounds start s).2 _ _ _ hsel).only (.request a b d) (by simp)
            rcases this with ⟨tv, ht⟩ | ⟨i, dd, io, ht, _⟩ <;> cases ht
          · rename_i s1 evs1 hsel
            have q := ((selectLoop_quiet P _ rounds start s).1 _ _ hsel).only
            have tk := (tickAll_spec P.mem ticks s1.table s1.heap).2
            have key : ∀ evs2, evs1 ++ evs2 = .request a b d :: bs ++ [.created s.heap.length c] →
                (∀ e ∈ evs2, ∃ id now hook count ioevs, e = .conn id (.tick now hook count) ioevs ∧
                  ∃ k, (k, id) ∈ s1.table) → False := by
              intro evs2 heq htk
              have hm : MEv.request a b d ∈ evs1 ++ evs2 := by rw [heq]; simp
              rw [List.mem_append] at hm
              rcases hm with hm | hm
              · rcases q _ hm with ⟨tv, ht⟩ | ⟨i, dd, io, ht, _⟩ <;> cases ht
              · obtain ⟨_, _, _, _, _, ht, _⟩ := htk _ hm; cases ht
            split at h
            · rename_i hta; rw [hta] at tk; injection h with _ h2 _; exact key _ h2 tk
            · rename_i hta; rw [hta] at tk; injection h with _ h2 _; exact key _ h2 tk
      | handled _ hev _ => rcases hev e he with ⟨tv, rfl⟩ | ⟨_, _, _, rfl, _⟩ <;> rfl
      | wrote _ _ hev _ _ => rw [hev] at he; simp at he; rw [he]; rfl
    simp only [Mgr.step, Mgr.handle] at h
    split at h
    · cases h
    · split at h
      · cases h
      · rename_i hsel
        cases h
        exact .inl ⟨((selectLoop_quiet P _ rounds start s).2 _ _ _ hsel).sockets, hb, by simp⟩
      · rename_i hsel
        have q := (selectLoop_quiet P _ rounds start s).1 _ _ hsel
        split at h <;> cases h <;> exact .inl ⟨q.sockets, hb, by simp⟩
  | hasOpen => simp only [Mgr.step] at h; cases h; exact .inl ⟨rfl, by simp, by simp⟩
  | setData id data =>
    simp only [Mgr.step] at h
    split at h <;> cases h <;> exact .inl ⟨rfl, by simp [MEv.isBound], by simp⟩
  | lock id => simp only [Mgr.step] at h; split at h <;> cases h <;> exact .inl ⟨rfl, by simp, by simp⟩
  | release id => simp only [Mgr.step] at h; cases h; exact .inl ⟨rfl, by simp, by simp⟩

end Verif.Props
