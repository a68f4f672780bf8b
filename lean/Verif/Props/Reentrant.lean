import Verif.Spec.Reentrant
import Verif.Props.ManagerConn

/-!
# Listeners that call back into the manager: lemmas

A run with listeners that make calls is a sequence of small steps, each of which is
a call, a reception, a tick or a removal.
-/

namespace Verif.Props

open Verif Verif.Spec

/-! ## Splitting `notifyTick` at the listener -/

theorem notifyTick_split (now : Nat) (hook : Hook) (count : Int) (c : Conn) :
    c.notifyTick now hook count =
      match c.tickHead now with
      | (c1, .quiet) => (c1, [], .alive)
      | (c1, .closing) => (c1, [.closed], Conn.closeRet hook)
      | (c1, .sending addr head) => c1.tickTail addr head hook count := by
  unfold Conn.notifyTick Conn.tickHead
  by_cases h1 : c.connectionTimeoutCount + BitVec.ofNat 32 ((now - c.lastHandleTime) / 1000000 * 1000) >
    c.connectionTimeoutMultiplier.setWidth 32 * c.t2oAPI
  · simp [h1]
  · by_cases h2 : c.o2tTimer + BitVec.ofNat 32 ((now - c.lastHandleTime) / 1000000 * 1000) ≥ c.o2tAPI
    · simp only [h1, if_false, h2, if_true]
      rfl
    · simp [h1, h2]

/-- The counters a tick changes before the listener. -/
def bump (d c : Conn) : Conn :=
  { c with
    connectionTimeoutCount := d.connectionTimeoutCount
    lastHandleTime := d.lastHandleTime
    o2tTimer := d.o2tTimer
    o2tSequenceNumber := d.o2tSequenceNumber
    sequenceValueCount := d.sequenceValueCount }

theorem tickHead_bump (now : Nat) (c : Conn) : (c.tickHead now).1 = bump (c.tickHead now).1 c := by
  unfold Conn.tickHead bump
  by_cases h1 : c.connectionTimeoutCount + BitVec.ofNat 32 ((now - c.lastHandleTime) / 1000000 * 1000) >
    c.connectionTimeoutMultiplier.setWidth 32 * c.t2oAPI
  · simp [h1]
  · by_cases h2 : c.o2tTimer + BitVec.ofNat 32 ((now - c.lastHandleTime) / 1000000 * 1000) ≥ c.o2tAPI
    · simp [h1, h2]
    · simp [h1, h2]

theorem tickHead_output (now : Nat) (c : Conn) (x : List Byte) :
    ({ c with outputData := x } : Conn).tickHead now =
      ({ (c.tickHead now).1 with outputData := x }, (c.tickHead now).2) := by
  unfold Conn.tickHead
  by_cases h1 : c.connectionTimeoutCount + BitVec.ofNat 32 ((now - c.lastHandleTime) / 1000000 * 1000) >
    c.connectionTimeoutMultiplier.setWidth 32 * c.t2oAPI
  · simp [h1]
  · by_cases h2 : c.o2tTimer + BitVec.ofNat 32 ((now - c.lastHandleTime) / 1000000 * 1000) ≥ c.o2tAPI
    · simp [h1, h2]
    · simp [h1, h2]

/-! ## Calls commute with the beginning of a tick -/

/-- The state with the counters of one connection changed. -/
def bumped (id : Nat) (d : Conn) (s : Mgr) : Mgr := { s with heap := s.heap.modify id (bump d) }

theorem modify_append {α : Type} (l r : List α) (i : Nat) (f : α → α) (h : i < l.length) :
    (l ++ r).modify i f = l.modify i f ++ r := by
  apply List.ext_getElem?
  intro j
  rw [List.getElem?_modify]
  by_cases hj : j < l.length
  · rw [List.getElem?_append_left hj, List.getElem?_append_left (by simpa using hj), List.getElem?_modify]
  · rw [List.getElem?_append_right (by omega), List.getElem?_append_right (by simpa using hj)]
    simp only [List.length_modify]
    have : i ≠ j := by omega
    simp [this]

theorem bumped_register (id : Nat) (d c : Conn) (s : Mgr) (h : id < s.heap.length) :
    (bumped id d s).register c = bumped id d (s.register c) := by
  unfold Mgr.register bumped
  simp only [List.length_modify]
  split <;> simp [modify_append _ _ _ _ h]

/-- A result with the counters changed. -/
def bumpRes (id : Nat) (d : Conn) : StepRes → StepRes
  | .ok s evs ret => .ok (bumped id d s) evs ret
  | .stop evs why => .stop evs why

theorem bumped_accept (P : Plat) (host : String) (p : ConnectionParameters) (large : Bool) (e : OpenEnv)
    (resp : MessageRouterResponse) (ev : MEv) (s : Mgr) (id : Nat) (d : Conn) (h : id < s.heap.length) :
    Mgr.accept P host p large e resp ev (bumped id d s) = bumpRes id d (Mgr.accept P host p large e resp ev s) := by
  unfold Mgr.accept
  cases ForwardOpenResponse.expand P.mem resp.data with
  | ub => rfl
  | throw x => rfl
  | ok r =>
    simp only
    cases Mgr.timeoutMultiplier p.connectionTimeoutMultiplier with
    | ub => rfl
    | throw x => rfl
    | ok mult =>
      simp only
      cases Mgr.sendEndPoint P host resp.additionalItems with
      | ub => rfl
      | throw x => rfl
      | ok ep =>
        simp only
        cases e.udpErr with
        | some code => rfl
        | none =>
          simp only [show (bumped id d s).sockets = s.sockets from rfl]
          cases Mgr.findOrCreateSocket (EndPoint.ofHost P.aton host Mgr.implicitPort) e.bindErr s.sockets with
          | ub => rfl
          | throw x => rfl
          | ok q =>
            simp only [bumpRes]
            have hb : ({ bumped id d s with sockets := q.1 } : Mgr) = bumped id d { s with sockets := q.1 } := rfl
            rw [hb, bumped_register id d _ { s with sockets := q.1 } h]
            simp [bumped]

theorem bumped_get (id : Nat) (d : Conn) (s : Mgr) (i : Nat) :
    (bumped id d s).heap[i]? = (s.heap[i]?).map fun c => if id = i then bump d c else c := by
  simp [bumped, List.getElem?_modify]

theorem step_bumped (P : Plat) (s : Mgr) (op : MOp) (id : Nat) (d : Conn) (h : id < s.heap.length)
    (hop : MOp.isHandle op = false) : (bumped id d s).step P op = bumpRes id d (s.step P op) := by
  cases op with
  | handle => simp [MOp.isHandle] at hop
  | forwardOpen host p large e =>
    simp only [Mgr.step, Mgr.forwardOpen, show (bumped id d s).incarnation = s.incarnation from rfl,
      show (bumped id d s).statics = s.statics from rfl]
    cases Mgr.bumpStatics s.incarnation (Mgr.o2tMulticast p large) (Mgr.t2oP2P p large) s.statics with
    | none => rfl
    | some st =>
      simp only
      generalize (if large = true then largeForwardOpenPack (Mgr.sentParams p large st)
        else forwardOpenPack (Mgr.sentParams p large st)) = req
      cases req with
      | ub => rfl
      | throw x => rfl
      | ok data =>
        simp only
        cases e.reply with
        | ub => rfl
        | throw x => rfl
        | ok resp =>
          simp only
          split
          · exact bumped_accept P host p large e resp _ { s with statics := st } id d h
          · rfl
  | otherOpen inc mc p2p =>
    simp only [Mgr.step, show (bumped id d s).statics = s.statics from rfl]
    cases Mgr.bumpStatics inc mc p2p s.statics <;> rfl
  | forwardClose ptr reply =>
    simp only [Mgr.step, Mgr.forwardClose]
    cases ptr with
    | none => rfl
    | some i =>
      simp only [show ∀ j, (bumped id d s).alive j = s.alive j from fun _ => rfl, bumped_get,
        show (bumped id d s).table = s.table from rfl]
      split
      · cases s.heap[i]? with
        | none => rfl
        | some c =>
          simp only [Option.map_some]
          have hreq : ∀ x : Conn, Mgr.closeRequest (if id = i then bump d x else x) = Mgr.closeRequest x := by
            intro x; split <;> rfl
          have hkey : ∀ x : Conn, (if id = i then bump d x else x).t2oNetworkConnectionId = x.t2oNetworkConnectionId := by
            intro x; split <;> rfl
          rw [hreq, hkey]
          cases reply with
          | ub => rfl
          | throw x => rfl
          | ok r =>
            simp only
            cases tblFind (c.t2oNetworkConnectionId.setWidth 16) s.table with
            | some _ => rfl
            | none => simp only; split <;> rfl
      · rfl
  | hasOpen => rfl
  | setData i data =>
    simp only [Mgr.step, show (bumped id d s).alive i = s.alive i from rfl, bumped_get]
    cases s.alive i with
    | false => cases s.heap[i]? <;> rfl
    | true =>
      cases hc : s.heap[i]? with
      | none => rfl
      | some c =>
        simp only [Option.map_some, bumpRes, bumped, StepRes.ok.injEq, Mgr.mk.injEq, true_and, and_true]
        apply List.ext_getElem?
        intro j
        have hlt := (List.getElem?_eq_some_iff.mp hc).1
        simp only [List.getElem?_set, List.getElem?_modify, List.length_modify]
        by_cases hij : i = j
        · subst hij
          simp only [hlt, if_true, Option.map_eq_map, Option.map_some]
          split <;> rfl
        · simp only [hij, if_false]
  | lock i =>
    simp only [Mgr.step, show (bumped id d s).alive i = s.alive i from rfl]
    split <;> rfl
  | release i => rfl

/-- A call leaves everything of a connection but the output data. -/
theorem step_object (P : Plat) (s s' : Mgr) (op : MOp) (evs : List MEv) (ret : MRet) (hop : MOp.isHandle op = false)
    (h : s.step P op = .ok s' evs ret) (id : Nat) (c : Conn) (hc : s.heap[id]? = some c) :
    ∃ x, s'.heap[id]? = some { c with outputData := x } := by
  have same : s'.heap[id]? = s.heap[id]? → ∃ x, s'.heap[id]? = some { c with outputData := x } :=
    fun he => ⟨c.outputData, by rw [he, hc]⟩
  cases op with
  | handle => simp [MOp.isHandle] at hop
  | setData i data =>
    simp only [Mgr.step] at h
    split at h
    · rename_i d ha hd
      cases h
      by_cases hi : i = id
      · subst hi
        rw [hc] at hd
        injection hd with hd
        subst hd
        refine ⟨data, ?_⟩
        simp only
        rw [List.getElem?_set_self (List.getElem?_eq_some_iff.mp hc).1]
        rfl
      · exact same (List.getElem?_set_ne hi)
    · cases h; exact same rfl
  | _ =>
    cases step_shape P s s' _ evs ret h with
    | still hh _ _ => exact same (by rw [hh])
    | opened d hh _ _ =>
      exact same (by rw [hh, List.getElem?_append_left (List.getElem?_eq_some_iff.mp hc).1])
    | handled hr hev _ =>
      refine same ?_
      obtain ⟨c', h1, h2⟩ := replay_project P.mem _ _ evs hr id c hc
      rw [h1, hc]
      have : connTrace id evs = [] := by
        refine connTrace_nil_of fun cop io hm => ?_
        simp only [Mgr.step] at h
        first
          | (obtain ⟨_, _, _, _, hh⟩ := forwardOpen_cases P _ _ _ _ s s' evs ret h
             rcases hh with ⟨_, rfl, _⟩ | ⟨_, _, _, _, _, _, _, bs, _, _, _, _, hf, _, rfl, _⟩
             · simp at hm
             · simp only [List.cons_append, List.mem_cons, reduceCtorEq, List.mem_append, List.not_mem_nil, or_false,
                 false_or] at hm
               obtain ⟨x, hx⟩ := findOrCreate_events _ _ _ _ _ hf _ hm
               cases hx)
          | (simp only [Mgr.forwardClose] at h
             repeat' split at h
             all_goals first | (cases h; simp at hm; done) | (cases h; done))
          | (split at h <;> cases h <;> simp at hm; done)
          | (cases h; simp at hm)
      rw [this] at h2
      simp only [List.map_nil, Conn.run, Option.some.injEq, Prod.mk.injEq, and_true] at h2
      rw [h2]
    | wrote i data hev hr _ =>
      exfalso
      subst hev
      simp only [Mgr.step] at h
      first
        | (obtain ⟨_, _, _, _, hh⟩ := forwardOpen_cases P _ _ _ _ s s' _ ret h
           rcases hh with ⟨_, h2, _⟩ | ⟨_, _, _, _, _, _, _, bs, _, _, _, _, hf, _, h2, _⟩
           · simp at h2
           · simp at h2)
        | (simp only [Mgr.forwardClose] at h
           repeat' split at h
           all_goals first | (simp at h; done) | (cases h; done))
        | (split at h <;> simp at h; done)
        | (simp at h)

/-! ## Small steps -/

/-- One small step of a history with listeners that make calls; `er`: the removal of
closed connections may be among them. -/
inductive Micro (P : Plat) (er : Bool) : Mgr → List MEv → Mgr → Prop
  /-- a call, made by the user or (not `handleConnections`) by a listener -/
  | call {s s' op evs ret} : (er = false → MOp.isHandle op = false) → s.step P op = .ok s' evs ret → Micro P er s evs s'
  /-- a call of `::select` -/
  | wait {s tv} : Micro P er s [.waited tv] s
  /-- a connection of the table receives or is ticked -/
  | conn {s k id c c' cop io} : (k, id) ∈ s.table → s.heap[id]? = some c → c.step P.mem cop = some (c', io) →
      (∀ d, cop ≠ .setData d) → Micro P er s [.conn id cop io] { s with heap := s.heap.set id c' }
  /-- connections are taken out of the table -/
  | erase {s} (keys : List (BitVec 16)) : er = true → Micro P er s [] { s with table := s.table.filter fun e => !keys.contains e.1 }

/-- Any number of small steps. -/
inductive Micros (P : Plat) (er : Bool) : Mgr → List MEv → Mgr → Prop
  | refl {s} : Micros P er s [] s
  | snoc {s evs s1 evs' s2} : Micros P er s evs s1 → Micro P er s1 evs' s2 → Micros P er s (evs ++ evs') s2

theorem Micro.one {P : Plat} {er : Bool} {s s' : Mgr} {evs : List MEv} (h : Micro P er s evs s') : Micros P er s evs s' := by
  have := Micros.snoc Micros.refl h
  simpa using this

theorem Micros.trans {P : Plat} {er : Bool} {a b c : Mgr} {xs ys : List MEv} (h : Micros P er a xs b) (g : Micros P er b ys c) :
    Micros P er a (xs ++ ys) c := by
  induction g with
  | refl => simpa using h
  | snoc _ m ih => rw [← List.append_assoc]; exact .snoc ih m

@[simp] theorem evsOf_append (a b : List REv) : evsOf (a ++ b) = evsOf a ++ evsOf b := by simp [evsOf]
@[simp] theorem evsOf_nil : evsOf [] = [] := rfl
@[simp] theorem evsOf_ev (e : MEv) (r : List REv) : evsOf (.ev e :: r) = e :: evsOf r := rfl
@[simp] theorem evsOf_enter (i : Nat) (r : List REv) : evsOf (.enter i :: r) = evsOf r := rfl
@[simp] theorem evsOf_leave (i : Nat) (r : List REv) : evsOf (.leave i :: r) = evsOf r := rfl
@[simp] theorem evsOf_map (l : List MEv) : evsOf (l.map .ev) = l := by
  induction l with
  | nil => rfl
  | cons x xs ih => simp [ih]

/-! ## Sequencing -/

theorem andThen_go {r : RRes} {f : Mgr → RRes} {s' : Mgr} {evs : List REv} {keys : List (BitVec 16)}
    (h : r.andThen f = .go s' evs keys) :
    ∃ s1 e1 k1 e2 k2, r = .go s1 e1 k1 ∧ f s1 = .go s' e2 k2 ∧ evs = e1 ++ e2 ∧ keys = k1 ++ k2 := by
  cases r with
  | go s1 e1 k1 =>
    simp only [RRes.andThen] at h
    cases hf : f s1 with
    | go s2 e2 k2 =>
      rw [hf] at h
      simp only [RRes.after, RRes.go.injEq] at h
      obtain ⟨rfl, rfl, rfl⟩ := h
      exact ⟨s1, e1, k1, e2, k2, rfl, hf, rfl, rfl⟩
    | threw _ _ _ => rw [hf] at h; cases h
    | stop _ _ => rw [hf] at h; cases h
  | threw _ _ _ => cases h
  | stop _ _ => cases h

theorem andThen_threw {r : RRes} {f : Mgr → RRes} {s' : Mgr} {evs : List REv} {x : Exn}
    (h : r.andThen f = .threw s' evs x) :
    r = .threw s' evs x ∨ ∃ s1 e1 k1 e2, r = .go s1 e1 k1 ∧ f s1 = .threw s' e2 x ∧ evs = e1 ++ e2 := by
  cases r with
  | go s1 e1 k1 =>
    simp only [RRes.andThen] at h
    cases hf : f s1 with
    | go s2 e2 k2 => rw [hf] at h; cases h
    | threw s2 e2 y =>
      rw [hf] at h
      simp only [RRes.after, RRes.threw.injEq] at h
      obtain ⟨rfl, rfl, rfl⟩ := h
      exact .inr ⟨s1, e1, k1, e2, rfl, hf, rfl⟩
    | stop _ _ => rw [hf] at h; cases h
  | threw _ _ _ => exact .inl h
  | stop _ _ => cases h

theorem nested_no_throw (P : Plat) (ops : List MOp) (s s' : Mgr) (evs : List REv) (x : Exn) :
    Mgr.nested P ops s ≠ .threw s' evs x := by
  induction ops generalizing s s' evs with
  | nil => simp [Mgr.nested]
  | cons op ops ih =>
    intro h
    simp only [Mgr.nested] at h
    rcases andThen_threw h with h | ⟨s1, e1, k1, e2, _, h2, _⟩
    · cases hs : s.step P op <;> rw [hs] at h <;> simp [Mgr.ofStep] at h
    · exact ih _ _ _ h2

theorem nested_go (P : Plat) (ops : List MOp) (hn : noHandle ops) (s s' : Mgr) (evs : List REv) (keys : List (BitVec 16))
    (h : Mgr.nested P ops s = .go s' evs keys) :
    keys = [] ∧ Micros P false s (evsOf evs) s' ∧ s.heap.length ≤ s'.heap.length ∧
    (∀ (id : Nat) (c : Conn), s.heap[id]? = some c → ∃ x, s'.heap[id]? = some { c with outputData := x }) ∧
    (∀ (id : Nat) (d : Conn), id < s.heap.length → Mgr.nested P ops (bumped id d s) = .go (bumped id d s') evs keys) := by
  induction ops generalizing s evs keys with
  | nil =>
    simp only [Mgr.nested, RRes.go.injEq] at h
    obtain ⟨rfl, rfl, rfl⟩ := h
    exact ⟨rfl, .refl, Nat.le_refl _, fun id c hc => ⟨c.outputData, hc⟩, fun _ _ _ => rfl⟩
  | cons op ops ih =>
    simp only [Mgr.nested] at h
    obtain ⟨s1, e1, k1, e2, k2, h1, h2, rfl, rfl⟩ := andThen_go h
    have hop := hn op List.mem_cons_self
    cases hs : s.step P op with
    | stop _ _ => rw [hs] at h1; simp [Mgr.ofStep] at h1
    | ok s2 evs2 ret =>
      rw [hs] at h1
      simp only [Mgr.ofStep, RRes.go.injEq] at h1
      obtain ⟨rfl, rfl, rfl⟩ := h1
      obtain ⟨rfl, i2, i3, i4, i5⟩ := ih (fun o ho => hn o (List.mem_cons_of_mem _ ho)) s2 e2 k2 h2
      have hlen := replay_length _ _ _ _ (step_replay P s s2 op evs2 ret hs)
      refine ⟨rfl, ?_, Nat.le_trans hlen i3, ?_, ?_⟩
      · rw [evsOf_append, evsOf_map]; exact (Micro.call (fun _ => hop) hs).one.trans i2
      · intro id c hc
        obtain ⟨x, hx⟩ := step_object P s s2 op evs2 ret hop hs id c hc
        obtain ⟨y, hy⟩ := i4 id _ hx
        exact ⟨y, hy⟩
      · intro id d hid
        simp only [Mgr.nested, step_bumped P s op id d hid hop, hs, bumpRes, Mgr.ofStep, RRes.andThen,
          i5 id d (Nat.lt_of_lt_of_le hid hlen), RRes.after]

theorem nested_bumped_stop (P : Plat) (ops : List MOp) (hn : noHandle ops) (s : Mgr) (evs : List REv) (why : Stop)
    (h : Mgr.nested P ops s = .stop evs why) (id : Nat) (d : Conn) (hid : id < s.heap.length) :
    Mgr.nested P ops (bumped id d s) = .stop evs why := by
  induction ops generalizing s evs with
  | nil => simp [Mgr.nested] at h
  | cons op ops ih =>
    have hop := hn op List.mem_cons_self
    simp only [Mgr.nested, step_bumped P s op id d hid hop] at h ⊢
    cases hs : s.step P op with
    | stop _ _ => rw [hs] at h; exact h
    | ok s2 evs2 ret =>
      rw [hs] at h
      simp only [bumpRes, Mgr.ofStep, RRes.andThen] at h ⊢
      have hlen := replay_length _ _ _ _ (step_replay P s s2 op evs2 ret hs)
      cases hn2 : Mgr.nested P ops s2 with
      | go s3 e3 k3 => rw [hn2] at h; cases h
      | threw s3 e3 x => rw [hn2] at h; cases h
      | stop e3 w3 =>
        rw [hn2] at h
        rw [ih (fun o ho => hn o (List.mem_cons_of_mem _ ho)) s2 e3 (by rw [hn2]; simp [RRes.after] at h; rw [h.2])
          (Nat.lt_of_lt_of_le hid hlen)]
        simp only [RRes.after, RRes.stop.injEq] at h ⊢
        exact ⟨h.1, trivial⟩

theorem listener_go {P : Plat} {id : Nat} {calls : List MOp} {s s' : Mgr} {evs : List REv} {keys : List (BitVec 16)}
    (h : Mgr.listener P id calls s = .go s' evs keys) :
    ∃ inner, Mgr.nested P calls s = .go s' inner keys ∧ evs = .enter id :: inner ++ [.leave id] := by
  unfold Mgr.listener at h
  obtain ⟨s1, e1, k1, e2, k2, h1, h2, rfl, rfl⟩ := andThen_go h
  obtain ⟨s0, e0, k0, e3, k3, h3, h4, rfl, rfl⟩ := andThen_go h1
  simp only [RRes.go.injEq] at h3 h2
  obtain ⟨rfl, rfl, rfl⟩ := h3
  obtain ⟨rfl, rfl, rfl⟩ := h2
  exact ⟨e3, by simpa using h4, by simp⟩

theorem listener_no_throw (P : Plat) (id : Nat) (calls : List MOp) (s s' : Mgr) (evs : List REv) (x : Exn) :
    Mgr.listener P id calls s ≠ .threw s' evs x := by
  intro h
  unfold Mgr.listener at h
  rcases andThen_threw h with h | ⟨_, _, _, _, _, h2, _⟩
  · rcases andThen_threw h with h | ⟨_, _, _, _, _, h2, _⟩
    · cases h
    · exact nested_no_throw _ _ _ _ _ _ h2
  · cases h2

/-! ## One pass of the loop -/

theorem set_bumped (s : Mgr) (id : Nat) (c d : Conn) (hc : s.heap[id]? = some c) (hd : d = bump d c) :
    ({ s with heap := s.heap.set id d } : Mgr) = bumped id d s := by
  simp only [bumped, Mgr.mk.injEq, true_and, and_true]
  apply List.ext_getElem?
  intro j
  have hlt := (List.getElem?_eq_some_iff.mp hc).1
  rw [List.getElem?_set, List.getElem?_modify]
  by_cases hij : id = j
  · subst hij
    simp only [hlt, if_true, hc, Option.map_eq_map, Option.map_some]
    rw [← hd]
  · simp only [hij, if_false]
    simp

theorem bumped_set (s : Mgr) (id : Nat) (d e : Conn) :
    ({ bumped id d s with heap := (bumped id d s).heap.set id e } : Mgr) = { s with heap := s.heap.set id e } := by
  simp only [bumped, Mgr.mk.injEq, true_and, and_true]
  apply List.ext_getElem?
  intro j
  simp only [List.getElem?_set, List.getElem?_modify, List.length_modify]
  by_cases hij : id = j
  · simp [hij]
  · simp [hij]

theorem tickTail_ret (addr : CommonPacketItem) (head : Buffer) (hook : Hook) (count : Int) (c : Conn) :
    (c.tickTail addr head hook count).2.2 = .alive ∨ ∃ y, (c.tickTail addr head hook count).2.2 = .threw y := by
  unfold Conn.tickTail
  cases hook.throws with
  | some e => exact .inr ⟨e, rfl⟩
  | none =>
    by_cases h1 : (c.o2tFixedSize && (hook.left.getD c.outputData).length != c.o2tDataSize) = true
    · simp only [h1, if_true]; exact .inl trivial
    · simp only [h1]
      simp only [Bool.false_eq_true, if_false]
      split
      · exact .inr ⟨_, rfl⟩
      · exact .inl rfl

/-- Writing back what an object holds changes nothing. -/
theorem set_same (m : Mgr) (id : Nat) (d : Conn) (hg : m.heap[id]? = some d) :
    m = { m with heap := m.heap.set id d } := by
  have hs : m.heap.set id d = m.heap := by
    apply List.ext_getElem?
    intro j
    rw [List.getElem?_set]
    have := (List.getElem?_eq_some_iff.mp hg).1
    by_cases hij : id = j
    · subst hij; rw [if_pos rfl, if_pos this, hg]
    · simp [hij]
  rw [hs]

/-- What a pass leaves behind: it is the calls of the listener followed by a plain tick. -/
structure Visited (P : Plat) (t : TickEnvR) (k : BitVec 16) (id : Nat) (s s' : Mgr) (evs : List REv) (ret : TickRet) :
    Prop where
  ex : ∃ (s1 : Mgr) (inner : List REv) (e : Conn) (run : List MOp),
    (run = t.calls ∨ run = []) ∧ Mgr.nested P run s = .go s1 inner [] ∧ s1.heap[id]? = some e ∧ (k, id) ∈ s1.table ∧
    (e.notifyTick t.now t.hook t.count).2.2 = ret ∧
    s' = { s1 with heap := s1.heap.set id (e.notifyTick t.now t.hook t.count).1 } ∧
    evsOf evs = evsOf inner ++ [.conn id (.tick t.now t.hook t.count) (e.notifyTick t.now t.hook t.count).2.1] ∧
    ((e.notifyTick t.now t.hook t.count).2.1 ≠ [] → run = t.calls)

theorem visit_serial (P : Plat) (t : TickEnvR) (hn : noHandle t.calls) (k : BitVec 16) (id : Nat) (s : Mgr)
    (hm : (k, id) ∈ s.table) (c : Conn) (hc : s.heap[id]? = some c) :
    (∀ s' evs keys, Mgr.visit P t k id s = .go s' evs keys →
      ∃ ret, Visited P t k id s s' evs ret ∧ (ret = .alive ∧ keys = [] ∨ ret = .dead ∧ keys = [k])) ∧
    (∀ s' evs x, Mgr.visit P t k id s = .threw s' evs x → Visited P t k id s s' evs (.threw x)) := by
  have hid := (List.getElem?_eq_some_iff.mp hc).1
  have hb := tickHead_bump t.now c
  have hsplit := notifyTick_split t.now t.hook t.count
  -- the listener's calls made before the tick instead of in it
  have before : ∀ s2 ev2 k2, Mgr.listener P id t.calls { s with heap := s.heap.set id (c.tickHead t.now).1 } = .go s2 ev2 k2 →
      ∃ s1 inner x, Mgr.nested P t.calls s = .go s1 inner [] ∧ k2 = [] ∧ s2 = bumped id (c.tickHead t.now).1 s1 ∧
        ev2 = .enter id :: inner ++ [.leave id] ∧ s1.heap[id]? = some { c with outputData := x } ∧
        s2.heap[id]? = some { (c.tickHead t.now).1 with outputData := x } := by
    intro s2 ev2 k2 hl
    obtain ⟨inner, hi, rfl⟩ := listener_go hl
    rw [set_bumped s id c _ hc hb] at hi
    cases h1 : Mgr.nested P t.calls s with
    | go s1 e1 k1 =>
      obtain ⟨rfl, _, _, g4, g5⟩ := nested_go P t.calls hn s s1 e1 k1 h1
      rw [g5 id _ hid] at hi
      simp only [RRes.go.injEq] at hi
      obtain ⟨rfl, rfl, rfl⟩ := hi
      obtain ⟨x, hx⟩ := g4 id c hc
      refine ⟨s1, e1, x, rfl, rfl, rfl, rfl, hx, ?_⟩
      rw [bumped_get, hx]
      simp only [if_true, Option.map_some, Option.some.injEq]
      rw [hb]
      rfl
    | threw _ _ _ => exact absurd h1 (nested_no_throw _ _ _ _ _ _)
    | stop e1 w => rw [nested_bumped_stop P t.calls hn s e1 w h1 id _ hid] at hi; cases hi
  constructor
  · intro s' evs keys h
    unfold Mgr.visit at h
    rw [hc] at h
    simp only at h
    split at h
    · rename_i c' hh
      simp only [RRes.go.injEq] at h
      obtain ⟨rfl, rfl, rfl⟩ := h
      have e1 : c.notifyTick t.now t.hook t.count = (c', [], .alive) := by rw [hsplit, hh]
      exact ⟨.alive, ⟨⟨s, [], c, [], .inr rfl, rfl, hc, hm, by rw [e1], by rw [e1], by rw [e1]; rfl, by rw [e1]; simp⟩⟩,
        .inl ⟨rfl, rfl⟩⟩
    · rename_i c' hh
      obtain ⟨s2, ev2, k2, e3, k3, h1, h2, rfl, rfl⟩ := andThen_go h
      have hc' : c' = (c.tickHead t.now).1 := by rw [hh]
      rw [hc'] at h1
      obtain ⟨s1, inner, x, g1, rfl, rfl, rfl, g2, g3⟩ := before _ _ _ h1
      unfold Mgr.checkEntry at h2
      split at h2
      · rename_i hmem
        cases hth : t.hook.throws with
        | some e => simp only [Mgr.resumeClose, hth] at h2; cases h2
        | none =>
        simp only [Mgr.resumeClose, hth, RRes.go.injEq] at h2
        obtain ⟨rfl, rfl, rfl⟩ := h2
        have e1 : ({ c with outputData := x } : Conn).notifyTick t.now t.hook t.count =
            ({ (c.tickHead t.now).1 with outputData := x }, [.closed], .dead) := by
          rw [hsplit, tickHead_output, hh]
          simp only [Conn.closeRet, hth]
        refine ⟨.dead, ⟨⟨s1, inner, _, t.calls, .inl rfl, g1, g2, hmem, by rw [e1], ?_, by rw [e1]; simp, fun _ => rfl⟩⟩,
          .inr ⟨rfl, rfl⟩⟩
        rw [e1]
        simp only
        rw [← bumped_set s1 id (c.tickHead t.now).1]
        exact set_same _ _ _ g3
      · cases h2
    · rename_i c' addr head hh
      obtain ⟨s2, ev2, k2, e3, k3, h1, h2, rfl, rfl⟩ := andThen_go h
      have hc' : c' = (c.tickHead t.now).1 := by rw [hh]
      rw [hc'] at h1
      obtain ⟨s1, inner, x, g1, rfl, rfl, rfl, g2, g3⟩ := before _ _ _ h1
      unfold Mgr.checkEntry at h2
      split at h2
      · rename_i hmem
        unfold Mgr.resumeSend at h2
        rw [g3] at h2
        simp only at h2
        have e1 : ({ c with outputData := x } : Conn).notifyTick t.now t.hook t.count =
            ({ (c.tickHead t.now).1 with outputData := x } : Conn).tickTail addr head t.hook t.count := by
          rw [hsplit, tickHead_output, hh]
        rw [← e1] at h2
        unfold Mgr.endSend at h2
        have hret : ∀ ret, (({ c with outputData := x } : Conn).notifyTick t.now t.hook t.count).2.2 = ret →
            (∀ y, ret ≠ .threw y) → ret = .alive := by
          intro ret hr hy
          rw [e1] at hr
          rcases tickTail_ret addr head t.hook t.count { (c.tickHead t.now).1 with outputData := x } with h0 | ⟨y, h0⟩
          · rw [← hr, h0]
          · exact absurd (hr.symm.trans h0) (hy y)
        split at h2
        · cases h2
        · rename_i hnot
          simp only [RRes.go.injEq] at h2
          obtain ⟨rfl, rfl, rfl⟩ := h2
          have ha := hret _ rfl (fun y hy => hnot y hy)
          refine ⟨.alive, ⟨⟨s1, inner, _, t.calls, .inl rfl, g1, g2, hmem, ha, ?_, by simp, fun _ => rfl⟩⟩,
            .inl ⟨rfl, rfl⟩⟩
          exact bumped_set s1 id _ _
      · cases h2
  · intro s' evs x h
    unfold Mgr.visit at h
    rw [hc] at h
    simp only at h
    split at h
    · cases h
    · rename_i c' hh
      rcases andThen_threw h with h | ⟨s2, ev2, k2, e3, h1, h2, rfl⟩
      · exact absurd h (listener_no_throw _ _ _ _ _ _ _)
      · have hc' : c' = (c.tickHead t.now).1 := by rw [hh]
        rw [hc'] at h1
        obtain ⟨s1, inner, y, g1, rfl, rfl, rfl, g2, g3⟩ := before _ _ _ h1
        unfold Mgr.checkEntry at h2
        split at h2
        · rename_i hmem
          cases hth : t.hook.throws with
          | none => simp only [Mgr.resumeClose, hth] at h2; cases h2
          | some e =>
          simp only [Mgr.resumeClose, hth, RRes.threw.injEq] at h2
          obtain ⟨rfl, rfl, rfl⟩ := h2
          have e1 : ({ c with outputData := y } : Conn).notifyTick t.now t.hook t.count =
              ({ (c.tickHead t.now).1 with outputData := y }, [.closed], .threw e) := by
            rw [hsplit, tickHead_output, hh]
            simp only [Conn.closeRet, hth]
          refine ⟨⟨s1, inner, _, t.calls, .inl rfl, g1, g2, hmem, by rw [e1], ?_, by rw [e1]; simp, fun _ => rfl⟩⟩
          rw [e1]
          simp only
          rw [← bumped_set s1 id (c.tickHead t.now).1]
          exact set_same _ _ _ g3
        · cases h2
    · rename_i c' addr head hh
      rcases andThen_threw h with h | ⟨s2, ev2, k2, e3, h1, h2, rfl⟩
      · exact absurd h (listener_no_throw _ _ _ _ _ _ _)
      · have hc' : c' = (c.tickHead t.now).1 := by rw [hh]
        rw [hc'] at h1
        obtain ⟨s1, inner, y, g1, rfl, rfl, rfl, g2, g3⟩ := before _ _ _ h1
        unfold Mgr.checkEntry at h2
        split at h2
        · rename_i hmem
          unfold Mgr.resumeSend at h2
          rw [g3] at h2
          simp only at h2
          have e1 : ({ c with outputData := y } : Conn).notifyTick t.now t.hook t.count =
              ({ (c.tickHead t.now).1 with outputData := y } : Conn).tickTail addr head t.hook t.count := by
            rw [hsplit, tickHead_output, hh]
          rw [← e1] at h2
          unfold Mgr.endSend at h2
          split at h2
          · rename_i ex hex
            simp only [RRes.threw.injEq] at h2
            obtain ⟨rfl, rfl, rfl⟩ := h2
            exact ⟨⟨s1, inner, _, t.calls, .inl rfl, g1, g2, hmem, hex, bumped_set s1 id _ _, by simp, fun _ => rfl⟩⟩
          · cases h2
        · cases h2

end Verif.Props
