import Verif.Props.ManagerOpen
import Verif.Props.ManagerConn
import Verif.Spec.Target

/-!
# C82: the scanner and its target agree on the open connections
-/

namespace Verif.Props

open Verif Verif.Spec

theorem triad_eq {a b : TConn} : a.triad = b.triad ↔ a.serial = b.serial ∧ a.vendor = b.vendor ∧ a.originator = b.originator := by
  simp [TConn.triad]

/-- What is true of a manager and its target. -/
structure Agree (s : Mgr) (T : List TConn) : Prop where
  inv : Inv s
  nodup : T.Pairwise fun a b => a.triad ≠ b.triad
  small : ∀ t ∈ T, t.serial < 65536
  has : ∀ k id c, (k, id) ∈ s.table → s.heap[id]? = some c → asTarget c ∈ T
  inj : ∀ k id c k' id' c', (k, id) ∈ s.table → s.heap[id]? = some c → (k', id') ∈ s.table → s.heap[id']? = some c' →
    (asTarget c).triad = (asTarget c').triad → id = id'

theorem agree_new (inc : BitVec 16) (st : Statics) : Agree (Mgr.new inc st) [] := by
  refine ⟨inv_new inc st, .nil, by simp, ?_, ?_⟩ <;> simp [Mgr.new]

theorem asTarget_config {c d : Conn} (h : SameConfig c d) : asTarget d = asTarget c := by
  simp only [asTarget, h.serial, h.vendor, h.origSerial, h.t2oId]

/-- An entry after a step that only removes entries was there before, as the same connection. -/
theorem entry_before {P : Plat} {s s' : Mgr} {op : MOp} {evs : List MEv} {ret : MRet} (hi : Inv s)
    (h : s.step P op = .ok s' evs ret) {k : BitVec 16} {id : Nat} {c : Conn} (hm : (k, id) ∈ s.table)
    (hc : s'.heap[id]? = some c) : ∃ d, s.heap[id]? = some d ∧ asTarget c = asTarget d := by
  obtain ⟨d, hd, _⟩ := hi.obj k id hm
  obtain ⟨c', hc', hs⟩ := replay_config (step_replay P s s' op evs ret h) hd
  rw [hc] at hc'
  injection hc' with hc'
  subst hc'
  exact ⟨d, hd, asTarget_config hs⟩

/-- A step that only removes entries keeps the agreement with the same target. -/
theorem agree_sub {P : Plat} {s s' : Mgr} {op : MOp} {evs : List MEv} {ret : MRet} {T : List TConn} (ha : Agree s T)
    (h : s.step P op = .ok s' evs ret) (hsub : ∀ e ∈ s'.table, e ∈ s.table) : Agree s' T := by
  refine ⟨inv_step P s s' op evs ret ha.inv h, ha.nodup, ha.small, ?_, ?_⟩
  · intro k id c hm hc
    obtain ⟨d, hd, e⟩ := entry_before ha.inv h (hsub _ hm) hc
    rw [e]
    exact ha.has k id d (hsub _ hm) hd
  · intro k id c k' id' c' hm hc hm' hc' ht
    obtain ⟨d, hd, e⟩ := entry_before ha.inv h (hsub _ hm) hc
    obtain ⟨d', hd', e'⟩ := entry_before ha.inv h (hsub _ hm') hc'
    rw [e, e'] at ht
    exact ha.inj k id d k' id' d' (hsub _ hm) hd (hsub _ hm') hd' ht

/-- Calls other than forward open only remove entries. -/
theorem step_sub {P : Plat} {s s' : Mgr} {op : MOp} {evs : List MEv} {ret : MRet} (h : s.step P op = .ok s' evs ret)
    (hn : ∀ host p large e, op ≠ .forwardOpen host p large e) : ∀ e ∈ s'.table, e ∈ s.table := by
  cases op with
  | forwardOpen host p large e => exact absurd rfl (hn host p large e)
  | otherOpen inc mc p2p =>
    simp only [Mgr.step] at h
    split at h <;> cases h
    exact fun _ h => h
  | forwardClose ptr reply =>
    simp only [Mgr.step, Mgr.forwardClose] at h
    repeat' split at h
    all_goals first | (cases h; exact fun _ h => h) | (cases h; exact fun e he => (List.mem_filter.mp he).1) | cases h
  | handle start t rounds ticks =>
    cases handle_shape P start t rounds ticks s s' _ ret h with
    | still _ _ ht =>
      rcases ht with ht | ⟨k, ht⟩
      · rw [ht]; exact fun _ h => h
      · rw [ht]; exact fun e he => (List.mem_filter.mp he).1
    | handled _ _ ht => obtain ⟨f, ht⟩ := ht; rw [ht]; exact fun e he => (List.mem_filter.mp he).1
    | wrote _ _ _ _ ht => rw [ht]; exact fun _ h => h
    | opened c _ hev _ =>
      obtain ⟨a, b, d, bs, rfl, _⟩ := hev
      exact absurd (by simp) (handle_no_created h s.heap.length c)
  | hasOpen => simp only [Mgr.step] at h; cases h; exact fun _ h => h
  | setData id data =>
    simp only [Mgr.step] at h
    split at h <;> cases h <;> exact fun _ h => h
  | lock id =>
    simp only [Mgr.step] at h
    split at h <;> cases h <;> exact fun _ h => h
  | release id => simp only [Mgr.step] at h; cases h; exact fun _ h => h

/-- The requests of a call: one for a forward open; one or none for a forward close; none else. -/
theorem step_requests {P : Plat} {s s' : Mgr} {op : MOp} {evs : List MEv} {ret : MRet} (h : s.step P op = .ok s' evs ret)
    (hn : replyTo op = none) : evs.filter isRequest = [] := by
  have hall : (∀ e ∈ evs, isRequest e = false) → evs.filter isRequest = [] := fun hh =>
    List.filter_eq_nil_iff.mpr fun e he => by simp [hh e he]
  cases op with
  | forwardOpen host p large e => simp [replyTo] at hn
  | forwardClose ptr reply => simp [replyTo] at hn
  | otherOpen inc mc p2p =>
    simp only [Mgr.step] at h
    split at h <;> cases h
    rfl
  | handle start t rounds ticks =>
    refine hall fun e he => ?_
    cases handle_shape P start t rounds ticks s s' _ ret h with
    | handled _ hev _ =>
      rcases hev e he with ⟨_, rfl⟩ | ⟨_, _, _, rfl, _⟩ <;> rfl
    | wrote _ _ hev _ _ => rw [hev] at he; simp at he; rw [he]; rfl
    | opened c _ hev _ =>
      obtain ⟨a, b, d, bs, rfl, _⟩ := hev
      exact absurd (by simp) (handle_no_created h s.heap.length c)
    | still _ hev _ =>
      obtain ⟨a, b, c, rfl⟩ := hev e he
      exfalso
      simp only [Mgr.step, Mgr.handle] at h
      split at h
      · cases h
      · split at h
        · cases h
        · rename_i hsel
          cases h
          rcases ((selectLoop_quiet P _ rounds start s).2 _ _ _ hsel).only _ he with ⟨_, hx⟩ | ⟨_, _, _, hx, _⟩ <;> cases hx
        · rename_i s1 evs1 hsel
          have q := (selectLoop_quiet P _ rounds start s).1 _ _ hsel
          have tk := (tickAll_spec P.mem ticks s1.table s1.heap).2
          split at h <;> rename_i ht <;> cases h <;> rw [ht] at tk <;> rw [List.mem_append] at he <;>
            rcases he with hc | hc
          · rcases q.only _ hc with ⟨_, hx⟩ | ⟨_, _, _, hx, _⟩ <;> cases hx
          · obtain ⟨_, _, _, _, _, hx, _⟩ := tk _ hc; cases hx
          · rcases q.only _ hc with ⟨_, hx⟩ | ⟨_, _, _, hx, _⟩ <;> cases hx
          · obtain ⟨_, _, _, _, _, hx, _⟩ := tk _ hc; cases hx
  | hasOpen => simp only [Mgr.step] at h; cases h; rfl
  | setData id data =>
    simp only [Mgr.step] at h
    split at h <;> cases h <;> rfl
  | lock id =>
    simp only [Mgr.step] at h
    split at h <;> cases h <;> rfl
  | release id => simp only [Mgr.step] at h; cases h; rfl

/-- A forward open: its request, and what became of the answer. -/
theorem open_exchange {P : Plat} {s s' : Mgr} {host : String} {p : ConnectionParameters} {large : Bool} {e : OpenEnv}
    {evs : List MEv} {ret : MRet} (h : s.step P (.forwardOpen host p large e) = .ok s' evs ret) :
    ∃ data, evs.filter isRequest = [.request (if large then 0x5B#8 else 0x54#8) (EPath.mk2 6 1) data] ∧
      openTriad data = (s'.statics.serial % 65536, p.originatorVendorId.toNat, p.originatorSerialNumber.toNat) ∧
      (s'.table = s.table ∧ s'.heap = s.heap ∧ ((∃ x, ret = .threw x) ∨
          ret = .ptr none ∧ ∃ resp, e.reply = .ok resp ∧ resp.status ≠ 0x00#8) ∨
        ∃ resp c, e.reply = .ok resp ∧ resp.status = 0x00#8 ∧ ret = .ptr (some s.heap.length) ∧ s'.heap = s.heap ++ [c] ∧
          (∀ t, Accepts t resp → t.triad = openTriad data → asTarget c = t) ∧
          ((∃ id, (c.t2oNetworkConnectionId.setWidth 16, id) ∈ s.table ∧ s'.table = s.table) ∨
            (tblFind (c.t2oNetworkConnectionId.setWidth 16) s.table = none ∧
              ∀ x, x ∈ s'.table ↔ x = (c.t2oNetworkConnectionId.setWidth 16, s.heap.length) ∨ x ∈ s.table))) := by
  obtain ⟨data, rest, h1, h2, h3, h4⟩ := open_request P host p large e s s' evs ret h
  obtain ⟨_, _, _, _, a10, a12, a14, _⟩ := h4
  have ht : openTriad data = (s'.statics.serial % 65536, p.originatorVendorId.toNat, p.originatorSerialNumber.toNat) := by
    unfold openTriad
    rw [a10, a12, a14]
    simp [Mgr.sentParams]
  obtain ⟨st, data', _, hd', hh⟩ := forwardOpen_cases P host p large e s s' evs ret h
  refine ⟨data, ?_, ht, ?_⟩
  · rw [h1]
    have : rest.filter isRequest = [] := by
      rcases hh with ⟨_, he, _⟩ | ⟨resp, _, _, r, mult, ep, socks, bs, _, _, _, _, hf, _, he, _⟩
      · rw [h1] at he; injection he with _ he; rw [he]; rfl
      · rw [h1] at he
        injection he with _ he
        rw [he, List.filter_eq_nil_iff]
        intro x hx
        rcases List.mem_append.mp hx with hx | hx
        · obtain ⟨_, rfl⟩ := findOrCreate_events _ _ _ _ _ hf x hx; simp [isRequest]
        · simp at hx; rw [hx]; simp [isRequest]
    simp only [List.filter_cons, this, isRequest, if_true]
  · rcases hh with ⟨rfl, _, hret⟩ | ⟨resp, g1, g2, r, mult, ep, socks, bs, gr, _, _, _, _, rfl, _, hret⟩
    · exact .inl ⟨rfl, rfl, hret⟩
    · obtain ⟨q1, q2, _⟩ := register_shape (Mgr.newConn p large r mult ep e.now) { s with statics := st, sockets := socks }
      refine .inr ⟨resp, _, g1, g2, hret, q1, ?_, ?_⟩
      · rintro t ⟨_, b1, b2, b3, b4⟩ htr
        obtain ⟨r', hr', _, f2, f3, _⟩ := (C20_classification resp.data).1 ⟨b2, b1⟩
        rw [hr' P.mem] at gr
        injection gr with gr
        subst gr
        obtain ⟨t1, t2, t3, t4⟩ := t
        rw [ht] at htr
        simp only [TConn.triad, Prod.mk.injEq] at htr
        simp only at b3 b4
        simp only [asTarget, Mgr.newConn, TConn.mk.injEq]
        refine ⟨?_, htr.2.1.symm, htr.2.2.symm, by rw [f2, b3]⟩
        rw [← b4, ← f3]
        have := r'.connectionSerialNumber.isLt
        simp
        omega
      · rcases q2 with ⟨id, hid, htab⟩ | ⟨hn, htab⟩
        · exact .inl ⟨id, tblFind_mem hid, htab⟩
        · refine .inr ⟨hn, fun x => ?_⟩
          rw [htab, tblPut_mem]

/-- A forward close: nothing is sent and nothing changes, or its request and the removed entries. -/
theorem close_exchange {P : Plat} {s s' : Mgr} {ptr : Option Nat} {reply : Outcome MessageRouterResponse}
    {evs : List MEv} {ret : MRet} (h : s.step P (.forwardClose ptr reply) = .ok s' evs ret) :
    s'.heap = s.heap ∧
    (evs = [] ∧ s'.table = s.table ∨
      ∃ id c data, ptr = some id ∧ s.alive id = true ∧ s.heap[id]? = some c ∧
        evs = [.request 0x4E#8 (EPath.mk2 6 1) data] ∧
        closeTriad data = (c.serialNumber.toNat % 65536, c.originatorVendorId.toNat, c.originatorSerialNumber.toNat) ∧
        ∀ resp, reply = .ok resp → ∀ x, x ∈ s'.table ↔ x ∈ s.table ∧ x.1 ≠ c.t2oNetworkConnectionId.setWidth 16) := by
  simp only [Mgr.step, Mgr.forwardClose] at h
  split at h
  · cases h; exact ⟨rfl, .inl ⟨rfl, rfl⟩⟩
  · rename_i id
    split at h
    · rename_i hal
      split at h
      · cases h; exact ⟨rfl, .inl ⟨rfl, rfl⟩⟩
      · rename_i c hc
        obtain ⟨_, _, q1, q2, q3, _⟩ := C19_forwardClose (Mgr.closeRequest c)
        have ht : closeTriad (Mgr.closeRequest c).pack =
            (c.serialNumber.toNat % 65536, c.originatorVendorId.toNat, c.originatorSerialNumber.toNat) := by
          unfold closeTriad
          rw [q1, q2, q3]
          simp [Mgr.closeRequest]
        split at h
        · cases h
        · cases h
          exact ⟨rfl, .inr ⟨id, c, _, rfl, hal, hc, rfl, ht, fun _ hr => by cases hr⟩⟩
        · split at h
          · cases h
            refine ⟨rfl, .inr ⟨id, c, _, rfl, hal, hc, rfl, ht, fun _ _ x => ?_⟩⟩
            simp [tblErase]
          · rename_i hn
            split at h
            · cases h
              refine ⟨rfl, .inr ⟨id, c, _, rfl, hal, hc, rfl, ht, fun _ _ x => ?_⟩⟩
              exact ⟨fun hx => ⟨hx, tblFind_none hn x hx⟩, fun hx => hx.1⟩
            · cases h
    · cases h; exact ⟨rfl, .inl ⟨rfl, rfl⟩⟩

/-- What one call does to the table of the manager and to the connections of the target. -/
inductive Joint (rule : List TConn → TConn → Prop) (s s' : Mgr) (T : List TConn) (op : MOp) (evs : List MEv) (ret : MRet) :
    List TConn → Prop
  /-- nothing changes in the target, and nothing in the table except by `handleConnections` -/
  | same : (∀ e ∈ s'.table, e ∈ s.table) → (isHandle op = false → s'.table = s.table) → Joint rule s s' T op evs ret T
  /-- both get a connection -/
  | opened (t : TConn) (c : Conn) : (∀ d ∈ T, d.triad ≠ t.triad) → t.serial < 65536 → rule T t → asTarget c = t →
      s'.heap = s.heap ++ [c] →
      (∀ x, x ∈ s'.table ↔ x = (c.t2oNetworkConnectionId.setWidth 16, s.heap.length) ∨ x ∈ s.table) →
      Joint rule s s' T op evs ret (t :: T)
  /-- only the target gets one -/
  | orphaned (t : TConn) : (∀ d ∈ T, d.triad ≠ t.triad) → t.serial < 65536 → rule T t → s'.table = s.table →
      ((∃ host p large e x resp, op = .forwardOpen host p large e ∧ e.reply = .ok resp ∧ resp.status = 0x00#8 ∧ ret = .threw x) ∨
        ∃ e ∈ s.table, e.1.toNat = t.t2o % 65536) → Joint rule s s' T op evs ret (t :: T)
  /-- both close one -/
  | closed (k : BitVec 16) (id : Nat) (c : Conn) : (k, id) ∈ s.table → s.heap[id]? = some c →
      (∀ x, x ∈ s'.table ↔ x ∈ s.table ∧ x.2 ≠ id) →
      Joint rule s s' T op evs ret (T.filter fun t => decide (t.triad ≠ (asTarget c).triad))

theorem joint_exchange {rule : List TConn → TConn → Prop} {P : Plat} {s s' : Mgr} {T T1 : List TConn} {op : MOp}
    {evs : List MEv} {ret : MRet} {svc : BitVec 8} {path : EPath} {data : List Byte} {resp : MessageRouterResponse}
    (ha : Agree s T) (h : s.step P op = .ok s' evs ret)
    (hf : ∀ id r, op = .forwardClose (some id) r → s.alive id = true → ∃ k, (k, id) ∈ s.table)
    (hev : evs.filter isRequest = [.request svc path data]) (hr : replyTo op = some (.ok resp))
    (hans : Answers rule T svc path data resp T1) : Joint rule s s' T op evs ret T1 := by
  cases op with
  | forwardOpen host p large e =>
    obtain ⟨data', h1, h2, h3⟩ := open_exchange h
    rw [h1] at hev
    simp only [List.cons.injEq, MEv.request.injEq, and_true] at hev
    obtain ⟨rfl, rfl, rfl⟩ := hev
    simp only [replyTo, Option.some.injEq] at hr
    have hsvc : (if large then 0x5B#8 else 0x54#8) ≠ 0x4E#8 := by cases large <;> decide
    cases hans with
    | accepts t _ _ htr hfresh hrule hacc =>
      have hsm : t.serial < 65536 := by
        rw [h2] at htr
        simp only [TConn.triad, Prod.mk.injEq] at htr
        omega
      rcases h3 with ⟨e1, e2, hret⟩ | ⟨resp', c, e1, e2, hret, e3, e4, e5⟩
      · refine .orphaned t hfresh hsm hrule e1 (.inl ?_)
        rcases hret with ⟨x, hx⟩ | ⟨_, resp', hr', hst⟩
        · exact ⟨host, p, large, e, x, resp, rfl, hr, hacc.1, hx⟩
        · rw [hr] at hr'; injection hr' with hr'; subst hr'; exact absurd hacc.1 hst
      · rw [hr] at e1
        injection e1 with e1
        subst e1
        have hc := e4 t hacc htr
        rcases e5 with ⟨id, hid, htab⟩ | ⟨_, htab⟩
        · refine .orphaned t hfresh hsm hrule htab (.inr ⟨_, hid, ?_⟩)
          rw [← hc]
          simp [asTarget]
        · exact .opened t c hfresh hsm hrule hc e3 htab
    | refuses _ hst =>
      rcases h3 with ⟨e1, _⟩ | ⟨resp', c, e1, e2, _⟩
      · exact .same (by rw [e1]; exact fun _ h => h) fun _ => e1
      · rw [hr] at e1
        injection e1 with e1
        subst e1
        exact absurd e2 hst
    | closes hs => exact absurd hs hsvc
    | unknown hs => exact absurd hs hsvc
  | forwardClose ptr reply =>
    simp only [replyTo, Option.some.injEq] at hr
    obtain ⟨hheap, hh⟩ := close_exchange h
    rcases hh with ⟨he, _⟩ | ⟨id, c, data', hp, hal, hc, he, htr, htab⟩
    · rw [he] at hev; cases hev
    · rw [he] at hev
      simp only [List.filter_cons, isRequest, if_true, List.filter_nil, List.cons.injEq, MEv.request.injEq, and_true] at hev
      obtain ⟨rfl, rfl, rfl⟩ := hev
      obtain ⟨k, hk⟩ := hf id reply (by rw [hp]) hal
      have hT := ha.has k id c hk hc
      have hs := ha.small _ hT
      have htr' : closeTriad data' = (asTarget c).triad := by
        rw [htr]
        simp only [asTarget] at hs
        simp only [asTarget, TConn.triad]
        rw [Nat.mod_eq_of_lt hs]
      cases hans with
      | accepts _ hs => rcases hs with hs | hs <;> cases hs
      | refuses hs => exact absurd rfl (hs rfl)
      | closes _ _ _ _ =>
        rw [htr']
        refine .closed k id c hk hc fun x => ?_
        rw [htab resp hr]
        obtain ⟨c', hc', hkey⟩ := ha.inv.obj k id hk
        rw [hc] at hc'
        injection hc' with hc'
        subst hc'
        rw [← hkey]
        constructor
        · rintro ⟨x1, x2⟩
          refine ⟨x1, fun hx => x2 ?_⟩
          obtain ⟨xk, xi⟩ := x
          simp only at hx
          subst hx
          exact ha.inv.unique x1 hk
        · rintro ⟨x1, x2⟩
          refine ⟨x1, fun hx => x2 ?_⟩
          obtain ⟨xk, xi⟩ := x
          simp only at hx
          subst hx
          have := tblFind_of_mem ha.inv.sorted x1
          rw [tblFind_of_mem ha.inv.sorted hk] at this
          injection this with this
          exact this.symm
      | unknown _ _ hno => exact absurd htr'.symm (hno _ hT)
  | _ => simp [replyTo] at hr

theorem joint_quiet {rule : List TConn → TConn → Prop} {P : Plat} {s s' : Mgr} {T : List TConn} {op : MOp}
    {evs : List MEv} {ret : MRet} (h : s.step P op = .ok s' evs ret)
    (hev : evs.filter isRequest = []) : Joint rule s s' T op evs ret T := by
  cases op with
  | forwardOpen host p large e =>
    obtain ⟨data', h1, _⟩ := open_exchange h
    rw [h1] at hev
    cases hev
  | forwardClose ptr reply =>
    obtain ⟨hheap, hh⟩ := close_exchange h
    rcases hh with ⟨_, he⟩ | ⟨id, c, data', hp, hal, hc, he, htr, htab⟩
    · exact .same (by rw [he]; exact fun _ h => h) fun _ => he
    · rw [he] at hev
      cases hev
  | handle start t rounds ticks => exact .same (step_sub h (by simp)) (by simp [isHandle])
  | otherOpen inc mc p2p =>
    simp only [Mgr.step] at h
    split at h <;> cases h
    exact .same (fun _ h => h) fun _ => rfl
  | hasOpen => simp only [Mgr.step] at h; cases h; exact .same (fun _ h => h) fun _ => rfl
  | setData id data =>
    simp only [Mgr.step] at h
    split at h <;> cases h <;> exact .same (fun _ h => h) fun _ => rfl
  | lock id =>
    simp only [Mgr.step] at h
    split at h <;> cases h <;> exact .same (fun _ h => h) fun _ => rfl
  | release id => simp only [Mgr.step] at h; cases h; exact .same (fun _ h => h) fun _ => rfl

/-- The agreement survives every call. -/
theorem agree_joint {rule : List TConn → TConn → Prop} {P : Plat} {s s' : Mgr} {T T1 : List TConn} {op : MOp}
    {evs : List MEv} {ret : MRet} (ha : Agree s T) (h : s.step P op = .ok s' evs ret)
    (hj : Joint rule s s' T op evs ret T1) : Agree s' T1 := by
  cases hj with
  | same hsub _ => exact agree_sub ha h hsub
  | orphaned t hfresh hsm _ htab _ =>
    have := agree_sub ha h (by rw [htab]; exact fun _ h => h)
    refine ⟨this.inv, List.pairwise_cons.mpr ⟨fun d hd he => hfresh d hd he.symm, this.nodup⟩, ?_, ?_, this.inj⟩
    · intro x hx
      rcases List.mem_cons.mp hx with rfl | hx
      · exact hsm
      · exact ha.small x hx
    · exact fun k id c hm hc => List.mem_cons_of_mem _ (this.has k id c hm hc)
  | opened t c hfresh hsm _ hc hheap htab =>
    have hi := inv_step P s s' op evs ret ha.inv h
    have hold : ∀ k id, (k, id) ∈ s.table → s'.heap[id]? = s.heap[id]? := by
      intro k id hm
      obtain ⟨d, hd, _⟩ := ha.inv.obj k id hm
      rw [hheap, List.getElem?_append_left (List.getElem?_eq_some_iff.mp hd).1]
    have hnew : s'.heap[s.heap.length]? = some c := by rw [hheap]; simp
    refine ⟨hi, List.pairwise_cons.mpr ⟨fun d hd he => hfresh d hd he.symm, ha.nodup⟩, ?_, ?_, ?_⟩
    · intro x hx
      rcases List.mem_cons.mp hx with rfl | hx
      · exact hsm
      · exact ha.small x hx
    · intro k id d hm hd
      rw [htab] at hm
      rcases hm with hm | hm
      · injection hm with _ hm
        rw [hm, hnew] at hd
        injection hd with hd
        rw [← hd, hc]
        exact List.mem_cons_self
      · rw [hold k id hm] at hd
        exact List.mem_cons_of_mem _ (ha.has k id d hm hd)
    · have key : ∀ k id d, (k, id) ∈ s.table → s'.heap[id]? = some d → (asTarget d).triad ≠ t.triad := by
        intro k id d hm hd
        rw [hold k id hm] at hd
        exact hfresh _ (ha.has k id d hm hd)
      intro k id d k' id' d' hm hd hm' hd' he
      rw [htab] at hm hm'
      rcases hm with hm | hm <;> rcases hm' with hm' | hm'
      · injection hm with _ hm
        injection hm' with _ hm'
        rw [hm, hm']
      · injection hm with _ hm
        rw [hm, hnew] at hd
        injection hd with hd
        rw [← hd, hc] at he
        exact absurd he.symm (key k' id' d' hm' hd')
      · injection hm' with _ hm'
        rw [hm', hnew] at hd'
        injection hd' with hd'
        rw [← hd', hc] at he
        exact absurd he (key k id d hm hd)
      · rw [hold k id hm] at hd
        rw [hold k' id' hm'] at hd'
        exact ha.inj k id d k' id' d' hm hd hm' hd' he
  | closed k id c hk hc htab =>
    have := agree_sub ha h fun e he => ((htab e).mp he).1
    refine ⟨this.inv, ha.nodup.filter _, fun x hx => ha.small x (List.mem_filter.mp hx).1, ?_, this.inj⟩
    intro k' id' d hm hd
    rw [List.mem_filter]
    refine ⟨this.has k' id' d hm hd, ?_⟩
    have hm0 := (htab (k', id')).mp hm
    obtain ⟨d0, hd0, e0⟩ := entry_before ha.inv h hm0.1 hd
    rw [decide_eq_true_iff, e0]
    exact fun he => hm0.2 (ha.inj k' id' d0 k id c hm0.1 hd0 hk hc he)

/-- What the target has and the manager has not stays so. -/
theorem orphan_joint {rule : List TConn → TConn → Prop} {P : Plat} {s s' : Mgr} {T T1 : List TConn} {op : MOp}
    {evs : List MEv} {ret : MRet} (ha : Agree s T) (h : s.step P op = .ok s' evs ret)
    (hj : Joint rule s s' T op evs ret T1) (x : TConn) (hx : x ∈ T)
    (ho : ∀ k id c, (k, id) ∈ s.table → s.heap[id]? = some c → (asTarget c).triad ≠ x.triad) :
    x ∈ T1 ∧ ∀ k id c, (k, id) ∈ s'.table → s'.heap[id]? = some c → (asTarget c).triad ≠ x.triad := by
  have hsub : (∀ e ∈ s'.table, e ∈ s.table) → ∀ k id c, (k, id) ∈ s'.table → s'.heap[id]? = some c →
      (asTarget c).triad ≠ x.triad := by
    intro hs k id c hm hc
    obtain ⟨d, hd, e⟩ := entry_before ha.inv h (hs _ hm) hc
    rw [e]
    exact ho k id d (hs _ hm) hd
  cases hj with
  | same hs _ => exact ⟨hx, hsub hs⟩
  | orphaned t _ _ _ htab _ => exact ⟨List.mem_cons_of_mem _ hx, hsub (by rw [htab]; exact fun _ h => h)⟩
  | opened t c hfresh _ _ hc hheap htab =>
    refine ⟨List.mem_cons_of_mem _ hx, ?_⟩
    intro k id d hm hd
    rw [htab] at hm
    rcases hm with hm | hm
    · injection hm with _ hm
      rw [hm, hheap] at hd
      simp at hd
      rw [← hd, hc]
      exact fun he => hfresh x hx he.symm
    · obtain ⟨d', hd', e⟩ := entry_before ha.inv h hm hd
      rw [e]
      exact ho k id d' hm hd'
  | closed k id c hk hc htab =>
    refine ⟨List.mem_filter.mpr ⟨hx, ?_⟩, hsub fun e he => ((htab e).mp he).1⟩
    rw [decide_eq_true_iff]
    exact fun he => ho k id c hk hc he.symm

/-- The table after a call of `handleConnections` that closes nothing. -/
theorem handle_all_kept {P : Plat} {s s' : Mgr} (hi : Inv s) {op : MOp} {evs : List MEv} {ret : MRet}
    (hop : isHandle op = true) (h : s.step P op = .ok s' evs ret)
    (hn : ∀ id cop io, MEv.conn id cop io ∈ evs → IoEv.closed ∉ io) : ∀ e ∈ s.table, e ∈ s'.table := by
  cases op with
  | handle start t rounds ticks =>
    intro e he
    obtain ⟨k, id⟩ := e
    by_cases hu : ret = .unit
    · subst hu
      refine Classical.byContradiction fun hc => ?_
      obtain ⟨cop, io, h1, h2⟩ := (handle_removes P s s' hi start t rounds ticks evs h k id he).mp hc
      exact hn id cop io h1 h2
    · simp only [Mgr.step, Mgr.handle] at h
      split at h
      · cases h
      · split at h
        · cases h
        · rename_i hsel
          cases h
          rw [((selectLoop_quiet P _ rounds start s).2 _ _ _ hsel).table]
          exact he
        · rename_i hsel
          have q := (selectLoop_quiet P _ rounds start s).1 _ _ hsel
          split at h
          · cases h; exact absurd rfl hu
          · cases h
            simp only
            rw [q.table]
            exact he
  | _ => simp [isHandle] at hop

/-- Without losses the manager has everything the target has. -/
theorem complete_joint {P : Plat} {s s' : Mgr} {T T1 : List TConn} {op : MOp}
    {evs : List MEv} {ret : MRet} (ha : Agree s T) (h : s.step P op = .ok s' evs ret)
    (hj : Joint lowDistinct s s' T op evs ret T1) (hn : NoLoss [(op, evs, ret)])
    (hc : ∀ x ∈ T, OpenHere s x) : ∀ x ∈ T1, OpenHere s' x := by
  have hkeep : ∀ k id c, (k, id) ∈ s.table → s.heap[id]? = some c → (k, id) ∈ s'.table → OpenHere s' (asTarget c) := by
    intro k id c hm hd hm'
    obtain ⟨d, hd', hs⟩ := replay_config (step_replay P s s' op evs ret h) hd
    exact ⟨k, id, d, hm', hd', asTarget_config hs⟩
  cases hj with
  | same hs he =>
    intro x hx
    obtain ⟨k, id, c, hm, hd, rfl⟩ := hc x hx
    refine hkeep k id c hm hd ?_
    cases hop : isHandle op with
    | false => rw [he hop]; exact hm
    | true =>
      refine handle_all_kept ha.inv hop h ?_ _ hm
      intro id cop io hin
      exact hn.2 id cop io (by simpa [allEvs] using hin)
  | orphaned t hfresh _ hrule htab hcause =>
    exfalso
    rcases hcause with ⟨host, p, large, e, x, resp, rfl, hr, hst, rfl⟩ | ⟨⟨k, id⟩, hm, hk⟩
    · exact hn.1 host p large e evs x (by simp) resp hr hst
    · obtain ⟨c, hcc, hkey⟩ := ha.inv.obj k id hm
      refine hrule _ (ha.has k id c hm hcc) ?_
      rw [← hk, hkey]
      simp [asTarget]
  | opened t c hfresh _ _ htc hheap htab =>
    intro x hx
    rcases List.mem_cons.mp hx with rfl | hx
    · exact ⟨_, s.heap.length, c, (htab _).mpr (.inl rfl), by rw [hheap]; simp, htc⟩
    · obtain ⟨k, id, d, hm, hd, rfl⟩ := hc x hx
      exact hkeep k id d hm hd ((htab _).mpr (.inr hm))
  | closed k id c hk hcc htab =>
    intro x hx
    rw [List.mem_filter, decide_eq_true_iff] at hx
    obtain ⟨k', id', d, hm, hd, rfl⟩ := hc x hx.1
    refine hkeep k' id' d hm hd ((htab _).mpr ⟨hm, ?_⟩)
    intro he
    simp only at he
    subst he
    rw [hcc] at hd
    injection hd with hd
    exact hx.2 (by rw [hd])

/-! ## Histories -/

theorem closesOpen_cons {P : Plat} {s s1 : Mgr} {op : MOp} {ops : List MOp} {evs : List MEv} {ret : MRet}
    (hc : ClosesOpen P s (op :: ops)) (h : s.step P op = .ok s1 evs ret) :
    (∀ id r, op = .forwardClose (some id) r → s.alive id = true → ∃ k, (k, id) ∈ s.table) ∧ ClosesOpen P s1 ops := by
  constructor
  · intro id r ho hal
    exact hc [] id r ops s [] (by rw [ho]; rfl) rfl hal
  · intro a id r b s2 tr2 ho hr hal
    refine hc (op :: a) id r b s2 ((op, evs, ret) :: tr2) (by rw [ho]; rfl) ?_ hal
    simp only [Mgr.run, h, hr]

/-- A relation between manager and target that survives every call holds after every history. -/
theorem served_run {rule : List TConn → TConn → Prop} {P : Plat} (I : Mgr → List TConn → Prop) (ok : MOp × List MEv × MRet → Prop)
    (hstep : ∀ s s' T T1 op evs ret, Agree s T → I s T → s.step P op = .ok s' evs ret → ok (op, evs, ret) →
      Joint rule s s' T op evs ret T1 → I s' T1) :
    ∀ (ops : List MOp) (s s' : Mgr) (T T' : List TConn) (tr : MTrace), Agree s T → I s T → s.run P ops = some (s', tr) →
      ClosesOpen P s ops → Served rule T tr T' → (∀ e ∈ tr, ok e) → Agree s' T' ∧ I s' T' := by
  intro ops
  induction ops with
  | nil =>
    intro s s' T T' tr ha hI h _ hs _
    simp only [Mgr.run, Option.some.injEq, Prod.mk.injEq] at h
    obtain ⟨rfl, rfl⟩ := h
    cases hs
    exact ⟨ha, hI⟩
  | cons op ops ih =>
    intro s s' T T' tr ha hI h hc hs hok
    obtain ⟨s1, evs, ret, tr', h1, h2, rfl⟩ := mrun_cons h
    obtain ⟨hf, hc'⟩ := closesOpen_cons hc h1
    have go : ∀ T1, Joint rule s s1 T op evs ret T1 → Served rule T1 tr' T' → Agree s' T' ∧ I s' T' := by
      intro T1 hj hs'
      exact ih s1 s' T1 T' tr' (agree_joint ha h1 hj) (hstep s s1 T T1 op evs ret ha hI h1 (hok _ (by simp)) hj) h2 hc' hs'
        fun e he => hok e (List.mem_cons_of_mem _ he)
    cases hs with
    | quiet hq hs' => exact go T (joint_quiet h1 hq) hs'
    | exchange hq hr hans hs' => exact go _ (joint_exchange ha h1 hf hq hr hans) hs'

theorem agree_run {rule : List TConn → TConn → Prop} {P : Plat} {ops : List MOp} {s s' : Mgr} {T T' : List TConn} {tr : MTrace}
    (ha : Agree s T) (h : s.run P ops = some (s', tr)) (hc : ClosesOpen P s ops) (hs : Served rule T tr T') : Agree s' T' :=
  (served_run (rule := rule) (P := P) (fun _ _ => True) (fun _ => True) (fun _ _ _ _ _ _ _ _ _ _ _ _ => trivial) ops s s' T T' tr
    ha trivial h hc hs fun _ _ => trivial).1

/-- C82. After any history against a target: every open connection of the manager is open in the
target, with its triad and its T→O identifier, and no two of them have the same triad. -/
theorem C82_open_at_target (rule : List TConn → TConn → Prop) (P : Plat) (inc : BitVec 16) (st : Statics) (s : Mgr)
    (ops : List MOp) (tr : MTrace) (T : List TConn) (h : (Mgr.new inc st).run P ops = some (s, tr))
    (hc : ClosesOpen P (Mgr.new inc st) ops) (hs : Served rule [] tr T) :
    (∀ x, OpenHere s x → x ∈ T) ∧
    (∀ k id c k' id' c', (k, id) ∈ s.table → s.heap[id]? = some c → (k', id') ∈ s.table → s.heap[id']? = some c' →
      (asTarget c).triad = (asTarget c').triad → id = id') := by
  have ha := agree_run (agree_new inc st) h hc hs
  refine ⟨?_, ha.inj⟩
  rintro x ⟨k, id, c, hm, hcc, rfl⟩
  exact ha.has k id c hm hcc

/-- C82. If in addition the target's identifiers differ in their low 16 bits, no forward open throws
after the target accepted it and no connection times out, the manager's open connections are exactly
the target's. -/
theorem C82_agree (P : Plat) (inc : BitVec 16) (st : Statics) (s : Mgr)
    (ops : List MOp) (tr : MTrace) (T : List TConn) (h : (Mgr.new inc st).run P ops = some (s, tr))
    (hc : ClosesOpen P (Mgr.new inc st) ops) (hs : Served lowDistinct [] tr T) (hn : NoLoss tr) (x : TConn) :
    x ∈ T ↔ OpenHere s x := by
  constructor
  · refine (served_run (rule := lowDistinct) (P := P) (fun s T => ∀ x ∈ T, OpenHere s x) (fun e => NoLoss [e]) ?_ ops _ s [] T tr
      (agree_new inc st) (by simp) h hc hs ?_).2 x
    · intro s s' T T1 op evs ret ha hI h1 hok hj
      exact complete_joint ha h1 hj hok hI
    · intro e he
      refine ⟨fun host p large env evs x hm => hn.1 host p large env evs x ?_, fun id op evs hm => hn.2 id op evs ?_⟩
      · rw [List.mem_singleton] at hm; rw [hm]; exact he
      · simp only [allEvs, List.flatMap_cons, List.flatMap_nil, List.append_nil] at hm
        exact List.mem_flatMap.mpr ⟨e, he, hm⟩
  · exact (C82_open_at_target lowDistinct P inc st s ops tr T h hc hs).1 x

/-- C82. A connection the target has and the manager has not is never closed: after any further history the target
still has it and the manager still has none with its triad. -/
theorem C82_orphan_stays (rule : List TConn → TConn → Prop) (P : Plat) (inc : BitVec 16) (st : Statics) (s s' : Mgr)
    (ops ops' : List MOp) (tr tr' : MTrace) (T T' : List TConn) (h : (Mgr.new inc st).run P ops = some (s, tr))
    (hc : ClosesOpen P (Mgr.new inc st) ops) (hs : Served rule [] tr T) (x : TConn) (hx : x ∈ T)
    (ho : ∀ y, OpenHere s y → y.triad ≠ x.triad) (h' : s.run P ops' = some (s', tr')) (hc' : ClosesOpen P s ops')
    (hs' : Served rule T tr' T') : x ∈ T' ∧ ∀ y, OpenHere s' y → y.triad ≠ x.triad := by
  have := (served_run (rule := rule) (P := P)
    (fun s T => x ∈ T ∧ ∀ k id c, (k, id) ∈ s.table → s.heap[id]? = some c → (asTarget c).triad ≠ x.triad) (fun _ => True) ?_
    ops' s s' T T' tr' (agree_run (agree_new inc st) h hc hs) ⟨hx, ?_⟩ h' hc' hs' fun _ _ => trivial).2
  · refine ⟨this.1, ?_⟩
    rintro y ⟨k, id, c, hm, hcc, rfl⟩
    exact this.2 k id c hm hcc
  · intro s s' T T1 op evs ret ha hI h1 _ hj
    exact orphan_joint ha h1 hj x hI.1 hI.2
  · exact fun k id c hm hcc => ho _ ⟨k, id, c, hm, hcc, rfl⟩

/-- C82. How the manager loses a connection of the target for good: `forwardOpen` throws after the target accepted. -/
theorem C82_failed_open (rule : List TConn → TConn → Prop) (P : Plat) (inc : BitVec 16) (st : Statics) (s s' : Mgr)
    (ops : List MOp) (tr : MTrace) (T T' : List TConn) (h : (Mgr.new inc st).run P ops = some (s, tr))
    (hc : ClosesOpen P (Mgr.new inc st) ops) (hs : Served rule [] tr T)
    (host : String) (p : ConnectionParameters) (large : Bool) (e : OpenEnv) (evs : List MEv) (x : Exn)
    (h1 : s.step P (.forwardOpen host p large e) = .ok s' evs (.threw x)) (resp : MessageRouterResponse)
    (hr : e.reply = .ok resp) (hst : resp.status = 0x00#8)
    (hs' : Served rule T [(.forwardOpen host p large e, evs, .threw x)] T') :
    ∃ t ∈ T', t.vendor = p.originatorVendorId.toNat ∧ t.originator = p.originatorSerialNumber.toNat ∧ t ∉ T ∧
      ∀ y, OpenHere s' y → y.triad ≠ t.triad := by
  have ha := agree_run (agree_new inc st) h hc hs
  obtain ⟨data, g1, g2, g3⟩ := open_exchange h1
  cases hs' with
  | quiet hq _ => rw [g1] at hq; cases hq
  | exchange hq hr' hans hs'' =>
    cases hs''
    rw [g1] at hq
    simp only [List.cons.injEq, MEv.request.injEq, and_true] at hq
    obtain ⟨rfl, rfl, rfl⟩ := hq
    simp only [replyTo, Option.some.injEq] at hr'
    rw [hr] at hr'
    injection hr' with hr'
    subst hr'
    have hsvc : (if large then 0x5B#8 else 0x54#8) ≠ 0x4E#8 := by cases large <;> decide
    cases hans with
    | refuses _ h0 => exact absurd hst h0
    | closes h0 => exact absurd h0 hsvc
    | unknown h0 => exact absurd h0 hsvc
    | accepts t _ _ htr hfresh _ _ =>
      rw [g2] at htr
      simp only [TConn.triad, Prod.mk.injEq] at htr
      refine ⟨t, List.mem_cons_self, htr.2.1, htr.2.2, fun hm => hfresh t hm rfl, ?_⟩
      rintro y ⟨k, id, c, hm, hcc, rfl⟩
      rcases g3 with ⟨e1, e2, _⟩ | ⟨_, _, _, _, hret, _⟩
      · rw [e1] at hm
        rw [e2] at hcc
        exact hfresh _ (ha.has k id c hm hcc)
      · cases hret

/-- C82. A user who keeps no strong pointers closes only open connections. -/
theorem C82_weak_pointers (P : Plat) (inc : BitVec 16) (st : Statics) (ops : List MOp)
    (hl : ∀ id, MOp.lock id ∉ ops) : ClosesOpen P (Mgr.new inc st) ops := by
  have key : ∀ (ops : List MOp) (s s' : Mgr) (tr : MTrace), (∀ id, MOp.lock id ∉ ops) → s.held = [] →
      s.run P ops = some (s', tr) → s'.held = [] := by
    intro ops
    induction ops with
    | nil =>
      intro s s' tr _ hh h
      simp only [Mgr.run, Option.some.injEq, Prod.mk.injEq] at h
      rw [← h.1]; exact hh
    | cons op ops ih =>
      intro s s' tr hl hh h
      obtain ⟨s1, evs, ret, tr', h1, h2, _⟩ := mrun_cons h
      refine ih s1 s' tr' (fun id hm => hl id (List.mem_cons_of_mem _ hm)) ?_ h2
      by_cases hop : ∃ id, op = .lock id
      · obtain ⟨id, rfl⟩ := hop
        exact absurd (by simp) (hl id)
      · rcases step_held P s s1 op evs ret h1 with he | ⟨id, hal, he⟩ | ⟨id, he⟩
        · rw [he, hh]
        · exfalso
          have hcons : s1.held ≠ s.held := by rw [he]; simp
          cases op with
          | lock id => exact hop ⟨id, rfl⟩
          | forwardOpen host p large e =>
            obtain ⟨st, data, _, _, hx⟩ := forwardOpen_cases P host p large e s s1 evs ret h1
            rcases hx with ⟨rfl, _⟩ | ⟨resp, _, _, r, mult, ep, socks, bs, _, _, _, _, _, rfl, _⟩
            · exact hcons rfl
            · exact hcons (register_shape _ _).2.2.2.2.1
          | otherOpen inc mc p2p =>
            simp only [Mgr.step] at h1
            split at h1 <;> cases h1
            exact hcons rfl
          | forwardClose ptr reply =>
            simp only [Mgr.step, Mgr.forwardClose] at h1
            repeat' split at h1
            all_goals first | (cases h1; exact hcons rfl) | cases h1
          | handle start t rounds ticks =>
            simp only [Mgr.step, Mgr.handle] at h1
            split at h1
            · cases h1
            · split at h1
              · cases h1
              · rename_i hsel
                cases h1
                exact hcons ((selectLoop_quiet P _ rounds start s).2 _ _ _ hsel).held
              · rename_i hsel
                have q := (selectLoop_quiet P _ rounds start s).1 _ _ hsel
                split at h1 <;> cases h1 <;> exact hcons q.held
          | hasOpen => simp only [Mgr.step] at h1; cases h1; exact hcons rfl
          | setData id data =>
            simp only [Mgr.step] at h1
            split at h1 <;> cases h1 <;> exact hcons rfl
          | release id' =>
            simp only [Mgr.step] at h1
            cases h1
            simp [hh] at he
        · rw [he, hh]; rfl
  intro a id r b s1 tr1 ho hr hal
  have hh := key a _ s1 tr1 (fun id hm => hl id (by rw [ho]; simp [hm])) rfl hr
  unfold Mgr.alive at hal
  rw [hh, Bool.or_eq_true, List.any_eq_true] at hal
  rcases hal with ⟨⟨k, i⟩, hm, he⟩ | hal
  · have : i = id := by simpa using he
    subst this
    exact ⟨k, hm⟩
  · simp at hal

end Verif.Props
