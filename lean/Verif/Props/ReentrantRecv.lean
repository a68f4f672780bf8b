import Verif.Props.ReentrantSample
import Verif.Props.Defined
import Verif.Spec.ReentrantRecv

/-!
# C78: receive listeners that make harmless calls
-/

namespace Verif.Props

open Verif.Spec

/-- The same objects, as far as receiving goes. -/
def SameView (h h' : List Conn) : Prop := ∀ i : Nat, (h'[i]?).map recvView = (h[i]?).map recvView

theorem SameView.trans {a b c : List Conn} (h : SameView a b) (g : SameView b c) : SameView a c := fun i => (g i).trans (h i)

theorem SameView.set {h : List Conn} {id : Nat} {c d : Conn} (hc : h[id]? = some c) (hd : recvView d = recvView c) : SameView h (h.set id d) := by
  intro j
  rw [List.getElem?_set]
  by_cases hj : id = j
  · subst hj
    rw [if_pos rfl, if_pos (List.getElem?_eq_some_iff.mp hc).1, hc]
    simp [hd]
  · simp [hj]

theorem SameView.ids {h h' : List Conn} (hs : SameView h h') : SameIds h h' := by
  unfold SameIds
  apply List.ext_getElem?
  intro j
  rw [List.getElem?_map, List.getElem?_map]
  have := hs j
  cases h1 : h'[j]? with
  | none =>
    rw [h1] at this
    cases h2 : h[j]? with
    | none => rfl
    | some d => rw [h2] at this; cases this
  | some c =>
    rw [h1] at this
    cases h2 : h[j]? with
    | none => rw [h2] at this; cases this
    | some d =>
      rw [h2] at this
      simp only [Option.map_some, Option.some.injEq, recvView, Prod.mk.injEq] at this
      simp [this]

theorem SameView.heads {h h' : List Conn} (hs : SameView h h') (n : Nat) (hh : ∀ (id : Nat) c, h[id]? = some c → headLen c ≤ n) :
    ∀ (id : Nat) c, h'[id]? = some c → headLen c ≤ n := by
  intro id c hc
  have := hs id
  rw [hc] at this
  cases h2 : h[id]? with
  | none => rw [h2] at this; cases this
  | some d =>
    rw [h2] at this
    simp only [Option.map_some, Option.some.injEq, recvView, Prod.mk.injEq] at this
    have hd := hh id d h2
    have := this.1
    omega

/-- The outcome of a part of the wait. -/
def FineWait (P : Plat) (s : Mgr) : RRes → Prop
  | .go s' _ _ => SameView s.heap s'.heap
  | .threw _ _ _ => True
  | .stop _ why => why = .aborted ∧ P.ndebug = false

theorem fineWait_andThen {P : Plat} {s : Mgr} {r : RRes} {f : Mgr → RRes} (h : FineWait P s r)
    (hf : ∀ s' e k, r = .go s' e k → FineWait P s' (f s')) : FineWait P s (r.andThen f) := by
  cases r with
  | threw _ _ _ => trivial
  | stop _ _ => exact h
  | go s1 e1 k1 =>
    have h2 := hf s1 e1 k1 rfl
    show FineWait P s ((f s1).after e1 k1)
    cases hr : f s1 with
    | threw _ _ _ => trivial
    | stop _ _ => rw [hr] at h2; exact h2
    | go s2 e2 k2 =>
      rw [hr] at h2
      exact SameView.trans h h2

theorem fineWait_step (P : Plat) (s : Mgr) (op : MOp) (ho : HarmlessReceive op) : FineWait P s (Mgr.ofStep (s.step P op)) := by
  have hr : SameView s.heap s.heap := fun _ => rfl
  cases op with
  | setData i d =>
    simp only [Mgr.step]
    split
    · rename_i c _ hc
      exact SameView.set hc rfl
    · exact hr
  | lock i =>
    simp only [Mgr.step]
    split <;> exact hr
  | release i => exact hr
  | hasOpen => exact hr
  | forwardClose ptr reply =>
    simp only [Mgr.step, Mgr.forwardClose]
    cases ptr with
    | none => exact hr
    | some i =>
      simp only
      split
      · cases hc : s.heap[i]? with
        | none => exact hr
        | some c =>
          cases reply with
          | ub => exact absurd rfl ho
          | throw x => exact hr
          | ok r =>
            simp only
            cases tblFind (c.t2oNetworkConnectionId.setWidth 16) s.table with
            | some _ => exact hr
            | none =>
              simp only
              split
              · exact hr
              · rename_i hnd
                exact ⟨rfl, by simpa using hnd⟩
      · exact hr
  | _ => exact ho.elim

theorem fineWait_nested (P : Plat) (calls : List MOp) : ∀ s : Mgr, (∀ op ∈ calls, HarmlessReceive op) → FineWait P s (Mgr.nested P calls s) := by
  induction calls with
  | nil => intro s _ _; rfl
  | cons op ops ih =>
    intro s ho
    exact fineWait_andThen (fineWait_step P s op (ho op List.mem_cons_self)) fun s' _ _ _ => ih s' fun o h => ho o (List.mem_cons_of_mem _ h)

theorem fineWait_listener (P : Plat) (id : Nat) (calls : List MOp) (s : Mgr) (ho : ∀ op ∈ calls, HarmlessReceive op) :
    FineWait P s (Mgr.listener P id calls s) := by
  refine fineWait_andThen ?_ fun s' _ _ _ => (fun _ => rfl : SameView s'.heap s'.heap)
  refine fineWait_andThen (fun _ => rfl : SameView s.heap s.heap) fun s' e k he => ?_
  cases he
  exact fineWait_nested P calls s ho

theorem fineWait_deliver (P : Plat) (hP : P.mem = Mem.strict) (r : RecvR) (s : Mgr) (hi : Inv s) (n : Nat)
    (hh : ∀ (id : Nat) c, s.heap[id]? = some c → headLen c ≤ n) (hp : ∀ d, r.recv = .dgram d → Proper n d)
    (ho : ∀ op ∈ r.calls, HarmlessReceive op) : FineWait P s (Mgr.deliverR P r s) := by
  unfold Mgr.deliverR
  rcases arrival_cases P s hi ⟨r.recv, none⟩ with h | ⟨d, h1, h2⟩ | ⟨e, h⟩ | ⟨s', evs, e, _, h⟩
  · obtain ⟨s', evs, h1, _, hl, _⟩ := goesOn_ok P s hi ⟨r.recv, none⟩ h
    dsimp only at h1
    rw [h1]
    refine fineWait_andThen (fun i => (hl.2 i) : SameView s.heap s'.heap) fun s2 e k he => ?_
    cases he
    cases Mgr.ranReceive evs with
    | none => exact (fun _ => rfl : SameView s'.heap s'.heap)
    | some id =>
      refine fineWait_andThen (fineWait_listener P id r.calls s' ho) fun s3 _ _ _ => ?_
      cases r.throws with
      | none => exact (fun _ => rfl : SameView s3.heap s3.heap)
      | some e => trivial
  · exact absurd h2 (proper_not_malformed P hP s hi n hh d (hp d h1))
  · dsimp only at h
    rw [h]
    trivial
  · exfalso
    revert h
    unfold Mgr.raised
    cases Mgr.ranReceive evs <;> exact fun h => by cases h

theorem harmlessReceive_noHandle {ops : List MOp} (ho : ∀ op ∈ ops, HarmlessReceive op) : noHandle ops := by
  intro op hop
  have := ho op hop
  cases op <;> first | rfl | exact this.elim

theorem fineWait_deliverAll (P : Plat) (hP : P.mem = Mem.strict) (n : Nat) (rs : List RecvR) : ∀ (s : Mgr), Inv s →
    (∀ (id : Nat) c, s.heap[id]? = some c → headLen c ≤ n) →
    (∀ x ∈ rs, (∀ d, x.recv = .dgram d → Proper n d) ∧ ∀ op ∈ x.calls, HarmlessReceive op) → FineWait P s (Mgr.deliverAllR P rs s) := by
  induction rs with
  | nil => intro s _ _ _ _; rfl
  | cons r rs ih =>
    intro s hi hh hr
    obtain ⟨h1, h2⟩ := hr r List.mem_cons_self
    have hd := fineWait_deliver P hP r s hi n hh h1 h2
    refine fineWait_andThen hd fun s' e k he => ?_
    rw [he] at hd
    obtain ⟨_, hw⟩ := (deliverR_waited P r (harmlessReceive_noHandle h2) s).1 s' e k he
    exact ih s' (micros_inv hw.micros hi) (SameView.heads hd n hh) fun x hx => hr x (List.mem_cons_of_mem _ hx)

theorem fineWait_select (P : Plat) (hP : P.mem = Mem.strict) (n : Nat) (stop : Int) (rounds : List RoundR) : ∀ (now : Int) (s : Mgr), Inv s →
    (∀ (id : Nat) c, s.heap[id]? = some c → headLen c ≤ n) → RoundsHarmless n rounds → FineWait P s (Mgr.selectLoopR P stop now rounds s) := by
  induction rounds with
  | nil => intro now s _ _ _ _; rfl
  | cons r rounds ih =>
    intro now s hi hh hr
    have hr' : RoundsHarmless n rounds := fun x hx => hr x (List.mem_cons_of_mem _ hx)
    cases r with
    | fail code => trivial
    | ready f m now' =>
      have hfm : ∀ x ∈ f :: m, (∀ d, x.recv = .dgram d → Proper n d) ∧ ∀ op ∈ x.calls, HarmlessReceive op := hr _ List.mem_cons_self
      refine fineWait_andThen (fun _ => rfl : SameView s.heap s.heap) fun s1 e k he => ?_
      cases he
      have hd := fineWait_deliverAll P hP n (f :: m) s hi hh hfm
      refine fineWait_andThen hd fun s' e k he => ?_
      rw [he] at hd
      obtain ⟨_, hw⟩ := (deliverAllR_waited P (f :: m) (fun x hx => harmlessReceive_noHandle (hfm x hx).2) s).1 s' e k he
      exact ih now' s' (micros_inv hw.micros hi) (SameView.heads hd n hh) hr'

theorem roundsHarmless_noHandle {n : Nat} {rounds : List RoundR} (h : RoundsHarmless n rounds) : roundsNoHandle rounds := by
  intro r hr
  have := h r hr
  cases r with
  | fail _ => trivial
  | ready f m _ => exact fun x hx => harmlessReceive_noHandle (this x hx).2

/-- C78. A call of `handleConnections` that receives datagrams as targets send them has no undefined behaviour if the listeners make harmless
calls only: receive listeners may close any connection, send and close listeners any but their own; with assertions compiled out it always
returns or throws. -/
theorem C78_harmless_receiving (P : Plat) (hP : P.mem = Mem.strict) (inc : BitVec 16) (st : Statics) (s : Mgr) (ops : List Mgr.MOpR)
    (hf : ∀ op ∈ ops, opFlat op) (tr : RTrace) (hrun : (Mgr.new inc st).runR P ops = some (s, tr))
    (hsock : s.sockets ≠ []) (n : Nat) (hh : ∀ (id : Nat) c, s.heap[id]? = some c → headLen c ≤ n)
    (start : Nat) (t : Int) (rounds : List RoundR) (hr : RoundsHarmless n rounds) (ticks : Nat → TickEnvR)
    (ho : ∀ id c, s.heap[id]? = some c → ∀ op ∈ (ticks id).calls, Harmless s.heap (c.t2oNetworkConnectionId.setWidth 16) op)
    (hn : ∀ id, noHandle (ticks id).calls) (evs : List REv) (why : Stop)
    (h : s.stepR P (.handle start t rounds ticks) = .stop evs why) : why = .aborted ∧ P.ndebug = false := by
  have hi := micros_inv (runR_micros P _ s (inv_new inc st) ops hf tr hrun) (inv_new inc st)
  have hw := fineWait_select P hP n (start + t * 1000000) rounds start s hi hh hr
  simp only [Mgr.stepR, Mgr.handleR] at h
  split at h
  · rename_i he; exact absurd he hsock
  · cases hs : Mgr.selectLoopR P (start + t * 1000000) start rounds s with
    | threw _ _ _ => rw [hs] at h; cases h
    | stop e w =>
      rw [hs] at h hw
      cases h
      exact hw
    | go s1 e1 k1 =>
      rw [hs] at h hw
      have hw' : SameView s.heap s1.heap := hw
      obtain ⟨_, w1⟩ := (selectLoopR_waited P _ rounds (roundsHarmless_noHandle hr) start s).1 _ _ _ hs
      have hsw := harmless_sweep P ticks hn 65536 none s1 (micros_inv w1.micros hi) (by
        intro i d hd op hop
        have hg := hw'.ids.get i
        rw [hd] at hg
        cases hx : s.heap[i]? with
        | none => rw [hx] at hg; cases hg
        | some d0 =>
          rw [hx] at hg
          simp only [Option.map_some, Option.some.injEq] at hg
          rw [hg]
          exact harmless_mono hw'.ids (ho i d0 hx op hop))
      simp only [RRes.andThen] at h
      cases hr2 : Mgr.sweep P ticks 65536 none s1 with
      | go _ _ _ => rw [hr2] at h; cases h
      | threw _ _ _ => rw [hr2] at h; cases h
      | stop e w =>
        rw [hr2] at h hsw
        cases h
        exact hsw

/-- C78_harmless_receiving: datagrams for both connections, with receive listeners that close the connection they are called for and the other,
after a history. -/
example : ∃ s tr, samplePlat.mem = Mem.strict ∧ (Mgr.new 1 {}).runR samplePlat sampleTwo = some (s, tr) ∧ s.sockets ≠ [] ∧
    (∀ (id : Nat) c, s.heap[id]? = some c → headLen c ≤ 2) ∧
    RoundsHarmless 2 [.ready ⟨⟨.dgram (sampleDgram 0x10001 [1, 2]), none⟩, [.forwardClose (some 0) (.ok (sampleReply 0 0 0))]⟩
      [⟨⟨.dgram (sampleDgram 0x10002 [1, 2]), none⟩, [.setData 0 [1], .forwardClose (some 1) (.ok (sampleReply 0 0 0))]⟩] 5] := by
  have h : ((Mgr.new 1 {}).runR samplePlat sampleTwo).map (fun r =>
      (r.1.heap.all fun c => decide (headLen c ≤ 2), decide (r.1.sockets ≠ []))) = some (true, true) := by
    decide +kernel
  cases hr : (Mgr.new 1 {}).runR samplePlat sampleTwo with
  | none => rw [hr] at h; cases h
  | some r =>
    rw [hr] at h
    simp only [Option.map_some, Option.some.injEq, Prod.mk.injEq, decide_eq_true_eq] at h
    have hframe : ∀ id data, data.length = 2 → Proper 2 (sampleDgram id data) := fun id data hl =>
      ⟨_, _, _, _, [], frame_accepts id 1 (ioPayload (some 1) none data) (by simp [ioPayload, le_length, hl]),
        by simp [le_length], by simp [ioPayload, le_length, hl]⟩
    refine ⟨r.1, r.2, rfl, rfl, h.2, fun id c hc => ?_, fun x hx => ?_⟩
    · exact of_decide_eq_true (List.all_eq_true.mp h.1 c (List.mem_of_getElem? hc))
    · cases List.mem_singleton.mp hx
      intro x hx
      simp only [List.mem_cons, List.not_mem_nil, or_false] at hx
      rcases hx with rfl | rfl
      · refine ⟨fun d hd => by cases hd; exact hframe _ _ rfl, fun op hop => ?_⟩
        cases List.mem_singleton.mp hop
        exact fun e => by cases e
      · refine ⟨fun d hd => by cases hd; exact hframe _ _ rfl, fun op hop => ?_⟩
        simp only [List.mem_cons, List.not_mem_nil, or_false] at hop
        rcases hop with rfl | rfl
        · trivial
        · exact fun e => by cases e

end Verif.Props
