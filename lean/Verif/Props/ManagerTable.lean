import Verif.Props.ManagerWait
import Verif.Props.ConnParams

/-!
# C32, C41, C42, C51: the table of open connections
-/

namespace Verif.Props

open Verif Verif.Spec

theorem allEvs_cons (e : MOp × List MEv × MRet) (tr : MTrace) : allEvs (e :: tr) = e.2.1 ++ allEvs tr := by
  simp [allEvs]

theorem allEvs_append (a b : MTrace) : allEvs (a ++ b) = allEvs a ++ allEvs b := by simp [allEvs]

/-! ## C51 -/

theorem connTrace_nil_of {id : Nat} {evs : List MEv} (h : ∀ op io, MEv.conn id op io ∉ evs) : connTrace id evs = [] := by
  induction evs with
  | nil => rfl
  | cons e es ih =>
    have := ih fun op io hm => h op io (List.mem_cons_of_mem _ hm)
    cases e with
    | conn i op io =>
      simp only [connTrace]
      rw [if_neg (fun hi => h op io (by rw [hi]; exact List.mem_cons_self)), this]
    | _ => exact this

theorem mem_connTrace {id : Nat} {evs : List MEv} {op : ConnOp} {io : List IoEv} :
    (op, io) ∈ connTrace id evs ↔ MEv.conn id op io ∈ evs := by
  induction evs with
  | nil => simp [connTrace]
  | cons e es ih =>
    cases e with
    | conn i o x =>
      simp only [connTrace]
      split
      · rename_i hi; subst hi; simp [ih]
      · rename_i hi
        simp only [ih, List.mem_cons, MEv.conn.injEq]
        constructor
        · exact .inr
        · rintro (⟨h, _⟩ | h)
          · exact absurd h.symm hi
          · exact h
    | _ => simp [connTrace, ih]

/-- A replay in which an object is created splits at the creation. -/
theorem replay_created (m : Mem) (heap heap' : List Conn) (evs : List MEv) (id : Nat) (c : Conn)
    (h : applyEvs m heap evs = some heap') (hm : MEv.created id c ∈ evs) (hlen : heap.length ≤ id) :
    ∃ c', heap'[id]? = some c' ∧ c.run m ((connTrace id evs).map Prod.fst) = some (c', connTrace id evs) := by
  induction evs generalizing heap with
  | nil => simp at hm
  | cons e es ih =>
    simp only [applyEvs] at h
    split at h
    · cases h
    · rename_i h1 he
      cases e with
      | request a b d => simp [applyEv] at he; subst he; exact ih _ h (by simpa using hm) hlen
      | bound a => simp [applyEv] at he; subst he; exact ih _ h (by simpa using hm) hlen
      | waited a => simp [applyEv] at he; subst he; exact ih _ h (by simpa using hm) hlen
      | created i d =>
        simp only [applyEv] at he
        split at he
        · rename_i hi
          injection he with he
          subst he
          rw [List.mem_cons] at hm
          by_cases hid : heap.length = id
          · -- this is the creation of `id`
            have hcd : d = c := by
              rcases hm with hm | hm
              · injection hm with _ h2; exact h2.symm
              · exfalso
                -- a second creation with the same index is impossible
                clear ih
                have : ∀ (es : List MEv) (hp : List Conn), applyEvs m hp es = some heap' → MEv.created id c ∈ es →
                    hp.length ≤ id := by
                  intro es
                  induction es with
                  | nil => intro hp _ hmm; simp at hmm
                  | cons x xs ihx =>
                    intro hp hap hmm
                    simp only [applyEvs] at hap
                    split at hap
                    · cases hap
                    · rename_i h2 hx
                      have hmono : hp.length ≤ h2.length :=
                        replay_length m hp h2 [x] (by simp [applyEvs, hx])
                      rw [List.mem_cons] at hmm
                      rcases hmm with rfl | hmm
                      · simp only [applyEv] at hx
                        split at hx
                        · rename_i heq; omega
                        · cases hx
                      · have := ihx h2 hap hmm; omega
                have := this es _ h hm
                simp at this
                omega
            subst hcd
            have := replay_project m _ heap' es h id d (by rw [← hid]; simp)
            exact this
          · refine ih _ h ?_ (by simp; omega)
            rcases hm with hm | hm
            · injection hm with h1 h2; omega
            · exact hm
        · cases he
      | conn i op io =>
        simp only [applyEv] at he
        split at he
        · cases he
        · rename_i ci hci
          have hlt := (List.getElem?_eq_some_iff.mp hci).1
          split at he
          · cases he
          · split at he
            · injection he with he
              subst he
              have hne : i ≠ id := by omega
              simp only [connTrace, if_neg hne]
              exact ih _ h (by simpa using hm) (by simpa using hlen)
            · cases he

/-- C51. In any history of a manager, everything that happens to a connection is a
history of that connection alone: its receptions, ticks and writes, replayed on the
object as it was created and with no regard to anything else, give the same events
and the same final object.  So no operation on another connection influences it. -/
theorem C51_isolated (P : Plat) (inc : BitVec 16) (st : Statics) (s' : Mgr) (ops : List MOp) (tr : MTrace)
    (h : (Mgr.new inc st).run P ops = some (s', tr)) (id : Nat) (c : Conn) (hc : MEv.created id c ∈ allEvs tr) :
    ∃ c', s'.heap[id]? = some c' ∧
      c.run P.mem ((connTrace id (allEvs tr)).map Prod.fst) = some (c', connTrace id (allEvs tr)) :=
  replay_created P.mem [] s'.heap (allEvs tr) id c (run_replay P _ s' ops tr h) hc (Nat.zero_le _)

/-- C51. One operation changes no object except those its events name. -/
theorem C51_frame (P : Plat) (s s' : Mgr) (op : MOp) (evs : List MEv) (ret : MRet)
    (h : s.step P op = .ok s' evs ret) (id : Nat) (c : Conn) (hc : s.heap[id]? = some c)
    (hn : ∀ cop io, MEv.conn id cop io ∉ evs) : s'.heap[id]? = some c := by
  obtain ⟨c', h1, h2⟩ := replay_project P.mem _ _ evs (step_replay P s s' op evs ret h) id c hc
  rw [connTrace_nil_of hn] at h2
  simp only [List.map_nil, Conn.run, Option.some.injEq, Prod.mk.injEq, and_true] at h2
  rw [h2, h1]

/-! ## C32 -/

/-- C32. After any history: every entry of the table is an existing connection
stored under the low 16 bits of its T→O identifier, can be reached by its weak
pointer, and no two entries have the same key or are the same connection. -/
theorem C32_table (P : Plat) (inc : BitVec 16) (st : Statics) (s : Mgr) (ops : List MOp) (tr : MTrace)
    (h : (Mgr.new inc st).run P ops = some (s, tr)) :
    (∀ k id, (k, id) ∈ s.table → ∃ c, s.heap[id]? = some c ∧ k.toNat = c.t2oNetworkConnectionId.toNat % 65536 ∧
      s.alive id = true) ∧
    s.table.Pairwise (fun a b => a.1 ≠ b.1 ∧ a.2 ≠ b.2) := by
  have hi := inv_run P _ s ops tr (inv_new inc st) h
  constructor
  · intro k id hm
    obtain ⟨c, hc, hk⟩ := hi.obj k id hm
    refine ⟨c, hc, by rw [hk]; simp, ?_⟩
    unfold Mgr.alive
    rw [Bool.or_eq_true, List.any_eq_true]
    exact .inl ⟨(k, id), hm, by simp⟩
  · have hall : ∀ a ∈ s.table, ∃ c, s.heap[a.2]? = some c ∧ a.1 = c.t2oNetworkConnectionId.setWidth 16 :=
      fun a ha => hi.obj a.1 a.2 ha
    have hs := hi.sorted
    generalize s.table = t at hall hs
    induction t with
    | nil => exact .nil
    | cons a t ih =>
      rw [List.pairwise_cons] at hs ⊢
      refine ⟨fun b hb => ?_, ih (fun x hx => hall x (List.mem_cons_of_mem _ hx)) hs.2⟩
      have hlt := hs.1 b hb
      have hne : a.1 ≠ b.1 := fun heq => by rw [heq] at hlt; exact absurd hlt (BitVec.lt_irrefl _)
      refine ⟨hne, fun heq => hne ?_⟩
      obtain ⟨c, hc, hk⟩ := hall a List.mem_cons_self
      obtain ⟨d, hd, hl⟩ := hall b (List.mem_cons_of_mem _ hb)
      rw [heq, hd] at hc
      injection hc with hc
      rw [hk, hl, hc]

/-- C32. `hasOpenConnections` is true exactly when there is an entry, and changes
nothing. -/
theorem C32_hasOpen (P : Plat) (s : Mgr) :
    s.step P .hasOpen = .ok s [] (.bool true) ∧ s.table ≠ [] ∨
    s.step P .hasOpen = .ok s [] (.bool false) ∧ s.table = [] := by
  cases h : s.table with
  | nil => right; simp [Mgr.step, h]
  | cons a t => left; simp [Mgr.step, h]

/-- Ids in the table are unique. -/
theorem Inv.unique {s : Mgr} (hi : Inv s) {k k' : BitVec 16} {id : Nat} (h : (k, id) ∈ s.table)
    (g : (k', id) ∈ s.table) : k = k' := by
  obtain ⟨c, hc, hk⟩ := hi.obj k id h
  obtain ⟨d, hd, hl⟩ := hi.obj k' id g
  rw [hc] at hd
  injection hd with hd
  rw [hk, hl, hd]

/-! ## C42 -/

/-- C42. Closing a connection of the table sends one ForwardClose with its serial
number, originator and path; unless the exchange throws, exactly that connection
leaves the table, whatever the target answered, and no callback runs. -/
theorem C42_close (P : Plat) (inc : BitVec 16) (st : Statics) (s : Mgr) (ops : List MOp) (tr : MTrace)
    (h : (Mgr.new inc st).run P ops = some (s, tr)) (k : BitVec 16) (id : Nat) (hm : (k, id) ∈ s.table)
    (resp : MessageRouterResponse) :
    ∃ c data s', s.heap[id]? = some c ∧
      s.step P (.forwardClose (some id) (.ok resp)) = .ok s' [.request 0x4E#8 (EPath.mk2 6 1) data] .unit ∧
      field data 2 2 = c.serialNumber.toNat % 65536 ∧ field data 4 2 = c.originatorVendorId.toNat ∧
      field data 6 4 = c.originatorSerialNumber.toNat ∧ data.drop 12 = c.connectionPath ∧
      (∀ e, e ∈ s'.table ↔ e ∈ s.table ∧ e.2 ≠ id) ∧ s'.heap = s.heap ∧ s'.sockets = s.sockets := by
  have hi := inv_run P _ s ops tr (inv_new inc st) h
  obtain ⟨c, hc, hk⟩ := hi.obj k id hm
  have hal : s.alive id = true := by
    unfold Mgr.alive
    rw [Bool.or_eq_true, List.any_eq_true]
    exact .inl ⟨(k, id), hm, by simp⟩
  have hf : tblFind (c.t2oNetworkConnectionId.setWidth 16) s.table = some id := by
    rw [← hk]; exact tblFind_of_mem hi.sorted hm
  obtain ⟨_, _, q1, q2, q3, _, _, q4⟩ := C19_forwardClose (Mgr.closeRequest c)
  refine ⟨c, (Mgr.closeRequest c).pack, { s with table := tblErase k s.table }, hc, ?_, ?_, q2, q3, q4, ?_, rfl, rfl⟩
  · simp only [Mgr.step, Mgr.forwardClose, hal, hc, if_true, hf]
    rw [← hk]
  · rw [q1]; simp [Mgr.closeRequest]
  · intro e
    simp only [tblErase, List.mem_filter, bne_iff_ne]
    constructor
    · rintro ⟨h1, h2⟩
      refine ⟨h1, fun heq => h2 ?_⟩
      obtain ⟨k', id'⟩ := e
      simp only at heq
      subst heq
      exact hi.unique h1 hm
    · rintro ⟨h1, h2⟩
      refine ⟨h1, fun heq => h2 ?_⟩
      obtain ⟨k', id'⟩ := e
      simp only at heq
      subst heq
      have := tblFind_of_mem hi.sorted h1
      rw [tblFind_of_mem hi.sorted hm] at this
      injection this with this
      exact this.symm

/-- C42. If the exchange throws, the request was sent, the exception reaches the
caller and nothing is removed. -/
theorem C42_close_throws (P : Plat) (s : Mgr) (id : Nat) (c : Conn) (hal : s.alive id = true)
    (hc : s.heap[id]? = some c) (x : Exn) :
    ∃ data, s.step P (.forwardClose (some id) (.throw x)) =
      .ok s [.request 0x4E#8 (EPath.mk2 6 1) data] (.threw x) := by
  exact ⟨(Mgr.closeRequest c).pack, by simp only [Mgr.step, Mgr.forwardClose, hal, hc, if_true]⟩

/-- C42. Closing an empty or expired pointer does nothing at all. -/
theorem C42_expired (P : Plat) (s : Mgr) (ptr : Option Nat) (reply : Outcome MessageRouterResponse)
    (h : ∀ id, ptr = some id → s.alive id = false) : s.step P (.forwardClose ptr reply) = .ok s [] .unit := by
  cases ptr with
  | none => rfl
  | some id => simp [Mgr.step, Mgr.forwardClose, h id rfl]

/-- C42. The pointer of a connection that is not in the table any more and that the
user does not keep alive is expired. -/
theorem C42_expired_iff (s : Mgr) (id : Nat) :
    s.alive id = false ↔ (∀ k, (k, id) ∉ s.table) ∧ id ∉ s.held := by
  unfold Mgr.alive
  rw [Bool.or_eq_false_iff]
  constructor
  · rintro ⟨h1, h2⟩
    refine ⟨fun k hm => ?_, by simpa using h2⟩
    rw [List.any_eq_false] at h1
    exact h1 _ hm (by simp)
  · rintro ⟨h1, h2⟩
    refine ⟨?_, by simpa using h2⟩
    rw [List.any_eq_false]
    rintro ⟨k, i⟩ hm he
    have : i = id := by simpa using he
    subst this
    exact h1 k hm

/-- C42. Exactly what happens when a connection that left the table, but is kept
alive by the user, is closed: a ForwardClose for it is sent; if another open
connection has the same low 16 identifier bits, that one is removed; otherwise the
assertion fails (with assertions compiled out nothing happens). -/
theorem C42_stale (P : Plat) (s : Mgr) (id : Nat) (c : Conn) (hal : s.alive id = true) (hc : s.heap[id]? = some c)
    (resp : MessageRouterResponse) :
    ∃ data, s.step P (.forwardClose (some id) (.ok resp)) =
      match tblFind (c.t2oNetworkConnectionId.setWidth 16) s.table with
      | some _ => .ok { s with table := s.table.filter fun e => e.1 != c.t2oNetworkConnectionId.setWidth 16 }
          [.request 0x4E#8 (EPath.mk2 6 1) data] .unit
      | none => if P.ndebug then .ok s [.request 0x4E#8 (EPath.mk2 6 1) data] .unit
          else .stop [.request 0x4E#8 (EPath.mk2 6 1) data] .aborted := by
  refine ⟨(Mgr.closeRequest c).pack, ?_⟩
  simp only [Mgr.step, Mgr.forwardClose, hal, hc, if_true]
  split <;> rename_i h <;> simp only [h, tblErase]

/-! ## C41 -/

theorem closed_dead {c d : Conn} {now : Nat} {hook : Hook} {count : Int} {evs : List IoEv} {ret : TickRet}
    (h : TickCase c now hook count d evs ret) :
    (IoEv.closed ∈ evs → ret = Conn.closeRet hook) ∧ (ret = .dead → IoEv.closed ∈ evs) := by
  cases h with
  | dead h => simp
  | idle h => simp
  | prod h _ _ _ hev =>
    rcases hev with ⟨he, _, _, _, hr⟩ | ⟨_, he, _, hr⟩ | ⟨_, he, _, _, _, hr⟩
    · rw [he, hr]; simp
    · rw [he, hr]; simp
    · rw [he, hr]; split <;> simp

theorem closed_not_alive {c d : Conn} {now : Nat} {hook : Hook} {count : Int} {evs : List IoEv} {ret : TickRet}
    (h : TickCase c now hook count d evs ret) (hc : IoEv.closed ∈ evs) : ret ≠ .alive := by
  rw [(closed_dead h).1 hc]
  unfold Conn.closeRet
  split <;> simp

theorem sends_whole_ok {c d : Conn} {now : Nat} {hook : Hook} {count : Int} {evs : List IoEv} {ret : TickRet}
    (h : TickCase c now hook count d evs ret)
    (hw : ∀ to bytes, IoEv.sent to bytes ∈ evs → count = -1 ∨ count = bytes.length)
    (hlen : ∀ to bytes, IoEv.sent to bytes ∈ evs → bytes.length < 2 ^ 64)
    (hth : evs ≠ [] → hook.throws = none) : ∀ e, ret ≠ .threw e := by
  cases h with
  | dead h => simp [Conn.closeRet, hth (by simp)]
  | idle h => simp
  | prod h _ _ _ hev =>
    rcases hev with ⟨he, _, _, _, hr⟩ | ⟨e, he, hr, _⟩ | ⟨bytes, he, _, _, _, hr⟩
    · rw [hr]; simp
    · rw [hth (by rw [he]; simp)] at hr; cases hr
    · have h1 := hw c.socket bytes (by rw [he]; simp)
      have h2 := hlen c.socket bytes (by rw [he]; simp)
      have : udpSendThrows bytes count = false := by
        unfold udpSendThrows
        rw [decide_eq_false_iff_not]
        rcases h1 with rfl | rfl
        · have : (BitVec.ofInt 64 (-1)).toNat = 2 ^ 64 - 1 := by decide
          omega
        · have : (BitVec.ofInt 64 (bytes.length : Int)).toNat = bytes.length := by
            rw [BitVec.ofInt_natCast, BitVec.toNat_ofNat, Nat.mod_eq_of_lt h2]
          omega
      rw [hr, this]; simp

/-- The loop of ticks in detail, for entries of different connections. -/
theorem tickAll_detail (ticks : Nat → TickEnv) (t : List (BitVec 16 × Nat)) (heap : List Conn)
    (hd : t.Pairwise fun a b => a.2 ≠ b.2) :
    (∀ id, (∀ k, (k, id) ∉ t) → connTrace id (Mgr.tickAll ticks t heap).2.1 = []) ∧
    (∀ id, (connTrace id (Mgr.tickAll ticks t heap).2.1).length ≤ 1) ∧
    (∀ k id, (k, id) ∈ t → (∃ op io, MEv.conn id op io ∈ (Mgr.tickAll ticks t heap).2.1 ∧ IoEv.closed ∈ io) →
      (Mgr.tickAll ticks t heap).2.2.2 = none → k ∈ (Mgr.tickAll ticks t heap).2.2.1) ∧
    (∀ k ∈ (Mgr.tickAll ticks t heap).2.2.1, ∃ id op io, (k, id) ∈ t ∧
      MEv.conn id op io ∈ (Mgr.tickAll ticks t heap).2.1 ∧ IoEv.closed ∈ io) := by
  induction t generalizing heap with
  | nil => simp [Mgr.tickAll, connTrace]
  | cons e t ih =>
    obtain ⟨k, i⟩ := e
    rw [List.pairwise_cons] at hd
    have hni : ∀ k', (k', i) ∉ t := fun k' hm => hd.1 _ hm rfl
    simp only [Mgr.tickAll]
    cases hc : heap[i]? with
    | none =>
      simp only
      obtain ⟨a1, a2, a3, a4⟩ := ih heap hd.2
      refine ⟨fun id h => a1 id fun k' hm => h k' (List.mem_cons_of_mem _ hm), a2, ?_, ?_⟩
      · intro k' id hm hcl hn
        rw [List.mem_cons] at hm
        rcases hm with hm | hm
        · injection hm with h1 h2
          subst h2
          obtain ⟨op, io, hin, _⟩ := hcl
          have := mem_connTrace.mpr hin
          rw [a1 id hni] at this
          simp at this
        · exact a3 k' id hm hcl hn
      · intro k' hk
        obtain ⟨id, op, io, h1, h2⟩ := a4 k' hk
        exact ⟨id, op, io, List.mem_cons_of_mem _ h1, h2⟩
    | some c =>
      simp only
      have tc := tick_cases c (ticks i).now (ticks i).hook (ticks i).count
      have hcd := closed_dead tc
      split
      · refine ⟨?_, ?_, by simp, by simp⟩
        · intro id h
          have hne : i ≠ id := fun he => h k (by rw [he]; exact List.mem_cons_self)
          simp [connTrace, hne]
        · intro id
          simp only [connTrace]
          split <;> simp
      all_goals
        rename_i hret
        obtain ⟨a1, a2, a3, a4⟩ :=
          ih (heap.set i (c.notifyTick (ticks i).now (ticks i).hook (ticks i).count).1) hd.2
        refine ⟨?_, ?_, ?_, ?_⟩
        · intro id h
          have hne : i ≠ id := fun he => h k (by rw [he]; exact List.mem_cons_self)
          simp only [connTrace, if_neg hne]
          exact a1 id fun k' hm => h k' (List.mem_cons_of_mem _ hm)
        · intro id
          simp only [connTrace]
          split
          · rename_i hi
            subst hi
            rw [a1 i hni]
            simp
          · exact a2 id
      · intro k' id hm hcl hn
        obtain ⟨op, io, hin, hcl⟩ := hcl
        simp only [List.mem_cons] at hin
        rcases hin with hin | hin
        · exfalso
          injection hin with h1 h2 h3
          rw [h3] at hcl
          exact closed_not_alive tc hcl hret
        · rw [List.mem_cons] at hm
          rcases hm with hm | hm
          · exfalso
            injection hm with h1 h2
            subst h2
            have := mem_connTrace.mpr hin
            rw [a1 id hni] at this
            simp at this
          · exact a3 k' id hm ⟨op, io, hin, hcl⟩ hn
      · intro k' hk
        obtain ⟨id, op, io, h1, h2, h3⟩ := a4 k' hk
        exact ⟨id, op, io, List.mem_cons_of_mem _ h1, List.mem_cons_of_mem _ h2, h3⟩
      · intro k' id hm hcl hn
        obtain ⟨op, io, hin, hcl⟩ := hcl
        rw [List.mem_cons] at hm
        rcases hm with hm | hm
        · injection hm with h1 h2
          rw [h1]
          exact List.mem_cons_self
        · simp only [List.mem_cons] at hin
          rcases hin with hin | hin
          · exfalso
            injection hin with h1
            subst h1
            exact hni k' hm
          · exact List.mem_cons_of_mem _ (a3 k' id hm ⟨op, io, hin, hcl⟩ hn)
      · intro k' hk
        simp only [List.mem_cons] at hk
        rcases hk with rfl | hk
        · exact ⟨i, _, _, List.mem_cons_self, List.mem_cons_self, hcd.2 hret⟩
        · obtain ⟨id, op, io, h1, h2, h3⟩ := a4 k' hk
          exact ⟨id, op, io, List.mem_cons_of_mem _ h1, List.mem_cons_of_mem _ h2, h3⟩

/-- An exception that ends the loop of ticks comes from a short send or a listener. -/
theorem tickAll_no_throw (ticks : Nat → TickEnv) (t : List (BitVec 16 × Nat)) (heap : List Conn)
    (hw : ∀ id now hook count io, MEv.conn id (.tick now hook count) io ∈ (Mgr.tickAll ticks t heap).2.1 →
      ∀ to bytes, IoEv.sent to bytes ∈ io → count = -1 ∨ count = bytes.length)
    (hlen : ∀ id now hook count io, MEv.conn id (.tick now hook count) io ∈ (Mgr.tickAll ticks t heap).2.1 →
      ∀ to bytes, IoEv.sent to bytes ∈ io → bytes.length < 2 ^ 64)
    (hth : ∀ id now hook count io, MEv.conn id (.tick now hook count) io ∈ (Mgr.tickAll ticks t heap).2.1 →
      io ≠ [] → hook.throws = none) :
    (Mgr.tickAll ticks t heap).2.2.2 = none := by
  induction t generalizing heap with
  | nil => rfl
  | cons e t ih =>
    obtain ⟨k, i⟩ := e
    simp only [Mgr.tickAll] at hw hlen hth ⊢
    cases hc : heap[i]? with
    | none => simp only [hc] at hw hlen hth; exact ih heap hw hlen hth
    | some c =>
      simp only [hc] at hw hlen hth ⊢
      have tc := tick_cases c (ticks i).now (ticks i).hook (ticks i).count
      split
      · rename_i e hret
        rw [hret] at hw hlen hth
        exact absurd hret (sends_whole_ok tc (hw i _ _ _ _ List.mem_cons_self) (hlen i _ _ _ _ List.mem_cons_self)
          (hth i _ _ _ _ List.mem_cons_self) e)
      all_goals
        rename_i hret
        rw [hret] at hw hlen hth
        exact ih _ (fun id n h c io hm => hw id n h c io (List.mem_cons_of_mem _ hm))
          (fun id n h c io hm => hlen id n h c io (List.mem_cons_of_mem _ hm))
          (fun id n h c io hm => hth id n h c io (List.mem_cons_of_mem _ hm))

/-- Close callbacks come from ticks in `handleConnections` only. -/
theorem C41_only_handle (P : Plat) (s s' : Mgr) (op : MOp) (evs : List MEv) (ret : MRet)
    (h : s.step P op = .ok s' evs ret) (id : Nat) (cop : ConnOp) (io : List IoEv) (hm : MEv.conn id cop io ∈ evs)
    (hcl : IoEv.closed ∈ io) :
    (∃ start t rounds ticks, op = .handle start t rounds ticks) ∧ (∃ now hook count, cop = .tick now hook count) ∧
      ∃ k, (k, id) ∈ s.table := by
  have hrep := step_replay P s s' op evs ret h
  -- the event is a step of a connection
  have hstep : ∀ (es : List MEv) (hp hp' : List Conn), applyEvs P.mem hp es = some hp' → MEv.conn id cop io ∈ es →
      ∃ c c' : Conn, c.step P.mem cop = some (c', io) := by
    intro es
    induction es with
    | nil => intro _ _ _ h; simp at h
    | cons x xs ih =>
      intro hp hp' ha hmm
      simp only [applyEvs] at ha
      split at ha
      · cases ha
      · rename_i h1 hx
        rw [List.mem_cons] at hmm
        rcases hmm with rfl | hmm
        · simp only [applyEv] at hx
          split at hx
          · cases hx
          · rename_i c _
            split at hx
            · cases hx
            · rename_i c' io' hs
              split at hx
              · rename_i he; subst he; exact ⟨c, c', hs⟩
              · cases hx
        · exact ih h1 hp' ha hmm
  obtain ⟨c, c', hs⟩ := hstep evs _ _ hrep hm
  have htick : ∃ now hook count, cop = .tick now hook count := by
    cases cop with
    | tick now hook count => exact ⟨now, hook, count, rfl⟩
    | setData d => rw [(setData_step hs).2] at hcl; simp at hcl
    | recv d =>
      exfalso
      rcases recv_cases P.mem c c' d io (recv_step hs) with ⟨_, rfl⟩ | ⟨_, _, _, _, rfl, _⟩ <;> simp at hcl
  refine ⟨?_, htick, ?_⟩
  · obtain ⟨now, hook, count, rfl⟩ := htick
    cases op with
    | handle start t rounds ticks => exact ⟨start, t, rounds, ticks, rfl⟩
    | forwardOpen host p large e =>
      exfalso
      obtain ⟨st, data, _, _, hh⟩ := forwardOpen_cases P host p large e s s' evs ret h
      rcases hh with ⟨_, rfl, _⟩ | ⟨resp, _, _, r, mult, ep, socks, bs, _, _, _, _, hf, _, rfl, _⟩
      · simp at hm
      · have hb := findOrCreate_events _ _ _ _ _ hf
        simp only [List.cons_append, List.mem_cons, List.mem_append] at hm
        rcases hm with hm | hm | hm | hm
        · cases hm
        · obtain ⟨x, hx⟩ := hb _ hm; cases hx
        · cases hm
        · simp at hm
    | otherOpen inc mc p2p =>
      simp only [Mgr.step] at h
      split at h
      · cases h
      · cases h; simp at hm
    | forwardClose ptr reply =>
      simp only [Mgr.step, Mgr.forwardClose] at h
      repeat' split at h
      all_goals first | (cases h; simp at hm) | cases h
    | hasOpen => simp only [Mgr.step] at h; cases h; simp at hm
    | setData i d => simp only [Mgr.step] at h; split at h <;> cases h <;> simp at hm
    | lock i => simp only [Mgr.step] at h; split at h <;> cases h <;> simp at hm
    | release i => simp only [Mgr.step] at h; cases h; simp at hm
  · obtain ⟨now, hook, count, rfl⟩ := htick
    cases step_shape P s s' op evs ret h with
    | still _ hev _ => obtain ⟨_, _, _, he⟩ := hev _ hm; cases he
    | opened c _ hev _ =>
      obtain ⟨a, b, d, bs, rfl, hb⟩ := hev
      simp only [List.cons_append, List.mem_cons, List.mem_append] at hm
      rcases hm with hm | hm | hm | hm
      · cases hm
      · obtain ⟨x, hx⟩ := hb _ hm; cases hx
      · cases hm
      · simp at hm
    | handled _ hev _ =>
      rcases hev _ hm with ⟨_, he⟩ | ⟨_, _, _, he, _, hk⟩
      · cases he
      · cases he; exact hk
    | wrote _ _ hev _ _ => rw [hev] at hm; simp at hm

theorem ids_distinct {s : Mgr} (hi : Inv s) : s.table.Pairwise fun a b => a.2 ≠ b.2 := by
  refine List.Pairwise.imp_of_mem ?_ hi.sorted
  intro a b ha hb hlt heq
  have : a.1 = b.1 := hi.unique (id := b.2) (by rw [← heq]; exact ha) hb
  rw [this] at hlt
  exact absurd hlt (BitVec.lt_irrefl _)

theorem handle_removes (P : Plat) (s s' : Mgr) (hi : Inv s) (start : Nat) (t : Int) (rounds : List Round)
    (ticks : Nat → TickEnv) (evs : List MEv) (h : s.step P (.handle start t rounds ticks) = .ok s' evs .unit)
    (k : BitVec 16) (id : Nat) (hm : (k, id) ∈ s.table) :
    (k, id) ∉ s'.table ↔ ∃ cop io, MEv.conn id cop io ∈ evs ∧ IoEv.closed ∈ io := by
  obtain ⟨s1, pre, hsel, rfl, hnone, rfl⟩ := handle_parts P start t rounds ticks s s' evs h
  have q := (selectLoop_quiet P _ rounds start s).1 _ _ hsel
  obtain ⟨a1, a2, a3, a4⟩ := tickAll_detail ticks s1.table s1.heap (by rw [q.table]; exact ids_distinct hi)
  have hm1 : (k, id) ∈ s1.table := by rw [q.table]; exact hm
  simp only [List.mem_filter, Bool.not_eq_true', not_and, Bool.not_eq_false, List.contains_iff_mem]
  constructor
  · intro hh
    obtain ⟨id', op, io, h1, h2, h3⟩ := a4 k (hh hm1)
    have : id' = id := by
      have e1 := tblFind_of_mem hi.sorted (by rw [← q.table]; exact h1)
      have e2 := tblFind_of_mem hi.sorted hm
      rw [e1] at e2
      injection e2
    subst this
    exact ⟨op, io, List.mem_append.mpr (.inr h2), h3⟩
  · rintro ⟨cop, io, hin, hcl⟩ _
    rw [List.mem_append] at hin
    rcases hin with hin | hin
    · exfalso
      obtain ⟨_, ⟨_, _, _, hc⟩, _⟩ := C41_only_handle P s _ _ _ _ h id cop io (List.mem_append.mpr (.inl hin)) hcl
      subst hc
      have := (selectLoop_waits P _ rounds start s _ _ hsel).2.1 _ hin
      simp [MEv.isTick] at this
    · exact a3 k id hm1 ⟨cop, io, hin, hcl⟩ hnone

/-- C41. A call of `handleConnections` that returns normally removes from the table
exactly the connections whose close callback it ran. -/
theorem C41_closed_iff_removed (P : Plat) (inc : BitVec 16) (st : Statics) (s s' : Mgr) (ops : List MOp) (tr : MTrace)
    (hrun : (Mgr.new inc st).run P ops = some (s, tr)) (start : Nat) (t : Int) (rounds : List Round)
    (ticks : Nat → TickEnv) (evs : List MEv) (h : s.step P (.handle start t rounds ticks) = .ok s' evs .unit)
    (k : BitVec 16) (id : Nat) (hm : (k, id) ∈ s.table) :
    (k, id) ∉ s'.table ↔ ∃ cop io, MEv.conn id cop io ∈ evs ∧ IoEv.closed ∈ io :=
  handle_removes P s s' (inv_run P _ s ops tr (inv_new inc st) hrun) start t rounds ticks evs h k id hm

/-- A connection that exists and is not in the table stays out of it. -/
theorem gone_step (P : Plat) (s s' : Mgr) (op : MOp) (evs : List MEv) (ret : MRet)
    (h : s.step P op = .ok s' evs ret) (id : Nat) (hl : id < s.heap.length) (hg : ∀ k, (k, id) ∉ s.table) :
    (∀ k, (k, id) ∉ s'.table) ∧ id < s'.heap.length ∧
      ∀ d ∈ connTrace id evs, ∃ data, d = (.setData data, []) := by
  have hlen := replay_length _ _ _ _ (step_replay P s s' op evs ret h)
  refine ⟨?_, Nat.lt_of_lt_of_le hl hlen, ?_⟩
  · intro k hm
    cases step_shape P s s' op evs ret h with
    | still _ _ ht =>
      rcases ht with ht | ⟨x, ht⟩
      · rw [ht] at hm; exact hg k hm
      · rw [ht, tblErase, List.mem_filter] at hm; exact hg k hm.1
    | opened c _ _ ht =>
      rcases ht with ⟨_, _, ht⟩ | ⟨_, ht⟩
      · rw [ht] at hm; exact hg k hm
      · rw [ht, tblPut_mem] at hm
        rcases hm with hm | hm
        · injection hm with _ h2; omega
        · exact hg k hm
    | handled _ _ ht => obtain ⟨f, ht⟩ := ht; rw [ht, List.mem_filter] at hm; exact hg k hm.1
    | wrote _ _ _ _ ht => rw [ht] at hm; exact hg k hm
  · rintro ⟨cop, io⟩ hd
    rw [mem_connTrace] at hd
    cases step_shape P s s' op evs ret h with
    | still _ hev _ => obtain ⟨_, _, _, he⟩ := hev _ hd; cases he
    | opened c _ hev _ =>
      obtain ⟨a, b, e, bs, rfl, hb⟩ := hev
      simp only [List.cons_append, List.mem_cons, List.mem_append] at hd
      rcases hd with hm | hm | hm | hm
      · cases hm
      · obtain ⟨x, hx⟩ := hb _ hm; cases hx
      · cases hm
      · simp at hm
    | handled _ hev _ =>
      rcases hev _ hd with ⟨_, he⟩ | ⟨_, _, _, he, _, k, hk⟩
      · cases he
      · cases he; exact absurd hk (hg k)
    | wrote i data hev _ _ =>
      rw [hev] at hd
      simp only [List.mem_singleton, MEv.conn.injEq] at hd
      obtain ⟨_, rfl, rfl⟩ := hd
      exact ⟨data, rfl⟩

theorem gone_run (P : Plat) (s s' : Mgr) (ops : List MOp) (tr : MTrace)
    (h : s.run P ops = some (s', tr)) (id : Nat) (hl : id < s.heap.length) (hg : ∀ k, (k, id) ∉ s.table) :
    (∀ k, (k, id) ∉ s'.table) ∧ ∀ d ∈ connTrace id (allEvs tr), ∃ data, d = (.setData data, []) := by
  induction ops generalizing s tr with
  | nil =>
    simp only [Mgr.run, Option.some.injEq, Prod.mk.injEq] at h
    obtain ⟨rfl, rfl⟩ := h
    exact ⟨hg, by simp [allEvs, connTrace]⟩
  | cons op ops ih =>
    obtain ⟨s1, evs, ret, tr', h1, h2, rfl⟩ := mrun_cons h
    obtain ⟨g1, g2, g3⟩ := gone_step P s s1 op evs ret h1 id hl hg
    obtain ⟨i1, i2⟩ := ih s1 tr' h2 g2 g1
    refine ⟨i1, ?_⟩
    rw [allEvs_cons, connTrace_append]
    intro d hd
    rw [List.mem_append] at hd
    rcases hd with hd | hd
    · exact g3 d hd
    · exact i2 d hd

/-- C41. Once a connection that was opened is no longer in the table - because it
timed out, was closed by `forwardClose`, or never got in - no callback runs for it
and nothing is sent for it, ever: all that can still happen is that the user
writes data into it. -/
theorem C41_silent_after_removal (P : Plat) (inc : BitVec 16) (st : Statics) (s s' : Mgr) (ops ops' : List MOp)
    (tr tr' : MTrace) (h : (Mgr.new inc st).run P ops = some (s, tr)) (h' : s.run P ops' = some (s', tr')) (id : Nat)
    (c : Conn) (hc : MEv.created id c ∈ allEvs tr) (hg : ∀ k, (k, id) ∉ s.table) :
    (∀ k, (k, id) ∉ s'.table) ∧ ∀ cop io, MEv.conn id cop io ∈ allEvs tr' → io = [] ∧ ∃ data, cop = .setData data := by
  obtain ⟨c', hc', _⟩ := C51_isolated P inc st s ops tr h id c hc
  obtain ⟨g1, g2⟩ := gone_run P s s' ops' tr' h' id (List.getElem?_eq_some_iff.mp hc').1 hg
  refine ⟨g1, fun cop io hm => ?_⟩
  obtain ⟨data, hd⟩ := g2 _ (mem_connTrace.mpr hm)
  injection hd with h1 h2
  exact ⟨h2, data, h1⟩

/-- A connection's close callback runs at most once within one call. -/
theorem handle_closed_once (P : Plat) (s s' : Mgr) (hi : Inv s) (start : Nat) (t : Int) (rounds : List Round)
    (ticks : Nat → TickEnv) (evs : List MEv) (ret : MRet)
    (h : s.step P (.handle start t rounds ticks) = .ok s' evs ret) (id : Nat) :
    (connTrace id evs).countP (fun d => decide (IoEv.closed ∈ d.2)) ≤ 1 := by
  have hpre : ∀ pre : List MEv, (∀ e ∈ pre, MEv.isTick e = false) → (∀ e ∈ pre, e ∈ evs) →
      (connTrace id pre).countP (fun d => decide (IoEv.closed ∈ d.2)) = 0 := by
    intro pre hp hsub
    rw [List.countP_eq_zero]
    rintro ⟨cop, io⟩ hd
    rw [mem_connTrace] at hd
    simp only [decide_eq_true_eq]
    intro hcl
    obtain ⟨_, ⟨_, _, _, hc⟩, _⟩ := C41_only_handle P s s' _ evs ret h id cop io (hsub _ hd) hcl
    subst hc
    have := hp _ hd
    simp [MEv.isTick] at this
  have h' := h
  simp only [Mgr.step, Mgr.handle] at h
  split at h
  · cases h
  · split at h
    · cases h
    · rename_i s1 evs1 e hsel
      have q := (selectLoop_quiet P _ rounds start s).2 _ _ _ hsel
      injection h with _ h2 _
      subst h2
      have hq : ∀ e ∈ evs1, MEv.isTick e = false := by
        intro e he
        rcases q.only e he with ⟨_, rfl⟩ | ⟨_, _, _, rfl, _⟩ <;> rfl
      rw [hpre evs1 hq fun _ hx => hx]
      exact Nat.zero_le _
    · rename_i s1 evs1 hsel
      have q := (selectLoop_quiet P _ rounds start s).1 _ _ hsel
      have hq : ∀ e ∈ evs1, MEv.isTick e = false := by
        intro e he
        rcases q.only e he with ⟨_, rfl⟩ | ⟨_, _, _, rfl, _⟩ <;> rfl
      have hdet := (tickAll_detail ticks s1.table s1.heap (by rw [q.table]; exact ids_distinct hi)).2.1 id
      have key : evs = evs1 ++ (Mgr.tickAll ticks s1.table s1.heap).2.1 := by
        split at h
        · rename_i hta; injection h with _ h2 _; rw [hta, h2]
        · rename_i hta; injection h with _ h2 _; rw [hta, h2]
      rw [key, connTrace_append, List.countP_append,
        hpre evs1 hq (fun e he => by rw [key]; exact List.mem_append.mpr (.inl he)), Nat.zero_add]
      exact Nat.le_trans (List.countP_le_length) hdet

/-- With whole sends and listeners that return, `handleConnections` does not throw out of its ticks. -/
theorem handle_whole (P : Plat) (s s' : Mgr) (start : Nat) (t : Int) (rounds : List Round)
    (ticks : Nat → TickEnv) (evs : List MEv) (ret : MRet)
    (h : s.step P (.handle start t rounds ticks) = .ok s' evs ret)
    (hw : ∀ id now hook count io, MEv.conn id (.tick now hook count) io ∈ evs →
      ∀ to bytes, IoEv.sent to bytes ∈ io → (count = -1 ∨ count = bytes.length) ∧ bytes.length < 2 ^ 63)
    (hth : ∀ id now hook count io, MEv.conn id (.tick now hook count) io ∈ evs → io ≠ [] → hook.throws = none)
    (hne : ∃ e ∈ evs, MEv.isTick e = true) : ret = .unit := by
  simp only [Mgr.step, Mgr.handle] at h
  split at h
  · cases h
  · split at h
    · cases h
    · rename_i s1 evs1 e hsel
      exfalso
      injection h with _ h2 _
      subst h2
      have q := (selectLoop_quiet P _ rounds start s).2 _ _ _ hsel
      obtain ⟨e, he, ht⟩ := hne
      rcases q.only e he with ⟨_, rfl⟩ | ⟨_, _, _, rfl, _⟩ <;> simp [MEv.isTick] at ht
    · rename_i s1 evs1 hsel
      split at h
      · injection h with _ _ h3; exact h3.symm
      · rename_i heap evs2 keys e hta
        exfalso
        injection h with _ h2 _
        have := tickAll_no_throw ticks s1.table s1.heap
          (by
            rw [hta]; intro id n hk c io hm to bytes hs
            exact (hw id n hk c io (by rw [← h2]; exact List.mem_append.mpr (.inr hm)) to bytes hs).1)
          (by
            rw [hta]; intro id n hk c io hm to bytes hs
            have := (hw id n hk c io (by rw [← h2]; exact List.mem_append.mpr (.inr hm)) to bytes hs).2
            omega)
          (by
            rw [hta]; intro id n hk c io hm
            exact hth id n hk c io (by rw [← h2]; exact List.mem_append.mpr (.inr hm)))
        rw [hta] at this
        cases this

/-- C41. Over any history in which the operating system never sends a part of a
datagram and no send or close listener throws, the close callback of a connection runs at most once. -/
theorem C41_at_most_once (P : Plat) (inc : BitVec 16) (st : Statics) (s' : Mgr) (ops : List MOp) (tr : MTrace)
    (h : (Mgr.new inc st).run P ops = some (s', tr)) (hw : SendsWhole tr) (hth : ListenersReturn tr) (id : Nat) :
    (connTrace id (allEvs tr)).countP (fun d => decide (IoEv.closed ∈ d.2)) ≤ 1 := by
  have gen : ∀ (ops : List MOp) (s : Mgr) (tr : MTrace), Inv s → s.run P ops = some (s', tr) → SendsWhole tr → ListenersReturn tr →
      (connTrace id (allEvs tr)).countP (fun d => decide (IoEv.closed ∈ d.2)) ≤ 1 := by
    intro ops
    induction ops with
    | nil =>
      intro s tr _ h _ _
      simp only [Mgr.run, Option.some.injEq, Prod.mk.injEq] at h
      rw [← h.2]
      simp [allEvs, connTrace]
    | cons op ops ih =>
      intro s tr hi h hw hth
      obtain ⟨s1, evs, ret, tr', h1, h2, rfl⟩ := mrun_cons h
      rw [allEvs_cons, connTrace_append, List.countP_append]
      have hw' : SendsWhole tr' := fun i n hk c io hm => hw i n hk c io (by rw [allEvs_cons]; exact List.mem_append.mpr (.inr hm))
      have hth' : ListenersReturn tr' := fun i n hk c io hm => hth i n hk c io (by rw [allEvs_cons]; exact List.mem_append.mpr (.inr hm))
      have hrest := ih s1 tr' (inv_step P s s1 op evs ret hi h1) h2 hw' hth'
      by_cases hz : (connTrace id evs).countP (fun d => decide (IoEv.closed ∈ d.2)) = 0
      · rw [hz]; omega
      · have hpos : 0 < (connTrace id evs).countP (fun d => decide (IoEv.closed ∈ d.2)) := by omega
        rw [List.countP_pos_iff] at hpos
        obtain ⟨⟨cop, io⟩, hd, hcl⟩ := hpos
        rw [mem_connTrace] at hd
        simp only [decide_eq_true_eq] at hcl
        obtain ⟨⟨start, t, rounds, ticks, rfl⟩, ⟨now, hook, count, rfl⟩, k, hk⟩ :=
          C41_only_handle P s s1 op evs ret h1 id cop io hd hcl
        have hret := handle_whole P s s1 start t rounds ticks evs ret h1
          (fun i n hk c io hm => hw i n hk c io (by rw [allEvs_cons]; exact List.mem_append.mpr (.inl hm)))
          (fun i n hk c io hm => hth i n hk c io (by rw [allEvs_cons]; exact List.mem_append.mpr (.inl hm)))
          ⟨_, hd, rfl⟩
        subst hret
        have honce := handle_closed_once P s s1 hi start t rounds ticks evs .unit h1 id
        -- it left the table
        have hgone : ∀ k', (k', id) ∉ s1.table := by
          intro k' hm
          have hi1 := inv_step P s s1 _ evs .unit hi h1
          obtain ⟨sd, pre, hsel, rfl, hnone, rfl⟩ := handle_parts P start t rounds ticks s s1 evs h1
          have q := (selectLoop_quiet P _ rounds start s).1 _ _ hsel
          obtain ⟨_, _, a3, _⟩ := tickAll_detail ticks sd.table sd.heap (by rw [q.table]; exact ids_distinct hi)
          simp only [List.mem_filter, Bool.not_eq_true'] at hm
          rw [List.mem_append] at hd
          rcases hd with hd | hd
          · have := (selectLoop_waits P _ rounds start s _ _ hsel).2.1 _ hd
            simp [MEv.isTick] at this
          · have := a3 k' id hm.1 ⟨_, io, hd, hcl⟩ hnone
            rw [← List.contains_iff_mem, hm.2] at this
            cases this
        have hlt : id < s1.heap.length := by
          obtain ⟨c, hc, _⟩ := hi.obj k id hk
          exact Nat.lt_of_lt_of_le (List.getElem?_eq_some_iff.mp hc).1
            (replay_length _ _ _ _ (step_replay P s s1 _ evs .unit h1))
        have hquiet := (gone_run P s1 s' ops tr' h2 id hlt hgone).2
        have hz' : (connTrace id (allEvs tr')).countP (fun d => decide (IoEv.closed ∈ d.2)) = 0 := by
          rw [List.countP_eq_zero]
          intro d hd
          obtain ⟨data, rfl⟩ := hquiet d hd
          simp
        rw [hz']
        exact honce
  exact gen ops _ tr (inv_new inc st) h hw hth

end Verif.Props
