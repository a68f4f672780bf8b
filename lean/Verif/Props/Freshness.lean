import Verif.Spec.Freshness
import Verif.Props.HandleTime
import Verif.Props.LivenessSample

/-!
# C116: data that are lost, repeated or out of order
-/

namespace Verif.Props

open Verif Verif.Spec

/-! ## What one connection hears -/

/-- The data handed to a connection object, in order. -/
def recvsOf : List ConnOp → List (List Byte)
  | [] => []
  | .recv d :: ops => d :: recvsOf ops
  | _ :: ops => recvsOf ops

def heardOf (t : IoTrace) : List (BitVec 32 × BitVec 16 × List Byte) :=
  t.flatMap fun e => e.2.filterMap fun
    | .received h n d => some (h, n, d)
    | _ => none

theorem heard_eq (id : Nat) (tr : MTrace) : heard id tr = heardOf (connTrace id (allEvs tr)) := rfl

/-- The payload of number n. -/
def payloadOf (T : Producer) (c : Conn) (n : Nat) : List Byte :=
  ioPayloadHeaderFirst (if counted c then some (n % 2 ^ 16) else none)
    (if c.t2oRealTimeFormat then some (T.header n).toNat else none) (T.value n)

theorem counted_config {c d : Conn} (h : SameConfig c d) : counted d = counted c := by simp [counted, h.trigger]

theorem payload_config {c d : Conn} (h : SameConfig c d) (T : Producer) (n : Nat) : payloadOf T d n = payloadOf T c n := by
  simp only [payloadOf, counted_config h, h.t2oRt]

theorem frame_config {c d : Conn} (h : SameConfig c d) (T : Producer) (n : Nat) : T.frame d n = T.frame c n := by
  simp only [Producer.frame, counted_config h, h.t2oRt, h.t2oId]

theorem given_config {c d : Conn} (h : SameConfig c d) (T : Producer) (n : Nat) : T.given d n = T.given c n := by
  simp only [Producer.given, counted_config h, h.t2oRt]

theorem producerFrame_length (T : Producer) (c : Conn) (n : Nat) : (T.frame c n).length = (payloadOf T c n).length + 18 := by
  simp [Producer.frame, payloadOf, ioFrame, cpf, cpfItem, le_length]; omega

/-- One payload is handed over as it was sent. -/
theorem payload_heard (m : Mem) (c : Conn) (T : Producer) (n : Nat)
    (h : c.t2oFixedSize = true → (T.value n).length = c.t2oDataSize) :
    c.notifyReceiveData m (payloadOf T c n) = .ok ({ c with connectionTimeoutCount := 0 },
      [.received (T.given c n).1 (T.given c n).2.1 (T.given c n).2.2]) := by
  have := C36_decode m c (T.header n) (BitVec.ofNat 16 n) (T.value n) (by
    cases hf : c.t2oFixedSize
    · exact .inl rfl
    · exact .inr (h hf))
  have e : hasCount c.transportTypeTrigger = counted c := rfl
  rw [e] at this
  simpa [opt, payloadOf, Producer.given] using this

theorem conn_heard (m : Mem) (T : Producer) (c c' : Conn) (ops : List ConnOp) (t : IoTrace) (h : c.run m ops = some (c', t))
    (hT : ∀ n, c.t2oFixedSize = true → (T.value n).length = c.t2oDataSize)
    (ns : List Nat) (hn : recvsOf ops = ns.map (payloadOf T c)) : heardOf t = ns.map (T.given c) := by
  induction ops generalizing c t ns with
  | nil =>
    simp only [Conn.run, Option.some.injEq, Prod.mk.injEq] at h
    obtain ⟨_, rfl⟩ := h
    cases ns with
    | nil => rfl
    | cons n ns => simp [recvsOf] at hn
  | cons op ops ih =>
    obtain ⟨d, evs, t', h1, h2, rfl⟩ := run_cons h
    have hs := step_config m c d op evs h1
    have hT' : ∀ n, d.t2oFixedSize = true → (T.value n).length = d.t2oDataSize := by
      intro n; rw [hs.t2oFixed, hs.t2oSize]; exact hT n
    have conv : ∀ l : List Nat, l.map (payloadOf T c) = l.map (payloadOf T d) := by
      intro l; exact List.map_congr_left fun n _ => (payload_config hs T n).symm
    have conv' : ∀ l : List Nat, l.map (T.given c) = l.map (T.given d) := by
      intro l; exact List.map_congr_left fun n _ => (given_config hs T n).symm
    cases op with
    | tick now hook count =>
      obtain ⟨ret, ht⟩ := tick_step h1
      have hq : heardOf ((ConnOp.tick now hook count, evs) :: t') = heardOf t' := by
        simp only [heardOf, List.flatMap_cons]
        suffices hh : evs.filterMap (fun | IoEv.received h n d => some (h, n, d) | _ => none) = [] by rw [hh]; rfl
        rw [List.filterMap_eq_nil_iff]
        intro e he
        cases ht with
        | dead _ => simp at he; subst he; rfl
        | idle _ _ => simp at he
        | prod _ _ _ _ hev =>
          rcases hev with ⟨rfl, _⟩ | ⟨_, rfl, _⟩ | ⟨_, rfl, _⟩ <;> simp at he
          · subst he; rfl
          · subst he; rfl
          · rcases he with rfl | rfl <;> rfl
      rw [hq, conv']
      exact ih d t' h2 hT' ns (by rw [← conv]; exact hn)
    | setData data =>
      obtain ⟨_, rfl⟩ := setData_step h1
      rw [conv']
      exact ih d t' h2 hT' ns (by rw [← conv]; exact hn)
    | recv data =>
      cases ns with
      | nil => simp [recvsOf] at hn
      | cons n ns =>
        simp only [recvsOf, List.map_cons, List.cons.injEq] at hn
        obtain ⟨rfl, hn⟩ := hn
        have h3 := recv_step h1
        rw [payload_heard m c T n (hT n)] at h3
        injection h3 with h3
        injection h3 with _ h4
        subst h4
        have := ih d t' h2 hT' ns (by rw [← conv]; exact hn)
        rw [List.map_cons, conv', ← this]
        rfl

/-! ## Which datagrams a connection is given -/

theorem recvsOf_append (a b : List ConnOp) : recvsOf (a ++ b) = recvsOf a ++ recvsOf b := by
  induction a with
  | nil => rfl
  | cons x xs ih => cases x <;> simp [recvsOf, ih]

theorem deliveries_recvs (id : Nat) (evs : List MEv) :
    recvsOf ((connTrace id evs).map Prod.fst) = ((deliveries evs).filter fun x => x.1 = id).map Prod.snd := by
  induction evs with
  | nil => rfl
  | cons e es ih =>
    cases e with
    | conn i op io =>
      cases op <;> by_cases hi : i = id <;> simp [connTrace, deliveries, hi, recvsOf, ih]
    | _ => simpa [connTrace, deliveries] using ih

/-- All readings of a datagram as a common packet have the same items. -/
theorem accepts_same {d : List Byte} {xs ys : List (Nat × List Byte)} (hx : CpfAccepts (asReceived d) xs)
    (hy : CpfAccepts (asReceived d) ys) : xs.map (fun i => i.2) = ys.map fun i => i.2 := by
  have e1 := accepts_expand hx Mem.strict
  rw [accepts_expand hy Mem.strict] at e1
  injection e1 with e1
  have e2 := congrArg (List.map CommonPacketItem.data) e1
  simpa [List.map_map, Function.comp_def, CommonPacketItem.mk'] using e2.symm

theorem frame_parts (T : Producer) (c : Conn) (n : Nat) (h : (T.frame c n).length ≤ 8192) :
    CpfAccepts (asReceived (T.frame c n))
      [(0x8002, le 4 c.t2oNetworkConnectionId.toNat ++ le 4 (n % 2 ^ 32)), (0xB1, payloadOf T c n)] := by
  rw [producerFrame_length] at h
  exact frame_accepts _ _ _ h

theorem le4_field (n : Nat) (h : n < 2 ^ 32) (tail : List Byte) : field (le 4 n ++ tail) 0 4 = n := by
  simp [field, le, ofLe]
  omega

/-- The part of the routing rule that concerns one connection. -/
theorem routes_own (P : Plat) (inc : BitVec 16) (st : Statics) (s : Mgr) (ops : List MOp) (tr : MTrace)
    (hrun : (Mgr.new inc st).run P ops = some (s, tr)) (k : BitVec 16) (id : Nat) (hm : (k, id) ∈ s.table) (c : Conn)
    (hc : s.heap[id]? = some c) (T : Producer) (hT : ∀ n, (T.frame c n).length ≤ 8192) (xs : List Came)
    (hx : ∀ d, Came.other d ∈ xs → Foreign k d) (out : List (Nat × List Byte))
    (hr : Routes s.table (xs.map (Came.recv T c)) out) :
    (out.filter fun x => x.1 = id).map Prod.snd = (owns xs).map (payloadOf T c) := by
  have hi := inv_run P _ s ops tr (inv_new inc st) hrun
  induction xs generalizing out with
  | nil => cases hr; rfl
  | cons x xs ih =>
    have hx' : ∀ d, Came.other d ∈ xs → Foreign k d := fun d hd => hx d (List.mem_cons_of_mem _ hd)
    cases x with
    | own n =>
      obtain ⟨out', rfl, hr'⟩ := C34_right_connection P inc st s ops tr hrun k id hm c hc _ _ _ _ _ _
        (frame_parts T c n (hT n)) (by simp [le_length])
        (le4_field _ c.t2oNetworkConnectionId.isLt _) _ _ hr
      simpa [owns] using ih hx' out' hr'
    | other d =>
      obtain ⟨t0, addr, rest, ha, hl, hf⟩ := hx d List.mem_cons_self
      cases hr with
      | hit h1 h2 h3 h4 h5 =>
        rename_i k' id' _
        have e := accepts_same h1 ha
        simp only [List.map_cons, List.cons.injEq] at e
        obtain ⟨rfl, _⟩ := e
        have hne : id' ≠ id := by
          rintro rfl
          obtain ⟨a, ha1, ha2⟩ := hi.obj k' id' h3
          obtain ⟨b, hb1, hb2⟩ := hi.obj k id' hm
          rw [ha1] at hb1
          injection hb1 with hb1
          subst hb1
          exact hf (by rw [hb2, ← ha2, h4])
        simpa [owns, hne] using ih hx' _ h5
      | unknown h1 h2 h3 h4 => simpa [owns] using ih hx' _ h4

theorem arrivedIn_cons (e : MOp × List MEv × MRet) (tr : MTrace) :
    arrivedIn (e :: tr) = (match e.1 with | .handle _ _ rounds _ => arrivals rounds | _ => []) ++ arrivedIn tr := rfl

theorem owns_append (a b : List Came) : owns (a ++ b) = owns a ++ owns b := by
  induction a with
  | nil => rfl
  | cons x xs ih => cases x <;> simp [owns, ih]

/-- An idle call delivers nothing. -/
theorem idle_deliveries (P : Plat) (s s' : Mgr) (op : MOp) (evs : List MEv) (ret : MRet) (h : s.step P op = .ok s' evs ret)
    (ho : isIdle op = true) : deliveries evs = [] := by
  cases op with
  | hasOpen => simp only [Mgr.step] at h; cases h; rfl
  | setData id data => simp only [Mgr.step] at h; split at h <;> cases h <;> rfl
  | lock id => simp only [Mgr.step] at h; split at h <;> cases h <;> rfl
  | release id => simp only [Mgr.step] at h; cases h; rfl
  | otherOpen a b c => simp only [Mgr.step] at h; split at h <;> cases h; rfl
  | _ => simp [isIdle] at ho

/-- The same for a stretch of calls. -/
theorem stretch_own (P : Plat) (hP : P.mem = Mem.strict) (inc : BitVec 16) (st : Statics) (s s' : Mgr)
    (ops ops' : List MOp) (tr tr' : MTrace) (hrun : (Mgr.new inc st).run P ops = some (s, tr))
    (h' : s.run P ops' = some (s', tr')) (hs : Serves tr') (k : BitVec 16) (id : Nat) (hm : (k, id) ∈ s'.table) (c : Conn)
    (hc : s.heap[id]? = some c) (T : Producer) (hT : ∀ n, (T.frame c n).length ≤ 8192) (xs : List Came)
    (hx : ∀ d, Came.other d ∈ xs → Foreign k d) (ha : arrivedIn tr' = xs.map (Came.recv T c)) :
    ((deliveries (allEvs tr')).filter fun x => x.1 = id).map Prod.snd = (owns xs).map (payloadOf T c) := by
  induction ops' generalizing s ops tr tr' xs c with
  | nil =>
    simp only [Mgr.run, Option.some.injEq, Prod.mk.injEq] at h'
    obtain ⟨rfl, rfl⟩ := h'
    have : xs = [] := by simpa [arrivedIn] using ha.symm
    subst this
    rfl
  | cons op ops' ih =>
    have hmem := handles_shrink P s s' _ tr' h' (serves_ops P s s' _ tr' h' hs) _ hm
    obtain ⟨s1, evs, ret, tr1, h1, h2, rfl⟩ := mrun_cons h'
    have hs1 : Serves tr1 := fun e he => hs e (List.mem_cons_of_mem _ he)
    have hrun1 : (Mgr.new inc st).run P (ops ++ [op]) = some (s1, tr ++ [(op, evs, ret)]) :=
      mrun_append P _ s s1 ops [op] tr _ hrun (by simp [Mgr.run, h1])
    obtain ⟨c1, hc1, hcfg⟩ := replay_config (step_replay P s s1 op evs ret h1) hc
    rw [arrivedIn_cons] at ha
    obtain ⟨x1, x2, rfl, e1, e2⟩ := List.map_eq_append_iff.mp ha.symm
    have hrec : ∀ l : List Came, l.map (Came.recv T c) = l.map (Came.recv T c1) := fun l =>
      List.map_congr_left fun x _ => by cases x <;> simp [Came.recv, frame_config hcfg]
    have hpay : ∀ l : List Nat, l.map (payloadOf T c) = l.map (payloadOf T c1) := fun l =>
      List.map_congr_left fun n _ => (payload_config hcfg T n).symm
    have rest := ih s1 (ops ++ [op]) (tr ++ [(op, evs, ret)]) tr1 hrun1 h2 hs1 c1 hc1
      (fun n => by rw [frame_config hcfg]; exact hT n) x2
      (fun d hd => hx d (List.mem_append.mpr (.inr hd))) (by rw [← e2, hrec])
    rw [allEvs_cons, deliveries_append, List.filter_append, List.map_append, rest, owns_append, List.map_append, ← hpay]
    congr 1
    have hd := hs _ List.mem_cons_self
    simp only at hd
    rcases hd with ⟨hh, hu⟩ | hh
    · obtain ⟨start, t, rounds, ticks, rfl⟩ := handle_op hh
      have := (C34_routes P hP inc st s s1 ops tr hrun start t rounds ticks evs ret h1).1 hu
      simp only at e1
      rw [← e1] at this
      exact routes_own P inc st s ops tr hrun k id hmem c hc T hT x1
        (fun d hd => hx d (List.mem_append.mpr (.inl hd))) _ this
    · have : x1 = [] := by
        simp only at e1
        clear rest ih h1 ha hrun1 h' hs
        cases op <;> first | (simp [isIdle] at hh; done) | simpa using e1
      subst this
      rw [idle_deliveries P s s1 op evs ret h1 hh]
      rfl

/-- C116. While a connection is served and stays open, its receive listener is called once for each datagram of the
target that arrives, in the order of arrival, with what the target sent in it: nothing is held back, put in order or
dropped, whatever the numbers are. -/
theorem C116_as_arrived (P : Plat) (hP : P.mem = Mem.strict) (inc : BitVec 16) (st : Statics) (s s' : Mgr)
    (ops ops' : List MOp) (tr tr' : MTrace) (hrun : (Mgr.new inc st).run P ops = some (s, tr))
    (h' : s.run P ops' = some (s', tr')) (hs : Serves tr') (k : BitVec 16) (id : Nat) (hm : (k, id) ∈ s'.table)
    (c : Conn) (hc : MEv.created id c ∈ allEvs tr) (T : Producer) (hT : T.Suits c) (xs : List Came)
    (hx : ∀ d, Came.other d ∈ xs → Foreign k d) (ha : arrivedIn tr' = xs.map (Came.recv T c)) :
    heard id tr' = (owns xs).map (T.given c) := by
  obtain ⟨d, hd, hrn⟩ := C51_isolated P inc st s ops tr hrun id c hc
  have hcfg := run_config P.mem c d _ _ hrn
  obtain ⟨d', _, hrd⟩ := replay_project P.mem s.heap s'.heap _ (run_replay P s s' ops' tr' h') id d hd
  have hown := stretch_own P hP inc st s s' ops ops' tr tr' hrun h' hs k id hm d hd T
    (fun n => by rw [frame_config hcfg]; exact (hT n).2) xs hx (by
      rw [ha]
      exact List.map_congr_left fun x _ => by cases x <;> simp [Came.recv, frame_config hcfg])
  rw [← deliveries_recvs] at hown
  have := conn_heard P.mem T d d' _ _ hrd (fun n => by rw [hcfg.t2oFixed, hcfg.t2oSize]; exact (hT n).1) _ hown
  rw [heard_eq, this]
  exact List.map_congr_left fun n _ => given_config hcfg T n

/-! ## The 32-bit sequence number -/

theorem deliver_renumbered (P : Plat) (s : Mgr) (a b : Arrival) (h : Renumbered a b) :
    s.deliver P a.recv = s.deliver P b.recv ∧ a.throws = b.throws := by
  cases h with
  | same => exact ⟨rfl, rfl⟩
  | other cid q q' payload throws h =>
    refine ⟨?_, rfl⟩
    have h1 := accepts_expand (frame_accepts cid q payload h) P.mem
    have h2 := accepts_expand (frame_accepts cid q' payload h) P.mem
    obtain ⟨v, b, u1, f1, _⟩ := u32_head P.mem (le 4 cid ++ le 4 q) (by simp [le_length])
    obtain ⟨v', b', u2, f2, _⟩ := u32_head P.mem (le 4 cid ++ le 4 q') (by simp [le_length])
    have hv : v' = v := BitVec.eq_of_toNat_eq (by rw [f1, f2]; simp [field, le])
    subst hv
    simp only [Mgr.deliver, udpReceive_eq, h1, h2, List.map_cons, List.map_nil, List.getElem?_cons_zero,
      CommonPacketItem.mk', u1, u2, List.getElem?_cons_succ]

theorem deliverAll_renumbered (P : Plat) (as bs : List Arrival) (h : RenumberedAll as bs) (s : Mgr) :
    s.deliverAll P as = s.deliverAll P bs := by
  induction h generalizing s with
  | nil => rfl
  | cons h _ ih =>
    obtain ⟨h1, h2⟩ := deliver_renumbered P s _ _ h
    simp only [Mgr.deliverAll, h1, h2, ih]

theorem selectLoop_renumbered (P : Plat) (stop now : Int) (as bs : List Round) (h : RenumberedRounds as bs) (s : Mgr) :
    s.selectLoop P stop now as = s.selectLoop P stop now bs := by
  induction h generalizing s now with
  | nil => rfl
  | fail code h ih => rfl
  | ready n hs h ih => simp only [Mgr.selectLoop, deliverAll_renumbered P _ _ hs, ih]

/-- C116. The 32-bit sequence numbers make no difference: in every state, a call that receives the same datagrams with
other numbers does the same. -/
theorem C116_number_ignored (P : Plat) (s : Mgr) (start : Nat) (timeoutMs : Int) (rounds rounds' : List Round)
    (ticks : Nat → TickEnv) (h : RenumberedRounds rounds rounds') :
    s.step P (.handle start timeoutMs rounds ticks) = s.step P (.handle start timeoutMs rounds' ticks) := by
  simp only [Mgr.step, Mgr.handle, selectLoop_renumbered P _ _ _ _ h]

/-! ## A listener that looks at the sequence count -/

theorem newer_iff (w : Nat) (hw : w = 2 ^ 15) (top n : Nat) (h1 : n < top + w) (h2 : top ≤ n + w) :
    newer (BitVec.ofNat 16 n) (BitVec.ofNat 16 top) = decide (top < n) := by
  subst hw
  have e : (BitVec.ofNat 16 n - BitVec.ofNat 16 top).toNat = (n + (65536 - top % 65536)) % 65536 := by
    simp only [BitVec.toNat_sub, BitVec.toNat_ofNat]; omega
  rw [newer, e]
  by_cases h : top < n
  · simp [h]; omega
  · simp [h]; omega

theorem keep_records (T : Producer) (c : Conn) (hc : counted c = true) (top : Nat) (ns : List Nat)
    (h : Displaced (2 ^ 15) top ns) :
    keepNewer (BitVec.ofNat 16 top) (ns.map (T.given c)) = (records top ns).map (T.given c) := by
  induction ns generalizing top with
  | nil => rfl
  | cons n ns ih =>
    obtain ⟨h1, h2, h3⟩ := h
    have e : (T.given c n).2.1 = BitVec.ofNat 16 n := by simp [Producer.given, hc]
    simp only [List.map_cons, keepNewer, e, newer_iff _ rfl top n h1 h2, records]
    by_cases hlt : top < n
    · rw [Nat.max_eq_right (by omega)] at h3
      simp [hlt, ih n h3]
    · rw [Nat.max_eq_left (by omega)] at h3
      simp [hlt, ih top h3]

/-- The numbers kept are increasing, and none is older than one that came before. -/
theorem records_increase (top : Nat) (ns : List Nat) :
    (records top ns).Pairwise (· < ·) ∧ ∀ n ∈ records top ns, top < n ∧ n ∈ ns := by
  induction ns generalizing top with
  | nil => simp [records]
  | cons n ns ih =>
    unfold records
    split
    · rename_i h
      obtain ⟨a, b⟩ := ih n
      refine ⟨List.pairwise_cons.mpr ⟨fun m hm => (b m hm).1, a⟩, ?_⟩
      intro m hm
      rw [List.mem_cons] at hm
      rcases hm with rfl | hm
      · exact ⟨h, List.mem_cons_self⟩
      · exact ⟨Nat.lt_trans h (b m hm).1, List.mem_cons_of_mem _ (b m hm).2⟩
    · obtain ⟨a, b⟩ := ih top
      exact ⟨a, fun m hm => ⟨(b m hm).1, List.mem_cons_of_mem _ (b m hm).2⟩⟩

theorem records_newest' (top : Nat) (ns : List Nat) :
    top ≤ (records top ns).getLastD top ∧ ∀ n ∈ ns, n ≤ (records top ns).getLastD top := by
  induction ns generalizing top with
  | nil => simp [records]
  | cons n ns ih =>
    unfold records
    split
    · rename_i h
      rw [List.getLastD_cons]
      obtain ⟨a, b⟩ := ih n
      refine ⟨by omega, fun m hm => ?_⟩
      rw [List.mem_cons] at hm
      rcases hm with rfl | hm
      · exact a
      · exact b m hm
    · rename_i h
      obtain ⟨a, b⟩ := ih top
      refine ⟨a, fun m hm => ?_⟩
      rw [List.mem_cons] at hm
      rcases hm with rfl | hm
      · omega
      · exact b m hm

theorem records_newest (top : Nat) (ns : List Nat) : ∀ n ∈ ns, n ≤ (records top ns).getLastD top :=
  (records_newest' top ns).2

/-- C116. A listener can make up for this if the connection has a sequence count: if every number is less than 2^15
from the newest before it, dropping what is not newer than the last kept leaves exactly the data that were the newest
when they came, each once, in the order they were sent. -/
theorem C116_filter (P : Plat) (hP : P.mem = Mem.strict) (inc : BitVec 16) (st : Statics) (s s' : Mgr)
    (ops ops' : List MOp) (tr tr' : MTrace) (hrun : (Mgr.new inc st).run P ops = some (s, tr))
    (h' : s.run P ops' = some (s', tr')) (hs : Serves tr') (k : BitVec 16) (id : Nat) (hm : (k, id) ∈ s'.table)
    (c : Conn) (hc : MEv.created id c ∈ allEvs tr) (T : Producer) (hT : T.Suits c) (xs : List Came)
    (hx : ∀ d, Came.other d ∈ xs → Foreign k d) (ha : arrivedIn tr' = xs.map (Came.recv T c))
    (hcount : counted c = true) (last : Nat) (hd : Displaced (2 ^ 15) last (owns xs)) :
    keepNewer (BitVec.ofNat 16 last) (heard id tr') = (records last (owns xs)).map (T.given c) ∧
    (records last (owns xs)).Pairwise (· < ·) ∧
    ∀ n ∈ owns xs, n ≤ (records last (owns xs)).getLastD last := by
  rw [C116_as_arrived P hP inc st s s' ops ops' tr tr' hrun h' hs k id hm c hc T hT xs hx ha]
  exact ⟨keep_records T c hcount last _ hd, (records_increase last _).1, records_newest last _⟩

/-- C116 violated without the bound: when 2^15 numbers are missing, the newest data are dropped; and data that are
2^15 + 1 numbers old are taken for new. -/
theorem C116_filter_violated (T : Producer) (c : Conn) (hc : counted c = true) (n : Nat) :
    keepNewer (BitVec.ofNat 16 n) [T.given c (n + 2 ^ 15)] = [] ∧
    keepNewer (BitVec.ofNat 16 (n + 2 ^ 15 + 1)) [T.given c n] = [T.given c n] := by
  have e : ∀ m, (T.given c m).2.1 = BitVec.ofNat 16 m := fun m => by simp [Producer.given, hc]
  have d1 : (BitVec.ofNat 16 (n + 2 ^ 15) - BitVec.ofNat 16 n).toNat = 2 ^ 15 := by
    simp only [BitVec.toNat_sub, BitVec.toNat_ofNat]; omega
  have d2 : (BitVec.ofNat 16 n - BitVec.ofNat 16 (n + 2 ^ 15 + 1)).toNat = 2 ^ 15 - 1 := by
    simp only [BitVec.toNat_sub, BitVec.toNat_ofNat]; omega
  constructor
  · simp [keepNewer, e, newer, d1]
  · simp [keepNewer, e, newer, d2]

/-! ## Replays -/

/-- One call that receives the datagram again. -/
theorem replay_call (P : Plat) (s : Mgr) (hsock : s.sockets ≠ []) (k : BitVec 16) (id : Nat) (ht : s.table = [(k, id)])
    (c : Conn) (hh : s.heap[id]? = some c) (hk : k = c.t2oNetworkConnectionId.setWidth 16) (T : Producer) (hT : T.Suits c)
    (n p : Nat) (timeoutMs : Int) (data : List Byte) (hdata : data.length + 6 < 65536)
    (hp : p / 1000000 * 1000 ≤ (c.connectionTimeoutMultiplier.setWidth 32 * c.t2oAPI).toNat) :
    ∃ s1 evs, s.step P (.handle c.lastHandleTime timeoutMs [.ready ⟨.dgram (T.frame c n), none⟩ [] (c.lastHandleTime + p)]
        (fun _ => ⟨c.lastHandleTime + p, { left := some data }, -1⟩)) = .ok s1 evs .unit ∧
      s1.sockets = s.sockets ∧ s1.table = s.table ∧
      (∃ c1, s1.heap[id]? = some c1 ∧ SameConfig c c1 ∧ c1.lastHandleTime = c.lastHandleTime + p) ∧
      heardOf (connTrace id evs) = [T.given c n] ∧ ∀ e ∈ connTrace id evs, IoEv.closed ∉ e.2 := by
  have hlen : id < s.heap.length := (List.getElem?_eq_some_iff.mp hh).1
  obtain ⟨v, b, u1, _, f2⟩ := u32_head P.mem (le 4 c.t2oNetworkConnectionId.toNat ++ le 4 (n % 2 ^ 32)) (by simp [le_length])
  have hkv : v.setWidth 16 = k := by
    apply BitVec.eq_of_toNat_eq
    rw [f2, le4_field _ c.t2oNetworkConnectionId.isLt, hk]
    simp
  have hd : s.deliver P (.dgram (T.frame c n)) = .ok ({ s with heap := s.heap.set id { c with connectionTimeoutCount := 0 } },
      [.conn id (.recv (payloadOf T c n)) [.received (T.given c n).1 (T.given c n).2.1 (T.given c n).2.2]]) := by
    have hx := accepts_expand (frame_parts T c n (hT n).2) P.mem
    simp only [Mgr.deliver, udpReceive_eq, hx, List.map_cons, List.map_nil, List.getElem?_cons_zero,
      CommonPacketItem.mk', u1, List.getElem?_cons_succ, hkv, ht, tblFind, if_true, hh, payload_heard P.mem c T n (hT n).1]
  generalize hc0 : ({ c with connectionTimeoutCount := 0 } : Conn) = c0 at hd
  have hcfg0 : SameConfig c c0 := by subst hc0; constructor <;> rfl
  have hlast0 : c0.lastHandleTime = c.lastHandleTime := by subst hc0; rfl
  have hcount0 : c0.connectionTimeoutCount = 0 := by subst hc0; rfl
  have hper : period c0 (c.lastHandleTime + p) = p / 1000000 * 1000 := by simp [period, hlast0]
  have htick := tick_cases c0 (c.lastHandleTime + p) { left := some data } (-1)
  have hnd : ¬ c0.connectionTimeoutMultiplier.setWidth 32 * c0.t2oAPI <
      c0.connectionTimeoutCount + BitVec.ofNat 32 (period c0 (c.lastHandleTime + p)) := by
    rw [hper, hcount0, hcfg0.mult, hcfg0.t2oAPI, BitVec.lt_def]
    have := (c.connectionTimeoutMultiplier.setWidth 32 * c.t2oAPI).isLt
    rw [show (0 : BitVec 32) + BitVec.ofNat 32 (p / 1000000 * 1000) = BitVec.ofNat 32 (p / 1000000 * 1000) from BitVec.zero_add _,
      Nat.not_lt, BitVec.toNat_ofNat, Nat.mod_eq_of_lt (by omega)]
    exact hp
  have hres : ∃ c1 io, c0.notifyTick (c.lastHandleTime + p) { left := some data } (-1) = (c1, io, .alive) ∧
      SameConfig c0 c1 ∧ c1.lastHandleTime = c.lastHandleTime + p ∧ IoEv.closed ∉ io ∧
      io.filterMap (fun | IoEv.received h n d => some (h, n, d) | _ => none) = [] := by
    generalize c0.notifyTick (c.lastHandleTime + p) { left := some data } (-1) = r at htick
    obtain ⟨c1, io, ret⟩ := r
    simp only at htick
    cases htick with
    | dead h => exact absurd h hnd
    | idle _ _ => exact ⟨_, _, rfl, by constructor <;> rfl, rfl, by simp, rfl⟩
    | prod _ _ _ _ hev =>
      rcases hev with ⟨rfl, _, _, _, rfl⟩ | ⟨_, _, hx, _⟩ | ⟨bytes, rfl, _, hb, _, rfl⟩
      · exact ⟨_, _, rfl, by constructor <;> rfl, rfl, by simp, rfl⟩
      · cases hx
      · have hns : udpSendThrows bytes (-1) = false := by
          rw [hb hdata]
          unfold udpSendThrows
          rw [decide_eq_false_iff_not, Nat.not_lt]
          have e1 : (BitVec.ofInt 64 (-1)).toNat = 2 ^ 64 - 1 := by decide
          rw [e1]
          have hdl : data.length < 65536 := by omega
          have e2 : ∀ a b : Option Nat, (ioPayload a b data).length ≤ data.length + 6 := by
            intro a b
            cases a <;> cases b <;> simp [ioPayload, le_length] <;> omega
          have e3 := e2 (opt (hasCount c0.transportTypeTrigger) (c0.sequenceValueCount + 1))
            (if c0.o2tRealTimeFormat then some 1 else none)
          simp only [Option.getD_some, ioFrame, cpf, cpfItem, List.flatMap_cons, List.flatMap_nil, List.length_append, le_length,
            List.length_cons, List.length_nil]
          omega
        rw [hns]
        exact ⟨_, _, rfl, by constructor <;> rfl, rfl, by simp, rfl⟩
  obtain ⟨c1, io, hnt, hcfg1, hlast1, hncl, hnrec⟩ := hres
  cases hsk : s.sockets with
  | nil => exact absurd hsk hsock
  | cons a l =>
    refine ⟨{ s with heap := (s.heap.set id c0).set id c1 },
      [.waited (makePortableInterval (Mgr.remainingMs (c.lastHandleTime + timeoutMs * 1000000) c.lastHandleTime)),
       .conn id (.recv (payloadOf T c n)) [.received (T.given c n).1 (T.given c n).2.1 (T.given c n).2.2],
       .waited (makePortableInterval (Mgr.remainingMs (c.lastHandleTime + timeoutMs * 1000000) (c.lastHandleTime + p : Nat))),
       .conn id (.tick (c.lastHandleTime + p) { left := some data } (-1)) io], ?_, hsk, rfl,
      ⟨c1, by simp [hlen], hcfg0.trans hcfg1, hlast1⟩, ?_, ?_⟩
    · simp only [Mgr.step, Mgr.handle, hsk, Mgr.selectLoop, Mgr.deliverAll, hd, Mgr.raised, Mgr.ranReceive]
      simp [ht, Mgr.tickAll, hlen, hnt]
    · simp [connTrace, heardOf, hnrec]
    · intro e he
      simp [connTrace] at he
      rcases he with rfl | rfl
      · simp
      · exact hncl

theorem replay_calls (P : Plat) (s : Mgr) (hsock : s.sockets ≠ []) (k : BitVec 16) (id : Nat)
    (ht : s.table = [(k, id)]) (c : Conn) (hh : s.heap[id]? = some c) (hk : k = c.t2oNetworkConnectionId.setWidth 16)
    (T : Producer) (hT : T.Suits c) (n p : Nat) (timeoutMs : Int) (data : List Byte) (hdata : data.length + 6 < 65536)
    (hp : p / 1000000 * 1000 ≤ (c.connectionTimeoutMultiplier.setWidth 32 * c.t2oAPI).toNat) (N : Nat) :
    ∃ s' tr, s.run P (replayCalls p timeoutMs (T.frame c n) data c.lastHandleTime N) = some (s', tr) ∧
      s'.table = [(k, id)] ∧ (∀ e ∈ connTrace id (allEvs tr), IoEv.closed ∉ e.2) ∧
      heard id tr = List.replicate N (T.given c n) := by
  induction N generalizing s c with
  | zero => exact ⟨s, [], rfl, ht, by simp [allEvs, connTrace], rfl⟩
  | succ N ih =>
    obtain ⟨s1, evs, h1, h2, h3, ⟨c1, h4, h5, h6⟩, h7, h8⟩ :=
      replay_call P s hsock k id ht c hh hk T hT n p timeoutMs data hdata hp
    obtain ⟨s', tr, g1, g2, g3, g4⟩ := ih s1 (by rw [h2]; exact hsock) (h3.trans ht) c1 h4 (by rw [h5.t2oId]; exact hk)
      (fun m => by rw [frame_config h5, h5.t2oFixed, h5.t2oSize]; exact hT m) (by rw [h5.mult, h5.t2oAPI]; exact hp)
    rw [frame_config h5, h6] at g1
    refine ⟨s', _ :: tr, by simp only [replayCalls, Mgr.run, h1, g1]; rfl, g2, ?_, ?_⟩
    · intro e he
      rw [allEvs_cons, connTrace_append, List.mem_append] at he
      exact he.elim (h8 e) (g3 e)
    · rw [heard_eq, allEvs_cons, connTrace_append, show ∀ a b, heardOf (a ++ b) = heardOf a ++ heardOf b from
        fun a b => by simp [heardOf], h7, ← heard_eq, g4, given_config h5]
      rfl

/-- C116 violated: an old datagram that keeps arriving is as good as a live target.  One datagram of a target that
has long stopped, received again and again, keeps the connection open for any number of calls, and its data are
handed over each time. -/
theorem C116_replay_violated (P : Plat) (s : Mgr) (hsock : s.sockets ≠ []) (k : BitVec 16) (id : Nat)
    (ht : s.table = [(k, id)]) (c : Conn) (hh : s.heap[id]? = some c) (hk : k = c.t2oNetworkConnectionId.setWidth 16)
    (T : Producer) (hT : T.Suits c) (n p : Nat) (timeoutMs : Int) (data : List Byte) (hdata : data.length + 6 < 65536)
    (hl : timeoutMicros c < 2 ^ 32) (hp : p / 1000000 * 1000 ≤ timeoutMicros c) (N : Nat) :
    ∃ s' tr, s.run P (replayCalls p timeoutMs (T.frame c n) data c.lastHandleTime N) = some (s', tr) ∧
      s'.table = [(k, id)] ∧ (∀ e ∈ connTrace id (allEvs tr), IoEv.closed ∉ e.2) ∧
      heard id tr = List.replicate N (T.given c n) := by
  refine replay_calls P s hsock k id ht c hh hk T hT n p timeoutMs data hdata ?_ N
  have : (c.connectionTimeoutMultiplier.setWidth 32 * c.t2oAPI).toNat = timeoutMicros c := by
    rw [timeoutMicros] at hl ⊢
    rw [BitVec.toNat_mul, BitVec.toNat_setWidth, Nat.mod_eq_of_lt (a := c.connectionTimeoutMultiplier.toNat)
      (by have := c.connectionTimeoutMultiplier.isLt; omega), Nat.mod_eq_of_lt hl]
  omega

/-! ## Concrete cases -/

/-- A target that sends the low octet of the number, and 7. -/
def sampleTarget : Producer := ⟨fun _ => 0, fun n => [BitVec.ofNat 8 n, 7]⟩

/-- Number n of this target on connection 0x10001, which has a count and no header. -/
def sampleNumber (n : Nat) : Arrival :=
  .dgram (ioFrame 0x10001 (n % 2 ^ 32) (ioPayloadHeaderFirst (some (n % 2 ^ 16)) none [BitVec.ofNat 8 n, 7]))

/-- A call at time 0 that receives these. -/
def sampleReceives (xs : List Arrival) : MOp :=
  .handle 0 5 [.ready (.dgram (sampleDgram 0x77 [1, 1])) xs 1] fun _ => ⟨0, {}, 22⟩

/-- C116 violated: after 1 and 3, the data of 2 arrive, twice; the listener is given them, twice, as the last. -/
theorem C116_order_violated : (((Mgr.new 1 {}).run samplePlat [sampleOpen 0xA 0x10001 1,
      sampleReceives ([1, 3, 2, 2].map sampleNumber)]).map fun r => heard 0 r.2) =
    some [(0, 1, [1, 7]), (0, 3, [3, 7]), (0, 2, [2, 7]), (0, 2, [2, 7])] := by
  decide +kernel

theorem sampleTarget_suits (c : Conn) (h1 : c.t2oDataSize = 2) : sampleTarget.Suits c := by
  intro n
  refine ⟨fun _ => by simp [sampleTarget, h1], ?_⟩
  rw [producerFrame_length]
  unfold payloadOf
  cases counted c <;> cases c.t2oRealTimeFormat <;> simp [ioPayloadHeaderFirst, sampleTarget, le_length]

/-- The hypotheses of `C116_as_arrived` and `C116_filter` are met: a foreign datagram, then 1, 3, 2, 2. -/
example : ∃ s tr s' tr' c xs, (Mgr.new 1 {}).run samplePlat [sampleOpen 0xA 0x10001 1] = some (s, tr) ∧
    s.run samplePlat [.hasOpen, sampleReceives ([1, 3, 2, 2].map sampleNumber)] = some (s', tr') ∧ Serves tr' ∧
    (1, 0) ∈ s'.table ∧ MEv.created 0 c ∈ allEvs tr ∧ sampleTarget.Suits c ∧
    (∀ d, Came.other d ∈ xs → Foreign 1 d) ∧ arrivedIn tr' = xs.map (Came.recv sampleTarget c) ∧ counted c = true ∧
    Displaced (2 ^ 15) 0 (owns xs) ∧ owns xs = [1, 3, 2, 2] ∧ records 0 (owns xs) = [1, 3] := by
  obtain ⟨s, tr, s', tr', c, h1, h2, h3, h4⟩ := both_elim (ops := [sampleOpen 0xA 0x10001 1])
    (ops' := [.hasOpen, sampleReceives ([1, 3, 2, 2].map sampleNumber)])
    (f := fun s tr s' tr' c =>
      decide (s'.table = [(1, 0)]) && tr'.all (fun e => isHandle e.1 && decide (e.2.2 = .unit) || isIdle e.1) &&
      decide (c.t2oDataSize = 2) && counted c && decide (arrivedIn tr' =
        [.other (sampleDgram 0x77 [1, 1]), .own 1, .own 3, .own 2, .own 2].map (Came.recv sampleTarget c)))
    (by decide +kernel)
  simp only [Bool.and_eq_true, Bool.or_eq_true, decide_eq_true_eq, List.all_eq_true] at h4
  obtain ⟨⟨⟨⟨g1, g2⟩, g3⟩, g4⟩, g5⟩ := h4
  refine ⟨s, tr, s', tr', c, _, h1, h2, g2, by rw [g1]; simp, h3, sampleTarget_suits c g3, ?_, g5, g4, ?_, rfl, ?_⟩
  · intro d hd
    simp at hd
    subst hd
    exact ⟨_, _, _, frame_accepts 0x77 1 (ioPayload (some 1) none [1, 1]) (by decide), by simp [le_length],
      by rw [le4_field _ (by omega)]; decide⟩
  · simp [owns, Displaced]
  · simp [owns, records]

/-- The hypotheses of `C116_replay_violated` are met: number 1 every 20 ms, where the limit is 40 ms. -/
example (N : Nat) : ∃ s tr c s' tr', (Mgr.new 1 {}).run samplePlat [sampleOpen 0xA 0x10001 1] = some (s, tr) ∧
    MEv.created 0 c ∈ allEvs tr ∧ timeoutMicros c = 40000 ∧
    s.run samplePlat (replayCalls 20000000 5 (sampleTarget.frame c 1) [1, 2] 0 N) = some (s', tr') ∧
    s'.table = [(1, 0)] ∧ heard 0 tr' = List.replicate N (0, 1, [1, 7]) := by
  obtain ⟨s, tr, s', tr', c, h1, h2, h3, h4⟩ := both_elim (ops := [sampleOpen 0xA 0x10001 1]) (ops' := [])
    (f := fun s tr s' tr' c =>
      decide (s.table = [(1, 0)]) && decide (s.sockets ≠ []) && decide (s.heap[0]? = some c) &&
      decide (c.t2oDataSize = 2) && counted c && decide (timeoutMicros c = 40000) &&
      decide (1 = c.t2oNetworkConnectionId.setWidth 16) && decide (c.lastHandleTime = 0) && !c.t2oRealTimeFormat)
    (by decide +kernel)
  simp only [Bool.and_eq_true, decide_eq_true_eq, Bool.not_eq_true'] at h4
  obtain ⟨⟨⟨⟨⟨⟨⟨⟨g1, g2⟩, g3⟩, g4⟩, g5⟩, g6⟩, g7⟩, g8⟩, g9⟩ := h4
  obtain ⟨s2, tr2, e1, e2, _, e4⟩ := C116_replay_violated samplePlat s g2 1 0 g1 c g3 g7 sampleTarget
    (sampleTarget_suits c g4) 1 20000000 5 [1, 2] (by decide) (by omega) (by omega) N
  rw [g8] at e1
  refine ⟨s, tr, c, s2, tr2, h1, h3, g6, e1, e2, ?_⟩
  rw [e4]
  simp [Producer.given, g5, g9, sampleTarget]

/-- The hypothesis of `C116_number_ignored` is met by datagrams that differ. -/
example : RenumberedRounds [.ready (.dgram (sampleDgram 0x10001 [1, 2])) [.err 4] 5]
      [.ready (.dgram (ioFrame 0x10001 0xFFFFFFFF (ioPayload (some 1) none [1, 2]))) [.err 4] 5] ∧
    sampleDgram 0x10001 [1, 2] ≠ ioFrame 0x10001 0xFFFFFFFF (ioPayload (some 1) none [1, 2]) :=
  ⟨.ready _ (.cons (.other _ _ _ _ _ (by decide)) (.cons (.same _) .nil)) .nil, by decide⟩

end Verif.Props
