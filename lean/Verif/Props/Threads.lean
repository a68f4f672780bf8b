import Verif.Spec.Threads
import Verif.Props.Session

/-!
# C100: threads that share a session
-/

namespace Verif.Props

open Verif Verif.Spec Verif.Threads

/-- The bytes of the reply that a thread is receiving. -/
def partOf : Phase → List Byte
  | .idle => []
  | .header got => got
  | .body header _ got => header ++ got

/-- What is true of a thread between two steps. -/
def PhaseOk : Phase → Prop
  | .idle => True
  | .header got => got.length < 24
  | .body header length got => header.length = 24 ∧ length = field header 2 2 ∧ got.length < length

theorem partOf_nil {p : Phase} (h : midReply p = false) : partOf p = [] := by
  cases p with
  | idle => rfl
  | header got => simpa [midReply, partOf] using h
  | body h l g => simp [midReply] at h

theorem frame_length {p : EncapsPacket} (h : WellFormed p) : field (p.pack.take 24) 2 2 = p.data.length := by
  have := h.frameLen []
  have hl := h.pack_length
  rw [List.append_nil] at this
  unfold frameLen at this
  rw [padTake_of_le (by omega)] at this
  omega

theorem conclude_frame (m : Mem) (handle : BitVec 32) {p : EncapsPacket} (h : WellFormed p) :
    conclude m handle p.pack = gives handle p := by
  have hf : p.pack.length = 24 + field p.pack 2 2 := by
    rw [h.pack_length, ← h.length, (⟨rfl, h.context⟩ : IsFrame p p.pack).fields.2.1]
  obtain ⟨q, h1, h2, h3⟩ := parse_exact m p.pack hf
  have : q = p := (⟨h2, h3⟩ : IsFrame q p.pack).unique ⟨rfl, h.context⟩
  subst this
  unfold conclude gives
  rw [h1]
  rfl

/-- Receiving more of a reply that is waiting. -/
theorem advance_reply (m : Mem) (handle : BitVec 32) {p : EncapsPacket} (hp : WellFormed p) (ph : Phase) (hok : PhaseOk ph)
    (bytes rest tail : List Byte) (h : partOf ph ++ (bytes ++ rest) = p.pack ++ tail) (hb : bytes ≠ [])
    (hr : bytes.length ≤ room ph) :
    (∃ ph', advance m handle bytes ph = .inl ph' ∧ PhaseOk ph' ∧ partOf ph' = partOf ph ++ bytes ∧ ph' ≠ .idle) ∨
    (advance m handle bytes ph = .inr (gives handle p) ∧ partOf ph ++ bytes = p.pack ∧ rest = tail) := by
  have hl := hp.pack_length
  have hpre : ∀ c r : List Byte, c ++ r = p.pack ++ tail → c.length ≤ p.pack.length → c = p.pack.take c.length := by
    intro c r hc hle
    have := congrArg (List.take c.length) hc
    rwa [List.take_left, List.take_append_of_le_length hle] at this
  have hbl : 0 < bytes.length := List.length_pos_iff.mpr hb
  cases ph with
  | idle => simp only [room] at hr; omega
  | header got =>
    simp only [room, EncapsPacket.headerSize] at hr
    simp only [PhaseOk] at hok
    simp only [partOf] at h ⊢
    have h' : (got ++ bytes) ++ rest = p.pack ++ tail := by rw [← h, List.append_assoc]
    have hlen : (got ++ bytes).length ≤ 24 := by rw [List.length_append]; omega
    by_cases hlt : (got ++ bytes).length < 24
    · refine .inl ⟨.header (got ++ bytes), ?_, hlt, rfl, by simp⟩
      exact if_pos hlt
    · have h24 : (got ++ bytes).length = 24 := by omega
      have hpk := hpre _ _ h' (by omega)
      rw [h24] at hpk
      have hfl := frame_length hp
      rw [← hpk] at hfl
      have hadv : advance m handle bytes (.header got) =
          if p.data.length = 0 then .inr (conclude m handle (got ++ bytes)) else .inl (.body (got ++ bytes) p.data.length []) := by
        refine (if_neg hlt).trans ?_
        rw [getLength_eq _ (by omega), hfl]
      rw [hadv]
      by_cases h0 : p.data.length = 0
      · rw [if_pos h0]
        have : got ++ bytes = p.pack := by rw [hpk, List.take_of_length_le (by omega)]
        refine .inr ⟨by rw [this, conclude_frame m handle hp], this, ?_⟩
        rw [this] at h'
        exact List.append_cancel_left h'
      · rw [if_neg h0]
        refine .inl ⟨_, rfl, ⟨h24, hfl.symm, ?_⟩, by simp, by simp⟩
        simp only [List.length_nil]
        omega
  | body header length got =>
    obtain ⟨k1, k2, k3⟩ := hok
    simp only [room] at hr
    simp only [partOf] at h ⊢
    have h' : (header ++ (got ++ bytes)) ++ rest = p.pack ++ tail := by
      rw [← h]; simp only [List.append_assoc]
    have hpk := hpre header (got ++ bytes ++ rest) (by rw [← h']; simp only [List.append_assoc]) (by omega)
    rw [k1] at hpk
    have hfl := frame_length hp
    rw [← hpk, ← k2] at hfl
    by_cases hlt : (got ++ bytes).length < length
    · refine .inl ⟨.body header length (got ++ bytes), ?_, ⟨k1, k2, hlt⟩, by simp, by simp⟩
      exact if_pos hlt
    · have hlen : (header ++ (got ++ bytes)).length = p.pack.length := by
        rw [List.length_append, k1, hl]
        rw [List.length_append] at hlt ⊢
        omega
      have hall := hpre _ _ h' (by omega)
      rw [hlen, List.take_of_length_le (Nat.le_refl _)] at hall
      refine .inr ⟨?_, by rw [← hall, List.append_assoc], ?_⟩
      · refine (if_neg hlt).trans ?_
        rw [hall, conclude_frame m handle hp]
      · rw [hall] at h'
        exact List.append_cancel_left h'

/-- What holds as long as replies are received one at a time and in full. -/
structure RepliesInv {δ : Type} (handle : BitVec 32) (s : Sys δ) : Prop where
  ok : ∀ j, PhaseOk (s.thr j).phase
  le : s.ended.length ≤ s.served.length
  res : s.ended.map Prod.snd = (s.served.take s.ended.length).map (fun e => gives handle e.2.2)
  wf : ∀ e ∈ s.served, WellFormed e.2.2
  inc : ∃ i, partOf (s.thr i).phase ++ s.inc = (s.served.drop s.ended.length).flatMap (fun e => e.2.2.pack) ∧
    ∀ j, j ≠ i → midReply (s.thr j).phase = false

theorem set_self (thr : Nat → Thread) (i : Nat) (t : Thread) : Threads.set thr i t i = t := by simp [Threads.set]

theorem set_other (thr : Nat → Thread) (i j : Nat) (t : Thread) (h : j ≠ i) : Threads.set thr i t j = thr j := by
  simp [Threads.set, h]

theorem repliesInv_start {δ : Type} (handle : BitVec 32) (dev : δ) (todo : Nat → List EncapsPacket) :
    RepliesInv handle (start dev todo) where
  ok _ := trivial
  le := Nat.le_refl _
  res := rfl
  wf := by intro e he; cases he
  inc := ⟨0, rfl, fun _ _ => rfl⟩

theorem send_shape {δ : Type} {m : Mem} {handle : BitVec 32} {serve : δ → EncapsPacket → δ × EncapsPacket} {s s' : Sys δ}
    {i : Nat} (h : step m handle serve s (.send i) = some s') :
    ∃ p rest, (s.thr i).phase = .idle ∧ (s.thr i).todo = p :: rest ∧
      s' = { s with dev := (serve s.dev p).1, inc := s.inc ++ (serve s.dev p).2.pack,
                    thr := Threads.set s.thr i ⟨rest, .header []⟩, served := s.served ++ [(i, p, (serve s.dev p).2)] } := by
  simp only [step] at h
  split at h
  · rename_i p rest h1 h2
    cases h
    exact ⟨p, rest, h1, h2, rfl⟩
  · cases h

theorem recv_shape {δ : Type} {m : Mem} {handle : BitVec 32} {serve : δ → EncapsPacket → δ × EncapsPacket} {s s' : Sys δ}
    {i k : Nat} (h : step m handle serve s (.recv i k) = some s') :
    (0 < k ∧ k ≤ room (s.thr i).phase ∧ k ≤ s.inc.length) ∧
    ((∃ ph, advance m handle (s.inc.take k) (s.thr i).phase = .inl ph ∧
      s' = { s with inc := s.inc.drop k, thr := Threads.set s.thr i { s.thr i with phase := ph } }) ∨
    (∃ r, advance m handle (s.inc.take k) (s.thr i).phase = .inr r ∧
      s' = { s with inc := s.inc.drop k, thr := Threads.set s.thr i { s.thr i with phase := .idle },
                    ended := s.ended ++ [(i, r)] })) := by
  simp only [step] at h
  split at h
  · rename_i hc
    refine ⟨hc, ?_⟩
    split at h
    · rename_i ph hph; cases h; exact .inl ⟨ph, hph, rfl⟩
    · rename_i r hr; cases h; exact .inr ⟨r, hr, rfl⟩
  · cases h

theorem repliesInv_step {δ : Type} {m : Mem} {handle : BitVec 32} {serve : δ → EncapsPacket → δ × EncapsPacket}
    (hs : ∀ d p, WellFormed (serve d p).2) {s s' : Sys δ} {a : Act} (hi : RepliesInv handle s)
    (h : step m handle serve s a = some s') (hw : WholeReplies s a) (ht : ∀ i, a ≠ .timeout i) : RepliesInv handle s' := by
  obtain ⟨hok, hle, hres, hwf, i0, hinc, hoth⟩ := hi
  cases a with
  | timeout i => exact absurd rfl (ht i)
  | send i =>
    obtain ⟨p, rest, h1, h2, rfl⟩ := send_shape h
    refine ⟨?_, ?_, ?_, ?_, i0, ?_, ?_⟩
    · intro j
      by_cases hj : j = i
      · subst hj; simp only [set_self]; exact (by decide : (0 : Nat) < 24)
      · simp only [set_other _ _ _ _ hj]; exact hok j
    · simp only [List.length_append, List.length_cons, List.length_nil]; omega
    · simp only [List.take_append_of_le_length hle]; exact hres
    · intro e he
      obtain he | he := List.mem_append.mp he
      · exact hwf e he
      · rw [List.mem_singleton.mp he]; exact hs _ _
    · have : partOf (Threads.set s.thr i ⟨rest, .header []⟩ i0).phase = partOf (s.thr i0).phase := by
        by_cases hj : i0 = i
        · subst hj; simp only [set_self, h1]; rfl
        · simp only [set_other _ _ _ _ hj]
      simp only [this, List.drop_append_of_le_length hle, List.flatMap_append, ← hinc]
      simp
    · intro j hj
      by_cases hji : j = i
      · subst hji; simp only [set_self]; rfl
      · simp only [set_other _ _ _ _ hji]; exact hoth j hj
  | recv i k =>
    have hw' : ∀ j, j ≠ i → midReply (s.thr j).phase = false := hw
    have hinc' : partOf (s.thr i).phase ++ s.inc = (s.served.drop s.ended.length).flatMap (fun e => e.2.2.pack) := by
      by_cases hii : i0 = i
      · subst hii; exact hinc
      · rw [← hinc, partOf_nil (hw' i0 hii), partOf_nil (hoth i (fun h => hii h.symm))]
    obtain ⟨⟨hk0, hkr, hkl⟩, hcase⟩ := recv_shape h
    have hne : s.inc.take k ≠ [] := by
      intro hn
      have := congrArg List.length hn
      rw [List.length_take, List.length_nil] at this
      omega
    cases hd : s.served.drop s.ended.length with
    | nil =>
      rw [hd] at hinc'
      simp only [List.flatMap_nil, List.append_eq_nil_iff] at hinc'
      rw [hinc'.2] at hkl
      simp at hkl
      omega
    | cons e tl =>
      rw [hd] at hinc'
      simp only [List.flatMap_cons] at hinc'
      have hlt : s.ended.length < s.served.length := by
        have := congrArg List.length hd
        rw [List.length_drop, List.length_cons] at this
        omega
      have hde := List.drop_eq_getElem_cons hlt
      rw [hd] at hde
      have he : e = s.served[s.ended.length] := by injection hde
      have htl : tl = s.served.drop (s.ended.length + 1) := by injection hde
      have hew : WellFormed e.2.2 := hwf e (by rw [he]; exact List.getElem_mem hlt)
      have hadv := advance_reply m handle hew (s.thr i).phase (hok i) (s.inc.take k) (s.inc.drop k)
        (tl.flatMap (fun e => e.2.2.pack)) (by rw [List.take_append_drop]; exact hinc') hne
        (by rw [List.length_take]; omega)
      have hoth' : ∀ t j, j ≠ i → midReply (Threads.set s.thr i t j).phase = false := by
        intro t j hj
        rw [set_other _ _ _ _ hj]
        exact hw' j hj
      obtain ⟨ph', ha, hpok, hpart, _⟩ | ⟨ha, hall, hrest⟩ := hadv
      · obtain ⟨ph, hph, rfl⟩ | ⟨r, hr, _⟩ := hcase
        · rw [ha] at hph
          injection hph with hph
          subst hph
          refine ⟨?_, hle, hres, hwf, i, ?_, hoth' _⟩
          · intro j
            by_cases hj : j = i
            · subst hj; simp only [set_self]; exact hpok
            · simp only [set_other _ _ _ _ hj]; exact hok j
          · simp only [set_self, hpart, hd, List.flatMap_cons]
            rw [List.append_assoc, List.take_append_drop]
            exact hinc'
        · rw [ha] at hr; cases hr
      · obtain ⟨ph, hph, _⟩ | ⟨r, hr, rfl⟩ := hcase
        · rw [ha] at hph; cases hph
        · rw [ha] at hr
          injection hr with hr
          subst hr
          refine ⟨?_, ?_, ?_, hwf, i, ?_, hoth' _⟩
          · intro j
            by_cases hj : j = i
            · subst hj; simp only [set_self]; trivial
            · simp only [set_other _ _ _ _ hj]; exact hok j
          · simp only [List.length_append, List.length_cons, List.length_nil]; omega
          · simp only [List.map_append, List.map_cons, List.map_nil, List.length_append, List.length_cons,
              List.length_nil, hres]
            rw [List.take_add_one, List.getElem?_eq_getElem hlt, ← he]
            simp
          · simp only [set_self, partOf, List.nil_append, List.length_append, List.length_cons, List.length_nil]
            rw [← htl]
            exact hrest

theorem schedule_cons {δ : Type} {m : Mem} {handle : BitVec 32} {serve : δ → EncapsPacket → δ × EncapsPacket} {s t : Sys δ}
    {a : Act} {as : List Act} (h : run m handle serve s (a :: as) = some t) :
    ∃ s', step m handle serve s a = some s' ∧ run m handle serve s' as = some t := by
  unfold run at h
  split at h
  · cases h
  · rename_i s' hs; exact ⟨s', hs, h⟩

theorem repliesInv_run {δ : Type} {m : Mem} {handle : BitVec 32} {serve : δ → EncapsPacket → δ × EncapsPacket}
    (hs : ∀ d p, WellFormed (serve d p).2) (as : List Act) : ∀ (s t : Sys δ), RepliesInv handle s →
    run m handle serve s as = some t → Always m handle serve WholeReplies s as → NoTimeout as → RepliesInv handle t := by
  induction as with
  | nil => intro s t hi h _ _; cases h; exact hi
  | cons a as ih =>
    intro s t hi h hw ht
    obtain ⟨s', h1, h2⟩ := schedule_cons h
    exact ih s' t (repliesInv_step hs hi h1 hw.1 (fun i hai => ht i (by rw [hai]; exact List.mem_cons_self))) h2
      (hw.2 s' h1) (fun i hm => ht i (List.mem_cons_of_mem _ hm))

/-- C100. If replies are received one at a time, the call that ends as the `k`-th gets the reply to the request that
was sent as the `k`-th, whichever thread sent it: so it gets its own exactly if its thread sent that request. -/
theorem C100_order {δ : Type} (m : Mem) (handle : BitVec 32) (serve : δ → EncapsPacket → δ × EncapsPacket)
    (hs : ∀ d p, WellFormed (serve d p).2) (dev : δ) (todo : Nat → List EncapsPacket) (as : List Act) (s : Sys δ)
    (h : run m handle serve (start dev todo) as = some s)
    (hw : Always m handle serve WholeReplies (start dev todo) as) (ht : NoTimeout as)
    (k i : Nat) (r : Outcome EncapsPacket) (hk : s.ended[k]? = some (i, r)) :
    ∃ j request reply, s.served[k]? = some (j, request, reply) ∧ r = gives handle reply := by
  obtain ⟨_, hle, hres, _⟩ := repliesInv_run hs as _ _ (repliesInv_start handle dev todo) h hw ht
  have hlt := (List.getElem?_eq_some_iff.mp hk).1
  have hlt' : k < s.served.length := by omega
  refine ⟨s.served[k].1, s.served[k].2.1, s.served[k].2.2, List.getElem?_eq_getElem hlt', ?_⟩
  have h1 := congrArg (fun l => l[k]?) hres
  simp only [List.getElem?_map, hk, Option.map_some, List.getElem?_take] at h1
  rw [if_pos hlt, List.getElem?_eq_getElem hlt', Option.map_some, Option.some.injEq] at h1
  exact h1

/-- What holds if calls do not overlap. -/
structure LockInv {δ : Type} (s : Sys δ) : Prop where
  one : ∃ i, (∀ j, j ≠ i → (s.thr j).phase = .idle) ∧
    s.served.map Prod.fst = s.ended.map Prod.fst ++ (if (s.thr i).phase = .idle then [] else [i])

theorem lockInv_step {δ : Type} {m : Mem} {handle : BitVec 32} {serve : δ → EncapsPacket → δ × EncapsPacket}
    {s s' : Sys δ} {a : Act} (hi : LockInv s)
    (h : step m handle serve s a = some s') (hl : Locked s a) (ht : ∀ i, a ≠ .timeout i) : LockInv s' ∧ WholeReplies s a := by
  obtain ⟨i0, hoth, hser⟩ := hi
  cases a with
  | timeout i => exact absurd rfl (ht i)
  | send i =>
    obtain ⟨p, rest, h1, h2, rfl⟩ := send_shape h
    have hl' : ∀ j, (s.thr j).phase = .idle := hl
    rw [if_pos (hl' i0)] at hser
    refine ⟨⟨i, ?_, ?_⟩, trivial⟩
    · intro j hj; simp only [set_other _ _ _ _ hj]; exact hl' j
    · simp only [set_self, List.map_append, hser]
      simp
  | recv i k =>
    obtain ⟨⟨hk0, hkr, hkl⟩, hcase⟩ := recv_shape h
    have hni : (s.thr i).phase ≠ .idle := by
      intro hid; rw [hid] at hkr; simp only [room] at hkr; omega
    have hii : i = i0 := Decidable.byContradiction fun hne => hni (hoth i hne)
    subst hii
    have hw : WholeReplies s (.recv i k) := by
      intro j hj; rw [hoth j hj]; rfl
    rw [if_neg hni] at hser
    have hoth' : ∀ t j, j ≠ i → (Threads.set s.thr i t j).phase = .idle := by
      intro t j hj; rw [set_other _ _ _ _ hj]; exact hoth j hj
    refine ⟨?_, hw⟩
    obtain ⟨ph, hph, rfl⟩ | ⟨r, hr', rfl⟩ := hcase
    · refine ⟨i, hoth' _, ?_⟩
      have hph' : ph ≠ .idle := by
        intro hid
        subst hid
        revert hph
        cases hp : (s.thr i).phase with
        | idle => exact absurd hp hni
        | header got =>
          simp only [advance]
          intro hph
          split at hph
          · cases hph
          · split at hph
            · cases hph
            · cases hph
            · split at hph <;> cases hph
        | body a b c =>
          simp only [advance]
          intro hph
          split at hph <;> cases hph
      simp only [set_self, if_neg hph', hser]
    · refine ⟨i, hoth' _, ?_⟩
      simp only [set_self, if_true, List.append_nil, List.map_append, List.map_cons, List.map_nil, hser]

theorem lockInv_run {δ : Type} {m : Mem} {handle : BitVec 32} {serve : δ → EncapsPacket → δ × EncapsPacket}
    (hs : ∀ d p, WellFormed (serve d p).2) (as : List Act) : ∀ (s t : Sys δ), RepliesInv handle s → LockInv s →
    run m handle serve s as = some t → Always m handle serve Locked s as → NoTimeout as →
    RepliesInv handle t ∧ LockInv t := by
  induction as with
  | nil => intro s t hi hl h _ _; cases h; exact ⟨hi, hl⟩
  | cons a as ih =>
    intro s t hi hl h hw ht
    obtain ⟨s', h1, h2⟩ := schedule_cons h
    have hta : ∀ i, a ≠ .timeout i := fun i hai => ht i (by rw [hai]; exact List.mem_cons_self)
    obtain ⟨hl', hwr⟩ := lockInv_step hl h1 hw.1 hta
    exact ih s' t (repliesInv_step hs hi h1 hwr hta) hl' h2 (hw.2 s' h1) (fun i hm => ht i (List.mem_cons_of_mem _ hm))

/-- C100. If the program lets only one thread at a time make a call, every call of every thread gets the reply to its
own request, in every schedule; and when no thread is inside a call every request has its result. -/
theorem C100_locked {δ : Type} (m : Mem) (handle : BitVec 32) (serve : δ → EncapsPacket → δ × EncapsPacket)
    (hs : ∀ d p, WellFormed (serve d p).2) (dev : δ) (todo : Nat → List EncapsPacket) (as : List Act) (s : Sys δ)
    (h : run m handle serve (start dev todo) as = some s)
    (hl : Always m handle serve Locked (start dev todo) as) (ht : NoTimeout as) :
    (∀ (k i : Nat) (r : Outcome EncapsPacket), s.ended[k]? = some (i, r) →
      ∃ request reply, s.served[k]? = some (i, request, reply) ∧ r = gives handle reply) ∧
    ((∀ j, (s.thr j).phase = .idle) → s.ended.length = s.served.length) := by
  obtain ⟨⟨_, hle, hres, _⟩, i0, hoth, hser⟩ := lockInv_run hs as _ _ (repliesInv_start handle dev todo)
    ⟨⟨0, fun _ _ => rfl, rfl⟩⟩ h hl ht
  constructor
  · intro k i r hk
    have hlt := (List.getElem?_eq_some_iff.mp hk).1
    have hlt' : k < s.served.length := by omega
    have h0 := congrArg (fun l => l[k]?) hser
    simp only [List.getElem?_map] at h0
    rw [List.getElem?_append_left (by rw [List.length_map]; exact hlt), List.getElem?_map, hk,
      List.getElem?_eq_getElem hlt'] at h0
    simp only [Option.map_some, Option.some.injEq] at h0
    refine ⟨s.served[k].2.1, s.served[k].2.2, by rw [List.getElem?_eq_getElem hlt', ← h0], ?_⟩
    have h1 := congrArg (fun l => l[k]?) hres
    simp only [List.getElem?_map, hk, Option.map_some, List.getElem?_take] at h1
    rw [if_pos hlt, List.getElem?_eq_getElem hlt', Option.map_some, Option.some.injEq] at h1
    exact h1
  · intro hid
    rw [if_pos (hid i0), List.append_nil] at hser
    have := congrArg List.length hser
    simpa using this.symm

/-- C100. What a call gives is what it gives in a program with one thread. -/
theorem C100_gives (m : Mem) (handle : BitVec 32) (request reply : EncapsPacket) (hr : WellFormed reply) (s : Tcp)
    (hs : s.sends = []) (hk : request.pack.length < 2 ^ 63) (rest : List Byte)
    (hn : (stream s.net).1 = reply.pack ++ rest) :
    result (sendAndReceive m handle request s) = gives handle reply := by
  obtain ⟨net', _, h2⟩ := sar_frame m handle request reply hr s hs hk rest hn
  rw [h2]
  unfold accept gives
  split
  · rfl
  · split <;> rfl

/-- C100. In every schedule each thread sends its packets in order, each once. -/
theorem C100_requests {δ : Type} (m : Mem) (handle : BitVec 32) (serve : δ → EncapsPacket → δ × EncapsPacket)
    (dev : δ) (todo : Nat → List EncapsPacket) (as : List Act) (s : Sys δ)
    (h : run m handle serve (start dev todo) as = some s) (i : Nat) :
    (s.served.filterMap fun e => if e.1 = i then some e.2.1 else none) ++ (s.thr i).todo = todo i := by
  have all : ∀ (as : List Act) (s0 : Sys δ), run m handle serve s0 as = some s →
      (s.served.filterMap fun e => if e.1 = i then some e.2.1 else none) ++ (s.thr i).todo =
      (s0.served.filterMap fun e => if e.1 = i then some e.2.1 else none) ++ (s0.thr i).todo := by
    intro as
    induction as with
    | nil => intro s0 h; cases h; rfl
    | cons a as ih =>
      intro s0 h
      obtain ⟨s1, h1, h2⟩ := schedule_cons h
      rw [ih s1 h2]
      cases a with
      | send j =>
        obtain ⟨p, rest, g1, g2, rfl⟩ := send_shape h1
        by_cases hj : i = j
        · subst hj; simp [set_self, g2]
        · have hj' : ¬ j = i := fun h => hj h.symm
          simp [set_other _ _ _ _ hj, hj']
      | recv j k =>
        obtain ⟨_, ⟨ph, _, rfl⟩ | ⟨r, _, rfl⟩⟩ := recv_shape h1
        all_goals
          by_cases hj : i = j
          · subst hj; simp only [set_self]
          · simp only [set_other _ _ _ _ hj]
      | timeout j =>
        simp only [step] at h1
        split at h1
        · cases h1
        · cases h1
          by_cases hj : i = j
          · subst hj; simp only [set_self]
          · simp only [set_other _ _ _ _ hj]
  exact (all as _ h).trans rfl

end Verif.Props
