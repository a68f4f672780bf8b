import Verif.Model.SessionAssign
import Verif.Props.SessionCopies

/-!
# C118: assignment of sessions
-/

namespace Verif.Props

open Verif Verif.Spec

theorem assignSess_cases {m : Mem} {p p' : SessProc} {i j : Nat} {ret : SessRet} (h : p.act m (.assign i j) = .ok p' ret) :
    ∃ oi oj, p.objs[i]? = some oi ∧ p.objs[j]? = some oj ∧ p.gone.contains i = false ∧ p.gone.contains j = false ∧
      p' = { p with objs := p.objs.set i oj } ∧ ret = .unit := by
  simp only [SessProc.act] at h
  cases hi : p.objs[i]? with
  | none => rw [hi] at h; cases h
  | some oi =>
    cases hj : p.objs[j]? with
    | none => rw [hi, hj] at h; cases h
    | some oj =>
      rw [hi, hj] at h
      dsimp only at h
      split at h
      · cases h
      · next hg =>
        cases h
        simp only [Bool.or_eq_true, not_or, Bool.not_eq_true] at hg
        exact ⟨oi, oj, rfl, rfl, hg.1, hg.2, rfl, rfl⟩

/-- The request of an object, by its descriptor and handle. -/
theorem request_by_members (m : Mem) (p : SessProc) (i : Nat) (o : SessObj) (ho : p.objs[i]? = some o)
    (hg : p.gone.contains i = false) (packet : EncapsPacket) :
    p.step m (.request i packet) = match p.over o.fd (sendAndReceive m o.handle packet) with
      | .ok p1 r => .ok p1 (.packet r)
      | .throw p1 e => .ok p1 (.threw e)
      | .ub => .ub := by
  simp only [SessProc.step, ho, hg, Bool.false_eq_true, if_false]
  cases p.over o.fd (sendAndReceive m o.handle packet) <;> rfl

/-- C118. An assignment sends nothing and closes nothing; from then on a request of the session assigned to is, in what is
sent, received and returned, that of the other one; the other sessions are as before. -/
theorem C118_follows (m : Mem) (p p' : SessProc) (i j : Nat) (ret : SessRet) (h : p.act m (.assign i j) = .ok p' ret) :
    ret = .unit ∧ p'.conns = p.conns ∧ (∀ fd, p'.look fd = p.look fd) ∧
    (∀ packet, p'.step m (.request i packet) = p'.step m (.request j packet)) ∧ ∀ k, k ≠ i → p'.objs[k]? = p.objs[k]? := by
  obtain ⟨oi, oj, hi, hj, hgi, hgj, rfl, rfl⟩ := assignSess_cases h
  have hlt := (List.getElem?_eq_some_iff.mp hi).1
  refine ⟨rfl, rfl, fun _ => rfl, fun packet => ?_, fun k hk => List.getElem?_set_ne (fun e => hk e.symm)⟩
  have h1 : (p.objs.set i oj)[i]? = some oj := List.getElem?_set_self hlt
  have h2 : (p.objs.set i oj)[j]? = some oj := by
    by_cases e : i = j
    · rw [← e]; exact h1
    · rw [List.getElem?_set_ne e]; exact hj
  rw [request_by_members m { p with objs := p.objs.set i oj } i oj h1 hgi,
    request_by_members m { p with objs := p.objs.set i oj } j oj h2 hgj]

/-- C118. To assign a session to a copy of it, or to itself, changes nothing. -/
theorem C118_same (m : Mem) (ops : List SessOp) (p p' : SessProc) (tr : SessTrace)
    (hr : SessProc.run m {} ops = some (p, tr)) (i j n : Nat) (hi : originOf i tr = some n) (hj : originOf j tr = some n)
    (ret : SessRet) (h : p.act m (.assign i j) = .ok p' ret) : p' = p := by
  have hv := sess_inv_run m ops {} p [] tr (sess_inv_start m) hr
  rw [List.nil_append] at hv
  obtain ⟨oi, oj, h1, h2, -, -, rfl, -⟩ := assignSess_cases h
  have := hv.same i j n oi oj hi hj h1 h2
  subst this
  have : p.objs.set i oi = p.objs := by
    obtain ⟨hlt, rfl⟩ := List.getElem?_eq_some_iff.1 h1
    exact List.set_getElem_self hlt
  rw [this]

/-! ## A connection that no object has -/

/-- Descriptor `x` is the only one of connection `n`, and nothing in the process will close it. -/
structure Leaked (p : SessProc) (x n : Nat) : Prop where
  stands : p.look x = some (.conn n)
  only : ∀ fd, p.look fd = some (.conn n) → fd = x
  known : n < p.conns.length
  objs : ∀ (k : Nat) (o : SessObj), p.objs[k]? = some o → p.gone.contains k = false → o.fd ≠ x
  files : ∀ k fd : Nat, p.files[k]? = some fd → p.shut.contains k = false → fd ≠ x

theorem leaked_over {p p' : SessProc} {x n : Nat} (h : Leaked p x n) (hb : besides p p') : Leaked p' x n := by
  obtain ⟨h1, h2, h3, h4, h5, h6⟩ := hb
  have hl : ∀ fd, p'.look fd = p.look fd := fun fd => by simp only [SessProc.look, h1]
  refine ⟨by rw [hl]; exact h.stands, fun fd hf => h.only fd (by rw [← hl]; exact hf), by rw [h6]; exact h.known, ?_, ?_⟩
  · rw [h2, h3]; exact h.objs
  · rw [h4, h5]; exact h.files

theorem leaked_close {p : SessProc} {x n fd : Nat} (h : Leaked p x n) (hf : fd ≠ x) : Leaked (p.close fd) x n := by
  refine ⟨?_, fun fd' hl => ?_, h.known, h.objs, h.files⟩
  · rw [close_look, if_neg (fun e => hf e.symm)]; exact h.stands
  · rw [close_look] at hl
    split at hl
    · cases hl
    · exact h.only fd' hl

theorem contains_cons_false {k i : Nat} {l : List Nat} (h : (i :: l).contains k = false) : l.contains k = false := by
  simp only [List.contains_cons, Bool.or_eq_false_iff] at h
  exact h.2

theorem leaked_step (m : Mem) (p p' : SessProc) (x n : Nat) (h : Leaked p x n) (a : SessAct) (ret : SessRet)
    (hs : p.act m a = .ok p' ret) : Leaked p' x n ∧ p'.conns[n]? = p.conns[n]? := by
  have hlow : SessProc.lowest p.fds ≠ x := by
    intro e
    have := h.stands
    unfold SessProc.look at this
    rw [← e, look_lowest] at this
    cases this
  have hother : ∀ k o, p.objs[k]? = some o → p.gone.contains k = false → p.look o.fd ≠ some (.conn n) :=
    fun k o ho hg hl => h.objs k o ho hg (h.only _ hl)
  cases a with
  | assign i j =>
    obtain ⟨oi, oj, hi, hj, hgi, hgj, rfl, -⟩ := assignSess_cases hs
    have hlt := (List.getElem?_eq_some_iff.mp hi).1
    refine ⟨⟨h.stands, h.only, h.known, ?_, h.files⟩, rfl⟩
    intro k o ho hg
    rw [List.getElem?_set] at ho
    split at ho
    · cases ho; exact h.objs j _ hj hgj
    · exact h.objs k o ho hg
  | op o =>
    simp only [SessProc.act] at hs
    cases o with
    | connect t =>
      rw [connect_eq] at hs
      have hlook : ∀ fd, ((SessProc.give (.conn p.conns.length) p.fds)[fd]?).join =
          if fd = SessProc.lowest p.fds then some (.conn p.conns.length) else p.look fd := fun fd => look_give _ _ fd
      cases hr : registerSession m t with
      | ub => rw [hr] at hs; cases hs
      | ok t' hd =>
        rw [hr] at hs
        cases hs
        refine ⟨⟨?_, ?_, ?_, ?_, h.files⟩, List.getElem?_append_left h.known⟩
        · exact (hlook x).trans ((if_neg (fun e => hlow e.symm)).trans h.stands)
        · intro fd hf
          have hf' := (hlook fd).symm.trans hf
          split at hf'
          · cases hf'; exact absurd h.known (Nat.lt_irrefl _)
          · exact h.only fd hf'
        · have := h.known; simp; omega
        · intro k o ho hg
          rw [List.getElem?_append] at ho
          split at ho
          · exact h.objs k o ho hg
          · rw [List.getElem?_singleton] at ho
            split at ho
            · cases ho; exact hlow
            · cases ho
      | throw t' e =>
        rw [hr] at hs
        cases hs
        have hlook2 : ∀ fd, (((SessProc.give (.conn p.conns.length) p.fds).set (SessProc.lowest p.fds) none)[fd]?).join =
            if fd = SessProc.lowest p.fds then none else p.look fd := by
          intro fd
          rw [look_set_none, look_give]
          by_cases e : fd = SessProc.lowest p.fds
          · simp [e]
          · simp [e]; rfl
        refine ⟨⟨?_, ?_, ?_, h.objs, h.files⟩, List.getElem?_append_left h.known⟩
        · exact (hlook2 x).trans ((if_neg (fun e => hlow e.symm)).trans h.stands)
        · intro fd hf
          have hf' := (hlook2 fd).symm.trans hf
          split at hf'
          · cases hf'
          · exact h.only fd hf'
        · have := h.known; simp; omega
    | copy i =>
      simp only [SessProc.step] at hs
      split at hs
      · cases hs
      · next o ho =>
        split at hs
        · cases hs
        · next hg =>
          cases hs
          refine ⟨⟨h.stands, h.only, h.known, ?_, h.files⟩, rfl⟩
          intro k o' ho' hg'
          rw [List.getElem?_append] at ho'
          split at ho'
          · exact h.objs k o' ho' hg'
          · rw [List.getElem?_singleton] at ho'
            split at ho'
            · cases ho'; exact h.objs i _ ho (by simpa using hg)
            · cases ho'
    | destroy i =>
      simp only [SessProc.step] at hs
      split at hs
      · cases hs
      · next o ho =>
        split at hs
        · cases hs
        · next hg =>
          have hg : p.gone.contains i = false := by simpa using hg
          cases hov : p.over o.fd (unregisterSession o.handle) with
          | ub => rw [hov] at hs; cases hs
          | throw p1 e => rw [hov] at hs; cases hs
          | ok p1 u =>
            rw [hov] at hs
            cases hs
            have hb := (over_besides p o.fd (unregisterSession o.handle)).1 p1 u hov
            have h1 := leaked_close (leaked_over h hb) (h.objs i o ho hg)
            refine ⟨⟨h1.stands, h1.only, h1.known, fun k o' ho' hg' => h1.objs k o' ho' (contains_cons_false hg'), h1.files⟩, ?_⟩
            exact (over_others p o.fd _ n (hother i o ho hg)).1 p1 u hov
    | request i packet =>
      cases ho : p.objs[i]? with
      | none => simp only [SessProc.step, ho] at hs; cases hs
      | some o =>
        cases hg : p.gone.contains i with
        | true => simp only [SessProc.step, ho, hg, if_true] at hs; cases hs
        | false =>
          rw [request_by_members m p i o ho hg] at hs
          cases hov : p.over o.fd (sendAndReceive m o.handle packet) with
          | ub => rw [hov] at hs; cases hs
          | throw p1 e =>
            rw [hov] at hs
            cases hs
            exact ⟨leaked_over h ((over_besides p o.fd _).2 _ _ hov), (over_others p o.fd _ n (hother i o ho hg)).2 _ _ hov⟩
          | ok p1 r =>
            rw [hov] at hs
            cases hs
            exact ⟨leaked_over h ((over_besides p o.fd _).1 _ _ hov), (over_others p o.fd _ n (hother i o ho hg)).1 _ _ hov⟩
    | openFile =>
      simp only [SessProc.step] at hs
      cases hs
      have hlook : ∀ fd, ((SessProc.give (.file p.files.length) p.fds)[fd]?).join =
          if fd = SessProc.lowest p.fds then some (.file p.files.length) else p.look fd := fun fd => look_give _ _ fd
      refine ⟨⟨?_, ?_, h.known, h.objs, ?_⟩, rfl⟩
      · exact (hlook x).trans ((if_neg (fun e => hlow e.symm)).trans h.stands)
      · intro fd hf
        have hf' := (hlook fd).symm.trans hf
        split at hf'
        · cases hf'
        · exact h.only fd hf'
      · intro k fd hf hk
        rw [List.getElem?_append] at hf
        split at hf
        · exact h.files k fd hf hk
        · rw [List.getElem?_singleton] at hf
          split at hf
          · cases hf; exact hlow
          · cases hf
    | closeFile k =>
      simp only [SessProc.step] at hs
      split at hs
      · cases hs
      · next fd hf =>
        split at hs
        · cases hs
        · next hk =>
          cases hs
          have h1 := leaked_close h (h.files k fd hf (by simpa using hk))
          exact ⟨⟨h1.stands, h1.only, h1.known, h1.objs, fun k' fd' hf' hk' => h1.files k' fd' hf' (contains_cons_false hk')⟩, rfl⟩

theorem leaked_run (m : Mem) (p p' : SessProc) (x n : Nat) (h : Leaked p x n) (as : List SessAct)
    (tr : List (SessAct × SessRet)) (hr : p.runActs m as = some (p', tr)) :
    p'.look x = some (.conn n) ∧ p'.conns[n]? = p.conns[n]? := by
  induction as generalizing p tr with
  | nil => cases hr; exact ⟨h.stands, rfl⟩
  | cons a as ih =>
    simp only [SessProc.runActs] at hr
    cases hs : p.act m a with
    | ok p1 ret =>
      rw [hs] at hr
      cases hr1 : p1.runActs m as with
      | none => dsimp only at hr; rw [hr1] at hr; cases hr
      | some r =>
        dsimp only at hr
        rw [hr1] at hr
        cases hr
        obtain ⟨h1, h2⟩ := leaked_step m p p1 x n h a ret hs
        obtain ⟨h3, h4⟩ := ih p1 h1 _ hr1
        exact ⟨h3, h4.trans h2⟩
    | aborted p1 => rw [hs] at hr; cases hr
    | ub => rw [hs] at hr; cases hr
    | noSuch => rw [hs] at hr; cases hr

/-- C118. A user may expect that the session which is assigned to is ended.  But if it is the only object of its connection,
then whatever is done afterwards, nothing is sent on this connection again, not even the end of the session, and its
descriptor stays open.  (No copy of a session that has ended is left: it could close the descriptor by accident, C115.) -/
theorem C118_leak_violated (m : Mem) (ops : List SessOp) (p p1 : SessProc) (tr : SessTrace)
    (hr : SessProc.run m {} ops = some (p, tr)) (hu : usedSoundly tr)
    (hstale : ∀ k n, originOf k tr = some n → ended n tr → ∃ ret, (SessOp.destroy k, ret) ∈ tr)
    (i j n : Nat) (hi : originOf i tr = some n) (hsole : ∀ k, originOf k tr = some n → k = i) (hij : j ≠ i)
    (ret : SessRet) (ha : p.act m (.assign i j) = .ok p1 ret) :
    ∃ fd, p.look fd = some (.conn n) ∧ ∀ as p2 tr2, p1.runActs m as = some (p2, tr2) →
      p2.look fd = some (.conn n) ∧ p2.conns[n]? = p.conns[n]? := by
  have h := sess_inv_run m ops {} p [] tr (sess_inv_start m) hr
  have hl := sess_live_run m ops {} p [] tr (sess_inv_start m) sess_live_start hu hr
  rw [List.nil_append] at h hl
  obtain ⟨oi, oj, hoi, hoj, hgi, hgj, rfl, -⟩ := assignSess_cases ha
  have hnot : ∀ k nk, originOf k tr = some nk → p.gone.contains k = false → ¬ ended nk tr := by
    intro k nk hk hg he
    obtain ⟨r, hm⟩ := hstale k nk hk he
    rw [h.gone k r hm] at hg
    cases hg
  have hx := hl.live i n oi hi (hnot i n hi hgi) hoi
  have hfar : ∀ k o, k ≠ i → p.objs[k]? = some o → p.gone.contains k = false → o.fd ≠ oi.fd := by
    intro k o hki ho hg e
    obtain ⟨nk, hnk⟩ := originOf_some h k (List.getElem?_eq_some_iff.1 ho).1
    have hy := hl.live k nk o hnk (hnot k nk hnk hg) ho
    rw [e, hx] at hy
    cases hy
    exact hki (hsole k hnk)
  refine ⟨oi.fd, hx, fun as p2 tr2 hr2 => leaked_run m { p with objs := p.objs.set i oj } p2 oi.fd n ⟨hx, ?_, h.lt i n hi, ?_, ?_⟩ as tr2 hr2⟩
  · intro fd hf
    obtain ⟨i', o', a, b, c⟩ := h.held fd n hf
    rw [hsole i' a, hoi] at b
    cases b
    exact c.symm
  · intro k o ho hg
    have hlt := (List.getElem?_eq_some_iff.1 hoi).1
    rw [List.getElem?_set] at ho
    split at ho
    · cases ho; exact hfar j _ hij hoj hgj
    · next hne => exact hfar k o (fun e => hne e.symm) ho hg
  · intro k fd hk hsh e
    have hy := hl.files k fd hk hsh
    rw [e, hx] at hy
    cases hy

/-- C118. `session = SessionInfo(host, port)`, to connect again: the new session is registered, and ended as soon as the
temporary is destroyed, which closes its connection.  The session assigned to then throws `EBADF` at every request.  So in
any history, for any session object. -/
theorem C118_reconnect_violated (m : Mem) (ops : List SessOp) (p : SessProc) (tr : SessTrace)
    (hr : SessProc.run m {} ops = some (p, tr)) (i n : Nat) (hi : originOf i tr = some n)
    (hg : ∀ ret, (SessOp.destroy i, ret) ∉ tr) (t t' : Tcp) (handle : BitVec 32)
    (hc : registerSession m t = .ok t' handle) (hs : t'.sends = []) :
    ∃ p' k, p.runActs m [.op (.connect t), .assign i k, .op (.destroy k)] =
        some (p', [(.op (.connect t), .unit), (.assign i k, .unit), (.op (.destroy k), .unit)]) ∧
      p'.conns = p.conns ++ [{ t' with sent := t'.sent ++ [unregisterFrame handle] }] ∧
      (∀ fd, p'.look fd ≠ some (.conn p.conns.length)) ∧
      ∀ packet, packet.pack.length < 2 ^ 63 → p'.step m (.request i packet) = .ok p' (.threw (.system 9)) := by
  have h := sess_inv_run m ops {} p [] tr (sess_inv_start m) hr
  rw [List.nil_append] at h
  have hlt := originOf_lt h i n hi
  have hgi : p.gone.contains i = false := by
    cases hc : p.gone.contains i with
    | false => rfl
    | true => obtain ⟨r, hm⟩ := h.gone' i hc; exact absurd hm (hg r)
  have hgk : p.gone.contains p.objs.length = false := by
    cases hc : p.gone.contains p.objs.length with
    | false => rfl
    | true =>
      obtain ⟨r, hm⟩ := h.gone' _ hc
      exact absurd (h.uses _ r hm _ rfl) (Nat.lt_irrefl _)
  have hnew : ∀ fd, p.look fd ≠ some (.conn p.conns.length) := by
    intro fd hf
    obtain ⟨i', o', a, -, -⟩ := h.held fd _ hf
    exact absurd (h.lt i' _ a) (Nat.lt_irrefl _)
  generalize hfd : SessProc.lowest p.fds = x
  have e1 : p.act m (.op (.connect t)) = .ok { p with conns := p.conns ++ [t'], fds := SessProc.give (.conn p.conns.length) p.fds, objs := p.objs ++ [⟨x, handle⟩] } .unit := by
    show p.step m (.connect t) = _
    rw [connect_eq, hc, hfd]
  generalize hp1 : ({ p with conns := p.conns ++ [t'], fds := SessProc.give (.conn p.conns.length) p.fds, objs := p.objs ++ [⟨x, handle⟩] } : SessProc) = p1 at e1
  have hlook1 : ∀ fd, p1.look fd = if fd = x then some (.conn p.conns.length) else p.look fd := by
    intro fd; rw [← hp1, ← hfd]; exact look_give _ _ fd
  have ho1 : p1.objs = p.objs ++ [⟨x, handle⟩] := by rw [← hp1]
  have hc1 : p1.conns = p.conns ++ [t'] := by rw [← hp1]
  have hg1 : p1.gone = p.gone := by rw [← hp1]
  have e2 : p1.act m (.assign i p.objs.length) = .ok { p1 with objs := p1.objs.set i ⟨x, handle⟩ } .unit := by
    have a1 : p1.objs[i]? = some p.objs[i] := by rw [ho1, List.getElem?_append_left hlt]; exact List.getElem?_eq_getElem hlt
    have a2 : p1.objs[p.objs.length]? = some ⟨x, handle⟩ := by rw [ho1]; simp
    simp only [SessProc.act, a1, a2, hg1, hgi, hgk, Bool.or_self, Bool.false_eq_true, if_false]
  generalize hp2 : ({ p1 with objs := p1.objs.set i ⟨x, handle⟩ } : SessProc) = p2 at e2
  have hlook2 : ∀ fd, p2.look fd = p1.look fd := by intro fd; rw [← hp2]; rfl
  have hc2 : p2.conns = p.conns ++ [t'] := by rw [← hp2]; exact hc1
  have hg2 : p2.gone = p.gone := by rw [← hp2]; exact hg1
  have hok2 : p2.objs[p.objs.length]? = some ⟨x, handle⟩ := by
    rw [← hp2]
    show (p1.objs.set i _)[_]? = _
    rw [List.getElem?_set_ne (by omega), ho1]; simp
  have hoi2 : p2.objs[i]? = some ⟨x, handle⟩ := by
    rw [← hp2]
    exact List.getElem?_set_self (by rw [ho1]; simp; omega)
  have hov : p2.over x (unregisterSession handle) = .ok { p2 with conns := p.conns ++ [{ t' with sent := t'.sent ++ [unregisterFrame handle] }] } () := by
    rw [over_conn p2 x p.conns.length t' _ (by rw [hlook2, hlook1, if_pos rfl]) (by rw [hc2]; simp)]
    unfold onConn
    rw [unregister_writes _ _ hs, hc2]
    simp
  generalize hp3 : ({ p2 with conns := p.conns ++ [{ t' with sent := t'.sent ++ [unregisterFrame handle] }] } : SessProc) = p3 at hov
  have e3 : p2.act m (.op (.destroy p.objs.length)) = .ok { p3.close x with gone := p.objs.length :: p3.gone } .unit := by
    show p2.step m (.destroy p.objs.length) = _
    simp only [SessProc.step, hok2, hg2, hgk, Bool.false_eq_true, if_false, hov]
  have hlook : ∀ fd, ({ p3.close x with gone := p.objs.length :: p3.gone } : SessProc).look fd = if fd = x then none else p.look fd := by
    intro fd
    refine (close_look p3 x fd).trans ?_
    by_cases hf : fd = x
    · rw [if_pos hf, if_pos hf]
    · rw [if_neg hf, if_neg hf, ← hp3]
      show p2.look fd = _
      rw [hlook2, hlook1, if_neg hf]
  refine ⟨{ p3.close x with gone := p.objs.length :: p3.gone }, p.objs.length, ?_, ?_, ?_, ?_⟩
  · simp only [SessProc.runActs, e1, e2, e3, Option.map_some]
  · rw [← hp3]; rfl
  · intro fd hf
    rw [hlook] at hf
    split at hf
    · cases hf
    · exact hnew fd hf
  · intro packet hp
    obtain ⟨s, hs⟩ := noSocket_sar m handle packet SessProc.ebadf hp
    have hoi3 : ({ p3.close x with gone := p.objs.length :: p3.gone } : SessProc).objs[i]? = some ⟨x, handle⟩ := by
      rw [← hp3]; exact hoi2
    have hgi3 : ({ p3.close x with gone := p.objs.length :: p3.gone } : SessProc).gone.contains i = false := by
      rw [← hp3]
      show (p.objs.length :: p2.gone).contains i = false
      rw [hg2, List.contains_cons, hgi, Bool.or_false, beq_eq_false_iff_ne]
      omega
    have hlx := hlook x
    rw [if_pos rfl] at hlx
    generalize ({ p3.close x with gone := p.objs.length :: p3.gone } : SessProc) = q at hoi3 hgi3 hlx
    rw [request_by_members m q i _ hoi3 hgi3]
    have : q.over x (sendAndReceive m handle packet) = .throw q (.system 9) := by
      unfold SessProc.over
      rw [hlx]
      dsimp only
      rw [hs]
      rfl
    dsimp only
    rw [this]

/-! ## Cases -/

/-- Two sessions, each used once. -/
def twoSessions : List SessOp :=
  [.connect (granting 7), .connect (granting 9), .request 1 (EncapsPacketFactory.sendRRData 9#32 0#16 [])]

structure AssignSeen where
  rets : List (Option SessRet)
  sent : List (List (List Byte))
  fds : List (Option Opened)
deriving DecidableEq

def assignSeen (x : Option (SessProc × List (SessAct × SessRet))) : Option AssignSeen :=
  x.map fun r => ⟨r.2.map fun e => (match e.2 with | .packet _ => none | y => some y), r.1.conns.map (·.sent), r.1.fds⟩

/-- C118. Hypotheses of `C118_follows` and `C118_leak_violated` are met: session 1 is assigned to session 0, each the only
one of its connection, none destroyed. -/
example : ∃ p tr p1, SessProc.run Mem.strict {} twoSessions = some (p, tr) ∧ usedSoundly tr ∧
    (∀ k n, originOf k tr = some n → ended n tr → ∃ ret, (SessOp.destroy k, ret) ∈ tr) ∧
    originOf 0 tr = some 0 ∧ (∀ k, originOf k tr = some 0 → k = 0) ∧ p.act Mem.strict (.assign 0 1) = .ok p1 .unit := by
  have hrun : (SessProc.run Mem.strict {} twoSessions).isSome = true := by decide +kernel
  obtain ⟨⟨p, tr⟩, hr⟩ := Option.isSome_iff_exists.1 hrun
  have hops : (SessProc.run Mem.strict {} twoSessions).map (fun r => r.2.map (·.1)) = some twoSessions := by decide +kernel
  have hall : (SessProc.run Mem.strict {} twoSessions).map (fun r => (soundTest [] r.2, (r.2.foldl addOrigin ([], 0)).1,
      match r.1.act Mem.strict (.assign 0 1) with | .ok _ .unit => true | _ => false)) = some (true, [0, 1], true) := by
    decide +kernel
  rw [hr] at hops hall
  simp only [Option.map_some, Option.some.injEq, Prod.mk.injEq] at hops hall
  obtain ⟨h1, h2, h3⟩ := hall
  cases ha : p.act Mem.strict (.assign 0 1) with
  | ok p1 ret =>
    obtain ⟨-, -, -, -, -, -, -, rfl⟩ := assignSess_cases ha
    refine ⟨p, tr, p1, hr, fun tr1 op ret tr2 he i n hu ho => sound_of_test [] tr h1 tr1 tr2 op ret he i n hu ho, ?_, ?_, ?_, ha⟩
    · rintro k n - ⟨i, ret, hm, -⟩
      have := List.mem_map_of_mem (f := (·.1)) hm
      rw [hops] at this
      simp [twoSessions] at this
    · unfold originOf; rw [h2]; rfl
    · intro k hk
      unfold originOf at hk
      rw [h2] at hk
      match k, hk with
      | 0, _ => rfl
      | 1, hk => cases hk
      | _ + 2, hk => cases hk
  | aborted q => rw [ha] at h3; cases h3
  | ub => rw [ha] at h3; cases h3
  | noSuch => rw [ha] at h3; cases h3

/-- C118. What is seen: session 1 is assigned to session 0, and both are destroyed.  The first device never gets the end of
session 7, and its descriptor stays open; the second gets it once, from the first destructor. -/
example : assignSeen (SessProc.runActs Mem.strict {} (twoSessions.map .op ++ [.assign 0 1, .op (.destroy 0), .op (.destroy 1)])) =
    some ⟨[some .unit, some .unit, none, some .unit, some .unit, some .unit],
      [[registerFrame], [registerFrame, (EncapsPacketFactory.sendRRData 9#32 0#16 []).pack, unregisterFrame 9#32]],
      [some (.conn 0), none]⟩ := by
  decide +kernel

/-- C118. `session = SessionInfo(host, port)`: both descriptors are lost, one open and one closed, and the request throws. -/
example : assignSeen (SessProc.runActs Mem.strict {} [.op (.connect (granting 7)), .op (.connect (granting 9)), .assign 0 1,
      .op (.destroy 1), .op (.request 0 (EncapsPacketFactory.sendRRData 9#32 0#16 []))]) =
    some ⟨[some .unit, some .unit, some .unit, some .unit, some (.threw (.system 9))],
      [[registerFrame], [registerFrame, unregisterFrame 9#32]], [some (.conn 0), none]⟩ := by
  decide +kernel

end Verif.Props
