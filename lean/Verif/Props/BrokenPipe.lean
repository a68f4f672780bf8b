import Verif.Spec.BrokenPipe
import Verif.Model.Tcp

/-!
# Property C130: peers that are gone do not kill the program
-/

namespace Verif.Props

open Verif.Spec

/-- Objects have open sockets, each its own; their sockets have the option if the build has it. -/
structure PipeInv (B : Pipe.Build) (s : Pipe.Proc) : Prop where
  nodup : s.objects.Nodup
  live : ∀ fd ∈ s.objects, ∃ k, s.socks[fd]? = some (some k) ∧ k.quiet = B.soNoSigpipe

theorem PipeInv.lt {B : Pipe.Build} {s : Pipe.Proc} (h : PipeInv B s) {fd : Nat} (hf : fd ∈ s.objects) : fd < s.socks.length := by
  obtain ⟨k, hk, _⟩ := h.live fd hf
  exact (List.getElem?_eq_some_iff.mp hk).1

theorem PipeInv.grow {B : Pipe.Build} {s : Pipe.Proc} (h : PipeInv B s) (x : Option Pipe.Sock) : PipeInv B { s with socks := s.socks ++ [x] } :=
  ⟨h.nodup, fun fd hf => by
    obtain ⟨k, hk, hq⟩ := h.live fd hf
    exact ⟨k, by rw [List.getElem?_append_left (h.lt hf)]; exact hk, hq⟩⟩

theorem PipeInv.add {B : Pipe.Build} {s : Pipe.Proc} (h : PipeInv B s) (k : Pipe.Sock) (hq : k.quiet = B.soNoSigpipe) :
    PipeInv B ⟨s.socks ++ [some k], s.objects ++ [s.socks.length]⟩ := by
  constructor
  · rw [List.nodup_append]
    exact ⟨h.nodup, by simp, fun a ha b hb => by
      rw [List.mem_singleton] at hb
      have := h.lt ha
      omega⟩
  · intro fd hf
    rcases List.mem_append.mp hf with hf | hf
    · exact (h.grow (some k)).live fd hf
    · rw [List.mem_singleton] at hf
      subst hf
      exact ⟨k, by simp, hq⟩

theorem PipeInv.gone {B : Pipe.Build} {s : Pipe.Proc} (h : PipeInv B s) (fd : Nat) :
    PipeInv B { s with socks := s.socks.modify fd (·.map fun k => { k with gone := true }) } := by
  refine ⟨h.nodup, fun f hf => ?_⟩
  obtain ⟨k, hk, hq⟩ := h.live f hf
  dsimp only
  rw [List.getElem?_modify, hk]
  by_cases e : fd = f
  · exact ⟨{ k with gone := true }, by simp [e], hq⟩
  · exact ⟨k, by simp [e], hq⟩

theorem PipeInv.destroy {B : Pipe.Build} {s : Pipe.Proc} (h : PipeInv B s) (fd : Nat) : PipeInv B (Pipe.destroy fd s) := by
  refine ⟨h.nodup.erase fd, fun f hf => ?_⟩
  obtain ⟨hne, hf'⟩ := (h.nodup.mem_erase_iff).mp hf
  obtain ⟨k, hk, hq⟩ := h.live f hf'
  refine ⟨k, ?_, hq⟩
  unfold Pipe.destroy
  dsimp only
  rw [List.getElem?_set_ne (fun e => hne e.symm)]
  exact hk

/-- After every event the process is alive, and the invariant holds, or the event is a send that kills. -/
theorem pipe_step {B : Pipe.Build} {s : Pipe.Proc} (h : PipeInv B s) (op : Pipe.Op) :
    (∃ s', (Pipe.step B s op = .ok s' ∨ ∃ c, Pipe.step B s op = .threw s' c) ∧ PipeInv B s' ∧
      openDescriptors s' + s.objects.length = openDescriptors s + s'.objects.length + (if optionFailed B op then 1 else 0)) ∨
    (Pipe.step B s op = .killed ∧ ¬ CanBeQuiet B ∧ ∃ fd data count, op = .send fd data count ∧ PeerGone s fd) := by
  cases op with
  | openTcp a b c =>
    left
    unfold Pipe.step Pipe.openTcp
    cases a with
    | some e => exact ⟨s, .inr ⟨e, rfl⟩, h, by simp [optionFailed]⟩
    | none =>
      cases hB : B.soNoSigpipe with
      | false =>
        cases c with
        | some e => exact ⟨_, .inr ⟨e, rfl⟩, h.grow none, by cases b <;> simp [optionFailed, openDescriptors, hB]⟩
        | none => exact ⟨_, .inl rfl, h.add _ hB.symm, by cases b <;> simp [optionFailed, openDescriptors, hB] <;> omega⟩
      | true =>
        cases b with
        | some e => exact ⟨_, .inr ⟨e, rfl⟩, h.grow _, by simp [optionFailed, openDescriptors, hB]; omega⟩
        | none =>
          cases c with
          | some e => exact ⟨_, .inr ⟨e, rfl⟩, h.grow none, by simp [optionFailed, openDescriptors]⟩
          | none => exact ⟨_, .inl rfl, h.add _ hB.symm, by simp [optionFailed, openDescriptors]; omega⟩
  | openUdp a b =>
    left
    unfold Pipe.step Pipe.openUdp
    cases a with
    | some e => exact ⟨s, .inr ⟨e, rfl⟩, h, by simp [optionFailed]⟩
    | none =>
      cases hB : B.soNoSigpipe with
      | false => exact ⟨_, .inl rfl, h.add _ hB.symm, by cases b <;> simp [optionFailed, openDescriptors, hB] <;> omega⟩
      | true =>
        cases b with
        | some e => exact ⟨_, .inr ⟨e, rfl⟩, h.grow _, by simp [optionFailed, openDescriptors, hB]; omega⟩
        | none => exact ⟨_, .inl rfl, h.add _ hB.symm, by simp [optionFailed, openDescriptors]; omega⟩
  | goes fd =>
    left
    refine ⟨_, .inl rfl, h.gone fd, ?_⟩
    have : ∀ (l : List (Option Pipe.Sock)) (n : Nat),
        (l.modify n (·.map fun k => { k with gone := true })).countP Option.isSome = l.countP Option.isSome := by
      intro l
      induction l with
      | nil => intro n; simp
      | cons a l ih =>
        intro n
        cases n with
        | zero => cases a <;> simp
        | succ n => simp [List.modify_succ_cons, List.countP_cons, ih]
    simp [openDescriptors, optionFailed, this]
  | destroy fd =>
    left
    unfold Pipe.step
    dsimp only
    by_cases hf : fd ∈ s.objects
    · rw [if_pos hf]
      refine ⟨_, .inl rfl, h.destroy fd, ?_⟩
      obtain ⟨k, hk, _⟩ := h.live fd hf
      obtain ⟨hl, hk'⟩ := List.getElem?_eq_some_iff.mp hk
      have h1 : openDescriptors (Pipe.destroy fd s) + 1 = openDescriptors s := by
        unfold openDescriptors Pipe.destroy
        rw [List.countP_set hl, hk']
        have : 0 < s.socks.countP Option.isSome := List.countP_pos_iff.mpr ⟨some k, hk' ▸ List.getElem_mem hl, rfl⟩
        simp
        omega
      have h2 : (Pipe.destroy fd s).objects.length + 1 = s.objects.length := by
        unfold Pipe.destroy
        rw [List.length_erase_of_mem hf]
        have := List.length_pos_of_mem hf
        omega
      simp [optionFailed]
      omega
    · rw [if_neg hf]
      exact ⟨s, .inl rfl, h, by simp [optionFailed]⟩
  | send fd data count =>
    unfold Pipe.step
    dsimp only
    by_cases hf : fd ∈ s.objects
    · rw [if_pos hf]
      obtain ⟨k, hk, hq⟩ := h.live fd hf
      unfold Pipe.send Pipe.sysSend
      rw [hk]
      rw [show (some (some k)).join = some k from rfl]
      dsimp only
      have fin : ∀ n : Int, ∃ s', ((if (BitVec.ofInt 64 n).toNat < data.length then Pipe.Res.threw s 0 else .ok s) = .ok s' ∨
          ∃ c, (if (BitVec.ofInt 64 n).toNat < data.length then Pipe.Res.threw s 0 else .ok s) = .threw s' c) ∧ PipeInv B s' ∧
          openDescriptors s' + s.objects.length = openDescriptors s + s'.objects.length +
            (if optionFailed B (.send fd data count) then 1 else 0) := by
        intro n
        refine ⟨s, ?_, h, by simp [optionFailed]⟩
        by_cases hn : (BitVec.ofInt 64 n).toNat < data.length
        · rw [if_pos hn]; exact .inr ⟨0, rfl⟩
        · rw [if_neg hn]; exact .inl rfl
      by_cases hg : k.stream ∧ k.gone
      · rw [if_pos hg]
        by_cases hB : B.msgNoSignal ∨ k.quiet
        · rw [if_pos hB]
          exact .inl (fin (-1))
        · rw [if_neg hB]
          refine .inr ⟨rfl, fun hc => hB ?_, fd, data, count, rfl, hf, k, hk, hg.1, hg.2⟩
          rcases hc with hc | hc
          · exact .inl hc
          · exact .inr (hq.trans hc)
      · rw [if_neg hg]
        exact .inl (fin count)
    · rw [if_neg hf]
      exact .inl ⟨s, .inl rfl, h, by simp [optionFailed]⟩

theorem pipe_run {B : Pipe.Build} (ops : List Pipe.Op) : ∀ {s : Pipe.Proc}, PipeInv B s →
    (CanBeQuiet B → ∃ s', Pipe.run B s ops = some s') ∧
    (∀ s', Pipe.run B s ops = some s' → PipeInv B s' ∧
      openDescriptors s' + s.objects.length = openDescriptors s + s'.objects.length + ops.countP (optionFailed B)) := by
  induction ops with
  | nil => intro s h; exact ⟨fun _ => ⟨s, rfl⟩, fun s' e => by cases e; exact ⟨h, by simp⟩⟩
  | cons op ops ih =>
    intro s h
    rcases pipe_step h op with ⟨s1, h1, h2, h3⟩ | ⟨h1, h2, _⟩
    · have hr : Pipe.run B s (op :: ops) = Pipe.run B s1 ops := by
        rcases h1 with h1 | ⟨c, h1⟩ <;> simp [Pipe.run, h1]
      rw [hr]
      refine ⟨(ih h2).1, fun s' e => ?_⟩
      obtain ⟨i1, i2⟩ := (ih h2).2 s' e
      refine ⟨i1, ?_⟩
      rw [List.countP_cons]
      omega
    · have hr : Pipe.run B s (op :: ops) = none := by simp [Pipe.run, h1]
      rw [hr]
      exact ⟨fun hc => absurd hc h2, fun s' e => by cases e⟩

theorem pipe_init (B : Pipe.Build) : PipeInv B ⟨[], []⟩ := ⟨List.nodup_nil, fun fd h => by cases h⟩

/-- C130. On a system where the signal can be turned off no history ends with the process killed, whatever the peers do. -/
theorem C130_alive (B : Pipe.Build) (hB : CanBeQuiet B) (ops : List Pipe.Op) : ∃ s, Pipe.run B ⟨[], []⟩ ops = some s :=
  (pipe_run ops (pipe_init B)).1 hB

example : CanBeQuiet ⟨true, false⟩ ∧ CanBeQuiet ⟨false, true⟩ ∧
    ∃ s, Pipe.run ⟨false, true⟩ ⟨[], []⟩ [.openTcp none none none, .goes 0, .send 0 [1, 2] 2] = some s ∧ PeerGone s 0 :=
  ⟨.inl rfl, .inr rfl, _, rfl, by decide, ⟨true, true, true⟩, rfl, rfl, rfl⟩

/-- C130. After any history in which the process was not killed, the descriptors that are open and have no object are as many as the
constructors that could not set the option; so if it can always be set, or is not there, none leaks. -/
theorem C130_descriptors (B : Pipe.Build) (ops : List Pipe.Op) (s : Pipe.Proc) (h : Pipe.run B ⟨[], []⟩ ops = some s) :
    openDescriptors s = s.objects.length + ops.countP (optionFailed B) := by
  have := ((pipe_run ops (pipe_init B)).2 s h).2
  simpa [openDescriptors] using this

example : ∃ s, Pipe.run ⟨false, true⟩ ⟨[], []⟩ [.openTcp none none none, .openUdp none none, .openTcp none none (some 111), .destroy 0] = some s ∧
    openDescriptors s = 1 ∧ s.objects = [1] := ⟨_, rfl, by decide, rfl⟩

/-- C130 violated: where neither is defined, one send to a peer that is gone kills the process, whatever is sent, after whatever history. -/
theorem C130_killed_violated (B : Pipe.Build) (hB : ¬ CanBeQuiet B) (ops : List Pipe.Op) (s : Pipe.Proc)
    (h : Pipe.run B ⟨[], []⟩ ops = some s) (fd : Nat) (hg : PeerGone s fd) (data : List Byte) (count : Int) :
    Pipe.step B s (.send fd data count) = .killed := by
  obtain ⟨hf, k, hk, h1, h2⟩ := hg
  obtain ⟨k', hk', hq⟩ := ((pipe_run ops (pipe_init B)).2 s h).1.live fd hf
  rw [hk] at hk'
  cases hk'
  unfold Pipe.step Pipe.send Pipe.sysSend
  dsimp only
  rw [if_pos hf, hk]
  rw [show (some (some k)).join = some k from rfl]
  dsimp only
  rw [if_pos ⟨h1, h2⟩, if_neg]
  rintro (hc | hc)
  · exact hB (.inl hc)
  · exact hB (.inr (hq.symm.trans hc))

example : ¬ CanBeQuiet ⟨false, false⟩ ∧ ∃ s, Pipe.run ⟨false, false⟩ ⟨[], []⟩ [.openTcp none none none, .goes 0] = some s ∧ PeerGone s 0 :=
  ⟨(by rintro (h | h) <;> cases h), _, rfl, by decide, ⟨true, false, true⟩, rfl, rfl, rfl⟩

/-- C130. After any history an event kills the process if and only if neither is defined and the event is a send of an object with a stream
socket to a peer that is gone. -/
theorem C130_exact (B : Pipe.Build) (ops : List Pipe.Op) (s : Pipe.Proc) (h : Pipe.run B ⟨[], []⟩ ops = some s) (op : Pipe.Op) :
    Pipe.step B s op = .killed ↔ ¬ CanBeQuiet B ∧ ∃ fd data count, op = .send fd data count ∧ PeerGone s fd := by
  constructor
  · intro hk
    rcases pipe_step ((pipe_run ops (pipe_init B)).2 s h).1 op with ⟨s', h1, _⟩ | ⟨_, h2, h3⟩
    · rcases h1 with h1 | ⟨c, h1⟩ <;> rw [hk] at h1 <;> cases h1
    · exact ⟨h2, h3⟩
  · rintro ⟨h1, fd, data, count, rfl, h2⟩
    exact C130_killed_violated B h1 ops s h fd h2 data count

/-- C130 violated: the program does not learn that the peer is gone: the send returns as if all had been sent. -/
theorem C130_unreported_violated (B : Pipe.Build) (hB : CanBeQuiet B) (ops : List Pipe.Op) (s : Pipe.Proc)
    (h : Pipe.run B ⟨[], []⟩ ops = some s) (fd : Nat) (hg : PeerGone s fd) (data : List Byte) (hd : data.length < 2 ^ 63) (count : Int) :
    Pipe.step B s (.send fd data count) = .ok s := by
  obtain ⟨hf, k, hk, h1, h2⟩ := hg
  obtain ⟨k', hk', hq⟩ := ((pipe_run ops (pipe_init B)).2 s h).1.live fd hf
  rw [hk] at hk'
  cases hk'
  unfold Pipe.step Pipe.send Pipe.sysSend
  dsimp only
  rw [if_pos hf, hk]
  rw [show (some (some k)).join = some k from rfl]
  dsimp only
  have hx : B.msgNoSignal = true ∨ k.quiet = true := by
    rcases hB with hc | hc
    · exact .inl hc
    · exact .inr (hq.trans hc)
  rw [if_pos ⟨h1, h2⟩, if_pos hx]
  dsimp only
  rw [if_neg]
  have : (BitVec.ofInt 64 (-1)).toNat = 2 ^ 64 - 1 := by decide
  omega

/-- C130 violated: if the option cannot be set, the constructor throws and the descriptor stays open. -/
theorem C130_leak_violated (noSignal : Bool) (s : Pipe.Proc) (e : Int) (connectErr : Option Int) :
    (∃ s', Pipe.step ⟨noSignal, true⟩ s (.openTcp none (some e) connectErr) = .threw s' e ∧ s'.objects = s.objects ∧
      openDescriptors s' = openDescriptors s + 1) ∧
    (∃ s', Pipe.step ⟨noSignal, true⟩ s (.openUdp none (some e)) = .threw s' e ∧ s'.objects = s.objects ∧
      openDescriptors s' = openDescriptors s + 1) :=
  ⟨⟨_, rfl, rfl, by simp [openDescriptors]⟩, ⟨_, rfl, rfl, by simp [openDescriptors]⟩⟩

/-- C130. Unless the process is killed, a send does what the model of sessions (`Tcp.send`) says for the value that the system returned; so all
that is proved of sessions holds when that model is given -1 for peers that are gone. -/
theorem C130_same (B : Pipe.Build) (s : Pipe.Proc) (fd : Nat) (hf : fd ∈ s.objects) (data : List Byte) (count : Int)
    (h : Pipe.step B s (.send fd data count) ≠ .killed) :
    ∃ n, (PeerGone s fd → n = -1) ∧ ∀ t : Tcp, t.sends.head? = some n →
      ((∃ t', Tcp.send data t = .ok t' ()) ∧ Pipe.step B s (.send fd data count) = .ok s) ∨
      ((∃ t', Tcp.send data t = .throw t' (.system 0)) ∧ Pipe.step B s (.send fd data count) = .threw s 0) := by
  unfold Pipe.step at h ⊢
  dsimp only at h ⊢
  rw [if_pos hf] at h ⊢
  unfold Pipe.send at h ⊢
  cases hn : Pipe.sysSend B.msgNoSignal ((s.socks[fd]?).join) count with
  | none => rw [hn] at h; exact absurd rfl h
  | some n =>
    refine ⟨n, ?_, fun t ht => ?_⟩
    · rintro ⟨_, k, hk, h1, h2⟩
      unfold Pipe.sysSend at hn
      rw [hk, show (some (some k)).join = some k from rfl] at hn
      dsimp only at hn
      rw [if_pos ⟨h1, h2⟩] at hn
      split at hn
      · exact (Option.some.inj hn).symm
      · cases hn
    · have hd : t.sends.headD data.length = n := by
        cases hs : t.sends with
        | nil => rw [hs] at ht; cases ht
        | cons a l => rw [hs] at ht; exact Option.some.inj ht
      unfold Tcp.send
      dsimp only
      rw [hd]
      by_cases hx : (BitVec.ofInt 64 n).toNat < data.length
      · rw [if_pos hx, if_pos hx]; exact .inr ⟨⟨_, rfl⟩, rfl⟩
      · rw [if_neg hx, if_neg hx]; exact .inl ⟨⟨_, rfl⟩, rfl⟩

example : ∃ s, Pipe.run ⟨true, false⟩ ⟨[], []⟩ [.openTcp none none none, .goes 0] = some s ∧ 0 ∈ s.objects ∧
    Pipe.step ⟨true, false⟩ s (.send 0 [7] 1) ≠ .killed := ⟨_, rfl, by decide, by decide +kernel⟩

end Verif.Props
