import Verif.Props.RequestTime

/-!
# Cases for properties C88 and C89
-/

namespace Verif.Props

open Verif Verif.Spec

/-- A good reply with one byte. -/
def tinyReply (b : Byte) : EncapsPacket := { EncapsPacket.default with sessionHandle := 7#32, length := 1#16, data := [b] }

theorem tinyReply_good (b : Byte) : GoodReply 7#32 (tinyReply b) := ⟨⟨rfl, rfl⟩, rfl, rfl⟩

/-- The reply in two parts with an interruption in between. -/
def tinyPre : List (Nat × NetEv) :=
  [(150000, .seg ((tinyReply 5#8).pack.headD 0#8) (((tinyReply 5#8).pack.drop 1).take 9)), (200000, .eintr),
   (299000, .seg (((tinyReply 5#8).pack.drop 10).headD 0#8) ((tinyReply 5#8).pack.drop 11 ++ [9#8]))]

/-- C88_in_time: what its hypotheses ask for, and what then happens: at 299 ms, with one byte of the next frame left. -/
example : Prompt 100000 100000 tinyPre ∧ frameLen (bytesOf tinyPre) ≤ (bytesOf tinyPre).length ∧
    TTcp.exchange Mem.strict 100 7#32 (tinyReply 1#8) ⟨tinyPre, [], [], 100000⟩ =
      .ok ⟨[(299000, .seg 9#8 [])], [], [(tinyReply 1#8).pack], 299000⟩ (tinyReply 5#8) := by
  refine ⟨by simp [Prompt, tinyPre], by decide +kernel, by decide +kernel⟩

/-- C88_gives_up: the second part comes one microsecond too late. -/
example :
    let pre := tinyPre.take 2
    let rest : List (Nat × NetEv) := [(300001, .seg 0#8 [])]
    Prompt 100000 100000 pre ∧ BytesOnly pre ∧ (bytesOf pre).length < frameLen (bytesOf pre) ∧ SilentFor 100000 (latest 100000 pre) rest ∧
    TTcp.exchange Mem.strict 100 7#32 (tinyReply 1#8) ⟨pre ++ rest, [], [], 100000⟩ =
      .throw ⟨rest, [], [(tinyReply 1#8).pack], 300000⟩ (.system eagain) := by
  refine ⟨by simp [Prompt, tinyPre], ?_, by decide +kernel, ?_, by decide +kernel⟩
  · intro x hx c
    simp only [tinyPre, List.take, List.mem_cons, List.not_mem_nil, or_false] at hx
    rcases hx with rfl | rfl <;> exact ⟨by simp, by simp⟩
  · intro x hx
    simp only [List.head?_cons, Option.some.injEq] at hx
    subst hx
    decide

/-- C88_forever_violated: without a timeout the same target is waited for without end. -/
example : TTcp.exchange Mem.strict 0 7#32 (tinyReply 1#8) ⟨tinyPre.take 2, [], [], 100000⟩ = .hangs ∧
    TTcp.exchange Mem.strict (-5) 7#32 (tinyReply 1#8) ⟨tinyPre.take 2, [], [], 100000⟩ = .hangs := by
  decide +kernel

/-- C88_within_timeout_violated: 25 bytes and a timeout of 100 ms make 2.5 seconds. -/
example : TTcp.exchange Mem.strict 100 7#32 (tinyReply 1#8) ⟨drip 100000 0 (tinyReply 5#8).pack, [], [], 0⟩ =
    .ok ⟨[], [], [(tinyReply 1#8).pack], 2500000⟩ (tinyReply 5#8) :=
  C88_within_timeout_violated Mem.strict 100 (by decide) 7#32 (tinyReply 1#8) (tinyReply 5#8) (by decide +kernel)
    (tinyReply_good _).1 rfl rfl 0

/-- C88_bounded does not only speak of requests that succeed. -/
example : TTcp.exchange Mem.strict 100 7#32 (tinyReply 1#8) ⟨[(5, .err 104)], [], [], 0⟩ =
    .throw ⟨[], [], [(tinyReply 1#8).pack], 5⟩ (.system 104) := by
  decide +kernel

/-- C89_in_time. -/
example : requestsAt Mem.strict 100 7#32 [(0, tinyReply 1#8), (200000, tinyReply 2#8)]
    ⟨framesAt [(100000, tinyReply 11#8), (250000, tinyReply 12#8)], [], [], 0⟩ =
    [.ok (tinyReply 11#8), .ok (tinyReply 12#8)] := by
  decide +kernel

/-- C89_own_reply_violated: the reply to the first of three requests comes one microsecond too late. -/
example : requestsAt Mem.strict 100 7#32 [(0, tinyReply 1#8), (200000, tinyReply 2#8), (300000, tinyReply 3#8)]
    ⟨framesAt [(100001, tinyReply 11#8), (250000, tinyReply 12#8), (350000, tinyReply 13#8)], [], [], 0⟩ =
    [.throw (.system eagain), .ok (tinyReply 11#8), .ok (tinyReply 12#8)] :=
  C89_own_reply_violated Mem.strict 100 (by decide) 7#32 0 (tinyReply 1#8) (by decide +kernel)
    [((200000, tinyReply 2#8), (100001, tinyReply 11#8)), ((300000, tinyReply 3#8), (250000, tinyReply 12#8))]
    (by
      intro x hx
      simp only [List.mem_cons, List.not_mem_nil, or_false] at hx
      rcases hx with rfl | rfl
      · exact ⟨by decide +kernel, tinyReply_good _⟩
      · exact ⟨by decide +kernel, tinyReply_good _⟩)
    (by intro x hx; simp only [List.head?_cons, Option.some.injEq] at hx; subst hx; decide)
    (by
      intro x hx
      simp only [List.mem_cons, List.not_mem_nil, or_false] at hx
      rcases hx with rfl | rfl <;> decide)
    [(350000, tinyReply 13#8)] (by simp) _ rfl (Nat.le_refl _) rfl

end Verif.Props
