import Verif.Props.LateReply

/-!
# Cases for properties C90 and C91
-/

namespace Verif.Props

open Verif Verif.Spec

/-- A reply with success and these data. -/
def dataReply (data : List Byte) : ExplicitReply :=
  { command := 0x6F#16, context := List.replicate 8 0#8, options := 0#32, interface := 0#32, timeout := 0#16, address := (0#16, []),
    dataType := 0xB2#16, service := 0x8E#8, reserved := 0#8, status := 0#8, extra := [], data, items := [] }

/-- Memory after a vector is zero. -/
def zeroMem : Mem := fun _ => some 0#8

theorem zeroMem_lenient : zeroMem.Lenient := fun _ => ⟨0#8, rfl⟩

/-- A parameter of two bytes. -/
def shortParam (inst : BitVec 16) : ParameterObject := { ParameterObject.empty inst false 2 with hasRouter := true }

/-- C90_update: a reply after 60 of 100 ms.  The update takes 60 ms and the hypothesis of its second part is met. -/
example :
    let L : Link TTcp := ⟨⟨repliesAt 7#32 [(60000, dataReply [1, 2])], [], [], 0⟩, []⟩
    LinkPrompt (100 * 1000) L ∧
    ParameterObject.updateValue zeroMem (Device.timed zeroMem 100 7#32) (shortParam 5, L) =
      .ok ({ shortParam 5 with value := [1, 2] }, ⟨⟨[], [], [reqFrame 7#32 (paramGet 5 1)], 60000⟩, [paramGet 5 1]⟩) () := by
  refine ⟨?_, ?_⟩
  · refine ⟨?_, trivial⟩
    show 60000 ≤ 0 + 100 * 1000
    omega
  · decide +kernel

/-- C90_parameter: without a reply the first request takes the whole timeout. -/
example : ∃ L', EndState (ParameterObject.connect zeroMem (Device.timed zeroMem 100 7#32) 5 true ⟨⟨[], [], [], 0⟩, []⟩) L' ∧ L'.dev.now = 100000 :=
  ⟨_, .inr ⟨_, C91_parameter_silent zeroMem 100 (by decide) 7#32 ⟨[], [], [], 0⟩ rfl (fun x hx => (by cases hx)) [] 5 true⟩, rfl⟩

/-- C91_own_value_violated: parameter 6 shows the value of parameter 5. -/
example :
    let s : TTcp := ⟨repliesAt 7#32 [(100001, dataReply [1, 2])], [], [], 0⟩
    ∃ L, ParameterObject.updateValue zeroMem (Device.timed zeroMem 100 7#32)
      (shortParam 6, ⟨{ gaveUp 100 7#32 (paramGet 5 1) s with now := 200000 }, [paramGet 5 1]⟩) =
      .ok ({ shortParam 6 with value := [1, 2] }, L) () :=
  ⟨_, (C91_own_value_violated zeroMem 100 (by decide) 7#32 (shortParam 5) (shortParam 6) rfl rfl [1, 2] [] rfl (dataReply [1, 2])
    ⟨rfl, fun a ha => by
      simp only [List.mem_cons, List.not_mem_nil, or_false] at ha
      subst ha
      exact ⟨rfl, rfl, by decide, by decide⟩⟩ 100001 200000 [] ⟨repliesAt 7#32 [(100001, dataReply [1, 2])], [], [], 0⟩ rfl rfl
    (by decide) (by decide) []).2⟩

/-- C91_upload_goes_on_violated: its hypotheses are met, here by the second packet of an upload in packets of three bytes. -/
example :
    let u : Upload := ⟨9, 3, [1, 2, 3], 1, 0⟩
    let f : FileObject := ⟨200, .uploading u, []⟩
    let packet := le 1 1 ++ le 1 1 ++ [4, 5, 6] ++ []
    let s : TTcp := ⟨repliesAt 7#32 [(100001, dataReply packet), (200005, dataReply packet)], [], [], 0⟩
    ∃ s1 L1 s2 L2 L3,
      FileObject.handleTransfers zeroMem (Device.timed zeroMem 100 7#32) (f, ⟨s, []⟩) = .throw (f, ⟨s1, L1⟩) (.system eagain) ∧
      FileObject.handleTransfers zeroMem (Device.timed zeroMem 100 7#32) (f, ⟨{ s1 with now := 200000 }, L1⟩) =
        .ok ({ f with state := .uploading ⟨9, 3, [1, 2, 3, 4, 5, 6], 2, 0⟩ }, ⟨s2, L2⟩) true ∧
      FileObject.handleTransfers zeroMem (Device.timed zeroMem 100 7#32)
        ({ f with state := .uploading ⟨9, 3, [1, 2, 3, 4, 5, 6], 2, 0⟩ }, ⟨{ s2 with now := 200010 }, L2⟩) =
        .ok (⟨200, .uploading ⟨9, 3, [1, 2, 3, 4, 5, 6], 2, 0⟩, [⟨0, 0x20#8, []⟩]⟩, L3) false :=
  have h := C91_upload_goes_on_violated zeroMem 100 (by decide) 7#32 ⟨200, .uploading ⟨9, 3, [1, 2, 3], 1, 0⟩, []⟩ ⟨9, 3, [1, 2, 3], 1, 0⟩ rfl 1
    (.inr rfl) [4, 5, 6] [] rfl (dataReply (le 1 1 ++ le 1 1 ++ [4, 5, 6] ++ [])) (dataReply (le 1 1 ++ le 1 1 ++ [4, 5, 6] ++ []))
    ⟨rfl, fun a ha => by
      simp only [List.mem_cons, List.not_mem_nil, or_false, or_self] at ha
      subst ha
      exact ⟨rfl, rfl, by decide, by decide⟩⟩ 100001 200005 200000 200010 []
    ⟨repliesAt 7#32 [(100001, dataReply (le 1 1 ++ le 1 1 ++ [4, 5, 6] ++ [])), (200005, dataReply (le 1 1 ++ le 1 1 ++ [4, 5, 6] ++ []))], [], [], 0⟩ rfl rfl
    (by decide) (by decide) (by decide) []
  ⟨_, _, _, _, _, h.1, h.2.1, h.2.2⟩

end Verif.Props
