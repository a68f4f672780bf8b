import Verif.Props.DescriptorLimit
import Verif.Props.DiscoveryFd

/-!
# C85 to C87: concrete cases
-/

namespace Verif.Props

open Verif Verif.Spec

/-- Open a connection with these identifiers. -/
def dOpen (o2t t2o serial : Nat) (sockErr : Option Int := none) (bound : BoundEnv := {}) : DOp :=
  .forwardOpen "192.168.1.10" sampleParams false { reply := .ok (sampleReply o2t t2o serial), sockErr, bound }

/-- Failures of every kind, two connections, a collision of identifiers, a timeout, destruction, and a pointer that is
held until the end, in a process that opens and closes descriptors of its own. -/
def dHistory : List DOp :=
  [.otherOpens, dOpen 0xA 0x10001 1 (some 24), dOpen 0xA 0x10001 2 none { sockErr := some 24 }, dOpen 0xA 0x10001 3 none { reuseErr := some 1 },
   dOpen 0xA 0x10001 4 none { bindErr := some 98 }, dOpen 0xA 0x10001 5, .otherCloses 1, .call (.lock 0), dOpen 0xB 0x10002 6,
   dOpen 0xC 0x20002 7, .call (sampleHandle 12000000), .call (.forwardClose (some 1) (.ok (sampleReply 0 0 0))), .call (sampleHandle 90000000),
   .otherOpens, .destroy, .call (.release 0)]

/-- The hypotheses of C85 and C86 are met by a history in which sockets are made, fail, collide and are destroyed. -/
example : (((DMgr.new 1 {} [0, 2]).run samplePlat posixAlloc dHistory).map fun r => (r.1.fds.opened, r.1.gone, r.1.mgr.held)) =
    some ([1, 0, 2], true, []) := by decide +kernel

example : Lowest posixAlloc ∧ (∀ l, posixAlloc l ∉ l) := ⟨posixAlloc_lowest, fun l => (posixAlloc_lowest l).1⟩

/-- In the middle of it: one descriptor for the implicit socket, one for each connection. -/
example : (((DMgr.new 1 {} [0, 2]).run samplePlat posixAlloc (dHistory.take 10)).map fun r =>
      (r.1.fds.opened, r.1.bound.map (·.2), r.1.send, reachable r.1.mgr)) =
    some ([1, 4, 3, 0, 2], [4], [3, 1, 5], [0, 1]) := by decide +kernel

/-- The sockets of the third connection, which has the identifier of the second cut to 16 bits, are closed at once. -/
example : (((DMgr.new 1 {} [0, 2]).run samplePlat posixAlloc (dHistory.take 10)).map fun r => r.1.fds.calls.drop 27) =
    some [.socket 5, .shutdown 5, .close 5] := by decide +kernel

/-- What a failing bind does. -/
example : (((DMgr.new 1 {} [0, 2]).run samplePlat posixAlloc [dOpen 0xA 0x10001 4 none { bindErr := some 98 }]).map fun r =>
      (r.1.fds.calls, r.2.map (·.2.2))) =
    some ([.socket 1, .socket 3, .reuseAddr 3, .bind 3 anyHost2222, .shutdown 3, .close 3, .shutdown 1, .close 1],
      [.threw (.system 98)]) := by decide +kernel

/-- Does the operation end in undefined behaviour? -/
def dUb : DRes → Bool
  | .stop [] .ub => true
  | _ => false

/-- C86: in a process with the descriptors 0 to 1022 open the forward open succeeds, and `handleConnections` is
undefined. -/
example : (((DMgr.new 1 {} (List.range 1023)).run samplePlat (fun l => l.length) [dOpen 0xA 0x10001 1]).map fun r =>
      (r.1.bound.map (·.2), r.1.mgr.heap.length, dUb (r.1.step samplePlat (fun l => l.length) (.call (sampleHandle 12000000))))) =
    some ([1024], 1, true) := by decide +kernel

/-- With one descriptor less it is defined. -/
example : (((DMgr.new 1 {} (List.range 1022)).run samplePlat (fun l => l.length) [dOpen 0xA 0x10001 1]).map fun r =>
      (r.1.bound.map (·.2), dUb (r.1.step samplePlat (fun l => l.length) (.call (sampleHandle 12000000))))) =
    some ([1023], false) := by decide +kernel

/-! ## C87 -/

/-- An answer of one device. -/
def sampleAnswer : List Byte :=
  List.replicate 24 0#8 ++ (le 2 1 ++ cpfItem 0x0c (identityItem 44818 [192#8, 168#8, 1#8, 7#8] ⟨1, 12, 65, 1, 2, 0x60, 0x11223344, [0x41#8, 0x42#8]⟩))

theorem sampleAnswer_announces :
    Announces sampleAnswer [(0x0c, identityItem 44818 [192#8, 168#8, 1#8, 7#8] ⟨1, 12, 65, 1, 2, 0x60, 0x11223344, [0x41#8, 0x42#8]⟩)] := by
  have := C52_wellformed (List.replicate 24 0#8)
    [(0x0c, identityItem 44818 [192#8, 168#8, 1#8, 7#8] ⟨1, 12, 65, 1, 2, 0x60, 0x11223344, [0x41#8, 0x42#8]⟩)]
    (by decide) (by decide) (by decide) (by decide)
  simpa [sampleAnswer] using this

/-- Answers 0.9, 1.8 and 3 seconds after the request, with a timeout of one second: two are found, and discovery returns
after 2.8 seconds. -/
example :
    let r := (Discovery.discoverAt Mem.strict posixAlloc (EndPoint.ofHost samplePlat.aton "255.255.255.255" 44818) 1000 (fun _ => 0) 0
      [(900000, sampleAnswer), (1800000, sampleAnswer), (3000000, sampleAnswer)] { opened := [0, 1, 2] })
    (r.1.opened, (foundBy r.2.1).map List.length, r.2.2) = ([0, 1, 2], some 2, some 2800000) := by decide +kernel

/-- A timeout of zero: all three are received, and discovery never returns. -/
example :
    let r := (Discovery.discoverAt Mem.strict posixAlloc (EndPoint.ofHost samplePlat.aton "255.255.255.255" 44818) 0 (fun _ => 0) 0
      [(900000, sampleAnswer), (1800000, sampleAnswer), (3000000, sampleAnswer)] { opened := [0, 1, 2] })
    (r.1.opened, r.2) = ([3, 0, 1, 2], .waiting, none) := by decide +kernel

/-- The calls when permission to broadcast is refused. -/
example :
    (Discovery.discoverFd Mem.strict posixAlloc (EndPoint.ofHost samplePlat.aton "255.255.255.255" 44818) 1500
      { broadcastErr := some 13, sendCount := 24, recvs := [] } { opened := [0, 1, 2] }).1.calls =
      [.socket 3, .rcvTimeout 3 (1, 500000), .broadcast 3, .shutdown 3, .close 3] := by decide +kernel

end Verif.Props
