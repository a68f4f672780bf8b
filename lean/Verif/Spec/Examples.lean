import Verif.Spec.File
import Verif.Spec.Manager

/-!
# Specification: the example programs
-/

namespace Verif.Spec

open Verif

/-- Read attribute 1 of the identity object: the vendor. -/
def vendorReq : Req := ⟨0x0E#8, ⟨1, 1, 1, 3⟩, []⟩
/-- Write ten bytes to the data of assembly 151. -/
def assemblyReq : Req := ⟨0x10#8, ⟨4, 151, 3, 3⟩, [1, 2, 3, 4, 5, 6, 7, 8, 9, 10]⟩

/-- Read an attribute of the parameter class: 2 is the number of parameters, 8 the descriptor. -/
def paramClassReq (attr : BitVec 16) : Req := ⟨0x0E#8, ⟨0x0F, 0, attr, 3⟩, []⟩

/-- The requests for parameters `i + 1`, `i + 2`, ..., given for each whether it is scalable. -/
def paramsRequests (full : Bool) : Nat → List Bool → List Req
  | _, [] => []
  | i, scalable :: rest => paramRequests (BitVec.ofNat 16 (i + 1)) (full && scalable) ++ paramsRequests full (i + 1) rest

/-- The services of the requests among events, in order. -/
def services : List MEv → List Byte
  | [] => []
  | .request service _ _ :: es => service :: services es
  | _ :: es => services es

/-- Did the connection close itself because nothing came? -/
def TimedOut (id : Nat) (tr : MTrace) : Prop := ∃ op io, MEv.conn id op io ∈ allEvs tr ∧ IoEv.closed ∈ io

end Verif.Spec
