import Verif.Model.Tcp

/-!
# Explicit messaging as seen by the object classes

The object classes (`IdentityObject`, `ParameterObject`, `FileObject`, the PowerFlex
classes) talk to a device only through `MessageRouter::sendRequest`.  The device,
the session and the network together are an arbitrary stateful responder.
-/

namespace Verif

/-- The arguments of `MessageRouter::sendRequest` (MessageRouter.cpp:31-35). -/
structure Req where
  service : BitVec 8
  path : EPath
  data : List Byte
deriving Repr, DecidableEq

/-- What `MessageRouter::sendRequest` may do: return, throw or be undefined, and
change the state of whatever is behind it. -/
structure Device (δ : Type) where
  answer : Req → Prog δ MessageRouterResponse

/-- The responder that is `MessageRouter::sendRequest` itself over a TCP session
(MessageRouter.cpp:31-35). -/
def Device.tcp (m : Mem) (handle : BitVec 32) : Device Tcp :=
  ⟨fun r => sendRequest m (SessionIf.tcp m handle) false r.service r.path r.data []⟩

/-- The state behind `sendRequest` and the requests made so far. -/
structure Link (δ : Type) where
  dev : δ
  sent : List Req
deriving Repr, DecidableEq

/-- A call of `_messageRouter->sendRequest(si, service, path, data)`. -/
def ask {δ : Type} (D : Device δ) (r : Req) : Prog (Link δ) MessageRouterResponse := fun s =>
  match D.answer r s.dev with
  | .ok d resp => .ok ⟨d, s.sent ++ [r]⟩ resp
  | .throw d e => .throw ⟨d, s.sent ++ [r]⟩ e
  | .ub => .ub

/-- Read from a vector: `Buffer buffer(data); buffer >> ...`. -/
def Rd.from (m : Mem) (x : Rd α) (data : List Byte) : Outcome α :=
  match x m (Buffer.ofData data) with
  | .ok (a, _) => .ok a
  | .throw e => .throw e
  | .ub => .ub

/-- A call on a link from a method of an object of type `ο`: the object stays. -/
def onLink {ο δ α : Type} (p : Prog (Link δ) α) : Prog (ο × Link δ) α := fun s =>
  match p s.2 with
  | .ok L a => .ok (s.1, L) a
  | .throw L e => .throw (s.1, L) e
  | .ub => .ub

end Verif
