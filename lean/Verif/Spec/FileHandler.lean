import Verif.Model.FileReentrant

/-!
# What an upload handler may do

Rules for the text of a handler.  They do not refer to how the object works.
-/

namespace Verif.Spec

/-- What is lost at most when the handler has run: 0 nothing, 1 the handler and its argument (after
`SyncState`), 2 the object. -/
def loses : HandlerAct → Nat
  | .done => 0
  | .raise _ => 0
  | .look k => loses k
  | .capture k => loses k
  | .sync k => max 1 (loses k)
  | .begin _ a k => max (loses a) (loses k)
  | .transfer a k => max (loses a) (loses k)
  | .drop k => max 2 (loses k)

/-- A handler is careful, where `l` is lost before: it uses neither its argument nor what it has captured
after `SyncState`, and not the object after destroying it. -/
def Careful : Nat → HandlerAct → Prop
  | _, .done => True
  | _, .raise _ => True
  | l, .look k => l = 0 ∧ Careful l k
  | l, .capture k => l = 0 ∧ Careful l k
  | l, .sync k => l ≤ 1 ∧ Careful 1 k
  | l, .begin _ a k => l ≤ 1 ∧ Careful 0 a ∧ Careful (max l (loses a)) k
  | l, .transfer a k => l ≤ 1 ∧ Careful 0 a ∧ Careful (max l (loses a)) k
  | l, .drop k => l ≤ 1 ∧ Careful 2 k

end Verif.Spec
