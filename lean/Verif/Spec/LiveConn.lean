import Verif.Model.LiveConn

/-!
# Which listener, and which data
-/

namespace Verif.Spec

open Verif.LiveConn

/-- What a function does before it throws, if it does. -/
def beforeRaise (acts : List LAct) : List LAct := acts.takeWhile fun | .raise _ => false | _ => true

/-- The exception it throws. -/
def raised (acts : List LAct) : Option Exn := acts.findSome? fun | .raise e => some e | _ => none

/-- A function called from this slot does not use captured variables once it has set the listener of the slot: it has been
destroyed by then. -/
def LookOk (slot : Slot) (acts : List LAct) : Prop :=
  ∀ pre post, beforeRaise acts = pre ++ .look :: post → ∀ l, .set slot l ∉ pre

/-- The listeners that it sets. -/
def setsOf (acts : List LAct) : List (Slot × Listener) :=
  (beforeRaise acts).filterMap fun | .set sl l => some (sl, l) | _ => none

/-- What is in the output data after it, if `d` was before; `own` if its argument are these data. -/
def leaves (own : Bool) (d : List Byte) (acts : List LAct) : List Byte :=
  ((beforeRaise acts).filterMap fun
    | .assign x => if own then some x else none
    | .setData x => some x
    | _ => none).getLast?.getD d

/-- The listeners set in a step: by the program, or by the function of the user that was called. -/
def setIn (op : LOp) (called : List (Slot × Listener)) : List (Slot × Listener) :=
  match op, called with
  | .setListener sl l, _ => [(sl, l)]
  | .recv _ acts, [(_, .user _)] => setsOf acts
  | .tick _ sa _ _, [(.send, .user _)] => setsOf sa
  | .tick _ _ ca _, [(.close, .user _)] => setsOf ca
  | _, _ => []

/-- The listener set last for a slot, the initial one if none was set. -/
def listenerAfter (slot : Slot) (tr : List (LOp × Did)) : Listener :=
  (((tr.flatMap fun x => setIn x.1 x.2.calls).filter (·.1 = slot)).getLast?.map (·.2)).getD .initial

/-- The functions that a step may call do not use captured variables after they have replaced themselves. -/
def LookOkOp : LOp → Prop
  | .tick _ sa ca _ => LookOk .send sa ∧ LookOk .close ca
  | .recv _ acts => LookOk .receive acts
  | _ => True

/-- The listener whose call an event is. -/
def slotOf : IoEv → Option Slot
  | .received _ _ _ => some .receive
  | .asked _ => some .send
  | .closed => some .close
  | .sent _ _ => none

/-- What is in the output data after the call of a listener. -/
def dataAfter (own : Bool) (l : Listener) (old : List Byte) (acts : List LAct) : List Byte :=
  match l with
  | .user _ => leaves own old acts
  | _ => old

end Verif.Spec
