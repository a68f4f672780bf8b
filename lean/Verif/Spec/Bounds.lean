import Verif.Model.File

/-!
# How many bytes are held
-/

namespace Verif.Spec

/-- The bytes in a list of items of a packet, without their heads. -/
def itemBytes (is : List CommonPacketItem) : Nat := (is.map fun i => i.data.length).sum

/-- The bytes in a reply that the user gets. -/
def replyBytes (r : MessageRouterResponse) : Nat :=
  2 * r.additionalStatus.length + r.data.length + itemBytes r.additionalItems

/-- The bytes of the file that a file object has collected. -/
def collected (f : FileObject) : Nat :=
  match f.state with
  | .uploading u => u.content.length
  | _ => 0

end Verif.Spec
