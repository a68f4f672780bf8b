import Verif.Base.Outcome

/-!
# The network as seen through system calls

No project code is modelled here: these are the environment's moves.
-/

namespace Verif

/-- One step of an incoming TCP stream as the kernel presents it to `recv`. -/
inductive NetEv where
  /-- A segment of at least one byte is available. -/
  | seg (b : Byte) (bs : List Byte)
  /-- The system call is interrupted (`EINTR`). -/
  | eintr
  /-- The system call fails with this `errno` (not `EINTR`). -/
  | err (code : Int)
  /-- The peer has closed the connection; this stays so. -/
  | eof
deriving Repr, DecidableEq

/-- `EAGAIN`: what `recv` reports when `SO_RCVTIMEO` expires. -/
def eagain : Int := 11

end Verif
