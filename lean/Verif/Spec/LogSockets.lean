import Verif.Model.LogSockets
import Verif.Spec.Log
import Verif.Spec.Net

/-!
# The log and the errors of sockets: vocabulary
-/

namespace Verif.Spec

/-- What appender `a` gets for a message. -/
def noteOf (a : Appender) (l : LogLine) : LogCall := ⟨a, l.level, String.ofList l.text⟩

/-- What appender `a` gets of these messages at level `g`. -/
def notesOf (a : Appender) (g : LogLevel) (ls : List LogLine) : List LogCall := (ls.filter fun l => decide (Passes l.level g)).map (noteOf a)

/-- The code that a failing receive call of UDP socket `fd` throws, if the error of the system call is `code`. -/
def codeTold (A : AppenderEnv) (a : Appender) (g : LogLevel) (fd : Nat) (code : Int) : Int :=
  if Passes .trace g then A.after (noteOf a (.udpReceived (-1) fd)) code else code

/-- A receive result with the code that the receive call throws. -/
def recvTold (A : AppenderEnv) (a : Appender) (g : LogLevel) (fd : Nat) : Recv → Recv
  | .err code => .err (codeTold A a g fd code)
  | .dgram bytes => .dgram bytes

/-- The message about a receive result of a UDP socket that asks for 504 bytes. -/
def recvLine (fd : Nat) : Recv → LogLine
  | .err _ => .udpReceived (-1) fd
  | .dgram bytes => .udpReceived (min 504 bytes.length : Nat) fd

/-- How a discovery ends. -/
def discEnd : Res LogErr (Option (List IdentityItem)) → Discovery.DiscRes
  | .ok _ (some devices) => .done devices
  | .ok _ none => .waiting
  | .throw _ e => .threw e
  | .ub => .ub

/-- The calls of the appender in the end, if there is one. -/
def notesAfter {α : Type} : Res LogErr α → List LogCall
  | .ok s _ => s.logs.calls
  | .throw s _ => s.logs.calls
  | .ub => []

end Verif.Spec
