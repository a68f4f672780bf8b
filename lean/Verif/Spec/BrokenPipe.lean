import Verif.Model.BrokenPipe

/-!
# Descriptors and failures, for programs that send to peers that may be gone
-/

namespace Verif.Spec

/-- The system can be told not to send the signal. -/
def CanBeQuiet (B : Pipe.Build) : Prop := B.msgNoSignal = true ∨ B.soNoSigpipe = true

/-- The number of open descriptors. -/
def openDescriptors (s : Pipe.Proc) : Nat := s.socks.countP Option.isSome

/-- A constructor that got a socket but could not set the option. -/
def optionFailed (B : Pipe.Build) : Pipe.Op → Bool
  | .openTcp none (some _) _ => B.soNoSigpipe
  | .openUdp none (some _) => B.soNoSigpipe
  | _ => false

/-- The peer of the socket of this object is gone. -/
def PeerGone (s : Pipe.Proc) (fd : Nat) : Prop :=
  fd ∈ s.objects ∧ ∃ k, s.socks[fd]? = some (some k) ∧ k.stream = true ∧ k.gone = true

end Verif.Spec
