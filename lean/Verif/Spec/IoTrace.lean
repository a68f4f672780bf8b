import Verif.Model.IoConn
import Verif.Spec.Io

/-!
# Specification vocabulary for histories of an I/O connection

A history is a list of operations with the events each one caused.  These
functions only look at what a user of the connection can see.
-/

namespace Verif.Spec

open Verif

/-- A history with its events. -/
abbrev IoTrace := List (ConnOp × List IoEv)

/-- Is the event a call of the send callback (the start of a production period)? -/
def IoEv.isAsked : IoEv → Bool
  | .asked _ => true
  | _ => false

/-- Number of production periods in a history. -/
def asks : IoTrace → Nat
  | [] => 0
  | e :: rest => e.2.countP IoEv.isAsked + asks rest

/-- The user's output data after a history: what was last written, by
`setDataToSend` or by the send callback. -/
def lastWritten (init : List Byte) : IoTrace → List Byte
  | [] => init
  | (.setData d, _) :: rest => lastWritten d rest
  | (_, .asked d :: _) :: rest => lastWritten d rest
  | _ :: rest => lastWritten init rest

/-- The clock readings of the ticks. -/
def tickTimes : List ConnOp → List Nat
  | [] => []
  | .tick now _ _ :: rest => now :: tickTimes rest
  | _ :: rest => tickTimes rest

/-- Each clock reading is related by `R` to the one before it (the first to `a`). -/
def Steps (R : Nat → Nat → Prop) : Nat → List Nat → Prop
  | _, [] => True
  | a, b :: rest => R a b ∧ Steps R b rest

/-- The times at which production periods began. -/
def prodTimes : IoTrace → List Nat
  | [] => []
  | (.tick now _ _, evs) :: rest => if evs.any IoEv.isAsked then now :: prodTimes rest else prodTimes rest
  | _ :: rest => prodTimes rest

/-- Time of the last tick (`t0` when there is none). -/
def lastTick (t0 : Nat) : IoTrace → Nat
  | [] => t0
  | (.tick now _ _, _) :: rest => lastTick now rest
  | _ :: rest => lastTick t0 rest

/-- Was a datagram accepted? -/
def IoEv.isReceived : IoEv → Bool
  | .received _ _ _ => true
  | _ => false

/-- Whole milliseconds counted by ticks since the last accepted datagram: `ms` have
been counted so far and the last tick was at `last`. -/
def silence (last ms : Nat) : IoTrace → Nat
  | [] => ms
  | (.tick now _ _, _) :: rest => silence now (ms + (now - last) / 1000000) rest
  | (_, evs) :: rest => silence last (if evs.any IoEv.isReceived then 0 else ms) rest

/-- The clock does not go back, and every tick comes at most `lim` nanoseconds after the last
tick before the most recent accepted datagram (`heard`; at first: the creation). -/
def Fed (lim : Nat) (heard last : Nat) : IoTrace → Prop
  | [] => True
  | (.tick now _ _, _) :: rest => last ≤ now ∧ now ≤ heard + lim ∧ Fed lim heard now rest
  | (_, evs) :: rest => Fed lim (if evs.any IoEv.isReceived then last else heard) last rest

end Verif.Spec
