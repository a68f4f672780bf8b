import Verif.Model.DataThreads

/-!
# Data of a connection, one call after the other
-/

namespace Verif.Spec

open Verif.DataThreads

/-- In this schedule a thread begins a call only when no thread is inside one, as if each call took a lock. -/
def CallsLocked (m : Mem) : Sys → List Nat → Prop
  | _, [] => True
  | s, i :: is => ((s.thr i).phase = .idle → ∀ j, (s.thr j).phase = .idle) ∧ ∀ s', step m s i = some s' → CallsLocked m s' is

/-- All data that the threads set have this size. -/
def SizesAre (n : Nat) (todo : Nat → List Op) : Prop := ∀ i d, Op.set d ∈ todo i → d.length = n

/-- The data set last, if these are the calls so far and there were such data at first. -/
def lastData (first : List Byte) : List Op → List Byte
  | [] => first
  | .set d :: rest => lastData d rest
  | _ :: rest => lastData first rest

/-- Two threads are about to access the same byte, and one of them writes it: a data race. -/
def ByteRace (s : Sys) : Prop :=
  ∃ i j k wi wj, i ≠ j ∧ access s.conn (s.thr i) = some (k, wi) ∧ access s.conn (s.thr j) = some (k, wj) ∧ (wi = true ∨ wj = true)

/-- Some thread is about to use bytes that have moved. -/
def Dangling (s : Sys) : Prop := ∃ i, dangling s (s.thr i) = true

/-- A mixture: the byte of the second list where the mask says so, else that of the first. -/
def mixture : List Bool → List Byte → List Byte → List Byte
  | b :: bs, x :: xs, y :: ys => (if b then y else x) :: mixture bs xs ys
  | _, _, _ => []

end Verif.Spec
