import Verif.Model.Ranks
import Verif.Spec.Mpi

/-!
# Specification: one focal plane on many ranks
-/

namespace Verif.Spec

open Verif.Ranks

/-- The detectors of a list of pairs, in the order of their numbers: A and B of the first pair, A
and B of the second, and so on. -/
def dets (l : List Pair) : List Det := l.flatMap fun q => [q.1, q.2]

/-- All ranks have just made their instrument. -/
def fresh : Nat → Inst := fun _ => ⟨[], 0⟩

/-- The root draws numbers of detectors that exist. -/
def Draws (choice : Nat → List Nat) : Prop := ∀ n, ∀ k ∈ choice n, k < n

/-- A call without `scatter=True`. -/
def Whole : Call → Prop
  | .create _ _ scatter => scatter = false
  | .load _ _ scatter => scatter = false
  | .kill choice _ => Draws choice

/-- The instruments of the ranks after a series of calls that all ranks made and none of which
failed on a rank.  The calls satisfy `P`. -/
inductive Reached (size : Nat) (P : Call → Prop) : (Nat → Inst) → Prop
  | start : Reached size P fresh
  | call (w w' : Nat → Inst) (c : Call) : Reached size P w → P c →
      (∀ r, r < size → step size c w r = .ok (w' r)) → Reached size P w'

/-- Detector number `j` is among the drawn ones (or its pair is). -/
def Drawn (drawn : List Nat) (pairs : Bool) (j : Nat) : Prop :=
  if pairs then j / 2 ∈ drawn else j ∈ drawn

/-- The work of the ranks, `work r` the pairs that the passes of rank `r` work on: every pair of
the focal plane once and in order, with the same number of passes on every rank. -/
def ScannedOnce (size : Nat) (beams : List Pair) (work : Nat → List (Option Pair)) : Prop :=
  ((List.range size).map fun r => (work r).filterMap id).flatten = beams ∧
    ∀ r s, r < size → s < size → (work r).length = (work s).length

end Verif.Spec
