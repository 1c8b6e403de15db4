import Verif.Model.Schedule
import Verif.Spec.Tiling

/-!
# Specification: observing schedules
-/

namespace Verif.Spec

open Verif.Schedule

/-- `Covers a b l`: the half-open intervals in `l` follow each other without gap or overlap, start at
`a` and end at `b`; they may be empty. -/
inductive Covers : Int → Int → List (Int × Int) → Prop
  | nil (a : Int) : Covers a a []
  | cons {a b c : Int} {l : List (Int × Int)} : a ≤ b → Covers b c l → Covers a c ((a, b) :: l)

/-- The number of samples before scan `i` of a schedule, not necessarily an integer. -/
def offset (fsamp : Rat) (ces : List Ces) (i : Nat) : Rat :=
  ((ces.take i).map fun x => (x.t1 - x.t0) * fsamp).sum

/-- The intervals of samples of the chunks. -/
def spans (l : List Entry) : List (Int × Int) := l.map fun e => (e.chunk.start, e.chunk.stop)

/-- An entry belongs to scan `i` of the schedule: it has the azimuths, elevation and times of this
scan, lies within its samples, and the time of its first sample is that of the schedule. -/
def Belongs (fsamp : Rat) (ces : List Ces) (e : Entry) : Prop :=
  ∃ i, ces[i]? = some e.ces ∧ ⌊offset fsamp ces i⌋ ≤ e.chunk.start ∧
    e.chunk.stop ≤ ⌊offset fsamp ces (i + 1)⌋ ∧
    e.chunk.start = ⌊offset fsamp ces i + (e.ctimeStart - e.ces.t0) * fsamp⌋

/-- A triangle wave between `a` and `b` with `n` samples in each direction, the turning point counted
once, at position `j` of `0, ..., 2 n - 2`. -/
def triangle (a b : Rat) (n : Nat) (j : Nat) : Rat :=
  if j < n - 1 then a + j * ((b - a) / ((n - 1 : Nat) : Rat))
  else if n = 1 then b else b - ((j - (n - 1) : Nat) : Rat) * ((b - a) / ((n - 1 : Nat) : Rat))

end Verif.Spec
