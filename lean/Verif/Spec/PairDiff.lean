import Verif.Spec.ScanStored
import Verif.Spec.WholeScans

/-!
# Specification: pairs of detectors at right angles
-/

noncomputable section

namespace Verif.ScanStored

open Verif.Timeline Verif.MapMaking

/-- A beam turned by 90 degrees. -/
def quarter (b : Timeline.Beam) : Timeline.Beam := { b with polang := b.polang + 90 }

/-- Two live detectors that look in the same direction, with ghosts in the same directions, the second
of them at right angles to the first. -/
structure Orthogonal (A B : SBeam) : Prop where
  alive : A.bin.beam.dead = false
  beam : B.bin.beam = quarter A.bin.beam
  ghosts : B.bin.ghosts = A.bin.ghosts.map quarter

/-- Sum and difference of two timelines. -/
def sumOf (x y : List ℝ) : List ℝ := List.zipWith (· + ·) x y

def diffOf (x y : List ℝ) : List ℝ := List.zipWith (· - ·) x y

end Verif.ScanStored
