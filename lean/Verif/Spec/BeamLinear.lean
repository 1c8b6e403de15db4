import Verif.Spec.WholeScans
import Verif.Spec.Convolution

/-!
# Specification: sums and multiples of beams
-/

noncomputable section

namespace Verif.ScanInstrument

open Verif.Timeline Verif.Spinmaps Verif.MapMaking

/-- Beams that differ in their coefficients only. -/
structure Alike (g g' : BeamData) : Prop where
  mmax : g'.mmax = g.mmax
  symmetric : g'.symmetric = g.symmetric
  mueller : g'.mueller = g.mueller
  ghostIdx : g'.ghostIdx = g.ghostIdx

/-- A beam with the coefficients of `g` plus `c` times those of `g'`. -/
def addBeam (c : ℝ) (g g' : BeamData) : BeamData := { g with blm := addSky c g.blm g'.blm }

/-- A beam with its coefficients multiplied by `c`. -/
def times (c : ℝ) (g : BeamData) : BeamData := { g with blm := g.blm.map (·.map (c * ·)) }

/-- A detector without its ghosts. -/
def alone (b : BinBeam) : BinBeam := { b with ghosts := [] }

/-- The coefficients of detectors do not depend on whether they have ghosts. -/
def OwnBeam (data : BinBeam → BeamData) : Prop := ∀ d, data (alone d) = data d

end Verif.ScanInstrument
