import Verif.Spec.ScanInstrument

/-!
# Specification: comparing whole scans
-/

noncomputable section

namespace Verif.ScanInstrument

open Verif.Chunks Verif.Timeline Verif.Spinmaps Verif.MapMaking

variable {E : Type}

/-- A scan with binning of a mission of `N` samples in which the telescope moves as `M` says: the
hypotheses of C96. -/
structure Session (w : World E) (M : Motion) (o : Opts) (N : Nat) (chunks : List Chunk) (i : Inst E) :
    Prop where
  ext : ExtOk w.x
  pix : PixOk w.q
  nside : 0 < w.nsideOut
  binning : o.binning = true
  preview : o.preview = false
  ground : o.ground = false
  reuse : o.reuseSpinmaps = false
  mission : Mission N chunks
  hwpang : ∀ c ∈ chunks, c.hwpang = none
  ready : Ready w chunks i
  rotates : Rotates N chunks i.rot M.rot
  plate : Plate w.fsamp N i.hwp M.alpha
  steady : Steady w M chunks i.el

/-- Pixelwise sum of maps. -/
def plusMaps (m m' : Maps) : Maps := List.zipWith (fun c c' => ⟨c.vec + c'.vec, c.proj + c'.proj⟩) m m'

/-- A detector after `dead = True`. -/
def dead (b : BinBeam) : BinBeam := { b with beam := { b.beam with dead := true } }

/-- A world in which spin maps are made from the sky `alm`: `data` and `gdata` are the beam
coefficients of a detector and of its ghosts. -/
def under (w : World E) (Y : Harmonics) (maxSpin : Int) (nside : Nat) (inputV beamV : Bool)
    (data : BinBeam → BeamData) (gdata : BinBeam → List BeamData) (alm : List (List ℂ)) : World E :=
  { w with spinmaps := fun d => initSpinmaps Y alm none maxSpin nside inputV beamV (data d) (gdata d) }

/-- A pair with complete input for the sky `alm` with coefficients `a`: the rows of each beam are
`b`, up to its band limit `L`; ghosts are numbered from 0 (ghosts with the same number share their
coefficients), and the live detectors have ghosts with these numbers. -/
structure PairOk (Ls : Nat) (alm : List (List ℂ)) (a : Nat → Nat → Nat → ℂ) (maxSpin : Int)
    (inputV beamV : Bool) (data : BinBeam → BeamData) (gdata : BinBeam → List BeamData)
    (L : BeamData → Nat) (b : BeamData → Nat → Nat → Nat → ℂ) (d : BinBeam)
    (e : Option BinBeam) : Prop where
  input : ∀ g ∈ data d :: gdata d, InputOk Ls (L g) alm g.blm a (b g) (min g.mmax maxSpin)
    g.symmetric g.mueller inputV beamV
  numbers : ∃ k : Nat, ∀ n : Int, (∃ g ∈ gdata d, g.ghostIdx = n) ↔ 0 ≤ n ∧ n < k
  share : ∀ g ∈ gdata d, ∀ g' ∈ gdata d, g.ghostIdx = g'.ghostIdx → g = g'
  main : ∀ f, (live (some d) = some f ∨ live e = some f) → f.beam.ghost = false ∧
    ∀ g ∈ f.ghosts, g.dead = false → g.ghost = true ∧ ∃ g' ∈ gdata d, g'.ghostIdx = g.ghostIdx

end Verif.ScanInstrument
