import Verif.Spec.WholeScans

/-!
# Specification: a uniform sky
-/

noncomputable section

namespace Verif.ScanInstrument

open Verif.Spec Verif.Timeline Verif.Spinmaps Verif.MapMaking

/-- The lowest spherical harmonic is a constant. -/
def LowestConstant (Y : Harmonics) : Prop := ∀ nside p, Y nside 0 0 0 p = ((1 / √(4 * Real.pi) : ℝ) : ℂ)

/-- The weights of an interpolation sum to 1. -/
def Weighted (x : Ext) : Prop :=
  ∀ nside th ph, 0 < nside → ((x.weights nside th ph).map Prod.snd).sum = 1

/-- The coefficients of an unpolarized sky that has the temperature `T` everywhere: only the
monopole of I, `√(4 π) T`. -/
def Uniform (L : Nat) (T : ℝ) (a : Nat → Nat → Nat → ℂ) : Prop :=
  ∀ i l m, i < 4 → l ≤ L → m ≤ l →
    a i l m = if i = 0 ∧ l = 0 ∧ m = 0 then ((√(4 * Real.pi) * T : ℝ) : ℂ) else 0

/-- Amplitude of a detector `e` of a pair whose coefficients are those of `d`: the monopoles of the main
beam and of all live ghosts. -/
def gainOf (data : BinBeam → BeamData) (gdata : BinBeam → List BeamData)
    (b : BeamData → Nat → Nat → Nat → ℂ) (d e : BinBeam) : ℝ :=
  (b (data d) 0 0 0).re + ((e.ghosts.filter fun g => !g.dead).map fun g =>
    match (gdata d).find? fun g' => g'.ghostIdx == g.ghostIdx with
    | some g' => (b g' 0 0 0).re
    | none => 0).sum

/-- Every live detector of the pair has the amplitude `K`, with the fraction `c` of the other detector
of the pair, if this is alive. -/
structure Level (gain : BinBeam → ℝ) (c K : ℝ) (p : Pair) : Prop where
  both : ∀ A B, live p.1 = some A → live p.2 = some B → gain A + c * gain B = K ∧ gain B + c * gain A = K
  onlyA : ∀ A, live p.1 = some A → live p.2 = none → gain A = K
  onlyB : ∀ B, live p.1 = none → live p.2 = some B → gain B = K

end Verif.ScanInstrument
