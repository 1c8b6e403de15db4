import Verif.Spec.ScanInstrument

/-!
# Specification: the map that fits the timelines best
-/

noncomputable section

namespace Verif.MapMaking

/-- What is left of an observation if the Stokes parameters of its pixel are `v = (I, Q, U)`. -/
def Obs.residual (o : Obs) (v : Fin 3 → ℝ) : ℝ := o.d - (v 0 + o.c * v 1 + o.s * v 2)

/-- The sum of the squares of the residuals of the observations of a pixel. -/
def misfit (l : List Obs) (v : Fin 3 → ℝ) : ℝ := (l.map fun o => o.residual v ^ 2).sum

/-- `v` fits the observations better than all other Stokes parameters. -/
def BestFit (l : List Obs) (v : Fin 3 → ℝ) : Prop := ∀ u, u ≠ v → misfit l v < misfit l u

/-- An observation with another value. -/
def Obs.reading (o : Obs) (d : ℝ) : Obs := { o with d := d }

end Verif.MapMaking
