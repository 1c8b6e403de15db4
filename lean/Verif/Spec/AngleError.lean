import Verif.Spec.ScanInstrument

/-!
# Specification: angles that are wrong in the same way for all detectors
-/

noncomputable section

namespace Verif.ScanInstrument

open Verif.Timeline Verif.Spinmaps Verif.MapMaking

/-- The same detector with a nominal polarization angle that is higher by `e` degrees, but with the same
true angle. -/
def misread (e : ℝ) (b : BinBeam) : BinBeam := { b with polangBin := b.polangBin + e }

def misreadPair (e : ℝ) (p : Pair) : Pair := (p.1.map (misread e), p.2.map (misread e))

/-- I, Q and U with the polarization turned: `Q + iU` (for `iau = false`: `Q - iU`) times
`exp(i theta)`. -/
def turnStokes (iau : Bool) (theta : ℝ) (x : Fin 3 → ℝ) : Fin 3 → ℝ :=
  let z : ℂ := ((x 1 : ℂ) + (if iau then 1 else -1) * (x 2 : ℂ) * Complex.I) *
    Complex.exp (theta * Complex.I)
  ![x 0, z.re, (if iau then 1 else -1) * z.im]

end Verif.ScanInstrument
