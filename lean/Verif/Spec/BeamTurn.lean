import Verif.Spec.Convolution

/-!
# Specification: a beam that is turned about its axis
-/

noncomputable section

namespace Verif.Spinmaps

open Complex

/-- The coefficients of the beam with the rows `b` that is turned about its axis, with its shape and its
polarization, by `psi` (rad): azimuthal number `m` gets the phase `exp(-i m psi)`. -/
def aboutAxis (psi : ℝ) (b : Nat → Nat → Nat → ℂ) (i l m : Nat) : ℂ := b i l m * exp (-I * m * psi)

end Verif.Spinmaps
