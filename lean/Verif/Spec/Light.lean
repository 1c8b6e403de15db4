import Mathlib.Data.Real.Basic
import Mathlib.Data.Fin.VecNotation

/-!
# Specification: Stokes parameters of light
-/

namespace Verif.Spec.Light

/-- Stokes parameters `(I, Q, U, V)` that light can have: the polarized part is not brighter than the
whole. -/
def Possible (s : Fin 4 → ℝ) : Prop := 0 ≤ s 0 ∧ s 1 ^ 2 + s 2 ^ 2 + s 3 ^ 2 ≤ s 0 ^ 2

end Verif.Spec.Light
