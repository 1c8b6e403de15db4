import Verif.Spec.FocalScan
import Verif.Spec.AnyPlate

/-!
# Specification: maps behind half-wave plates
-/

noncomputable section

namespace Verif.FocalScan

open Verif.Spinmaps

/-- The Mueller matrix of a half-wave plate: I is multiplied by `t`, and `Q + iU` becomes
`k (Q - iU)`.  `k = t` for an ideal plate with transmission `t`; a plate whose axis is turned by `a` has
`k = t exp(4ia)`, and a plate that depolarizes has `|k| < t`.  V does not become I, Q or U, and what I, Q
and U give to V does not matter. -/
structure HalfWave (M : Fin 4 → Fin 4 → ℝ) (t : ℝ) (k : ℂ) : Prop where
  i : M 0 0 = t ∧ M 0 1 = 0 ∧ M 0 2 = 0 ∧ M 1 0 = 0 ∧ M 2 0 = 0
  p : M 1 1 = k.re ∧ M 1 2 = k.im ∧ M 2 1 = k.im ∧ M 2 2 = -k.re
  v : M 3 0 = 0 ∧ M 3 1 = 0 ∧ M 3 2 = 0

end Verif.FocalScan
