import Mathlib.Analysis.SpecialFunctions.Pow.Real

/-!
# Model: quaternion helpers of tools.py

Float arrays of shape `(4,)` (the documented argument type) are functions `Fin 4 → ℝ`, in exact
real arithmetic.  Division by zero, which gives `nan` in numpy, is an error value here.
-/

namespace Verif.Quat

/-- Float array of shape `(4,)`. -/
abbrev Q := Fin 4 → ℝ

/-- `tools.quat_left_mult` (tools.py:545-572). -/
def quatLeftMult (q2 q : Q) : Q :=
  ![q2 0 * q 0 - q2 1 * q 1 - q2 2 * q 2 - q2 3 * q 3,
    q2 1 * q 0 + q2 0 * q 1 - q2 3 * q 2 + q2 2 * q 3,
    q2 2 * q 0 + q2 3 * q 1 + q2 0 * q 2 - q2 1 * q 3,
    q2 3 * q 0 - q2 2 * q 1 + q2 1 * q 2 + q2 0 * q 3]

/-- `q / s` for an array and a scalar; `none` where numpy yields `nan`/`inf`. -/
noncomputable def divScalar (q : Q) (s : ℝ) : Option Q :=
  if s = 0 then none else some fun i => q i / s

/-- `tools.quat_norm` (tools.py:574-597); the `inplace` flag only selects which array receives the
result. -/
noncomputable def quatNorm (q : Q) : Option Q :=
  divScalar q (Real.sqrt (∑ i, q i ^ 2))

/-- `tools.quat_conj` (tools.py:599-623). -/
def quatConj (q : Q) : Q := ![q 0, -q 1, -q 2, -q 3]

/-- `tools.quat_inv` (tools.py:625-646). -/
noncomputable def quatInv (q : Q) : Option Q :=
  let qi := quatConj q
  divScalar qi (∑ i, qi i ^ 2)

/-- `tools.quat_conj_by` (tools.py:648-672). -/
noncomputable def quatConjBy (q q2 : Q) : Option Q := do
  let qi ← quatInv q2
  let q3 := quatLeftMult q qi
  let q3 := quatLeftMult q2 q3
  return q3

end Verif.Quat
