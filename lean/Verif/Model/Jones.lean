import Verif.Model.Optics

/-!
# Model: `Jones` and the argument `reflected` (transfer_matrix.py:480-515)
-/

noncomputable section

namespace Verif.Optics

/-- A value of the argument `reflected`: equal to `False` or `True` (as 0 and 1 are), or neither. -/
inductive Side
  | bool (b : Bool)
  | other

/-- `Jones(stack, frequency, incidenceAngle, rotation, inputIndex, exitIndex, reflected)`
(transfer_matrix.py:499-515). -/
def jonesFn (s : Stack) (frequency incidenceAngle rotation inputIndex exitIndex : ℝ) (reflected : Side) :
    PyM M2 := do
  let tr ← stackTransferMatrix s frequency incidenceAngle rotation inputIndex exitIndex
  let j ← tranToJones tr
  match reflected with
  | .bool false => return j.1
  | .bool true => return j.2
  | .other => .error .valueError

/-- `Mueller(...)` (transfer_matrix.py:480-496) for any `reflected`: the name `ValueErrors` does not
exist. -/
def muellerFn (s : Stack) (frequency incidenceAngle rotation inputIndex exitIndex : ℝ) (reflected : Side) :
    PyM MR4 := do
  let tr ← stackTransferMatrix s frequency incidenceAngle rotation inputIndex exitIndex
  let j ← tranToJones tr
  match reflected with
  | .bool false => return jonesToMueller j.1
  | .bool true => return jonesToMueller j.2
  | .other => .error .nameError

end Verif.Optics
