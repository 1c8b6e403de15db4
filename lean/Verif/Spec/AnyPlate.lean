import Verif.Spec.Convolution

/-!
# Specification: the plate that is simulated for a symmetric beam
-/

noncomputable section

namespace Verif.Spinmaps

/-- The plate with which the code computes when it is given the plate `M` and a detector at the
polarization angle `psi`.  Its first and last rows are those of `M`.  Of the rows of Q and U, the
elements for I are made of `M 1 0` and `M 0 2` (not `M 2 0`), those for V of `M 1 3` and `M 3 2`
(not `M 2 3`), and the part of the Q, U block that commutes with rotations is turned. -/
def acted (psi : ℝ) (M : Fin 4 → Fin 4 → ℝ) : Fin 4 → Fin 4 → ℝ :=
  let c := Real.cos (2 * psi)
  let s := Real.sin (2 * psi)
  let d := c * ((M 1 1 + M 2 2) / 2) - s * ((M 1 2 - M 2 1) / 2)
  let e := s * ((M 1 1 + M 2 2) / 2) + c * ((M 1 2 - M 2 1) / 2)
  ![![M 0 0, M 0 1, M 0 2, M 0 3],
    ![c * (c * M 1 0 - s * M 0 2), d + (M 1 1 - M 2 2) / 2, e + (M 1 2 + M 2 1) / 2,
      c * (c * M 1 3 - s * M 3 2)],
    ![-c * (s * M 1 0 + c * M 0 2), -e + (M 1 2 + M 2 1) / 2, d - (M 1 1 - M 2 2) / 2,
      -c * (s * M 1 3 + c * M 3 2)],
    ![M 3 0, M 3 1, M 3 2, M 3 3]]

/-- A symmetric beam that is polarized along one direction: the coefficients of spin -2 are real. -/
def CoPolar (b : Nat → Nat → Nat → ℂ) : Prop := AxiSym b ∧ ∀ l, star (b 1 l 2) = b 1 l 2

/-- The plates and polarization angles for which the angle is simulated, whatever the beam: the Q, U
block has no part that commutes with rotations (or the angle is a multiple of 180 degrees), and there is
no coupling of I or V with Q (or the angle is a multiple of 90 degrees). -/
structure AngleOk (psi : ℝ) (M : Fin 4 → Fin 4 → ℝ) (inputV : Bool) : Prop where
  still : Real.cos (2 * psi) = 1 ∨ (M 1 1 + M 2 2 = 0 ∧ M 1 2 = M 2 1)
  leak : Real.sin (2 * psi) = 0 ∨ (M 1 0 = 0 ∧ (inputV = true → M 1 3 = 0))

end Verif.Spinmaps
