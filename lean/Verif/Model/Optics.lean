import Verif.Py
import Mathlib.Analysis.SpecialFunctions.Trigonometric.Inverse
import Mathlib.Analysis.SpecialFunctions.Pow.Complex
import Mathlib.LinearAlgebra.Matrix.NonsingularInverse
import Mathlib.LinearAlgebra.Matrix.Notation

/-!
# Model: transfer matrices, Jones and Mueller matrices (transfer_matrix.py)

Exact real and complex arithmetic.  Where numpy would go on with `nan` or `inf` (division by zero,
`arcsin` outside `[-1, 1]`, real square root of a negative number) the model returns an error.
`numpy.linalg.inv` raises LinAlgError, a subclass of ValueError, for a singular matrix.
-/

namespace Verif.Optics

open Real Matrix

abbrev M2 := Matrix (Fin 2) (Fin 2) ℂ
abbrev M4 := Matrix (Fin 4) (Fin 4) ℂ
abbrev MR4 := Matrix (Fin 4) (Fin 4) ℝ

/-- `numpy.linalg.inv`. -/
noncomputable def npInv {n : Type} [Fintype n] [DecidableEq n] {K : Type} [Field K]
    [DecidableEq K] (m : Matrix n n K) : PyM (Matrix n n K) :=
  if m.det = 0 then .error .valueError else .ok m⁻¹

/-- `numpy.lib.scimath.sqrt` of a complex number: principal square root. -/
noncomputable def csqrt (z : ℂ) : ℂ := z ^ (1 / 2 : ℂ)

/-- The four numbers a `material` is created from (transfer_matrix.py:57-97); name and type are only
used for printing. -/
structure Material where
  ordinaryIndex : ℝ
  extraIndex : ℝ
  ordinaryLoss : ℝ
  extraLoss : ℝ

/-- `material.ordinaryComplexIndex` (transfer_matrix.py:89-96). -/
noncomputable def Material.ordinaryComplexIndex (m : Material) : ℂ :=
  csqrt ((1 - Complex.I * m.ordinaryLoss) * (m.ordinaryIndex : ℂ) ^ 2)

/-- `c = 2.998e8` (transfer_matrix.py:43). -/
noncomputable def c : ℝ := 2.998e8

/-- The matrix `Phi` (transfer_matrix.py:255-308) for ray angles `thO`, `thE`, rotation `chi` and
indices `nO`, `nE`. -/
noncomputable def phiMat (thO thE chi nO nE : ℝ) : PyM MR4 :=
  let denomDOrd := √(cos thO ^ 2 + sin thO ^ 2 * sin chi ^ 2)
  let denomDExtra := √(cos chi ^ 2 * cos thO ^ 2 + sin chi ^ 2 * cos (thO - thE) ^ 2)
  let denomHOrd := √(cos thO ^ 2 * cos chi ^ 2 + sin chi ^ 2)
  let denomHExtra := √(cos (thO - thE) ^ 2 * sin chi ^ 2 + cos thO ^ 2 * cos chi ^ 2)
  if denomDOrd = 0 ∨ denomDExtra = 0 ∨ denomHOrd = 0 ∨ denomHExtra = 0 ∨ nO = 0 ∨ nE = 0 then
    .error .valueError
  else
    let dO0 := -1 * sin chi * cos thO / denomDOrd
    let dO1 := cos chi * cos thO / denomDOrd
    let dE0 := 1 * cos chi * cos thO * cos thE / denomDExtra
    let dE1 := 1 * sin chi * (sin thO * sin thE + cos thO * cos thE) / denomDExtra
    let hO0 := -cos thO ^ 2 * cos chi / denomHOrd
    let hO1 := -sin chi / denomHOrd
    let hE0 := -cos (thO - thE) * cos thE * sin chi / denomHExtra
    let hE1 := 1 * cos thO * cos chi / denomHExtra
    .ok !![dO0, dE0, 1 * dO0, 1 * dE0;
           hO1 / nO, hE1 / nE, -1 * hO1 / nO, -1 * hE1 / nE;
           dO1, dE1, dO1, dE1;
           -1 * hO0 / nO, -1 * hE0 / nE, hO0 / nO, hE0 / nE]

/-- The matrix `Psi` (transfer_matrix.py:238-244, 330-334): inverse of the rotated dielectric
tensor, which is built with the real indices. -/
noncomputable def psiMat (chi nO nE : ℝ) : PyM MR4 := do
  let rot : Matrix (Fin 3) (Fin 3) ℝ := !![cos chi, -1 * sin chi, 0; sin chi, cos chi, 0; 0, 0, 1]
  let rotinv ← npInv rot
  let eps : Matrix (Fin 3) (Fin 3) ℝ := !![nE ^ 2, 0, 0; 0, nO ^ 2, 0; 0, 0, nO ^ 2]
  let roteps := rot * (eps * rotinv)
  let r ← npInv roteps
  return !![r 0 0, 0, r 0 1, 0; 0, 1, 0, 0; r 1 0, 0, r 1 1, 0; 0, 0, 0, 1]

/-- The propagation matrix `P` (transfer_matrix.py:319-328). -/
noncomputable def propMat (k0 t : ℝ) (nComplexO nComplexE : ℂ) (thO thE : ℝ) : M4 :=
  let deltaO := Complex.I * k0 * nComplexO * t * (cos thO : ℝ)
  let deltaE := Complex.I * k0 * nComplexE * t * (cos thE : ℝ)
  !![Complex.exp (-1 * deltaO), 0, 0, 0;
     0, Complex.exp (-1 * deltaE), 0, 0;
     0, 0, Complex.exp deltaO, 0;
     0, 0, 0, Complex.exp deltaE]

/-- A real matrix as a complex one (`dtype=np.complex_`). -/
def toC (m : MR4) : M4 := m.map (fun x : ℝ => (x : ℂ))

/-- The effective extraordinary index `nE` (transfer_matrix.py:209). -/
noncomputable def extraEff (m : Material) (nsin chi : ℝ) : ℝ :=
  m.extraIndex * √(1 + ((m.extraIndex ^ 2)⁻¹ - (m.ordinaryIndex ^ 2)⁻¹) * nsin ^ 2 * cos chi ^ 2)

/-- `transferMatrix(material, thickness, frequency, nsin, rotation).transferMatrix`
(transfer_matrix.py:174-341). -/
noncomputable def transferMatrix (m : Material) (thickness frequency nsin rotation : ℝ) :
    PyM M4 := do
  let chi := rotation
  let k0 := 2 * π * frequency / c
  let nO := m.ordinaryIndex
  if nO = 0 ∨ m.extraIndex = 0 then .error .zeroDivisionError
  if 1 + ((m.extraIndex ^ 2)⁻¹ - (nO ^ 2)⁻¹) * nsin ^ 2 * cos chi ^ 2 < 0 then .error .valueError
  let nE := extraEff m nsin chi
  if nE = 0 then .error .zeroDivisionError
  if 1 < |nsin / nO| ∨ 1 < |nsin / nE| then .error .valueError
  let thO := arcsin (nsin / nO)
  let thE := arcsin (nsin / nE)
  let nComplexO := m.ordinaryComplexIndex
  let nComplexE := csqrt ((nE : ℂ) ^ 2 * (1 - Complex.I * m.extraLoss))
  let psi ← psiMat chi nO nE
  let phi ← phiMat thO thE chi nO nE
  let P := propMat k0 thickness nComplexO nComplexE thO thE
  let inverse ← npInv (toC psi * (toC phi * P))
  return toC psi * (toC phi * inverse)

/-- A `Stack` (transfer_matrix.py:124-150). -/
structure Stack where
  thicknesses : List ℝ
  materials : List Material
  angles : List ℝ

/-- One iteration of the loop of `stackTransferMatrix` (transfer_matrix.py:376-396); the angles
`theta1`, `theta3` are not used for the matrix. -/
noncomputable def stackStep (s : Stack) (frequency nsin rotation : ℝ) (total : M4)
    (layerNum : Nat) : PyM M4 := do
  let material ← pyGet s.materials (layerNum : Int)
  let thickness ← pyGet s.thicknesses (layerNum : Int)
  let angle ← pyGet s.angles (layerNum : Int)
  let layerRotation := angle + rotation
  let layer ← transferMatrix material thickness frequency nsin layerRotation
  return total * layer

/-- What a `stackTransferMatrix` object holds for the later functions. -/
structure StackTransfer where
  totalTransfer : M4
  inputIndex : ℝ
  exitIndex : ℝ
  incidenceAngle : ℝ
  /-- `exitAngle`; the attribute does not exist for an empty stack -/
  exitAngle : Option ℝ

/-- `stackTransferMatrix(stack, frequency, incidenceAngle, rotation, inputIndex, exitIndex)`
(transfer_matrix.py:344-396).  An exit angle that is `nan` (total reflection) is an error here. -/
noncomputable def stackTransferMatrix (s : Stack) (frequency incidenceAngle rotation inputIndex
    exitIndex : ℝ) : PyM StackTransfer := do
  let nsin := sin incidenceAngle * inputIndex
  let numLayers := s.thicknesses.length
  let total ← (List.range numLayers).foldlM (stackStep s frequency nsin rotation) 1
  if numLayers = 0 then return ⟨total, inputIndex, exitIndex, incidenceAngle, none⟩
  if exitIndex = 0 ∨ 1 < |nsin / exitIndex| then .error .valueError
  return ⟨total, inputIndex, exitIndex, incidenceAngle, some (arcsin (nsin / exitIndex))⟩

/-- `TranToJones(transfer)` (transfer_matrix.py:403-441): transmitted and reflected Jones matrix.
AttributeError if there is no exit angle. -/
noncomputable def tranToJones (tr : StackTransfer) : PyM (M2 × M2) := do
  let m := tr.totalTransfer
  let n1 : ℂ := tr.inputIndex
  let n3 : ℂ := tr.exitIndex
  let theta3 ← match tr.exitAngle with
    | some t => pure t
    | none => .error .attributeError
  let c1 : ℂ := (cos tr.incidenceAngle : ℝ)
  let c3 : ℂ := (cos theta3 : ℝ)
  if c1 = 0 ∨ n1 = 0 then .error .valueError
  let A := (m 0 0 * c3 + m 0 1 * n3) / c1
  let B := (m 0 2 + m 0 3 * n3 * c3) / c1
  let C := (m 1 0 * c3 + m 1 1 * n3) / n1
  let D := (m 1 2 + m 1 3 * n3 * c3) / n1
  let N := m 2 0 * c3 + m 2 1 * n3
  let K := m 2 2 + m 2 3 * n3 * c3
  let P := (m 3 0 * c3 + m 3 1 * n3) / (n1 * c1)
  let S := (m 3 2 + m 3 3 * n3 * c3) / (n1 * c1)
  let denom := (A + C) * (K + S) - (B + D) * (N + P)
  if denom = 0 then .error .valueError
  let jtran : M2 := !![(K + S) * 2 / denom, (-B - D) * 2 / denom;
    (-N - P) * 2 / denom, (A + C) * 2 / denom]
  let jref : M2 := !![((C - A) * (K + S) - (D - B) * (N + P)) / denom,
    (2 * (A * D - C * B)) / denom;
    (2 * (N * S - P * K)) / denom, ((A + C) * (K - S) - (D + B) * (N - P)) / denom]
  return (jtran, jref)

/-- The list `Sigma` of `JonesToMueller` (transfer_matrix.py:454-458). -/
def sigma : Fin 4 → M2
  | 0 => !![1, 0; 0, 1]
  | 1 => !![1, 0; 0, -1]
  | 2 => !![0, 1; 1, 0]
  | 3 => !![0, -Complex.I; Complex.I, 0]

/-- The complex number `temp` computed for entry `(i, j)` (transfer_matrix.py:465). -/
noncomputable def muellerEntry (jones : M2) (i j : Fin 4) : ℂ :=
  Matrix.trace (sigma i * (jones * (sigma j * jones.conjTranspose))) / 2

/-- `JonesToMueller(jones)` (transfer_matrix.py:444-471). -/
noncomputable def jonesToMueller (jones : M2) : MR4 :=
  Matrix.of fun i j => (muellerEntry jones i j).re

/-- `Mueller(...)` (transfer_matrix.py:480-496) for a Boolean `reflected`. -/
noncomputable def mueller (s : Stack) (frequency incidenceAngle rotation inputIndex exitIndex : ℝ)
    (reflected : Bool) : PyM MR4 := do
  let tr ← stackTransferMatrix s frequency incidenceAngle rotation inputIndex exitIndex
  let (jt, jr) ← tranToJones tr
  return jonesToMueller (if reflected then jr else jt)

/-- `JonesRotation(jones, theta)` (transfer_matrix.py:699-703), `theta` in degrees. -/
noncomputable def jonesRotation (jones : M2) (theta : ℝ) : PyM M2 := do
  let t := theta * (π / 180)
  let rot : M2 := !![((cos t : ℝ) : ℂ), -((sin t : ℝ) : ℂ); ((sin t : ℝ) : ℂ), ((cos t : ℝ) : ℂ)]
  let ri ← npInv rot
  return rot * (jones * ri)

/-- `MuellerRotation(mueller, theta)` (transfer_matrix.py:705-710), `theta` in radians. -/
noncomputable def muellerRotation (mueller : MR4) (theta : ℝ) : MR4 :=
  let rot : MR4 := !![1, 0, 0, 0;
    0, cos (2 * theta), sin (2 * theta), 0;
    0, -sin (2 * theta), cos (2 * theta), 0;
    0, 0, 0, 1]
  let mRot : MR4 := !![1, 0, 0, 0;
    0, cos (-2 * theta), sin (-2 * theta), 0;
    0, -sin (2 * theta), cos (-2 * theta), 0;
    0, 0, 0, 1]
  mRot * (mueller * rot)

end Verif.Optics
