import Verif.Model.Optics
import Mathlib.LinearAlgebra.Matrix.Trace
import Mathlib.LinearAlgebra.Matrix.Determinant.Basic
import Mathlib.Algebra.BigOperators.Field
import Mathlib.Tactic.FieldSimp
import Mathlib.Tactic.LinearCombination

/-!
# Lemmas about Jones, Mueller and transfer matrices
-/

namespace Verif.Optics

open Real Matrix

/-- Completeness of the Pauli matrices. -/
theorem pauli_complete (X Y : M2) :
    ∑ k, (X * sigma k).trace * (sigma k * Y).trace = 2 * (X * Y).trace := by
  rw [Fin.sum_univ_four]
  simp only [sigma, Matrix.trace_fin_two, Matrix.mul_apply, Fin.sum_univ_two, Matrix.of_apply,
    Matrix.cons_val', Matrix.cons_val_zero, Matrix.cons_val_one, Matrix.cons_val_fin_one]
  linear_combination (-(X 0 1 * Y 1 0 + X 1 0 * Y 0 1) + X 0 1 * Y 0 1 + X 1 0 * Y 1 0)
    * Complex.I_sq

theorem sigma_herm (i : Fin 4) : (sigma i).conjTranspose = sigma i := by
  fin_cases i <;>
  · ext a b
    fin_cases a <;> fin_cases b <;> simp [sigma, Matrix.conjTranspose_apply]

theorem sigma_orth (i j : Fin 4) :
    (sigma i * sigma j).trace = if i = j then 2 else 0 := by
  fin_cases i <;> fin_cases j <;>
    simp [sigma, Matrix.trace_fin_two] <;> norm_num

theorem muellerEntry_real (J : M2) (i j : Fin 4) :
    ((muellerEntry J i j).re : ℂ) = muellerEntry J i j := by
  have h : star (muellerEntry J i j) = muellerEntry J i j := by
    unfold muellerEntry
    rw [star_div₀, ← Matrix.trace_conjTranspose]
    congr 1
    · simp only [Matrix.conjTranspose_mul, sigma_herm, Matrix.conjTranspose_conjTranspose]
      rw [Matrix.trace_mul_comm]
      simp only [Matrix.mul_assoc]
    · simp
  exact Complex.conj_eq_iff_re.mp h

theorem muellerEntry_mul (A B : M2) (i j : Fin 4) :
    muellerEntry (A * B) i j = ∑ k, muellerEntry A i k * muellerEntry B k j := by
  have h := pauli_complete (A.conjTranspose * (sigma i * A)) (B * (sigma j * B.conjTranspose))
  have e : ∀ k, muellerEntry A i k * muellerEntry B k j
      = (A.conjTranspose * (sigma i * A) * sigma k).trace
        * (sigma k * (B * (sigma j * B.conjTranspose))).trace / 4 := by
    intro k
    have : (sigma i * (A * (sigma k * A.conjTranspose))).trace
        = (A.conjTranspose * (sigma i * A) * sigma k).trace := by
      rw [show sigma i * (A * (sigma k * A.conjTranspose))
        = (sigma i * A * sigma k) * A.conjTranspose by simp only [Matrix.mul_assoc],
        Matrix.trace_mul_comm]
      simp only [Matrix.mul_assoc]
    unfold muellerEntry
    rw [this]
    ring
  rw [Finset.sum_congr rfl (fun k _ => e k), ← Finset.sum_div, h]
  have : (A.conjTranspose * (sigma i * A) * (B * (sigma j * B.conjTranspose))).trace
      = (sigma i * (A * B * (sigma j * (A * B).conjTranspose))).trace := by
    rw [Matrix.mul_assoc, Matrix.trace_mul_comm, Matrix.conjTranspose_mul]
    simp only [Matrix.mul_assoc]
  rw [this]
  unfold muellerEntry
  ring

theorem jonesToMueller_mul (A B : M2) :
    jonesToMueller (A * B) = jonesToMueller A * jonesToMueller B := by
  ext i j
  have h : ((jonesToMueller (A * B) i j : ℝ) : ℂ)
      = (((jonesToMueller A * jonesToMueller B) i j : ℝ) : ℂ) := by
    rw [Matrix.mul_apply]
    push_cast
    simp only [jonesToMueller, Matrix.of_apply, muellerEntry_real]
    exact muellerEntry_mul A B i j
  exact_mod_cast h

/-- The plane rotation by `t` as a Jones matrix. -/
noncomputable def rotJ (t : ℝ) : M2 :=
  !![((cos t : ℝ) : ℂ), -((sin t : ℝ) : ℂ); ((sin t : ℝ) : ℂ), ((cos t : ℝ) : ℂ)]

theorem rotJ_mul (s t : ℝ) : rotJ s * rotJ t = rotJ (s + t) := by
  ext a b
  fin_cases a <;> fin_cases b <;>
    simp [rotJ, Matrix.mul_apply, Fin.sum_univ_two, Complex.cos_add, Complex.sin_add] <;> ring

theorem rotJ_zero : rotJ 0 = 1 := by
  ext a b
  fin_cases a <;> fin_cases b <;> simp [rotJ]

theorem rotJ_det (t : ℝ) : (rotJ t).det = 1 := by
  rw [Matrix.det_fin_two]
  simp only [rotJ, Matrix.of_apply, Matrix.cons_val', Matrix.cons_val_zero, Matrix.cons_val_one,
    Matrix.cons_val_fin_one]
  have := sin_sq_add_cos_sq t
  have h : ((sin t : ℝ) : ℂ) ^ 2 + ((cos t : ℝ) : ℂ) ^ 2 = 1 := by exact_mod_cast this
  linear_combination h

theorem rotJ_inv (t : ℝ) : (rotJ t)⁻¹ = rotJ (-t) := by
  apply Matrix.inv_eq_right_inv
  rw [rotJ_mul, add_neg_cancel, rotJ_zero]

theorem jonesRotation_eq (J : M2) (theta : ℝ) :
    jonesRotation J theta = .ok (rotJ (theta * (π / 180)) * (J * rotJ (-(theta * (π / 180))))) := by
  unfold jonesRotation
  have h : (npInv (rotJ (theta * (π / 180)))) = .ok (rotJ (-(theta * (π / 180)))) := by
    unfold npInv
    rw [if_neg (by rw [rotJ_det]; exact one_ne_zero), rotJ_inv]
  simp only [← rotJ.eq_1, h, bind, Except.bind, pure, Except.pure]

/-! ### one layer -/

/-- A layer through which both rays propagate: positive indices, larger than `|n sin|`. -/
def Physical (m : Material) (nsin : ℝ) : Prop :=
  |nsin| < m.ordinaryIndex ∧ |nsin| < m.extraIndex

theorem det4 (a b c d e f g h : ℝ) :
    (!![a, b, a, b; e, f, -e, -f; c, d, c, d; g, h, -g, -h] : MR4).det
      = 4 * (a * d - b * c) * (f * g - e * h) := by
  simp [Matrix.det_succ_row_zero, Fin.sum_univ_succ, Fin.succAbove]
  ring

theorem det_psi (a b c d : ℝ) :
    (!![a, 0, b, 0; 0, 1, 0, 0; c, 0, d, 0; 0, 0, 0, 1] : MR4).det = a * d - b * c := by
  simp [Matrix.det_succ_row_zero, Fin.sum_univ_succ, Fin.succAbove]
  ring

theorem det_prop (a b c d : ℂ) :
    (!![a, 0, 0, 0; 0, b, 0, 0; 0, 0, c, 0; 0, 0, 0, d] : M4).det = a * b * c * d := by
  simp [Matrix.det_succ_row_zero, Fin.sum_univ_succ, Fin.succAbove]
  ring

theorem phiMat_ok {thO thE chi nO nE : ℝ} (h1 : 0 < cos thO) (h2 : 0 < cos thE)
    (h3 : 0 < cos (thO - thE)) (hO : 0 < nO) (hE : 0 < nE) :
    ∃ phi, phiMat thO thE chi nO nE = .ok phi ∧ phi.det ≠ 0 := by
  have hcs := sin_sq_add_cos_sq chi
  have hsum : ∀ {a b : ℝ}, 0 < a → 0 < b → 0 < a * cos chi ^ 2 + b * sin chi ^ 2 := by
    intro a b ha hb
    rcases eq_or_ne (cos chi) 0 with h | h
    · have : sin chi ^ 2 = 1 := by rw [h] at hcs; linarith
      rw [h, this]
      linarith
    · have : 0 < cos chi ^ 2 := by positivity
      have : 0 < a * cos chi ^ 2 := by positivity
      have : 0 ≤ b * sin chi ^ 2 := by positivity
      linarith
  have hA : 0 < cos thO ^ 2 + sin thO ^ 2 * sin chi ^ 2 := by positivity
  have hB : 0 < cos chi ^ 2 * cos thO ^ 2 + sin chi ^ 2 * cos (thO - thE) ^ 2 := by
    have := hsum (a := cos thO ^ 2) (b := cos (thO - thE) ^ 2) (by positivity) (by positivity)
    linarith
  have hC : 0 < cos thO ^ 2 * cos chi ^ 2 + sin chi ^ 2 := by
    have := hsum (a := cos thO ^ 2) (b := 1) (by positivity) (by positivity)
    linarith
  have hD : 0 < cos (thO - thE) ^ 2 * sin chi ^ 2 + cos thO ^ 2 * cos chi ^ 2 := by
    have := hsum (a := cos thO ^ 2) (b := cos (thO - thE) ^ 2) (by positivity) (by positivity)
    linarith
  have sA := (sqrt_pos.mpr hA)
  have sB := (sqrt_pos.mpr hB)
  have sC := (sqrt_pos.mpr hC)
  have sD := (sqrt_pos.mpr hD)
  unfold phiMat
  rw [if_neg (by
    rintro (h | h | h | h | h | h)
    · exact sA.ne' h
    · exact sB.ne' h
    · exact sC.ne' h
    · exact sD.ne' h
    · exact hO.ne' h
    · exact hE.ne' h)]
  refine ⟨_, rfl, ?_⟩
  have hU := hsum (a := cos thO * cos thE) (b := cos (thO - thE)) (by positivity) h3
  have hV := hsum (a := cos thO ^ 3) (b := cos (thO - thE) * cos thE) (by positivity)
    (by positivity)
  have hss : sin thO * sin thE + cos thO * cos thE = cos (thO - thE) := by
    rw [cos_sub]
    ring
  generalize √(cos thO ^ 2 + sin thO ^ 2 * sin chi ^ 2) = A at *
  generalize √(cos chi ^ 2 * cos thO ^ 2 + sin chi ^ 2 * cos (thO - thE) ^ 2) = B at *
  generalize √(cos thO ^ 2 * cos chi ^ 2 + sin chi ^ 2) = C at *
  generalize √(cos (thO - thE) ^ 2 * sin chi ^ 2 + cos thO ^ 2 * cos chi ^ 2) = D at *
  have key := det4 (-1 * sin chi * cos thO / A) (1 * cos chi * cos thO * cos thE / B)
    (cos chi * cos thO / A) (1 * sin chi * (sin thO * sin thE + cos thO * cos thE) / B)
    (-sin chi / C / nO) (1 * cos thO * cos chi / D / nE)
    (-1 * (-cos thO ^ 2 * cos chi / C) / nO)
    (-1 * (-cos (thO - thE) * cos thE * sin chi / D) / nE)
  have e : ∀ x y : ℝ, -1 * x / y = -(x / y) := fun x y => by ring
  have hm : ∀ a b c d e f g h : ℝ,
      (!![a, b, 1 * a, 1 * b; e, f, -e, -f; c, d, c, d; -g, -h, g, h] : MR4)
        = !![a, b, a, b; e, f, -e, -f; c, d, c, d; -g, -h, - -g, - -h] := by
    intros
    simp
  simp only [e, hm] at key ⊢
  rw [key, hss]
  have hval : 4 * (-1 * sin chi * cos thO / A * (1 * sin chi * cos (thO - thE) / B)
        - 1 * cos chi * cos thO * cos thE / B * (cos chi * cos thO / A))
      * (1 * cos thO * cos chi / D / nE * -(-cos thO ^ 2 * cos chi / C / nO)
        - -sin chi / C / nO * -(-cos (thO - thE) * cos thE * sin chi / D / nE))
      = -(4 * cos thO * (cos thO * cos thE * cos chi ^ 2 + cos (thO - thE) * sin chi ^ 2)
        * (cos thO ^ 3 * cos chi ^ 2 + cos (thO - thE) * cos thE * sin chi ^ 2)
        / (A * B * C * D * nO * nE)) := by
    field_simp
    ring
  rw [hval, neg_ne_zero]
  positivity

theorem psiMat_ok {chi nO nE : ℝ} (hO : 0 < nO) (hE : 0 < nE) :
    ∃ psi, psiMat chi nO nE = .ok psi ∧ psi.det ≠ 0 := by
  have hcs := sin_sq_add_cos_sq chi
  set rot : Matrix (Fin 3) (Fin 3) ℝ :=
    !![cos chi, -1 * sin chi, 0; sin chi, cos chi, 0; 0, 0, 1] with hrot
  set rotT : Matrix (Fin 3) (Fin 3) ℝ :=
    !![cos chi, sin chi, 0; -sin chi, cos chi, 0; 0, 0, 1] with hrotT
  have hmul : rot * rotT = 1 := by
    ext a b
    fin_cases a <;> fin_cases b <;>
      simp [hrot, hrotT, Matrix.mul_apply, Fin.sum_univ_three, ← pow_two] <;>
      ring
  have hmul' : rotT * rot = 1 := mul_eq_one_comm.mp hmul
  have hdet : rot.det ≠ 0 := by
    intro h0
    have := congrArg Matrix.det hmul
    rw [Matrix.det_mul, h0, zero_mul, Matrix.det_one] at this
    exact zero_ne_one this
  have hinv : npInv rot = .ok rotT := by
    unfold npInv
    rw [if_neg hdet, Matrix.inv_eq_right_inv hmul]
  set eps : Matrix (Fin 3) (Fin 3) ℝ := !![nE ^ 2, 0, 0; 0, nO ^ 2, 0; 0, 0, nO ^ 2] with heps
  set epsi : Matrix (Fin 3) (Fin 3) ℝ :=
    !![(nE ^ 2)⁻¹, 0, 0; 0, (nO ^ 2)⁻¹, 0; 0, 0, (nO ^ 2)⁻¹] with hepsi
  have heps1 : eps * epsi = 1 := by
    ext a b
    fin_cases a <;> fin_cases b <;>
      simp [heps, hepsi, Matrix.mul_apply, Fin.sum_univ_three, hO.ne', hE.ne']
  have hfull : rot * (eps * rotT) * (rot * (epsi * rotT)) = 1 := by
    calc rot * (eps * rotT) * (rot * (epsi * rotT))
        = rot * (eps * ((rotT * rot) * epsi)) * rotT := by simp only [Matrix.mul_assoc]
      _ = 1 := by rw [hmul', Matrix.one_mul, heps1, Matrix.mul_one, hmul]
  have hinv2 : npInv (rot * (eps * rotT)) = .ok (rot * (epsi * rotT)) := by
    unfold npInv
    have hd : (rot * (eps * rotT)).det ≠ 0 := by
      intro h0
      have := congrArg Matrix.det hfull
      rw [Matrix.det_mul, h0, zero_mul, Matrix.det_one] at this
      exact zero_ne_one this
    rw [if_neg hd, Matrix.inv_eq_right_inv hfull]
  unfold psiMat
  simp only [bind, Except.bind, pure, Except.pure]
  rw [← hrot, hinv]
  simp only
  rw [← heps, hinv2]
  refine ⟨_, rfl, ?_⟩
  rw [det_psi]
  have hval : (rot * (epsi * rotT)) 0 0 * (rot * (epsi * rotT)) 1 1
      - (rot * (epsi * rotT)) 0 1 * (rot * (epsi * rotT)) 1 0 = (nE ^ 2)⁻¹ * (nO ^ 2)⁻¹ := by
    simp [hrot, hrotT, hepsi, Matrix.mul_apply, Fin.sum_univ_three]
    field_simp
    linear_combination nO ^ 2 * nE ^ 2 * (cos chi ^ 2 + sin chi ^ 2 + 1) * hcs
  rw [hval]
  positivity

theorem propMat_det (k0 t : ℝ) (a b : ℂ) (x y : ℝ) : (propMat k0 t a b x y).det ≠ 0 := by
  simp only [propMat]
  rw [det_prop]
  exact mul_ne_zero (mul_ne_zero (mul_ne_zero (Complex.exp_ne_zero _) (Complex.exp_ne_zero _))
    (Complex.exp_ne_zero _)) (Complex.exp_ne_zero _)

theorem propMat_zero (k0 : ℝ) (a b : ℂ) (x y : ℝ) : propMat k0 0 a b x y = 1 := by
  ext i j
  fin_cases i <;> fin_cases j <;> simp [propMat]

theorem propMat_add (k0 s t : ℝ) (a b : ℂ) (x y : ℝ) :
    propMat k0 (s + t) a b x y = propMat k0 s a b x y * propMat k0 t a b x y := by
  ext i j
  fin_cases i <;> fin_cases j <;>
    simp [propMat, Matrix.mul_apply, Fin.sum_univ_four, ← Complex.exp_add] <;> congr 1 <;> ring

theorem toC_det {m : MR4} (h : m.det ≠ 0) : (toC m).det ≠ 0 := by
  have : (toC m).det = ((m.det : ℝ) : ℂ) := by
    have := RingHom.map_det Complex.ofRealHom m
    exact this.symm
  rw [this]
  exact_mod_cast h

theorem sq_lt_of_abs_lt {a b : ℝ} (h : |a| < b) : a ^ 2 < b ^ 2 := by
  rw [← sq_abs a]
  exact pow_lt_pow_left₀ h (abs_nonneg a) two_ne_zero

theorem extraEff_sq {m : Material} {nsin chi : ℝ} (h : Physical m nsin) :
    0 < 1 + ((m.extraIndex ^ 2)⁻¹ - (m.ordinaryIndex ^ 2)⁻¹) * nsin ^ 2 * cos chi ^ 2 ∧
    0 < extraEff m nsin chi ∧ |nsin| < extraEff m nsin chi := by
  obtain ⟨h1, h2⟩ := h
  have hO : 0 < m.ordinaryIndex := lt_of_le_of_lt (abs_nonneg _) h1
  have hE : 0 < m.extraIndex := lt_of_le_of_lt (abs_nonneg _) h2
  have q1 := sq_lt_of_abs_lt h1
  have q2 := sq_lt_of_abs_lt h2
  have hcs := sin_sq_add_cos_sq chi
  unfold extraEff
  generalize m.ordinaryIndex = a at *
  generalize m.extraIndex = b at *
  have hr : nsin ^ 2 / a ^ 2 < 1 := by rw [div_lt_one (by positivity)]; exact q1
  have hr0 : 0 ≤ nsin ^ 2 / a ^ 2 := by positivity
  have hc0 : 0 ≤ cos chi ^ 2 := sq_nonneg _
  have hc1 : cos chi ^ 2 ≤ 1 := by nlinarith [sq_nonneg (sin chi)]
  have e : 1 + ((b ^ 2)⁻¹ - (a ^ 2)⁻¹) * nsin ^ 2 * cos chi ^ 2
      = 1 - nsin ^ 2 / a ^ 2 * cos chi ^ 2 + nsin ^ 2 / b ^ 2 * cos chi ^ 2 := by
    field_simp
    ring
  have hpos : 0 < 1 + ((b ^ 2)⁻¹ - (a ^ 2)⁻¹) * nsin ^ 2 * cos chi ^ 2 := by
    rw [e]
    have h3 : nsin ^ 2 / a ^ 2 * cos chi ^ 2 < 1 := by nlinarith
    have h4 : 0 ≤ nsin ^ 2 / b ^ 2 * cos chi ^ 2 := by positivity
    linarith
  have hpos2 := mul_pos hE (sqrt_pos.mpr hpos)
  refine ⟨hpos, hpos2, ?_⟩
  rw [← abs_of_pos hpos2, ← sq_lt_sq, mul_pow, sq_sqrt hpos.le, e]
  have e2 : b ^ 2 * (1 - nsin ^ 2 / a ^ 2 * cos chi ^ 2 + nsin ^ 2 / b ^ 2 * cos chi ^ 2)
      = b ^ 2 * (1 - nsin ^ 2 / a ^ 2 * cos chi ^ 2) + nsin ^ 2 * cos chi ^ 2 := by
    field_simp
  rw [e2]
  have hs : sin chi ^ 2 = 1 - cos chi ^ 2 := by linarith
  have h5 : 0 ≤ (b ^ 2 - nsin ^ 2) * sin chi ^ 2 := mul_nonneg (by linarith) (sq_nonneg _)
  have h6 : 0 ≤ b ^ 2 * (1 - nsin ^ 2 / a ^ 2) * cos chi ^ 2 :=
    mul_nonneg (mul_nonneg (sq_nonneg _) (by linarith)) hc0
  rcases eq_or_ne (cos chi) 0 with hc | hc
  · have : sin chi ^ 2 = 1 := by rw [hc] at hcs; linarith
    rw [hc]
    nlinarith
  · have h7 : 0 < b ^ 2 * (1 - nsin ^ 2 / a ^ 2) * cos chi ^ 2 :=
      mul_pos (mul_pos (by positivity) (by linarith)) (by positivity)
    rw [hs] at h5
    nlinarith

theorem cos_arcsin_pos {x : ℝ} (h : |x| < 1) : 0 < cos (arcsin x) := by
  rw [cos_arcsin]
  apply sqrt_pos.mpr
  have := sq_lt_of_abs_lt h
  linarith

theorem cos_arcsin_sub_pos {x a b : ℝ} (ha : 0 < a) (hb : 0 < b) (h1 : |x / a| < 1)
    (h2 : |x / b| < 1) : 0 < cos (arcsin (x / a) - arcsin (x / b)) := by
  rw [cos_sub, sin_arcsin (abs_le.mp h1.le).1 (abs_le.mp h1.le).2,
    sin_arcsin (abs_le.mp h2.le).1 (abs_le.mp h2.le).2]
  have := mul_pos (cos_arcsin_pos h1) (cos_arcsin_pos h2)
  have h3 : 0 ≤ x / a * (x / b) := by
    rw [div_mul_div_comm, ← pow_two]
    positivity
  linarith

/-- For a physical layer the transfer matrix exists and is `W P(t)⁻¹ W⁻¹`, where `W` and `P` do not
depend on the thickness `t` otherwise. -/
theorem transferMatrix_eq {m : Material} {nsin : ℝ} (h : Physical m nsin) (frequency rotation : ℝ) :
    ∃ (W : M4) (k0 : ℝ) (a b : ℂ) (x y : ℝ), IsUnit W.det ∧ ∀ t,
      transferMatrix m t frequency nsin rotation
        = .ok (W * ((propMat k0 t a b x y)⁻¹ * W⁻¹)) := by
  have hO : 0 < m.ordinaryIndex := lt_of_le_of_lt (abs_nonneg _) h.1
  have hE : 0 < m.extraIndex := lt_of_le_of_lt (abs_nonneg _) h.2
  obtain ⟨hr, hnE, hlt⟩ := extraEff_sq (chi := rotation) h
  have a1 : |nsin / m.ordinaryIndex| < 1 := by
    rw [abs_div, abs_of_pos hO, div_lt_one hO]
    exact h.1
  have a2 : |nsin / extraEff m nsin rotation| < 1 := by
    rw [abs_div, abs_of_pos hnE, div_lt_one hnE]
    exact hlt
  obtain ⟨psi, hpsi, dpsi⟩ := psiMat_ok (chi := rotation) hO hnE
  obtain ⟨phi, hphi, dphi⟩ := phiMat_ok (chi := rotation) (cos_arcsin_pos a1) (cos_arcsin_pos a2)
    (cos_arcsin_sub_pos hO hnE a1 a2) hO hnE
  have dW : (toC psi * toC phi).det ≠ 0 := by
    rw [Matrix.det_mul]
    exact mul_ne_zero (toC_det dpsi) (toC_det dphi)
  refine ⟨toC psi * toC phi, 2 * π * frequency / c, m.ordinaryComplexIndex,
    csqrt ((extraEff m nsin rotation : ℂ) ^ 2 * (1 - Complex.I * m.extraLoss)),
    arcsin (nsin / m.ordinaryIndex), arcsin (nsin / extraEff m nsin rotation),
    isUnit_iff_ne_zero.mpr dW, ?_⟩
  intro t
  have dP := propMat_det (2 * π * frequency / c) t m.ordinaryComplexIndex
    (csqrt ((extraEff m nsin rotation : ℂ) ^ 2 * (1 - Complex.I * m.extraLoss)))
    (arcsin (nsin / m.ordinaryIndex)) (arcsin (nsin / extraEff m nsin rotation))
  have c1 : ¬ (m.ordinaryIndex = 0 ∨ m.extraIndex = 0) := by
    rintro (h | h)
    · exact hO.ne' h
    · exact hE.ne' h
  have c2 : ¬ (1 < |nsin / m.ordinaryIndex| ∨ 1 < |nsin / extraEff m nsin rotation|) := by
    rintro (h | h)
    · linarith
    · linarith
  unfold transferMatrix
  simp only [if_neg c1, if_neg (not_lt.mpr hr.le), if_neg hnE.ne', if_neg c2, hpsi, hphi, bind,
    Except.bind, pure, Except.pure]
  generalize propMat (2 * π * frequency / c) t m.ordinaryComplexIndex
    (csqrt ((extraEff m nsin rotation : ℂ) ^ 2 * (1 - Complex.I * m.extraLoss)))
    (arcsin (nsin / m.ordinaryIndex)) (arcsin (nsin / extraEff m nsin rotation)) = P at dP ⊢
  have dd : (toC psi * (toC phi * P)).det ≠ 0 := by
    rw [← Matrix.mul_assoc, Matrix.det_mul]
    exact mul_ne_zero dW dP
  rw [npInv, if_neg dd]
  simp only [Except.ok.injEq]
  rw [← Matrix.mul_assoc (toC psi), ← Matrix.mul_assoc (toC psi), Matrix.mul_inv_rev]

/-! ### stacks -/

theorem foldlM_range_eq {A B : Type} (f : A → B → PyM A) (g : A → Nat → PyM A) (l : List B) :
    (∀ acc (k : Nat) x, l[k]? = some x → g acc k = f acc x) → ∀ i,
    (List.range l.length).foldlM g i = l.foldlM f i := by
  induction l using List.reverseRecOn with
  | nil => intros; rfl
  | append_singleton l a ih =>
    intro h i
    rw [List.length_append, List.length_singleton, List.range_succ, List.foldlM_append,
      List.foldlM_append, ih]
    · congr 1
      funext acc
      rw [List.foldlM_cons, List.foldlM_cons, h acc l.length a (by simp)]
      rfl
    · intro acc k x hx
      apply h
      have hk : k < l.length := by
        rcases lt_or_ge k l.length with h1 | h1
        · exact h1
        · rw [List.getElem?_eq_none h1] at hx
          cases hx
      rw [List.getElem?_append_left hk]
      exact hx

/-- A layer of a stack: thickness, material, angle. -/
abbrev Layer := ℝ × Material × ℝ

/-- The stack with the given layers. -/
def ofLayers (l : List Layer) : Stack :=
  ⟨l.map (·.1), l.map (·.2.1), l.map (·.2.2)⟩

/-- Transfer matrix of one layer of a stack. -/
noncomputable def layerMat (frequency nsin rotation : ℝ) (x : Layer) : PyM M4 :=
  transferMatrix x.2.1 x.1 frequency nsin (x.2.2 + rotation)

theorem pyGet_some {A : Type} {a : List A} {k : Nat} {x : A} (h : a[k]? = some x) :
    pyGet a (k : Int) = .ok x := by
  unfold pyGet
  have h0 : ¬ (k : Int) < 0 := by omega
  simp only [if_neg h0, Int.toNat_natCast, h]

theorem stack_fold (l : List Layer) (frequency nsin rotation : ℝ) (M0 : M4) :
    (List.range (ofLayers l).thicknesses.length).foldlM
        (stackStep (ofLayers l) frequency nsin rotation) M0
      = (l.mapM (layerMat frequency nsin rotation)).map fun Ts => M0 * Ts.prod := by
  have h1 : (List.range (ofLayers l).thicknesses.length).foldlM
        (stackStep (ofLayers l) frequency nsin rotation) M0
      = l.foldlM (fun total x => do
          let T ← layerMat frequency nsin rotation x
          return total * T) M0 := by
    rw [show (ofLayers l).thicknesses.length = l.length by simp [ofLayers]]
    apply foldlM_range_eq
    intro acc k x hx
    unfold stackStep
    rw [pyGet_some (x := x.2.1) (by simp [ofLayers, hx]),
      pyGet_some (x := x.1) (by simp [ofLayers, hx]),
      pyGet_some (x := x.2.2) (by simp [ofLayers, hx])]
    rfl
  rw [h1]
  clear h1
  induction l generalizing M0 with
  | nil => simp [pure, Except.pure, Except.map]
  | cons x l ih =>
    rw [List.foldlM_cons, List.mapM_cons]
    rcases hx : layerMat frequency nsin rotation x with e | T
    · rfl
    · simp only [bind, Except.bind, pure, Except.pure] at ih ⊢
      rw [ih]
      rcases l.mapM (layerMat frequency nsin rotation) with e | Ts
      · rfl
      · simp [Except.map, Matrix.mul_assoc]

end Verif.Optics
