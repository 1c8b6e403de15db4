import Verif.Lemmas.Optics

/-!
# Lemmas: transfer matrices at normal incidence
-/

namespace Verif.Optics

open Real Matrix

theorem csqrt_sq (z : ℂ) : csqrt z ^ 2 = z := by
  have := Complex.cpow_nat_inv_pow z (n := 2) two_ne_zero
  unfold csqrt
  rw [one_div]
  exact_mod_cast this

theorem csqrt_re_pos {z : ℂ} (h : 0 < z.re) : 0 < (csqrt z).re := by
  have hz : z ≠ 0 := by
    rintro rfl
    simp at h
  unfold csqrt
  rw [Complex.cpow_def_of_ne_zero hz, Complex.exp_re]
  apply mul_pos (exp_pos _)
  have him : (Complex.log z * (1 / 2 : ℂ)).im = z.arg / 2 := by
    have : (1 / 2 : ℂ) = ((1 / 2 : ℝ) : ℂ) := by push_cast; rfl
    rw [this, mul_comm, Complex.im_ofReal_mul, Complex.log_im]
    ring
  rw [him]
  have h1 := Complex.neg_pi_lt_arg z
  have h2 := Complex.arg_le_pi z
  have h3 : z.arg ≠ π := by
    intro h4
    rw [Complex.arg_eq_pi_iff] at h4
    linarith [h4.1]
  have h5 : z.arg < π := lt_of_le_of_ne h2 h3
  apply cos_pos_of_mem_Ioo
  constructor <;> linarith

/-- The imaginary part of a complex index: not positive for a non-negative loss tangent, and zero
without losses. -/
theorem csqrt_im {z : ℂ} (h : 0 < z.re) : (z.im ≤ 0 → (csqrt z).im ≤ 0) ∧
    (z.im = 0 → (csqrt z).im = 0) := by
  have hr := csqrt_re_pos h
  have hq : z.im = 2 * (csqrt z).re * (csqrt z).im := by
    conv_lhs => rw [← csqrt_sq z, pow_two, Complex.mul_im]
    ring
  constructor
  · intro hz
    rw [hq] at hz
    by_contra hc
    push Not at hc
    have : 0 < 2 * (csqrt z).re * (csqrt z).im := by positivity
    linarith
  · intro hz
    rw [hq] at hz
    rcases mul_eq_zero.mp hz with h1 | h1
    · linarith
    · exact h1

/-- `W` at normal incidence: electric and magnetic fields of the four waves. -/
noncomputable def wMat (chi nO nE : ℝ) : MR4 :=
  !![-sin chi / nO ^ 2, cos chi / nE ^ 2, -sin chi / nO ^ 2, cos chi / nE ^ 2;
     -sin chi / nO, cos chi / nE, sin chi / nO, -cos chi / nE;
     cos chi / nO ^ 2, sin chi / nE ^ 2, cos chi / nO ^ 2, sin chi / nE ^ 2;
     cos chi / nO, sin chi / nE, -cos chi / nO, -sin chi / nE]

theorem psiMat_eq {chi nO nE : ℝ} (hO : 0 < nO) (hE : 0 < nE) :
    psiMat chi nO nE = .ok !![cos chi ^ 2 / nE ^ 2 + sin chi ^ 2 / nO ^ 2, 0,
        cos chi * sin chi / nE ^ 2 - sin chi * cos chi / nO ^ 2, 0;
      0, 1, 0, 0;
      sin chi * cos chi / nE ^ 2 - cos chi * sin chi / nO ^ 2, 0,
        sin chi ^ 2 / nE ^ 2 + cos chi ^ 2 / nO ^ 2, 0;
      0, 0, 0, 1] := by
  have hcs := sin_sq_add_cos_sq chi
  set rot : Matrix (Fin 3) (Fin 3) ℝ :=
    !![cos chi, -1 * sin chi, 0; sin chi, cos chi, 0; 0, 0, 1] with hrot
  set rotT : Matrix (Fin 3) (Fin 3) ℝ :=
    !![cos chi, sin chi, 0; -sin chi, cos chi, 0; 0, 0, 1] with hrotT
  have hmul : rot * rotT = 1 := by
    ext a b
    fin_cases a <;> fin_cases b <;>
      simp [hrot, hrotT, Matrix.mul_apply, Fin.sum_univ_three, ← pow_two] <;>
      ring
  have hmul' : rotT * rot = 1 := mul_eq_one_comm.mp hmul
  have hdet : rot.det ≠ 0 := by
    intro h0
    have := congrArg Matrix.det hmul
    rw [Matrix.det_mul, h0, zero_mul, Matrix.det_one] at this
    exact zero_ne_one this
  have hinv : npInv rot = .ok rotT := by
    unfold npInv
    rw [if_neg hdet, Matrix.inv_eq_right_inv hmul]
  set eps : Matrix (Fin 3) (Fin 3) ℝ := !![nE ^ 2, 0, 0; 0, nO ^ 2, 0; 0, 0, nO ^ 2] with heps
  set epsi : Matrix (Fin 3) (Fin 3) ℝ :=
    !![(nE ^ 2)⁻¹, 0, 0; 0, (nO ^ 2)⁻¹, 0; 0, 0, (nO ^ 2)⁻¹] with hepsi
  have heps1 : eps * epsi = 1 := by
    ext a b
    fin_cases a <;> fin_cases b <;>
      simp [heps, hepsi, Matrix.mul_apply, Fin.sum_univ_three, hO.ne', hE.ne']
  have hfull : rot * (eps * rotT) * (rot * (epsi * rotT)) = 1 := by
    calc rot * (eps * rotT) * (rot * (epsi * rotT))
        = rot * (eps * ((rotT * rot) * epsi)) * rotT := by simp only [Matrix.mul_assoc]
      _ = 1 := by rw [hmul', Matrix.one_mul, heps1, Matrix.mul_one, hmul]
  have hinv2 : npInv (rot * (eps * rotT)) = .ok (rot * (epsi * rotT)) := by
    unfold npInv
    have hd : (rot * (eps * rotT)).det ≠ 0 := by
      intro h0
      have := congrArg Matrix.det hfull
      rw [Matrix.det_mul, h0, zero_mul, Matrix.det_one] at this
      exact zero_ne_one this
    rw [if_neg hd, Matrix.inv_eq_right_inv hfull]
  unfold psiMat
  simp only [bind, Except.bind, pure, Except.pure]
  rw [← hrot, hinv]
  simp only
  rw [← heps, hinv2]
  have e00 : (rot * (epsi * rotT)) 0 0 = cos chi ^ 2 / nE ^ 2 + sin chi ^ 2 / nO ^ 2 := by
    simp [hrot, hrotT, hepsi, Matrix.mul_apply, Fin.sum_univ_three]
    ring
  have e01 : (rot * (epsi * rotT)) 0 1
      = cos chi * sin chi / nE ^ 2 - sin chi * cos chi / nO ^ 2 := by
    simp [hrot, hrotT, hepsi, Matrix.mul_apply, Fin.sum_univ_three]
    ring
  have e10 : (rot * (epsi * rotT)) 1 0
      = sin chi * cos chi / nE ^ 2 - cos chi * sin chi / nO ^ 2 := by
    simp [hrot, hrotT, hepsi, Matrix.mul_apply, Fin.sum_univ_three]
    ring
  have e11 : (rot * (epsi * rotT)) 1 1 = sin chi ^ 2 / nE ^ 2 + cos chi ^ 2 / nO ^ 2 := by
    simp [hrot, hrotT, hepsi, Matrix.mul_apply, Fin.sum_univ_three]
    ring
  simp only [e00, e01, e10, e11]

theorem phiMat_normal {chi nO nE : ℝ} (hO : 0 < nO) (hE : 0 < nE) :
    phiMat 0 0 chi nO nE = .ok !![-sin chi, cos chi, -sin chi, cos chi;
      -sin chi / nO, cos chi / nE, sin chi / nO, -cos chi / nE;
      cos chi, sin chi, cos chi, sin chi;
      cos chi / nO, sin chi / nE, -cos chi / nO, -sin chi / nE] := by
  have hcs := sin_sq_add_cos_sq chi
  have h1 : cos chi ^ 2 + sin chi ^ 2 = 1 := by linarith
  unfold phiMat
  simp only [cos_zero, sin_zero, sub_zero, one_pow, mul_one, one_mul, zero_mul, zero_pow,
    ne_eq, OfNat.ofNat_ne_zero, not_false_eq_true, add_zero, zero_add, hcs, h1, sqrt_one, div_one]
  rw [if_neg (by
    rintro (h | h | h | h | h | h)
    · exact one_ne_zero h
    · exact one_ne_zero h
    · exact one_ne_zero h
    · exact one_ne_zero h
    · exact hO.ne' h
    · exact hE.ne' h)]
  simp only [neg_mul, one_mul, neg_neg, neg_div]

theorem extraEff_zero (m : Material) (chi : ℝ) : extraEff m 0 chi = m.extraIndex := by
  unfold extraEff
  simp

theorem propMat_inv (k0 t : ℝ) (a b : ℂ) (x y : ℝ) :
    (propMat k0 t a b x y)⁻¹ = propMat k0 (-t) a b x y := by
  apply Matrix.inv_eq_right_inv
  rw [← propMat_add, add_neg_cancel, propMat_zero]

theorem psi_phi_normal {chi nO nE : ℝ} (hO : 0 < nO) (hE : 0 < nE) :
    (!![cos chi ^ 2 / nE ^ 2 + sin chi ^ 2 / nO ^ 2, 0,
        cos chi * sin chi / nE ^ 2 - sin chi * cos chi / nO ^ 2, 0;
      0, 1, 0, 0;
      sin chi * cos chi / nE ^ 2 - cos chi * sin chi / nO ^ 2, 0,
        sin chi ^ 2 / nE ^ 2 + cos chi ^ 2 / nO ^ 2, 0;
      0, 0, 0, 1] : MR4) * !![-sin chi, cos chi, -sin chi, cos chi;
      -sin chi / nO, cos chi / nE, sin chi / nO, -cos chi / nE;
      cos chi, sin chi, cos chi, sin chi;
      cos chi / nO, sin chi / nE, -cos chi / nO, -sin chi / nE] = wMat chi nO nE := by
  have hcs := sin_sq_add_cos_sq chi
  ext a b
  fin_cases a <;> fin_cases b <;>
    simp [wMat, Matrix.mul_apply, Fin.sum_univ_four] <;> field_simp <;>
    first
      | ring1
      | linear_combination nO ^ 2 * hcs
      | linear_combination nE ^ 2 * hcs
      | linear_combination -nO ^ 2 * hcs
      | linear_combination -nE ^ 2 * hcs
      | linear_combination hcs
      | linear_combination -hcs
      | linear_combination nO ^ 2 * cos chi * hcs
      | linear_combination nO ^ 2 * sin chi * hcs
      | linear_combination nE ^ 2 * cos chi * hcs
      | linear_combination nE ^ 2 * sin chi * hcs
      | linear_combination -nO ^ 2 * cos chi * hcs
      | linear_combination -nO ^ 2 * sin chi * hcs
      | linear_combination -nE ^ 2 * cos chi * hcs
      | linear_combination -nE ^ 2 * sin chi * hcs

/-- The transfer matrix of a layer at normal incidence. -/
theorem transferMatrix_normal {m : Material} (hO : 0 < m.ordinaryIndex) (hE : 0 < m.extraIndex)
    (t frequency rotation : ℝ) :
    (toC (wMat rotation m.ordinaryIndex m.extraIndex)).det ≠ 0 ∧
    transferMatrix m t frequency 0 rotation
      = .ok (toC (wMat rotation m.ordinaryIndex m.extraIndex)
          * (propMat (2 * π * frequency / c) (-t) m.ordinaryComplexIndex
              (csqrt ((m.extraIndex : ℂ) ^ 2 * (1 - Complex.I * m.extraLoss))) 0 0
            * (toC (wMat rotation m.ordinaryIndex m.extraIndex))⁻¹)) := by
  have hp : Physical m 0 := by simpa [Physical] using ⟨hO, hE⟩
  obtain ⟨hr, -, -⟩ := extraEff_sq (chi := rotation) hp
  obtain ⟨psi, hpsi, dpsi⟩ := psiMat_ok (chi := rotation) hO hE
  obtain ⟨phi, hphi, dphi⟩ := phiMat_ok (chi := rotation) (thO := 0) (thE := 0)
    (by simp) (by simp) (by simp) hO hE
  have hmul : toC psi * toC phi = toC (wMat rotation m.ordinaryIndex m.extraIndex) := by
    have h1 := psiMat_eq (chi := rotation) hO hE
    have h2 := phiMat_normal (chi := rotation) hO hE
    rw [hpsi] at h1
    rw [hphi] at h2
    rw [Except.ok.injEq] at h1 h2
    rw [← psi_phi_normal hO hE, ← h1, ← h2]
    exact (Matrix.map_mul (f := Complex.ofRealHom)).symm
  have dW : (toC (wMat rotation m.ordinaryIndex m.extraIndex)).det ≠ 0 := by
    rw [← hmul, Matrix.det_mul]
    exact mul_ne_zero (toC_det dpsi) (toC_det dphi)
  refine ⟨dW, ?_⟩
  have c1 : ¬ (m.ordinaryIndex = 0 ∨ m.extraIndex = 0) := by
    rintro (h | h)
    · exact hO.ne' h
    · exact hE.ne' h
  have c2 : ¬ (1 < |(0 : ℝ)| ∨ 1 < |(0 : ℝ)|) := by
    simp
  have dP := propMat_det (2 * π * frequency / c) t m.ordinaryComplexIndex
    (csqrt ((m.extraIndex : ℂ) ^ 2 * (1 - Complex.I * m.extraLoss))) 0 0
  unfold transferMatrix
  simp only [extraEff_zero, if_neg c1, if_neg (not_lt.mpr hr.le), if_neg hE.ne', if_neg c2, hpsi,
    zero_div, arcsin_zero, hphi, bind, Except.bind, pure, Except.pure]
  rw [← propMat_inv]
  generalize propMat (2 * π * frequency / c) t m.ordinaryComplexIndex
    (csqrt ((m.extraIndex : ℂ) ^ 2 * (1 - Complex.I * m.extraLoss))) 0 0 = P at dP ⊢
  have dd : (toC psi * (toC phi * P)).det ≠ 0 := by
    rw [← Matrix.mul_assoc, Matrix.det_mul, hmul]
    exact mul_ne_zero dW dP
  rw [npInv, if_neg dd]
  simp only [Except.ok.injEq]
  rw [← Matrix.mul_assoc (toC psi), ← Matrix.mul_assoc (toC psi), Matrix.mul_inv_rev, hmul]

/-! ### energy flux -/

/-- The energy flux of the fields `(Ex, Hy, Ey, -Hx)` along the normal. -/
noncomputable def flux (v : Fin 4 → ℂ) : ℝ := (v 0 * star (v 1) + v 2 * star (v 3)).re

theorem toC_mulVec (m : MR4) (u : Fin 4 → ℂ) (i : Fin 4) :
    (toC m).mulVec u i = (m i 0 : ℂ) * u 0 + (m i 1 : ℂ) * u 1 + (m i 2 : ℂ) * u 2
      + (m i 3 : ℂ) * u 3 := by
  simp [Matrix.mulVec, dotProduct, Fin.sum_univ_four, toC, Matrix.map_apply]

theorem flux_waves {chi nO nE : ℝ} (hO : 0 < nO) (hE : 0 < nE) (u : Fin 4 → ℂ) :
    flux ((toC (wMat chi nO nE)).mulVec u)
      = (Complex.normSq (u 0) - Complex.normSq (u 2)) / nO ^ 3
        + (Complex.normSq (u 1) - Complex.normSq (u 3)) / nE ^ 3 := by
  have hcs := sin_sq_add_cos_sq chi
  unfold flux
  simp only [toC_mulVec, wMat, Matrix.of_apply, Matrix.cons_val', Matrix.cons_val_zero,
    Matrix.cons_val_one, Matrix.cons_val_fin_one, Matrix.cons_val]
  simp only [Complex.add_re, Complex.mul_re, Complex.star_def, Complex.conj_re, Complex.conj_im,
    Complex.add_im, Complex.mul_im, Complex.ofReal_re, Complex.ofReal_im, zero_mul, sub_zero,
    add_zero, Complex.normSq_apply]
  have hs : sin chi ^ 2 = 1 - cos chi ^ 2 := by linarith
  field_simp
  ring_nf
  simp only [hs]
  ring

theorem prop_diag (k0 t : ℝ) (a b : ℂ) (u : Fin 4 → ℂ) :
    (propMat k0 t a b 0 0).mulVec u = ![Complex.exp (-(Complex.I * k0 * a * t)) * u 0,
      Complex.exp (-(Complex.I * k0 * b * t)) * u 1, Complex.exp (Complex.I * k0 * a * t) * u 2,
      Complex.exp (Complex.I * k0 * b * t) * u 3] := by
  funext i
  fin_cases i <;> simp [propMat, Matrix.mulVec, dotProduct, Fin.sum_univ_four]

theorem normSq_exp_mul (z w : ℂ) :
    Complex.normSq (Complex.exp z * w) = Real.exp (2 * z.re) * Complex.normSq w := by
  rw [Complex.normSq_mul, Complex.normSq_eq_norm_sq (Complex.exp z), Complex.norm_exp, ← exp_nat_mul]
  norm_num

/-- Fields and what they become on the front side of a layer: without losses the flux is the
same, with losses the flux on the front is at least the flux on the back. -/
theorem flux_layer {m : Material} (hO : 0 < m.ordinaryIndex) (hE : 0 < m.extraIndex)
    {t frequency : ℝ} (ht : 0 ≤ t) (hf : 0 ≤ frequency) (rotation : ℝ) {T : M4}
    (hT : transferMatrix m t frequency 0 rotation = .ok T) (v : Fin 4 → ℂ) :
    (0 ≤ m.ordinaryLoss → 0 ≤ m.extraLoss → flux v ≤ flux (T.mulVec v)) ∧
    (m.ordinaryLoss = 0 → m.extraLoss = 0 → flux (T.mulVec v) = flux v) := by
  obtain ⟨dW, e⟩ := transferMatrix_normal hO hE t frequency rotation
  rw [e, Except.ok.injEq] at hT
  clear e
  set W := toC (wMat rotation m.ordinaryIndex m.extraIndex) with hW
  set k0 := 2 * π * frequency / c with hk0
  have hk : 0 ≤ k0 := by
    rw [hk0]
    unfold c
    have := pi_pos
    positivity
  set u := W⁻¹.mulVec v with hu
  have hv : v = W.mulVec u := by
    rw [hu, Matrix.mulVec_mulVec, Matrix.mul_nonsing_inv _ (isUnit_iff_ne_zero.mpr dW),
      Matrix.one_mulVec]
  have hTv : T.mulVec v = W.mulVec ((propMat k0 (-t) m.ordinaryComplexIndex
      (csqrt ((m.extraIndex : ℂ) ^ 2 * (1 - Complex.I * m.extraLoss))) 0 0).mulVec u) := by
    rw [← hT, hu, Matrix.mulVec_mulVec, Matrix.mulVec_mulVec, Matrix.mul_assoc]
  rw [hTv, hv, hW, flux_waves hO hE, flux_waves hO hE, prop_diag]
  simp only [Matrix.cons_val_zero, Matrix.cons_val_one, Matrix.cons_val]
  set a := m.ordinaryComplexIndex with ha
  set b := csqrt ((m.extraIndex : ℂ) ^ 2 * (1 - Complex.I * m.extraLoss)) with hb
  simp only [normSq_exp_mul]
  have ear : (-(Complex.I * (k0 : ℂ) * a * ((-t : ℝ) : ℂ))).re = -(k0 * t * a.im) := by
    simp
    ring
  have ebr : (-(Complex.I * (k0 : ℂ) * b * ((-t : ℝ) : ℂ))).re = -(k0 * t * b.im) := by
    simp
    ring
  have ear' : (Complex.I * (k0 : ℂ) * a * ((-t : ℝ) : ℂ)).re = k0 * t * a.im := by
    simp
    ring
  have ebr' : (Complex.I * (k0 : ℂ) * b * ((-t : ℝ) : ℂ)).re = k0 * t * b.im := by
    simp
    ring
  rw [ear, ebr, ear', ebr']
  have sqre : ∀ x : ℝ, ((x : ℂ) ^ 2).re = x ^ 2 := fun x => by
    rw [← Complex.ofReal_pow, Complex.ofReal_re]
  have sqim : ∀ x : ℝ, ((x : ℂ) ^ 2).im = 0 := fun x => by
    rw [← Complex.ofReal_pow, Complex.ofReal_im]
  have hza : ((1 - Complex.I * m.ordinaryLoss) * (m.ordinaryIndex : ℂ) ^ 2).re
      = m.ordinaryIndex ^ 2 ∧ ((1 - Complex.I * m.ordinaryLoss) * (m.ordinaryIndex : ℂ) ^ 2).im
      = -m.ordinaryLoss * m.ordinaryIndex ^ 2 := by
    constructor <;> simp [sqre, sqim]
  have hzb : ((m.extraIndex : ℂ) ^ 2 * (1 - Complex.I * m.extraLoss)).re
      = m.extraIndex ^ 2 ∧ ((m.extraIndex : ℂ) ^ 2 * (1 - Complex.I * m.extraLoss)).im
      = -m.extraLoss * m.extraIndex ^ 2 := by
    constructor
    · simp [sqre, sqim]
    · simp [sqre, sqim]
      ring
  have sa := csqrt_im (z := (1 - Complex.I * m.ordinaryLoss) * (m.ordinaryIndex : ℂ) ^ 2)
    (by rw [hza.1]; positivity)
  have sb := csqrt_im (z := (m.extraIndex : ℂ) ^ 2 * (1 - Complex.I * m.extraLoss))
    (by rw [hzb.1]; positivity)
  rw [hza.2, ← Material.ordinaryComplexIndex.eq_1, ← ha] at sa
  rw [hzb.2, ← hb] at sb
  have hn : ∀ z : ℂ, 0 ≤ Complex.normSq z := Complex.normSq_nonneg
  constructor
  · intro l1 l2
    have a1 := sa.1 (by nlinarith [sq_nonneg m.ordinaryIndex])
    have b1 := sb.1 (by nlinarith [sq_nonneg m.extraIndex])
    have hkt : 0 ≤ k0 * t := by positivity
    have q1 : 0 ≤ -(k0 * t * a.im) := by nlinarith
    have q2 : 0 ≤ -(k0 * t * b.im) := by nlinarith
    have e1 : 1 ≤ Real.exp (2 * -(k0 * t * a.im)) := one_le_exp (by linarith)
    have e2 : 1 ≤ Real.exp (2 * -(k0 * t * b.im)) := one_le_exp (by linarith)
    have e3 : Real.exp (2 * (k0 * t * a.im)) ≤ 1 := exp_le_one_iff.mpr (by linarith)
    have e4 : Real.exp (2 * (k0 * t * b.im)) ≤ 1 := exp_le_one_iff.mpr (by linarith)
    apply add_le_add
    · apply div_le_div_of_nonneg_right _ (by positivity)
      nlinarith [hn (u 0), hn (u 2)]
    · apply div_le_div_of_nonneg_right _ (by positivity)
      nlinarith [hn (u 1), hn (u 3)]
  · intro l1 l2
    have a1 := sa.2 (by rw [l1]; ring)
    have b1 := sb.2 (by rw [l2]; ring)
    rw [a1, b1]
    simp

/-! ### rotation -/

/-- Rotation of the electric and of the magnetic field. -/
noncomputable def rot4 (t : ℝ) : MR4 :=
  !![cos t, 0, -sin t, 0; 0, cos t, 0, -sin t; sin t, 0, cos t, 0; 0, sin t, 0, cos t]

theorem rot4_wMat (s t nO nE : ℝ) : rot4 s * wMat t nO nE = wMat (t + s) nO nE := by
  ext a b
  fin_cases a <;> fin_cases b <;>
    simp [rot4, wMat, Matrix.mul_apply, Fin.sum_univ_four, cos_add, sin_add] <;> ring

theorem rot4_mul (s t : ℝ) : rot4 s * rot4 t = rot4 (s + t) := by
  ext a b
  fin_cases a <;> fin_cases b <;>
    simp [rot4, Matrix.mul_apply, Fin.sum_univ_four, cos_add, sin_add] <;> ring

theorem rot4_zero : rot4 0 = 1 := by
  ext a b
  fin_cases a <;> fin_cases b <;> simp [rot4]

theorem toC_mul (a b : MR4) : toC (a * b) = toC a * toC b :=
  Matrix.map_mul (f := Complex.ofRealHom)

theorem toC_one : toC 1 = 1 := by
  ext a b
  simp only [toC, Matrix.map_apply, Matrix.one_apply]
  split <;> simp

theorem rot4_neg (r : ℝ) : toC (rot4 r) * toC (rot4 (-r)) = 1 := by
  rw [← toC_mul, rot4_mul, add_neg_cancel, rot4_zero, toC_one]

theorem rot4_neg' (r : ℝ) : toC (rot4 (-r)) * toC (rot4 r) = 1 := by
  rw [← toC_mul, rot4_mul, neg_add_cancel, rot4_zero, toC_one]

theorem transferMatrix_rotate {m : Material} (hO : 0 < m.ordinaryIndex) (hE : 0 < m.extraIndex)
    (t frequency a r : ℝ) {T : M4} (hT : transferMatrix m t frequency 0 a = .ok T) :
    transferMatrix m t frequency 0 (a + r) = .ok (toC (rot4 r) * T * toC (rot4 (-r))) := by
  obtain ⟨dW, e⟩ := transferMatrix_normal hO hE t frequency a
  obtain ⟨dW', e'⟩ := transferMatrix_normal hO hE t frequency (a + r)
  rw [e, Except.ok.injEq] at hT
  rw [e', ← hT, Except.ok.injEq]
  have hw : toC (wMat (a + r) m.ordinaryIndex m.extraIndex)
      = toC (rot4 r) * toC (wMat a m.ordinaryIndex m.extraIndex) := by
    rw [← toC_mul, rot4_wMat]
  have hi : (toC (wMat (a + r) m.ordinaryIndex m.extraIndex))⁻¹
      = (toC (wMat a m.ordinaryIndex m.extraIndex))⁻¹ * toC (rot4 (-r)) := by
    rw [hw, Matrix.mul_inv_rev, Matrix.inv_eq_right_inv (rot4_neg r)]
  rw [hi, hw]
  simp only [Matrix.mul_assoc]

end Verif.Optics
