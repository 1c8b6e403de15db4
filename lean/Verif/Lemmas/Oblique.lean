import Verif.Lemmas.Normal

/-!
# Lemmas: layers at oblique incidence whose two polarizations do not mix
-/

noncomputable section

namespace Verif.Optics

open Real Matrix

/-- The transfer matrix acts on the waves in the layer. -/
theorem transferMatrix_waves {m : Material} {nsin : ℝ} (h : Physical m nsin) (t frequency rotation : ℝ)
    {psi phi : MR4} (hpsi : psiMat rotation m.ordinaryIndex (extraEff m nsin rotation) = .ok psi)
    (hphi : phiMat (arcsin (nsin / m.ordinaryIndex)) (arcsin (nsin / extraEff m nsin rotation)) rotation
      m.ordinaryIndex (extraEff m nsin rotation) = .ok phi) :
    ∃ T, transferMatrix m t frequency nsin rotation = .ok T ∧
      ∀ M : M4, M * toC (psi * phi) = toC (psi * phi) *
        propMat (2 * π * frequency / c) (-t) m.ordinaryComplexIndex
          (csqrt ((extraEff m nsin rotation : ℂ) ^ 2 * (1 - Complex.I * m.extraLoss)))
          (arcsin (nsin / m.ordinaryIndex)) (arcsin (nsin / extraEff m nsin rotation)) → T = M := by
  have hO : 0 < m.ordinaryIndex := lt_of_le_of_lt (abs_nonneg _) h.1
  have hE : 0 < m.extraIndex := lt_of_le_of_lt (abs_nonneg _) h.2
  obtain ⟨hr, hnE, hlt⟩ := extraEff_sq (chi := rotation) h
  have a1 : |nsin / m.ordinaryIndex| < 1 := by
    rw [abs_div, abs_of_pos hO, div_lt_one hO]
    exact h.1
  have a2 : |nsin / extraEff m nsin rotation| < 1 := by
    rw [abs_div, abs_of_pos hnE, div_lt_one hnE]
    exact hlt
  obtain ⟨psi', hpsi', dpsi⟩ := psiMat_ok (chi := rotation) hO hnE
  obtain ⟨phi', hphi', dphi⟩ := phiMat_ok (chi := rotation) (cos_arcsin_pos a1) (cos_arcsin_pos a2)
    (cos_arcsin_sub_pos hO hnE a1 a2) hO hnE
  rw [hpsi] at hpsi'
  cases hpsi'
  rw [hphi] at hphi'
  cases hphi'
  have dW : (toC psi * toC phi).det ≠ 0 := by
    rw [Matrix.det_mul]
    exact mul_ne_zero (toC_det dpsi) (toC_det dphi)
  have c1 : ¬ (m.ordinaryIndex = 0 ∨ m.extraIndex = 0) := by
    rintro (h | h)
    · exact hO.ne' h
    · exact hE.ne' h
  have c2 : ¬ (1 < |nsin / m.ordinaryIndex| ∨ 1 < |nsin / extraEff m nsin rotation|) := by
    rintro (h | h)
    · linarith
    · linarith
  rw [← propMat_inv]
  have dP := propMat_det (2 * π * frequency / c) t m.ordinaryComplexIndex
    (csqrt ((extraEff m nsin rotation : ℂ) ^ 2 * (1 - Complex.I * m.extraLoss)))
    (arcsin (nsin / m.ordinaryIndex)) (arcsin (nsin / extraEff m nsin rotation))
  unfold transferMatrix
  simp only [if_neg c1, if_neg (not_lt.mpr hr.le), if_neg hnE.ne', if_neg c2, hpsi, hphi, bind,
    Except.bind, pure, Except.pure]
  generalize propMat (2 * π * frequency / c) t m.ordinaryComplexIndex
    (csqrt ((extraEff m nsin rotation : ℂ) ^ 2 * (1 - Complex.I * m.extraLoss)))
    (arcsin (nsin / m.ordinaryIndex)) (arcsin (nsin / extraEff m nsin rotation)) = P at dP ⊢
  have dd : (toC psi * (toC phi * P)).det ≠ 0 := by
    rw [← Matrix.mul_assoc, Matrix.det_mul]
    exact mul_ne_zero dW dP
  rw [npInv, if_neg dd]
  refine ⟨_, rfl, fun M hM => ?_⟩
  rw [← Matrix.mul_assoc (toC psi), ← Matrix.mul_assoc (toC psi), Matrix.mul_inv_rev,
    ← Matrix.mul_assoc, ← toC_mul, ← hM, Matrix.mul_assoc, Matrix.mul_nonsing_inv, Matrix.mul_one]
  rw [toC_mul]
  exact isUnit_iff_ne_zero.mpr dW

/-- Two separate polarizations with admittances `p`, `s` and phases `x`, `y`. -/
def twoMat (p s : ℝ) (x y : ℂ) : M4 :=
  !![Complex.cosh x, Complex.sinh x / p, 0, 0;
     p * Complex.sinh x, Complex.cosh x, 0, 0;
     0, 0, Complex.cosh y, Complex.sinh y / s;
     0, 0, s * Complex.sinh y, Complex.cosh y]

/-- The phase of the ordinary ray. -/
def phaseO (m : Material) (t frequency nsin : ℝ) : ℂ :=
  Complex.I * (2 * π * frequency / c : ℝ) * m.ordinaryComplexIndex * t *
    (cos (arcsin (nsin / m.ordinaryIndex)) : ℝ)

/-- The phase of the extraordinary ray. -/
def phaseE (m : Material) (t frequency nsin rotation : ℝ) : ℂ :=
  Complex.I * (2 * π * frequency / c : ℝ) *
    csqrt ((extraEff m nsin rotation : ℂ) ^ 2 * (1 - Complex.I * m.extraLoss)) * t *
    (cos (arcsin (nsin / extraEff m nsin rotation)) : ℝ)

theorem propMat_neg (m : Material) (t frequency nsin rotation : ℝ) :
    propMat (2 * π * frequency / c) (-t) m.ordinaryComplexIndex
      (csqrt ((extraEff m nsin rotation : ℂ) ^ 2 * (1 - Complex.I * m.extraLoss)))
      (arcsin (nsin / m.ordinaryIndex)) (arcsin (nsin / extraEff m nsin rotation)) =
    !![Complex.exp (phaseO m t frequency nsin), 0, 0, 0;
       0, Complex.exp (phaseE m t frequency nsin rotation), 0, 0;
       0, 0, Complex.exp (-phaseO m t frequency nsin), 0;
       0, 0, 0, Complex.exp (-phaseE m t frequency nsin rotation)] := by
  unfold propMat phaseO phaseE
  simp only [Complex.ofReal_neg, mul_neg, neg_mul, one_mul, neg_neg]

/-- **Axis perpendicular to the plane of incidence.** -/
theorem transferMatrix_perp {m : Material} {nsin : ℝ} (h : Physical m nsin) (t frequency : ℝ)
    {rotation : ℝ} (hc : cos rotation = 0) :
    transferMatrix m t frequency nsin rotation =
      .ok (twoMat (m.ordinaryIndex / cos (arcsin (nsin / m.ordinaryIndex)))
        (extraEff m nsin rotation * cos (arcsin (nsin / extraEff m nsin rotation)))
        (phaseO m t frequency nsin) (phaseE m t frequency nsin rotation)) := by
  have hO : 0 < m.ordinaryIndex := lt_of_le_of_lt (abs_nonneg _) h.1
  obtain ⟨hr, hnE, hlt⟩ := extraEff_sq (chi := rotation) h
  have a1 : |nsin / m.ordinaryIndex| < 1 := by
    rw [abs_div, abs_of_pos hO, div_lt_one hO]
    exact h.1
  have a2 : |nsin / extraEff m nsin rotation| < 1 := by
    rw [abs_div, abs_of_pos hnE, div_lt_one hnE]
    exact hlt
  have k1 := cos_arcsin_pos a1
  have k2 := cos_arcsin_pos a2
  have k3 := cos_arcsin_sub_pos hO hnE a1 a2
  have hs : sin rotation ^ 2 = 1 := by have := sin_sq_add_cos_sq rotation; rw [hc] at this; linarith
  have hphi : phiMat (arcsin (nsin / m.ordinaryIndex)) (arcsin (nsin / extraEff m nsin rotation))
      rotation m.ordinaryIndex (extraEff m nsin rotation) = .ok
      !![-sin rotation * cos (arcsin (nsin / m.ordinaryIndex)), 0,
          -sin rotation * cos (arcsin (nsin / m.ordinaryIndex)), 0;
        -sin rotation / m.ordinaryIndex, 0, sin rotation / m.ordinaryIndex, 0;
        0, sin rotation, 0, sin rotation;
        0, cos (arcsin (nsin / extraEff m nsin rotation)) * sin rotation / extraEff m nsin rotation, 0,
          -(cos (arcsin (nsin / extraEff m nsin rotation)) * sin rotation / extraEff m nsin rotation)] := by
    generalize arcsin (nsin / m.ordinaryIndex) = a at *
    generalize arcsin (nsin / extraEff m nsin rotation) = b at *
    have d1 : √(cos a ^ 2 + sin a ^ 2 * sin rotation ^ 2) = 1 := by
      rw [hs, mul_one, add_comm, sin_sq_add_cos_sq, sqrt_one]
    have d2 : √(cos rotation ^ 2 * cos a ^ 2 + sin rotation ^ 2 * cos (a - b) ^ 2) = cos (a - b) := by
      rw [hs, hc]
      simp [sqrt_sq k3.le]
    have d3 : √(cos a ^ 2 * cos rotation ^ 2 + sin rotation ^ 2) = 1 := by
      rw [hs, hc]
      simp
    have d4 : √(cos (a - b) ^ 2 * sin rotation ^ 2 + cos a ^ 2 * cos rotation ^ 2) = cos (a - b) := by
      rw [hs, hc]
      simp [sqrt_sq k3.le]
    have d5 : sin a * sin b + cos a * cos b = cos (a - b) := by rw [cos_sub]; ring
    unfold phiMat
    dsimp only
    rw [d1, d2, d3, d4, d5, if_neg (by
      push Not
      exact ⟨one_ne_zero, k3.ne', one_ne_zero, k3.ne', hO.ne', hnE.ne'⟩), hc]
    congr 1
    ext i j
    fin_cases i <;> fin_cases j <;> simp <;> field_simp
  obtain ⟨T, hT, hM⟩ := transferMatrix_waves h t frequency rotation (psiMat_eq hO hnE) hphi
  rw [hT, hM _ ?_]
  rw [propMat_neg]
  have e1 : (m.ordinaryIndex : ℂ) ≠ 0 := by exact_mod_cast hO.ne'
  have e2 : (extraEff m nsin rotation : ℂ) ≠ 0 := by exact_mod_cast hnE.ne'
  have e3 : ((cos (arcsin (nsin / m.ordinaryIndex)) : ℝ) : ℂ) ≠ 0 := by exact_mod_cast k1.ne'
  have e4 : ((cos (arcsin (nsin / extraEff m nsin rotation)) : ℝ) : ℂ) ≠ 0 := by exact_mod_cast k2.ne'
  generalize phaseO m t frequency nsin = x
  generalize phaseE m t frequency nsin rotation = y
  generalize cos (arcsin (nsin / m.ordinaryIndex)) = a at *
  generalize cos (arcsin (nsin / extraEff m nsin rotation)) = b at *
  generalize extraEff m nsin rotation = nE at *
  generalize m.ordinaryIndex = nO at *
  generalize sin rotation = s at *
  rw [hc, hs]
  ext i j
  fin_cases i <;> fin_cases j <;>
    simp [toC, twoMat, Matrix.mul_apply, Fin.sum_univ_four, Complex.cosh, Complex.sinh] <;>
    (try field_simp) <;> (try ring)

/-- **Axis in the plane of incidence.** -/
theorem transferMatrix_plane {m : Material} {nsin : ℝ} (h : Physical m nsin) (t frequency : ℝ)
    {rotation : ℝ} (hs : sin rotation = 0) :
    transferMatrix m t frequency nsin rotation =
      .ok (twoMat (extraEff m nsin rotation / cos (arcsin (nsin / extraEff m nsin rotation)))
        (m.ordinaryIndex * cos (arcsin (nsin / m.ordinaryIndex)))
        (phaseE m t frequency nsin rotation) (phaseO m t frequency nsin)) := by
  have hO : 0 < m.ordinaryIndex := lt_of_le_of_lt (abs_nonneg _) h.1
  obtain ⟨hr, hnE, hlt⟩ := extraEff_sq (chi := rotation) h
  have a1 : |nsin / m.ordinaryIndex| < 1 := by
    rw [abs_div, abs_of_pos hO, div_lt_one hO]
    exact h.1
  have a2 : |nsin / extraEff m nsin rotation| < 1 := by
    rw [abs_div, abs_of_pos hnE, div_lt_one hnE]
    exact hlt
  have k1 := cos_arcsin_pos a1
  have k2 := cos_arcsin_pos a2
  have hc : cos rotation ^ 2 = 1 := by have := sin_sq_add_cos_sq rotation; rw [hs] at this; linarith
  have hphi : phiMat (arcsin (nsin / m.ordinaryIndex)) (arcsin (nsin / extraEff m nsin rotation))
      rotation m.ordinaryIndex (extraEff m nsin rotation) = .ok
      !![0, cos rotation * cos (arcsin (nsin / extraEff m nsin rotation)), 0,
          cos rotation * cos (arcsin (nsin / extraEff m nsin rotation));
        0, cos rotation / extraEff m nsin rotation, 0, -(cos rotation / extraEff m nsin rotation);
        cos rotation, 0, cos rotation, 0;
        cos (arcsin (nsin / m.ordinaryIndex)) * cos rotation / m.ordinaryIndex, 0,
          -(cos (arcsin (nsin / m.ordinaryIndex)) * cos rotation / m.ordinaryIndex), 0] := by
    generalize arcsin (nsin / m.ordinaryIndex) = a at *
    generalize arcsin (nsin / extraEff m nsin rotation) = b at *
    have d1 : √(cos a ^ 2 + sin a ^ 2 * sin rotation ^ 2) = cos a := by
      rw [hs]
      simp [sqrt_sq k1.le]
    have d2 : √(cos rotation ^ 2 * cos a ^ 2 + sin rotation ^ 2 * cos (a - b) ^ 2) = cos a := by
      rw [hs, hc]
      simp [sqrt_sq k1.le]
    have d3 : √(cos a ^ 2 * cos rotation ^ 2 + sin rotation ^ 2) = cos a := by
      rw [hs, hc]
      simp [sqrt_sq k1.le]
    have d4 : √(cos (a - b) ^ 2 * sin rotation ^ 2 + cos a ^ 2 * cos rotation ^ 2) = cos a := by
      rw [hs, hc]
      simp [sqrt_sq k1.le]
    unfold phiMat
    dsimp only
    rw [d1, d2, d3, d4, if_neg (by
      push Not
      exact ⟨k1.ne', k1.ne', k1.ne', k1.ne', hO.ne', hnE.ne'⟩), hs]
    congr 1
    ext i j
    fin_cases i <;> fin_cases j <;> simp <;> field_simp
  obtain ⟨T, hT, hM⟩ := transferMatrix_waves h t frequency rotation (psiMat_eq hO hnE) hphi
  rw [hT, hM _ ?_]
  rw [propMat_neg]
  have e1 : (m.ordinaryIndex : ℂ) ≠ 0 := by exact_mod_cast hO.ne'
  have e2 : (extraEff m nsin rotation : ℂ) ≠ 0 := by exact_mod_cast hnE.ne'
  have e3 : ((cos (arcsin (nsin / m.ordinaryIndex)) : ℝ) : ℂ) ≠ 0 := by exact_mod_cast k1.ne'
  have e4 : ((cos (arcsin (nsin / extraEff m nsin rotation)) : ℝ) : ℂ) ≠ 0 := by exact_mod_cast k2.ne'
  generalize phaseO m t frequency nsin = x
  generalize phaseE m t frequency nsin rotation = y
  generalize cos (arcsin (nsin / m.ordinaryIndex)) = a at *
  generalize cos (arcsin (nsin / extraEff m nsin rotation)) = b at *
  generalize extraEff m nsin rotation = nE at *
  generalize m.ordinaryIndex = nO at *
  rw [hc, hs]
  generalize cos rotation = s at *
  ext i j
  fin_cases i <;> fin_cases j <;>
    simp [toC, twoMat, Matrix.mul_apply, Fin.sum_univ_four, Complex.cosh, Complex.sinh] <;>
    (try field_simp) <;> (try ring)

/-- The same index and the same loss for both rays. -/
def Isotropic (m : Material) : Prop :=
  m.extraIndex = m.ordinaryIndex ∧ m.extraLoss = m.ordinaryLoss

theorem extraEff_iso {m : Material} (h : Isotropic m) (nsin rotation : ℝ) :
    extraEff m nsin rotation = m.ordinaryIndex := by
  unfold extraEff
  rw [h.1]
  simp

theorem phase_iso {m : Material} (h : Isotropic m) (t frequency nsin rotation : ℝ) :
    phaseE m t frequency nsin rotation = phaseO m t frequency nsin := by
  unfold phaseE phaseO Material.ordinaryComplexIndex
  rw [extraEff_iso h, h.2, mul_comm ((m.ordinaryIndex : ℂ) ^ 2)]

/-- **No axis.** -/
theorem transferMatrix_iso {m : Material} (iso : Isotropic m) {nsin : ℝ} (hn : |nsin| < m.ordinaryIndex)
    (t frequency rotation : ℝ) :
    transferMatrix m t frequency nsin rotation =
      .ok (twoMat (m.ordinaryIndex / cos (arcsin (nsin / m.ordinaryIndex)))
        (m.ordinaryIndex * cos (arcsin (nsin / m.ordinaryIndex)))
        (phaseO m t frequency nsin) (phaseO m t frequency nsin)) := by
  have h : Physical m nsin := ⟨hn, by rw [iso.1]; exact hn⟩
  have hO : 0 < m.ordinaryIndex := lt_of_le_of_lt (abs_nonneg _) h.1
  have eE := extraEff_iso iso nsin rotation
  have a1 : |nsin / m.ordinaryIndex| < 1 := by
    rw [abs_div, abs_of_pos hO, div_lt_one hO]
    exact h.1
  have k1 := cos_arcsin_pos a1
  have hcs := sin_sq_add_cos_sq rotation
  obtain ⟨D, hD, hD2, hDpos⟩ : ∃ D : ℝ, D = √(cos rotation ^ 2 * cos (arcsin (nsin / m.ordinaryIndex)) ^ 2
      + sin rotation ^ 2) ∧ D ^ 2 = cos rotation ^ 2 * cos (arcsin (nsin / m.ordinaryIndex)) ^ 2
      + sin rotation ^ 2 ∧ 0 < D := by
    have hp : 0 < cos rotation ^ 2 * cos (arcsin (nsin / m.ordinaryIndex)) ^ 2 + sin rotation ^ 2 := by
      by_cases hz : sin rotation = 0
      · have : cos rotation ^ 2 = 1 := by rw [hz] at hcs; linarith
        rw [this, hz]
        positivity
      · positivity
    exact ⟨_, rfl, sq_sqrt hp.le, sqrt_pos.2 hp⟩
  have hphi : phiMat (arcsin (nsin / m.ordinaryIndex)) (arcsin (nsin / extraEff m nsin rotation))
      rotation m.ordinaryIndex (extraEff m nsin rotation) = .ok
      (let k := cos (arcsin (nsin / m.ordinaryIndex))
       let n := m.ordinaryIndex
       !![-sin rotation * k / D, cos rotation * k ^ 2 / D, -sin rotation * k / D,
          cos rotation * k ^ 2 / D;
        -sin rotation / D / n, cos rotation * k / D / n, sin rotation / D / n, -(cos rotation * k / D / n);
        cos rotation * k / D, sin rotation / D, cos rotation * k / D, sin rotation / D;
        k ^ 2 * cos rotation / D / n, k * sin rotation / D / n, -(k ^ 2 * cos rotation / D / n),
          -(k * sin rotation / D / n)]) := by
    rw [eE]
    generalize arcsin (nsin / m.ordinaryIndex) = a at *
    have hcs' := sin_sq_add_cos_sq a
    have d1 : √(cos a ^ 2 + sin a ^ 2 * sin rotation ^ 2) = D := by
      rw [hD]
      congr 1
      linear_combination (-cos a ^ 2) * hcs + (sin rotation ^ 2) * hcs'
    have d2 : √(cos rotation ^ 2 * cos a ^ 2 + sin rotation ^ 2 * cos (a - a) ^ 2) = D := by
      rw [hD]
      simp
    have d3 : √(cos a ^ 2 * cos rotation ^ 2 + sin rotation ^ 2) = D := by
      rw [hD, mul_comm]
    have d4 : √(cos (a - a) ^ 2 * sin rotation ^ 2 + cos a ^ 2 * cos rotation ^ 2) = D := by
      rw [hD]
      simp only [sub_self, cos_zero]
      congr 1
      ring
    have d5 : sin a * sin a + cos a * cos a = 1 := by linear_combination hcs'
    unfold phiMat
    dsimp only
    rw [d1, d2, d3, d4, d5, if_neg (by
      push Not
      exact ⟨hDpos.ne', hDpos.ne', hDpos.ne', hDpos.ne', hO.ne', hO.ne'⟩)]
    congr 1
    ext i j
    fin_cases i <;> fin_cases j <;> simp <;> field_simp
  obtain ⟨T, hT, hM⟩ := transferMatrix_waves h t frequency rotation
    (psiMat_eq hO (by rw [eE]; exact hO)) hphi
  rw [hT, hM _ ?_]
  rw [propMat_neg, phase_iso iso, eE]
  have e1 : (m.ordinaryIndex : ℂ) ≠ 0 := by exact_mod_cast hO.ne'
  have e3 : ((cos (arcsin (nsin / m.ordinaryIndex)) : ℝ) : ℂ) ≠ 0 := by exact_mod_cast k1.ne'
  have e4 : (D : ℂ) ≠ 0 := by exact_mod_cast hDpos.ne'
  dsimp only
  generalize phaseO m t frequency nsin = x
  generalize cos (arcsin (nsin / m.ordinaryIndex)) = a at *
  generalize m.ordinaryIndex = n at *
  have p1 : cos rotation ^ 2 / n ^ 2 + sin rotation ^ 2 / n ^ 2 = 1 / n ^ 2 := by
    rw [← add_div, add_comm, hcs]
  have p2 : sin rotation ^ 2 / n ^ 2 + cos rotation ^ 2 / n ^ 2 = 1 / n ^ 2 := by
    rw [← add_div, hcs]
  have p3 : cos rotation * sin rotation / n ^ 2 - sin rotation * cos rotation / n ^ 2 = 0 := by ring
  have p4 : sin rotation * cos rotation / n ^ 2 - cos rotation * sin rotation / n ^ 2 = 0 := by ring
  rw [p1, p2, p3, p4]
  generalize sin rotation = s at *
  generalize cos rotation = r at *
  ext i j
  fin_cases i <;> fin_cases j <;>
    simp [toC, twoMat, Matrix.mul_apply, Fin.sum_univ_four, Complex.cosh, Complex.sinh] <;>
    (try field_simp) <;> (try ring)

end Verif.Optics
