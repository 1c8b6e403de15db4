import Verif.Lemmas.Optics

/-!
# Properties C35 - C37, C63, C64: Jones and Mueller matrices, transfer matrices
-/

namespace Verif.Props

open Verif.Optics Real Matrix

/-! ## C35 -/

/-- The Stokes parameters of a field `(Ex, Ey)` (specification). -/
noncomputable def stokes (e : Fin 2 → ℂ) : Fin 4 → ℝ :=
  ![‖e 0‖ ^ 2 + ‖e 1‖ ^ 2, ‖e 0‖ ^ 2 - ‖e 1‖ ^ 2, 2 * (e 0 * star (e 1)).re,
    -2 * (e 0 * star (e 1)).im]

private theorem stokes_eq (e : Fin 2 → ℂ) (k : Fin 4) :
    ((stokes e k : ℝ) : ℂ) = (sigma k * Matrix.vecMulVec e (star e)).trace := by
  have h0 : ((‖e 0‖ : ℂ)) ^ 2 = e 0 * star (e 0) := by
    rw [Complex.star_def, Complex.mul_conj, Complex.normSq_eq_norm_sq]
    push_cast
    rfl
  have h1 : ((‖e 1‖ : ℂ)) ^ 2 = e 1 * star (e 1) := by
    rw [Complex.star_def, Complex.mul_conj, Complex.normSq_eq_norm_sq]
    push_cast
    rfl
  have h2 : (((e 0 * star (e 1)).re : ℝ) : ℂ) = (e 0 * star (e 1) + star (e 0) * e 1) / 2 := by
    rw [Complex.re_eq_add_conj]
    simp
  have h3 : (((e 0 * star (e 1)).im : ℝ) : ℂ)
      = (e 0 * star (e 1) - star (e 0) * e 1) / (2 * Complex.I) := by
    rw [Complex.im_eq_sub_conj]
    simp
  have hI : Complex.I ≠ 0 := Complex.I_ne_zero
  fin_cases k
  · simp only [stokes, sigma, Matrix.trace_fin_two, Matrix.mul_apply, Fin.sum_univ_two,
      Matrix.vecMulVec_apply, Pi.star_apply]
    simp only [Fin.zero_eta, Fin.mk_one, Matrix.of_apply, Matrix.cons_val',
      Matrix.cons_val_zero, Matrix.cons_val_one, Matrix.cons_val_fin_one]
    push_cast
    rw [h0, h1]
    ring
  · simp only [stokes, sigma, Matrix.trace_fin_two, Matrix.mul_apply, Fin.sum_univ_two,
      Matrix.vecMulVec_apply, Pi.star_apply]
    simp only [Fin.zero_eta, Fin.mk_one, Matrix.of_apply, Matrix.cons_val',
      Matrix.cons_val_zero, Matrix.cons_val_one, Matrix.cons_val_fin_one]
    push_cast
    rw [h0, h1]
    ring
  · simp only [stokes, sigma, Matrix.trace_fin_two, Matrix.mul_apply, Fin.sum_univ_two,
      Matrix.vecMulVec_apply, Pi.star_apply]
    simp only [Fin.reduceFinMk, Matrix.cons_val, Matrix.of_apply, Matrix.cons_val',
      Matrix.cons_val_zero, Matrix.cons_val_one, Matrix.cons_val_fin_one]
    push_cast
    rw [h2]
    ring
  · simp only [stokes, sigma, Matrix.trace_fin_two, Matrix.mul_apply, Fin.sum_univ_two,
      Matrix.vecMulVec_apply, Pi.star_apply]
    simp only [Fin.reduceFinMk, Matrix.cons_val, Matrix.of_apply, Matrix.cons_val',
      Matrix.cons_val_zero, Matrix.cons_val_one, Matrix.cons_val_fin_one]
    push_cast
    rw [h3]
    field_simp
    linear_combination (e 1 * star (e 0) - star (e 1) * e 0) * Complex.I_sq

/-- **C35 (meaning).** For every field, applying the Mueller matrix to its Stokes parameters gives
the Stokes parameters of the field transformed by the Jones matrix. -/
theorem C35_stokes (J : M2) (e : Fin 2 → ℂ) :
    (jonesToMueller J).mulVec (stokes e) = stokes (J.mulVec e) := by
  funext i
  have hJ : Matrix.vecMulVec (J.mulVec e) (star (J.mulVec e))
      = J * (Matrix.vecMulVec e (star e) * J.conjTranspose) := by
    rw [Matrix.star_mulVec, Matrix.vecMulVec_mul, Matrix.mul_vecMulVec]
  have h : (((jonesToMueller J).mulVec (stokes e) i : ℝ) : ℂ) = ((stokes (J.mulVec e) i : ℝ) : ℂ) := by
    rw [stokes_eq, hJ, Matrix.mulVec, dotProduct]
    push_cast
    have hp := pauli_complete (J.conjTranspose * (sigma i * J)) (Matrix.vecMulVec e (star e))
    have e1 : ∀ k, ((jonesToMueller J i k : ℝ) : ℂ) * ((stokes e k : ℝ) : ℂ)
        = (J.conjTranspose * (sigma i * J) * sigma k).trace
          * (sigma k * Matrix.vecMulVec e (star e)).trace / 2 := by
      intro k
      rw [stokes_eq]
      simp only [jonesToMueller, Matrix.of_apply, muellerEntry_real]
      have : (sigma i * (J * (sigma k * J.conjTranspose))).trace
          = (J.conjTranspose * (sigma i * J) * sigma k).trace := by
        rw [show sigma i * (J * (sigma k * J.conjTranspose))
          = (sigma i * J * sigma k) * J.conjTranspose by simp only [Matrix.mul_assoc],
          Matrix.trace_mul_comm]
        simp only [Matrix.mul_assoc]
      unfold muellerEntry
      rw [this]
      ring
    rw [Finset.sum_congr rfl (fun k _ => e1 k), ← Finset.sum_div, hp]
    have : (J.conjTranspose * (sigma i * J) * Matrix.vecMulVec e (star e)).trace
        = (sigma i * (J * (Matrix.vecMulVec e (star e) * J.conjTranspose))).trace := by
      rw [Matrix.mul_assoc, Matrix.trace_mul_comm]
      simp only [Matrix.mul_assoc]
    rw [this]
    ring
  exact_mod_cast h

/-- **C35 (multiplicative).** -/
theorem C35_multiplicative (A B : M2) :
    jonesToMueller (A * B) = jonesToMueller A * jonesToMueller B := jonesToMueller_mul A B

/-- **C35 (identity).** -/
theorem C35_identity : jonesToMueller 1 = 1 := by
  ext i j
  have h : ((jonesToMueller 1 i j : ℝ) : ℂ) = (((1 : MR4) i j : ℝ) : ℂ) := by
    simp only [jonesToMueller, Matrix.of_apply, muellerEntry_real]
    unfold muellerEntry
    rw [Matrix.conjTranspose_one, Matrix.mul_one, Matrix.one_mul, sigma_orth, Matrix.one_apply]
    split <;> simp
  exact_mod_cast h

/-- **C35 (scaling, overall phase).** Multiplying a Jones matrix by `z` multiplies the Mueller
matrix by `|z|²`; in particular a phase has no effect. -/
theorem C35_scaling (z : ℂ) (J : M2) :
    jonesToMueller (z • J) = (‖z‖ ^ 2) • jonesToMueller J := by
  ext i j
  have h : ((jonesToMueller (z • J) i j : ℝ) : ℂ)
      = ((((‖z‖ ^ 2) • jonesToMueller J) i j : ℝ) : ℂ) := by
    rw [Matrix.smul_apply, smul_eq_mul]
    push_cast
    simp only [jonesToMueller, Matrix.of_apply, muellerEntry_real]
    unfold muellerEntry
    rw [Matrix.conjTranspose_smul, Matrix.mul_smul, Matrix.smul_mul, Matrix.mul_smul,
      Matrix.mul_smul, Matrix.mul_smul, Matrix.trace_smul, Matrix.trace_smul, smul_eq_mul,
      smul_eq_mul]
    have : ((‖z‖ : ℂ)) ^ 2 = z * star z := by
      rw [Complex.star_def, Complex.mul_conj, Complex.normSq_eq_norm_sq]
      push_cast
      rfl
    rw [this]
    ring
  exact_mod_cast h

/-- **C35 (nothing is lost).** Every entry computed before taking the real part is real, so that
the warning branch is never taken. -/
theorem C35_entries_real (J : M2) (i j : Fin 4) : (muellerEntry J i j).im = 0 := by
  have := congrArg Complex.im (muellerEntry_real J i j)
  simpa using this.symm

/-- Non-vacuity: a quarter-wave plate exchanges U and V. -/
example : jonesToMueller !![1, 0; 0, Complex.I] ≠ 1 := by
  intro h
  have := congrFun (congrFun h 2) 2
  simp only [jonesToMueller, muellerEntry, sigma, Matrix.trace_fin_two, Matrix.mul_apply,
    Fin.sum_univ_two, Matrix.conjTranspose_apply, Matrix.of_apply, Matrix.cons_val',
    Matrix.cons_val_zero, Matrix.cons_val_one, Matrix.cons_val_fin_one] at this
  simp at this

/-! ## C36 -/

/-- Rotation of the Stokes parameters Q, U by `a` (specification). -/
noncomputable def stokesRot (a : ℝ) : MR4 :=
  !![1, 0, 0, 0; 0, cos a, -sin a, 0; 0, sin a, cos a, 0; 0, 0, 0, 1]

/-- **C36 (Jones: identity, composition, inverse).** `JonesRotation` (angle in degrees) never
fails; it leaves the identity unchanged, rotations compose additively, rotating back undoes it, and
it is multiplicative. -/
theorem C36_jones_rotation_partial (J K : M2) (s t : ℝ) :
    jonesRotation 1 t = .ok 1 ∧
    (jonesRotation J s >>= fun J' => jonesRotation J' t) = jonesRotation J (s + t) ∧
    (jonesRotation J t >>= fun J' => jonesRotation J' (-t)) = .ok J ∧
    ∃ J' K', jonesRotation J t = .ok J' ∧ jonesRotation K t = .ok K' ∧
      jonesRotation (J * K) t = .ok (J' * K') := by
  have hr : ∀ x, rotJ (-x) * rotJ x = 1 := fun x => by rw [rotJ_mul, neg_add_cancel, rotJ_zero]
  have hr' : ∀ x, rotJ x * rotJ (-x) = 1 := fun x => by rw [rotJ_mul, add_neg_cancel, rotJ_zero]
  have hcomp : ∀ s t, (jonesRotation J s >>= fun J' => jonesRotation J' t)
      = jonesRotation J (s + t) := by
    intro s t
    simp only [jonesRotation_eq, bind, Except.bind, Except.ok.injEq]
    calc rotJ (t * (π / 180)) * (rotJ (s * (π / 180)) * (J * rotJ (-(s * (π / 180))))
          * rotJ (-(t * (π / 180))))
        = (rotJ (t * (π / 180)) * rotJ (s * (π / 180))) * (J * (rotJ (-(s * (π / 180)))
          * rotJ (-(t * (π / 180))))) := by simp only [Matrix.mul_assoc]
      _ = _ := by
        rw [rotJ_mul, rotJ_mul]
        congr 3 <;> ring
  refine ⟨?_, hcomp s t, ?_, _, _, jonesRotation_eq J t, jonesRotation_eq K t, ?_⟩
  · rw [jonesRotation_eq, Matrix.one_mul, hr']
  · rw [hcomp t (-t), add_neg_cancel, jonesRotation_eq, zero_mul, neg_zero, rotJ_zero,
      Matrix.one_mul, Matrix.mul_one]
  · rw [jonesRotation_eq]
    congr 1
    calc rotJ (t * (π / 180)) * (J * K * rotJ (-(t * (π / 180))))
        = rotJ (t * (π / 180)) * (J * ((1 : M2) * (K * rotJ (-(t * (π / 180)))))) := by
          rw [Matrix.one_mul]
          simp only [Matrix.mul_assoc]
      _ = _ := by
        rw [← hr (t * (π / 180))]
        simp only [Matrix.mul_assoc]

private theorem mueller_rotJ (t : ℝ) : jonesToMueller (rotJ t) = stokesRot (2 * t) := by
  have hc := cos_two_mul' t
  have hs := sin_two_mul t
  have h1 := sin_sq_add_cos_sq t
  simp only [stokesRot, hc, hs]
  generalize hC : cos t = c at *
  generalize hS : sin t = s at *
  have hr : rotJ t = !![(c : ℂ), -(s : ℂ); (s : ℂ), (c : ℂ)] := by rw [rotJ, hC, hS]
  rw [hr]
  ext i j
  fin_cases i <;> fin_cases j <;>
    simp only [jonesToMueller, muellerEntry, sigma, Matrix.trace_fin_two, Matrix.mul_apply,
      Fin.sum_univ_two, Matrix.conjTranspose_apply, Matrix.of_apply, Matrix.cons_val',
      Matrix.cons_val_zero, Matrix.cons_val_one, Matrix.cons_val_fin_one, Fin.zero_eta,
      Fin.mk_one, Fin.reduceFinMk, Matrix.cons_val] <;>
    simp <;>
    first | ring1 | linear_combination h1

/-- **C36 (Jones: Mueller matrices).** Rotating a Jones matrix by `t` degrees and converting to
Mueller form is conjugation of the Mueller matrix by the rotation of Q, U by `2 t` degrees. -/
theorem C36_jones_rotation_mueller (J : M2) (t : ℝ) :
    ∃ J', jonesRotation J t = .ok J' ∧
      jonesToMueller J' = stokesRot (2 * (t * (π / 180))) * jonesToMueller J
        * stokesRot (-(2 * (t * (π / 180)))) := by
  refine ⟨_, jonesRotation_eq J t, ?_⟩
  rw [jonesToMueller_mul, jonesToMueller_mul, mueller_rotJ, mueller_rotJ, Matrix.mul_assoc,
    mul_neg]

/-- **C36 (partial, Mueller).** `MuellerRotation` (angle in radians) agrees with the conjugation by
the rotation of Q, U by `2 t` in every entry outside the third row.

Missing: the third row, see `C36_mueller_rotation_violation`. -/
theorem C36_mueller_rotation_partial (M : MR4) (t : ℝ) (i j : Fin 4) (hi : i ≠ 2) :
    muellerRotation M t i j = (stokesRot (2 * t) * M * stokesRot (-(2 * t))) i j := by
  rw [Matrix.mul_assoc]
  unfold muellerRotation
  have e : (!![1, 0, 0, 0;
    0, cos (2 * t), sin (2 * t), 0;
    0, -sin (2 * t), cos (2 * t), 0;
    0, 0, 0, 1] : MR4) = stokesRot (-(2 * t)) := by
    simp [stokesRot]
  rw [e]
  rw [Matrix.mul_apply, Matrix.mul_apply, Fin.sum_univ_four, Fin.sum_univ_four]
  generalize M * stokesRot (-(2 * t)) = X
  fin_cases i <;> simp [stokesRot] at hi ⊢

/-- **C36 (violated).** `MuellerRotation` does not leave the identity unchanged: entry `(2, 2)` of
the rotated identity is `cos(4 t)`; at `t = pi/4` (45 degrees) it is -1. -/
theorem C36_mueller_rotation_violation (t : ℝ) :
    muellerRotation 1 t 2 2 = cos (4 * t) ∧ muellerRotation 1 (π / 4) ≠ 1 := by
  have h : ∀ t, muellerRotation 1 t 2 2 = cos (4 * t) := by
    intro t
    have : cos (4 * t) = cos (2 * t) ^ 2 - sin (2 * t) ^ 2 := by
      rw [show 4 * t = 2 * (2 * t) by ring, cos_two_mul']
    rw [this]
    simp [muellerRotation]
    ring
  refine ⟨h t, ?_⟩
  intro he
  have h2 := h (π / 4)
  rw [he, show 4 * (π / 4) = π by ring, cos_pi] at h2
  simp at h2
  norm_num at h2

/-! ## C37

A stack is given by its layers, each a thickness, a material and an angle; `ofLayers` splits them
into the three lists that the code takes. -/

/-- **C37 (zero thickness).** For every layer in which both rays propagate, every frequency and
rotation, the transfer matrix of a layer of thickness zero is the identity. -/
theorem C37_zero_thickness (m : Material) (nsin frequency rotation : ℝ) (h : Physical m nsin) :
    transferMatrix m 0 frequency nsin rotation = .ok 1 := by
  obtain ⟨W, k0, a, b, x, y, hW, ht⟩ := transferMatrix_eq h frequency rotation
  rw [ht, propMat_zero, inv_one, Matrix.one_mul, Matrix.mul_nonsing_inv W hW]

/-- **C37 (splitting a layer).** The transfer matrix of a layer of thickness `s + t` is the product
of those of layers of thickness `s` and `t` of the same material and orientation. -/
theorem C37_split_layer (m : Material) (nsin frequency rotation s t : ℝ) (h : Physical m nsin) :
    ∃ S T, transferMatrix m s frequency nsin rotation = .ok S ∧
      transferMatrix m t frequency nsin rotation = .ok T ∧
      transferMatrix m (s + t) frequency nsin rotation = .ok (S * T) := by
  obtain ⟨W, k0, a, b, x, y, hW, ht⟩ := transferMatrix_eq h frequency rotation
  refine ⟨_, _, ht s, ht t, ?_⟩
  rw [ht, add_comm s t, propMat_add, Matrix.mul_inv_rev]
  congr 1
  have : W⁻¹ * W = 1 := Matrix.nonsing_inv_mul W hW
  calc W * ((propMat k0 s a b x y)⁻¹ * (propMat k0 t a b x y)⁻¹ * W⁻¹)
      = W * ((propMat k0 s a b x y)⁻¹ * ((W⁻¹ * W) * ((propMat k0 t a b x y)⁻¹ * W⁻¹))) := by
        rw [this, Matrix.one_mul, Matrix.mul_assoc]
    _ = _ := by simp only [Matrix.mul_assoc]

/-- The transfer matrix of a stack (`stackTransferMatrix(...).totalTransfer`). -/
noncomputable def total (l : List Layer) (frequency incidenceAngle rotation n1 n3 : ℝ) : PyM M4 :=
  (stackTransferMatrix (ofLayers l) frequency incidenceAngle rotation n1 n3).map
    (·.totalTransfer)

private theorem total_eq (l : List Layer) (f i r n1 n3 : ℝ) (h3 : n3 ≠ 0)
    (hr : |sin i * n1 / n3| ≤ 1) :
    total l f i r n1 n3 = (l.mapM (layerMat f (sin i * n1) r)).map List.prod := by
  have hc : ¬ (n3 = 0 ∨ 1 < |sin i * n1 / n3|) := by
    rintro (h | h)
    · exact h3 h
    · linarith
  unfold total stackTransferMatrix
  simp only [bind, Except.bind, pure, Except.pure, if_neg hc]
  rw [stack_fold]
  rcases l.mapM (layerMat f (sin i * n1) r) with e | Ts
  · rfl
  · simp only [Except.map, Matrix.one_mul]
    by_cases h0 : (ofLayers l).thicknesses.length = 0
    · simp only [if_pos h0]
    · simp only [if_neg h0]

/-- **C37 (concatenation).** The transfer matrix of a concatenated stack is the product of those of
the two stacks (and it exists if and only if they both exist), in the same surroundings; no total
reflection at the exit. -/
theorem C37_concatenation (l1 l2 : List Layer) (f i r n1 n3 : ℝ) (h3 : n3 ≠ 0)
    (hr : |sin i * n1 / n3| ≤ 1) :
    total (l1 ++ l2) f i r n1 n3 = do
      let T1 ← total l1 f i r n1 n3
      let T2 ← total l2 f i r n1 n3
      return T1 * T2 := by
  simp only [total_eq _ f i r n1 n3 h3 hr, List.mapM_append]
  rcases l1.mapM (layerMat f (sin i * n1) r) with e | T1
  · rfl
  · rcases l2.mapM (layerMat f (sin i * n1) r) with e | T2
    · rfl
    · simp [bind, Except.bind, pure, Except.pure, Except.map]

/-- **C37 (empty stack).** -/
theorem C37_empty (f i r n1 n3 : ℝ) (h3 : n3 ≠ 0) (hr : |sin i * n1 / n3| ≤ 1) :
    total [] f i r n1 n3 = .ok 1 := by
  rw [total_eq _ f i r n1 n3 h3 hr]
  rfl

/-- **C37 (existence).** The transfer matrix exists for every stack of layers in which both rays
propagate. -/
theorem C37_exists (l : List Layer) (f i r n1 n3 : ℝ) (h3 : n3 ≠ 0) (hr : |sin i * n1 / n3| ≤ 1)
    (hl : ∀ x ∈ l, Physical x.2.1 (sin i * n1)) : ∃ T, total l f i r n1 n3 = .ok T := by
  rw [total_eq _ f i r n1 n3 h3 hr]
  suffices ∃ Ts, l.mapM (layerMat f (sin i * n1) r) = .ok Ts by
    obtain ⟨Ts, h⟩ := this
    rw [h]
    exact ⟨_, rfl⟩
  induction l with
  | nil => exact ⟨[], rfl⟩
  | cons x l ih =>
    obtain ⟨Ts, h⟩ := ih fun y hy => hl y (List.mem_cons_of_mem x hy)
    obtain ⟨W, k0, a, b, u, v, -, ht⟩ := transferMatrix_eq (hl x List.mem_cons_self) f (x.2.2 + r)
    rw [List.mapM_cons, h, layerMat, ht]
    exact ⟨_, rfl⟩

/-- **C37 (a layer of zero thickness changes nothing)**, wherever it is inserted in a stack. -/
theorem C37_zero_layer (l1 l2 : List Layer) (m : Material) (a f i r n1 n3 : ℝ) (h3 : n3 ≠ 0)
    (hr : |sin i * n1 / n3| ≤ 1) (hm : Physical m (sin i * n1)) :
    total (l1 ++ (0, m, a) :: l2) f i r n1 n3 = total (l1 ++ l2) f i r n1 n3 := by
  rw [total_eq _ f i r n1 n3 h3 hr, total_eq _ f i r n1 n3 h3 hr, List.mapM_append,
    List.mapM_append, List.mapM_cons, layerMat, C37_zero_thickness m _ _ _ hm]
  rcases l1.mapM (layerMat f (sin i * n1) r) with e | T1
  · rfl
  · rcases l2.mapM (layerMat f (sin i * n1) r) with e | T2
    · rfl
    · simp [bind, Except.bind, pure, Except.pure, Except.map]

/-- **C37 (splitting a layer of a stack)** into two layers of the same material and orientation
with the same total thickness changes nothing. -/
theorem C37_split (l1 l2 : List Layer) (m : Material) (s t a f i r n1 n3 : ℝ) (h3 : n3 ≠ 0)
    (hr : |sin i * n1 / n3| ≤ 1) (hm : Physical m (sin i * n1)) :
    total (l1 ++ (s, m, a) :: (t, m, a) :: l2) f i r n1 n3
      = total (l1 ++ (s + t, m, a) :: l2) f i r n1 n3 := by
  obtain ⟨S, T, hS, hT, hST⟩ := C37_split_layer m (sin i * n1) f (a + r) s t hm
  rw [total_eq _ f i r n1 n3 h3 hr, total_eq _ f i r n1 n3 h3 hr, List.mapM_append,
    List.mapM_append, List.mapM_cons, List.mapM_cons, List.mapM_cons, layerMat, layerMat, layerMat,
    hS, hT, hST]
  rcases l1.mapM (layerMat f (sin i * n1) r) with e | T1
  · rfl
  · rcases l2.mapM (layerMat f (sin i * n1) r) with e | T2
    · rfl
    · simp [bind, Except.bind, pure, Except.pure, Except.map, Matrix.mul_assoc]

/-- Non-vacuity: sapphire at 20 degrees incidence from vacuum. -/
example : Physical ⟨3.019, 3.336, 2.3e-4, 1.25e-4⟩ (sin (20 * (π / 180)) * 1) := by
  have h : |sin (20 * (π / 180)) * 1| ≤ 1 := by rw [mul_one]; exact abs_sin_le_one _
  constructor <;> (refine lt_of_le_of_lt h ?_; norm_num)

/-! ## C63: a stack of zero thickness is transparent -/

/-- **C63.** Between two media of the same index `n > 0`, for every incidence angle below 90 degrees
and every frequency, a non-empty stack whose layers all have thickness zero transmits every field
unchanged and reflects nothing. -/
theorem C63_transparent (l : List Layer) (hne : l ≠ []) (hz : ∀ x ∈ l, x.1 = 0)
    (f i r n : ℝ) (hn : 0 < n) (h1 : -(π / 2) < i) (h2 : i < π / 2)
    (hl : ∀ x ∈ l, Physical x.2.1 (sin i * n)) :
    mueller (ofLayers l) f i r n n false = .ok 1 ∧
    mueller (ofLayers l) f i r n n true = .ok 0 := by
  have hq : sin i * n / n = sin i := by field_simp
  have hc : ¬ (n = 0 ∨ 1 < |sin i * n / n|) := by
    rintro (h | h)
    · exact hn.ne' h
    · rw [hq] at h
      linarith [abs_sin_le_one i]
  have hm : l.mapM (layerMat f (sin i * n) r) = .ok (List.replicate l.length 1) := by
    clear hne
    induction l with
    | nil => rfl
    | cons x l ih =>
      rw [List.mapM_cons, ih (fun y hy => hz y (List.mem_cons_of_mem x hy))
        (fun y hy => hl y (List.mem_cons_of_mem x hy)), layerMat, hz x List.mem_cons_self,
        C37_zero_thickness _ _ _ _ (hl x List.mem_cons_self)]
      rfl
  have hlen : (ofLayers l).thicknesses.length ≠ 0 := by
    simpa [ofLayers] using hne
  have hs : stackTransferMatrix (ofLayers l) f i r n n = .ok ⟨1, n, n, i, some i⟩ := by
    unfold stackTransferMatrix
    simp only [bind, Except.bind, pure, Except.pure, if_neg hc]
    rw [stack_fold, hm]
    simp only [Except.map, if_neg hlen, Matrix.one_mul, List.prod_replicate, one_pow, hq]
    rw [arcsin_sin h1.le h2.le]
  have hcos : ((cos i : ℝ) : ℂ) ≠ 0 := by
    have := cos_pos_of_mem_Ioo ⟨h1, h2⟩
    exact_mod_cast this.ne'
  have hnC : ((n : ℝ) : ℂ) ≠ 0 := by exact_mod_cast hn.ne'
  have hj : tranToJones ⟨1, n, n, i, some i⟩ = .ok (1, 0) := by
    unfold tranToJones
    simp only [bind, Except.bind, pure, Except.pure]
    rw [if_neg (by rintro (h | h); exacts [hcos h, hnC h])]
    have e00 : (1 : M4) 0 0 = 1 := rfl
    have e11 : (1 : M4) 1 1 = 1 := rfl
    have e22 : (1 : M4) 2 2 = 1 := rfl
    have e33 : (1 : M4) 3 3 = 1 := rfl
    have e : ∀ a b : Fin 4, a ≠ b → (1 : M4) a b = 0 := fun a b h => Matrix.one_apply_ne h
    simp only [e00, e11, e22, e33, e 0 1 (by decide), e 0 2 (by decide), e 0 3 (by decide),
      e 1 0 (by decide), e 1 2 (by decide), e 1 3 (by decide), e 2 0 (by decide),
      e 2 1 (by decide), e 2 3 (by decide), e 3 0 (by decide), e 3 1 (by decide),
      e 3 2 (by decide), zero_mul, one_mul, zero_add, add_zero, zero_div, div_self hcos,
      div_self hnC, div_self (mul_ne_zero hnC hcos)]
    rw [if_neg (by norm_num)]
    simp only [Except.ok.injEq, Prod.mk.injEq]
    constructor
    · ext a b
      fin_cases a <;> fin_cases b <;> simp <;> norm_num
    · ext a b
      fin_cases a <;> fin_cases b <;> simp
  have h0 : jonesToMueller 0 = 0 := by
    ext a b
    simp [jonesToMueller, muellerEntry]
  unfold mueller
  simp only [hs, hj, bind, Except.bind, pure, Except.pure]
  refine ⟨?_, ?_⟩
  · rw [if_neg (by simp), C35_identity]
  · rw [if_pos trivial, h0]

end Verif.Props
