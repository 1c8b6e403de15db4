import Verif.Spec.BothWays
import Verif.Lemmas.Normal

/-!
# Lemmas: layers passed from the other side
-/

namespace Verif.Optics

open Real Matrix

/-- Exchange of electric and magnetic fields. -/
def swapEH : M4 := !![0, 1, 0, 0; 1, 0, 0, 0; 0, 0, 0, 1; 0, 0, 1, 0]

/-- Reversal of the y direction. -/
def mirrorY : M4 := !![1, 0, 0, 0; 0, 1, 0, 0; 0, 0, -1, 0; 0, 0, 0, -1]

/-- Reversal of the magnetic fields. -/
def flipH : M4 := !![1, 0, 0, 0; 0, -1, 0, 0; 0, 0, 1, 0; 0, 0, 0, -1]

theorem swapEH_sq : swapEH * swapEH = 1 := by
  ext i j
  fin_cases i <;> fin_cases j <;> simp [swapEH, Matrix.mul_apply, Fin.sum_univ_four]

theorem mirrorY_sq : mirrorY * mirrorY = 1 := by
  ext i j
  fin_cases i <;> fin_cases j <;> simp [mirrorY, Matrix.mul_apply, Fin.sum_univ_four]

theorem flipH_sq : flipH * flipH = 1 := by
  ext i j
  fin_cases i <;> fin_cases j <;> simp [flipH, Matrix.mul_apply, Fin.sum_univ_four]

/-- The waves of a layer are orthogonal with respect to the exchange of fields. -/
theorem wMat_swap {chi nO nE : ℝ} (hO : 0 < nO) (hE : 0 < nE) :
    (toC (wMat chi nO nE))ᵀ * swapEH * toC (wMat chi nO nE) =
      Matrix.diagonal ![2 / (nO : ℂ) ^ 3, 2 / (nE : ℂ) ^ 3, -2 / (nO : ℂ) ^ 3, -2 / (nE : ℂ) ^ 3] := by
  have hcs : (Complex.sin chi) ^ 2 + (Complex.cos chi) ^ 2 = 1 := Complex.sin_sq_add_cos_sq _
  have hO' : (nO : ℂ) ≠ 0 := by exact_mod_cast hO.ne'
  have hE' : (nE : ℂ) ≠ 0 := by exact_mod_cast hE.ne'
  ext i j
  fin_cases i <;> fin_cases j <;>
    simp [swapEH, wMat, toC, Matrix.mul_apply, Fin.sum_univ_four, Matrix.diagonal] <;> field_simp <;>
    first
      | ring1
      | linear_combination 2 * hcs
      | linear_combination -2 * hcs

theorem prop_diagonal (k0 t : ℝ) (a b : ℂ) :
    propMat k0 t a b 0 0 = Matrix.diagonal ![Complex.exp (-(Complex.I * k0 * a * t)),
      Complex.exp (-(Complex.I * k0 * b * t)), Complex.exp (Complex.I * k0 * a * t),
      Complex.exp (Complex.I * k0 * b * t)] := by
  ext i j
  fin_cases i <;> fin_cases j <;> simp [propMat, Matrix.diagonal]

/-- A layer seen from behind. -/
theorem layer_swap {m : Material} (hO : 0 < m.ordinaryIndex) (hE : 0 < m.extraIndex)
    {t frequency a : ℝ} {T : M4} (hT : transferMatrix m t frequency 0 a = .ok T) :
    Tᵀ = swapEH * T * swapEH := by
  obtain ⟨dW, e⟩ := transferMatrix_normal hO hE t frequency a
  rw [e, Except.ok.injEq] at hT
  subst hT
  have hw := wMat_swap (chi := a) hO hE
  rw [prop_diagonal]
  generalize toC (wMat a m.ordinaryIndex m.extraIndex) = W at *
  generalize hD : (![2 / (m.ordinaryIndex : ℂ) ^ 3, 2 / (m.extraIndex : ℂ) ^ 3,
    -2 / (m.ordinaryIndex : ℂ) ^ 3, -2 / (m.extraIndex : ℂ) ^ 3] : Fin 4 → ℂ) = D at *
  generalize (![_, _, _, _] : Fin 4 → ℂ) = P
  have hu : IsUnit W.det := isUnit_iff_ne_zero.2 dW
  have hut : IsUnit Wᵀ.det := by rwa [Matrix.det_transpose]
  have c1 : W * W⁻¹ = 1 := Matrix.mul_nonsing_inv W hu
  have c2 : (Wᵀ)⁻¹ * Wᵀ = 1 := Matrix.nonsing_inv_mul Wᵀ hut
  have hPD : Matrix.diagonal P * Matrix.diagonal D = Matrix.diagonal D * Matrix.diagonal P := by
    rw [Matrix.diagonal_mul_diagonal, Matrix.diagonal_mul_diagonal]
    congr 1
    funext i
    ring
  have hSW : swapEH * W = (Wᵀ)⁻¹ * Matrix.diagonal D := by
    rw [← hw, ← Matrix.mul_assoc, ← Matrix.mul_assoc, c2, Matrix.one_mul]
  have hWS : Matrix.diagonal D * (W⁻¹ * swapEH) = Wᵀ := by
    rw [← hw, Matrix.mul_assoc, ← Matrix.mul_assoc W, c1, Matrix.one_mul, Matrix.mul_assoc, swapEH_sq,
      Matrix.mul_one]
  rw [Matrix.transpose_mul, Matrix.transpose_mul, Matrix.diagonal_transpose, Matrix.transpose_nonsing_inv]
  calc (Wᵀ)⁻¹ * Matrix.diagonal P * Wᵀ
      = (Wᵀ)⁻¹ * (Matrix.diagonal P * Matrix.diagonal D) * (W⁻¹ * swapEH) := by
        rw [← hWS]
        simp only [Matrix.mul_assoc]
    _ = swapEH * W * (Matrix.diagonal P * (W⁻¹ * swapEH)) := by
        rw [hPD, hSW]
        simp only [Matrix.mul_assoc]
    _ = _ := by simp only [Matrix.mul_assoc]

/-- The sign of the ordinary wave. -/
def signO : M4 := !![-1, 0, 0, 0; 0, 1, 0, 0; 0, 0, -1, 0; 0, 0, 0, 1]

theorem wMat_neg (chi nO nE : ℝ) :
    toC (wMat (-chi) nO nE) = mirrorY * toC (wMat chi nO nE) * signO := by
  ext i j
  fin_cases i <;> fin_cases j <;>
    simp [mirrorY, signO, wMat, toC, Matrix.mul_apply, Matrix.vecMul, dotProduct, Fin.sum_univ_four] <;> ring

/-- A layer in the mirror. -/
theorem layer_mirror {m : Material} (hO : 0 < m.ordinaryIndex) (hE : 0 < m.extraIndex)
    {t frequency a : ℝ} {T : M4} (hT : transferMatrix m t frequency 0 a = .ok T) :
    transferMatrix m t frequency 0 (-a) = .ok (mirrorY * T * mirrorY) := by
  obtain ⟨dW, e⟩ := transferMatrix_normal hO hE t frequency a
  obtain ⟨dW', e'⟩ := transferMatrix_normal hO hE t frequency (-a)
  rw [e, Except.ok.injEq] at hT
  rw [e', ← hT, Except.ok.injEq, wMat_neg, prop_diagonal]
  generalize toC (wMat a m.ordinaryIndex m.extraIndex) = W at *
  generalize (![_, _, _, _] : Fin 4 → ℂ) = P
  have hd : signO * signO = 1 := by
    ext i j
    fin_cases i <;> fin_cases j <;> simp [signO, Matrix.mul_apply, Fin.sum_univ_four]
  have hm : (mirrorY)⁻¹ = mirrorY := Matrix.inv_eq_right_inv mirrorY_sq
  have hdi : signO⁻¹ = signO :=
    Matrix.inv_eq_right_inv hd
  rw [Matrix.mul_inv_rev, Matrix.mul_inv_rev, hm, hdi]
  have hPD : signO * Matrix.diagonal P * signO =
      Matrix.diagonal P := by
    have hs : signO = Matrix.diagonal ![-1, 1, -1, 1] := by
      ext i j
      fin_cases i <;> fin_cases j <;> simp [signO, Matrix.diagonal]
    rw [hs, Matrix.diagonal_mul_diagonal, Matrix.diagonal_mul_diagonal]
    congr 1
    funext i
    fin_cases i <;> simp
  calc mirrorY * W * signO * (Matrix.diagonal P *
        (signO * (W⁻¹ * mirrorY)))
      = mirrorY * W * (signO * Matrix.diagonal P * signO) *
          (W⁻¹ * mirrorY) := by simp only [Matrix.mul_assoc]
    _ = _ := by
      rw [hPD]
      simp only [Matrix.mul_assoc]

/-- Going through a layer and back with reversed magnetic fields changes nothing. -/
theorem layer_back {m : Material} (hO : 0 < m.ordinaryIndex) (hE : 0 < m.extraIndex)
    {t frequency a : ℝ} {T : M4} (hT : transferMatrix m t frequency 0 a = .ok T) :
    T * flipH * T = flipH := by
  obtain ⟨dW, e⟩ := transferMatrix_normal hO hE t frequency a
  rw [e, Except.ok.injEq] at hT
  subst hT
  rw [prop_diagonal]
  have hf : flipH * toC (wMat a m.ordinaryIndex m.extraIndex) =
      toC (wMat a m.ordinaryIndex m.extraIndex) * !![0, 0, 1, 0; 0, 0, 0, 1; 1, 0, 0, 0; 0, 1, 0, 0] := by
    ext i j
    fin_cases i <;> fin_cases j <;>
      simp [flipH, wMat, toC, Matrix.mul_apply, Fin.sum_univ_four] <;> ring
  generalize toC (wMat a m.ordinaryIndex m.extraIndex) = W at *
  have hu : IsUnit W.det := isUnit_iff_ne_zero.2 dW
  have c1 : W * W⁻¹ = 1 := Matrix.mul_nonsing_inv W hu
  have c2 : W⁻¹ * W = 1 := Matrix.nonsing_inv_mul W hu
  generalize hx : -(Complex.I * ((2 * π * frequency / c : ℝ) : ℂ) * m.ordinaryComplexIndex * ((-t : ℝ) : ℂ)) = x
  generalize hy : -(Complex.I * ((2 * π * frequency / c : ℝ) : ℂ) *
    csqrt ((m.extraIndex : ℂ) ^ 2 * (1 - Complex.I * m.extraLoss)) * ((-t : ℝ) : ℂ)) = y
  rw [neg_eq_iff_eq_neg.1 hx, neg_eq_iff_eq_neg.1 hy]
  have hX : (Matrix.diagonal ![Complex.exp x, Complex.exp y, Complex.exp (-x), Complex.exp (-y)] : M4) *
      !![0, 0, 1, 0; 0, 0, 0, 1; 1, 0, 0, 0; 0, 1, 0, 0] *
      Matrix.diagonal ![Complex.exp x, Complex.exp y, Complex.exp (-x), Complex.exp (-y)] =
      !![0, 0, 1, 0; 0, 0, 0, 1; 1, 0, 0, 0; 0, 1, 0, 0] := by
    ext i j
    fin_cases i <;> fin_cases j <;>
      simp [Matrix.mul_apply, Fin.sum_univ_four, Matrix.diagonal, ← Complex.exp_add]
  generalize (Matrix.diagonal ![Complex.exp x, Complex.exp y, Complex.exp (-x), Complex.exp (-y)] : M4) = P at *
  generalize (!![0, 0, 1, 0; 0, 0, 0, 1; 1, 0, 0, 0; 0, 1, 0, 0] : M4) = X at *
  calc W * (P * W⁻¹) * flipH * (W * (P * W⁻¹))
      = W * (P * (W⁻¹ * (flipH * W) * P)) * W⁻¹ := by simp only [Matrix.mul_assoc]
    _ = W * (P * ((W⁻¹ * W) * X * P)) * W⁻¹ := by rw [hf]; simp only [Matrix.mul_assoc]
    _ = W * (P * X * P) * W⁻¹ := by rw [c2, Matrix.one_mul]; simp only [Matrix.mul_assoc]
    _ = flipH * (W * W⁻¹) := by rw [hX, ← hf]; simp only [Matrix.mul_assoc]
    _ = flipH := by rw [c1, Matrix.mul_one]

/-- The indices of a layer are positive. -/
abbrev Positive (l : List Layer) : Prop := ∀ x ∈ l, 0 < x.2.1.ordinaryIndex ∧ 0 < x.2.1.extraIndex

theorem layer_exists {x : Layer} (h : 0 < x.2.1.ordinaryIndex ∧ 0 < x.2.1.extraIndex) (f r : ℝ) :
    ∃ T, layerMat f 0 r x = .ok T :=
  ⟨_, (transferMatrix_normal h.1 h.2 x.1 f (x.2.2 + r)).2⟩

theorem mapM_two {x : Layer} {l : List Layer} {g : Layer → PyM M4} {T : M4} {Ts : List M4}
    (h : g x = .ok T) (hl : l.mapM g = .ok Ts) : (x :: l).mapM g = .ok (T :: Ts) := by
  rw [List.mapM_cons, h, hl]
  rfl

theorem mapM_snoc {x : Layer} {l : List Layer} {g : Layer → PyM M4} {T : M4} {Ts : List M4}
    (h : g x = .ok T) (hl : l.mapM g = .ok Ts) : (l ++ [x]).mapM g = .ok (Ts ++ [T]) := by
  rw [List.mapM_append, hl, List.mapM_cons, h]
  rfl

theorem stack_swap (l : List Layer) (hl : Positive l) (f r : ℝ) :
    ∃ Ts Ts', l.mapM (layerMat f 0 r) = .ok Ts ∧ l.reverse.mapM (layerMat f 0 r) = .ok Ts' ∧
      Ts'.prod = swapEH * Ts.prodᵀ * swapEH := by
  induction l with
  | nil => exact ⟨[], [], rfl, rfl, by simp [swapEH_sq]⟩
  | cons x l ih =>
    obtain ⟨Ts, Ts', a, b, hp⟩ := ih fun y hy => hl y (List.mem_cons_of_mem x hy)
    obtain ⟨T, ht⟩ := layer_exists (hl x List.mem_cons_self) f r
    refine ⟨T :: Ts, Ts' ++ [T], mapM_two ht a, ?_, ?_⟩
    · rw [List.reverse_cons]
      exact mapM_snoc ht b
    · have hs := layer_swap (hl x List.mem_cons_self).1 (hl x List.mem_cons_self).2 ht
      rw [List.prod_append, List.prod_singleton, hp, List.prod_cons, Matrix.transpose_mul, hs]
      calc swapEH * Ts.prodᵀ * swapEH * T
          = swapEH * Ts.prodᵀ * (swapEH * T) * 1 := by simp only [Matrix.mul_assoc, Matrix.mul_one]
        _ = _ := by
          rw [← swapEH_sq]
          simp only [Matrix.mul_assoc]

theorem stack_mirror (l : List Layer) (hl : Positive l) (f r : ℝ) :
    ∃ Ts Ts', l.mapM (layerMat f 0 r) = .ok Ts ∧
      (l.map fun x => (x.1, x.2.1, -x.2.2)).mapM (layerMat f 0 (-r)) = .ok Ts' ∧
      Ts'.prod = mirrorY * Ts.prod * mirrorY := by
  induction l with
  | nil => exact ⟨[], [], rfl, rfl, by simp [mirrorY_sq]⟩
  | cons x l ih =>
    obtain ⟨Ts, Ts', a, b, hp⟩ := ih fun y hy => hl y (List.mem_cons_of_mem x hy)
    obtain ⟨T, ht⟩ := layer_exists (hl x List.mem_cons_self) f r
    have hm := layer_mirror (hl x List.mem_cons_self).1 (hl x List.mem_cons_self).2 ht
    have ht' : layerMat f 0 (-r) (x.1, x.2.1, -x.2.2) = .ok (mirrorY * T * mirrorY) := by
      unfold layerMat
      rw [show (-x.2.2 + -r : ℝ) = -(x.2.2 + r) by ring]
      exact hm
    refine ⟨T :: Ts, mirrorY * T * mirrorY :: Ts', mapM_two ht a, ?_, ?_⟩
    · rw [List.map_cons]
      exact mapM_two ht' b
    · rw [List.prod_cons, List.prod_cons, hp]
      calc mirrorY * T * mirrorY * (mirrorY * Ts.prod * mirrorY)
          = mirrorY * T * (mirrorY * mirrorY) * Ts.prod * mirrorY := by simp only [Matrix.mul_assoc]
        _ = _ := by
          rw [mirrorY_sq, Matrix.mul_one]
          simp only [Matrix.mul_assoc]

/-- What two solutions have in common on both sides of a stack. -/
theorem stack_back (l : List Layer) (hl : Positive l) (f r : ℝ) {Ts : List M4}
    (hT : l.mapM (layerMat f 0 r) = .ok Ts) :
    Ts.prodᵀ * (swapEH * flipH) * Ts.prod = swapEH * flipH := by
  induction l generalizing Ts with
  | nil =>
    have : Ts = [] := by
      simpa [pure, Except.pure] using hT.symm
    subst this
    simp
  | cons x l ih =>
    obtain ⟨T, ht⟩ := layer_exists (hl x List.mem_cons_self) f r
    obtain ⟨Us, -, a, -⟩ := stack_swap l (fun y hy => hl y (List.mem_cons_of_mem x hy)) f r
    rw [mapM_two ht a, Except.ok.injEq] at hT
    subst hT
    have hi := ih (fun y hy => hl y (List.mem_cons_of_mem x hy)) a
    have hs := layer_swap (hl x List.mem_cons_self).1 (hl x List.mem_cons_self).2 ht
    have hb := layer_back (hl x List.mem_cons_self).1 (hl x List.mem_cons_self).2 ht
    have h1 : Tᵀ * (swapEH * flipH) * T = swapEH * flipH := by
      rw [hs]
      calc swapEH * T * swapEH * (swapEH * flipH) * T
          = swapEH * T * (swapEH * swapEH) * flipH * T := by simp only [Matrix.mul_assoc]
        _ = swapEH * (T * flipH * T) := by
          rw [swapEH_sq, Matrix.mul_one]
          simp only [Matrix.mul_assoc]
        _ = _ := by rw [hb]
    rw [List.prod_cons, Matrix.transpose_mul]
    calc Us.prodᵀ * Tᵀ * (swapEH * flipH) * (T * Us.prod)
        = Us.prodᵀ * (Tᵀ * (swapEH * flipH) * T) * Us.prod := by simp only [Matrix.mul_assoc]
      _ = _ := by rw [h1, hi]

end Verif.Optics
