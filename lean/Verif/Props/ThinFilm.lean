import Verif.Spec.ThinFilm
import Verif.Lemmas.Oblique
import Verif.Props.HwpModels
import Mathlib.Analysis.SpecialFunctions.Trigonometric.Arctan

/-!
# Property C127: stacks of isotropic layers follow the theory of thin films at every angle
-/

noncomputable section

namespace Verif.Props

open Verif.Optics Verif.Spec.ThinFilm Real Matrix

namespace Films

/-- The film that a layer is, if the material has no axis. -/
def ofLayer (x : Layer) : Film := ⟨x.1, x.2.1.ordinaryIndex, x.2.1.ordinaryLoss⟩

/-- A matrix for two polarizations that do not mix. -/
def blocks (P S : M2) : M4 :=
  !![P 0 0, P 0 1, 0, 0;
     P 1 0, P 1 1, 0, 0;
     0, 0, S 0 0, S 0 1;
     0, 0, S 1 0, S 1 1]

theorem blocks_one : blocks 1 1 = 1 := by
  ext i j
  fin_cases i <;> fin_cases j <;> simp [blocks]

theorem blocks_mul (P S P' S' : M2) : blocks P S * blocks P' S' = blocks (P * P') (S * S') := by
  ext i j
  fin_cases i <;> fin_cases j <;> simp [blocks, Matrix.mul_apply, Fin.sum_univ_four, Fin.sum_univ_two]

theorem csqrt_loss {n l : ℝ} (hn : 0 < n) :
    csqrt ((1 - Complex.I * l) * (n : ℂ) ^ 2) = n * (1 - Complex.I * l) ^ (1 / 2 : ℂ) := by
  have e1 := csqrt_sq ((1 - Complex.I * l) * (n : ℂ) ^ 2)
  have e2 := csqrt_sq (1 - Complex.I * (l : ℂ))
  have h2 : (csqrt (1 - Complex.I * (l : ℂ)) * n) ^ 2 = (1 - Complex.I * l) * (n : ℂ) ^ 2 := by
    rw [mul_pow, e2]
  have p1 : 0 < (csqrt ((1 - Complex.I * l) * (n : ℂ) ^ 2)).re := by
    apply csqrt_re_pos
    rw [← Complex.ofReal_pow, Complex.re_mul_ofReal]
    simp
    positivity
  have p2 : 0 < (csqrt (1 - Complex.I * (l : ℂ))).re := csqrt_re_pos (by simp)
  show _ = n * csqrt (1 - Complex.I * l)
  rw [← h2] at e1
  rcases sq_eq_sq_iff_eq_or_eq_neg.1 e1 with h3 | h3
  · rw [← h2, h3, mul_comm]
  · exfalso
    rw [← h2, h3, Complex.neg_re, Complex.re_mul_ofReal] at p1
    have := mul_pos p2 hn
    linarith

theorem phase_eq (x : Layer) (f nsin : ℝ) (hn : |nsin| < x.2.1.ordinaryIndex) :
    phaseO x.2.1 x.1 f nsin = Complex.I * phase f nsin (ofLayer x) := by
  have hO : 0 < x.2.1.ordinaryIndex := lt_of_le_of_lt (abs_nonneg _) hn
  unfold phaseO phase ofLayer slope Material.ordinaryComplexIndex c
  rw [csqrt_loss hO, cos_arcsin]
  push_cast
  ring

theorem layer_eq {x : Layer} (iso : Isotropic x.2.1) {f nsin r : ℝ} (hn : |nsin| < x.2.1.ordinaryIndex) :
    layerMat f nsin r x = .ok (blocks (film .tm f nsin (ofLayer x)) (film .te f nsin (ofLayer x))) := by
  unfold layerMat
  rw [transferMatrix_iso iso hn, phase_eq x f nsin hn]
  congr 1
  have e1 : Complex.sinh (Complex.I * phase f nsin (ofLayer x)) =
      Complex.I * Complex.sin (phase f nsin (ofLayer x)) := by
    rw [mul_comm, Complex.sinh_mul_I, mul_comm]
  have e2 : Complex.cosh (Complex.I * phase f nsin (ofLayer x)) =
      Complex.cos (phase f nsin (ofLayer x)) := by
    rw [mul_comm, Complex.cosh_mul_I]
  unfold twoMat film
  rw [e1, e2]
  simp only [admittance, ofLayer, slope, cos_arcsin]
  ext i j
  fin_cases i <;> fin_cases j <;> simp [blocks] <;> ring

theorem stack_eq (l : List Layer) {f nsin r : ℝ} (iso : ∀ x ∈ l, Isotropic x.2.1)
    (hn : ∀ x ∈ l, |nsin| < x.2.1.ordinaryIndex) :
    ∃ Ts, l.mapM (layerMat f nsin r) = .ok Ts ∧ Ts.prod =
      blocks ((l.map ofLayer).map (film .tm f nsin)).prod ((l.map ofLayer).map (film .te f nsin)).prod := by
  induction l with
  | nil => exact ⟨[], rfl, by simpa using blocks_one.symm⟩
  | cons x l ih =>
    obtain ⟨Ts, h, hp⟩ := ih (fun y hy => iso y (List.mem_cons_of_mem x hy))
      fun y hy => hn y (List.mem_cons_of_mem x hy)
    refine ⟨blocks (film .tm f nsin (ofLayer x)) (film .te f nsin (ofLayer x)) :: Ts, ?_, ?_⟩
    · rw [List.mapM_cons, h, layer_eq (iso x List.mem_cons_self) (hn x List.mem_cons_self)]
      rfl
    · rw [List.prod_cons, hp, blocks_mul]
      simp

/-- The power that a pair of fields carries. -/
def carried (b : Fin 2 → ℂ) : ℝ := (star (b 0) * b 1).re

theorem carried_film (p : Pol) {f nsin : ℝ} {x : Film} (hy : 0 < admittance p nsin x.index)
    (b : Fin 2 → ℂ) :
    ((phase f nsin x).im ≤ 0 → carried b ≤ carried ((film p f nsin x).mulVec b)) ∧
    ((phase f nsin x).im = 0 → carried ((film p f nsin x).mulVec b) = carried b) := by
  unfold film
  generalize phase f nsin x = d at *
  generalize admittance p nsin x.index = y at *
  have hy' : (y : ℂ) ≠ 0 := by exact_mod_cast hy.ne'
  have key : ∀ b : Fin 2 → ℂ, 4 * y * carried b =
      Complex.normSq (y * b 0 + b 1) - Complex.normSq (y * b 0 - b 1) := by
    intro b
    simp only [carried, Complex.normSq_apply, Complex.mul_re, Complex.mul_im, Complex.add_re,
      Complex.add_im, Complex.sub_re, Complex.sub_im, Complex.ofReal_re, Complex.ofReal_im,
      Complex.star_def, Complex.conj_re, Complex.conj_im]
    ring
  have k1 := key b
  have k2 := key ((!![Complex.cos d, Complex.I * Complex.sin d / y; Complex.I * y * Complex.sin d,
    Complex.cos d] : M2).mulVec b)
  have e1 : (y : ℂ) * ((!![Complex.cos d, Complex.I * Complex.sin d / y; Complex.I * y * Complex.sin d,
      Complex.cos d] : M2).mulVec b) 0 + ((!![Complex.cos d, Complex.I * Complex.sin d / y;
      Complex.I * y * Complex.sin d, Complex.cos d] : M2).mulVec b) 1 =
      Complex.exp (d * Complex.I) * (y * b 0 + b 1) := by
    rw [Complex.exp_mul_I]
    simp [Matrix.mulVec, dotProduct, Fin.sum_univ_two]
    field_simp
    ring
  have e2 : (y : ℂ) * ((!![Complex.cos d, Complex.I * Complex.sin d / y; Complex.I * y * Complex.sin d,
      Complex.cos d] : M2).mulVec b) 0 - ((!![Complex.cos d, Complex.I * Complex.sin d / y;
      Complex.I * y * Complex.sin d, Complex.cos d] : M2).mulVec b) 1 =
      Complex.exp (-d * Complex.I) * (y * b 0 - b 1) := by
    rw [Complex.exp_mul_I, Complex.cos_neg, Complex.sin_neg]
    simp [Matrix.mulVec, dotProduct, Fin.sum_univ_two]
    field_simp
    ring
  rw [e1, e2, normSq_exp_mul, normSq_exp_mul] at k2
  have r1 : (d * Complex.I).re = -d.im := by simp
  have r2 : (-d * Complex.I).re = d.im := by simp
  rw [r1, r2] at k2
  have n1 := Complex.normSq_nonneg (y * b 0 + b 1)
  have n2 := Complex.normSq_nonneg (y * b 0 - b 1)
  constructor
  · intro hd
    have g1 : 1 ≤ Real.exp (2 * -d.im) := one_le_exp (by linarith)
    have g2 : Real.exp (2 * d.im) ≤ 1 := exp_le_one_iff.2 (by linarith)
    have h4 : 4 * y * carried b ≤ 4 * y * carried ((!![Complex.cos d, Complex.I * Complex.sin d / y;
        Complex.I * y * Complex.sin d, Complex.cos d] : M2).mulVec b) := by
      rw [k1, k2]
      nlinarith
    exact le_of_mul_le_mul_left h4 (by linarith)
  · intro hd
    rw [hd] at k2
    simp only [neg_zero, mul_zero, Real.exp_zero, one_mul] at k2
    rw [← k1] at k2
    exact mul_left_cancel₀ (by positivity) k2

theorem admittance_pos (p : Pol) {nsin n : ℝ} (h : |nsin| < n) : 0 < admittance p nsin n := by
  have hn : 0 < n := lt_of_le_of_lt (abs_nonneg _) h
  have : 0 < slope nsin n := by
    unfold slope
    rw [← cos_arcsin]
    apply cos_arcsin_pos
    rw [abs_div, abs_of_pos hn, div_lt_one hn]
    exact h
  cases p <;> unfold admittance <;> dsimp only <;> positivity

theorem phase_im {f nsin : ℝ} {x : Film} (hf : 0 ≤ f) (ht : 0 ≤ x.thickness) (hn : 0 < x.index) :
    (0 ≤ x.loss → (phase f nsin x).im ≤ 0) ∧ (x.loss = 0 → (phase f nsin x).im = 0) := by
  have hre : 0 < (1 - Complex.I * (x.loss : ℂ)).re := by simp
  have him : (1 - Complex.I * (x.loss : ℂ)).im = -x.loss := by simp
  obtain ⟨c1, c2⟩ := csqrt_im hre
  have hs : 0 ≤ slope nsin x.index := sqrt_nonneg _
  have hp := pi_pos
  have h0 : 0 ≤ 2 * π * f / 2.998e8 * x.thickness * slope nsin x.index * x.index := by positivity
  have e : (phase f nsin x).im = 2 * π * f / 2.998e8 * x.thickness * slope nsin x.index * x.index *
      (csqrt (1 - Complex.I * (x.loss : ℂ))).im := by
    unfold phase
    rw [Complex.im_ofReal_mul]
    rfl
  rw [e, him] at *
  exact ⟨fun h => mul_nonpos_of_nonneg_of_nonpos h0 (c1 (by linarith)), fun h => by
    rw [c2 (by linarith), mul_zero]⟩

/-- Films that do not amplify. -/
structure Fine (nsin : ℝ) (x : Film) : Prop where
  thickness : 0 ≤ x.thickness
  index : |nsin| < x.index
  loss : 0 ≤ x.loss

theorem carried_fields (p : Pol) {f nsin n3 : ℝ} (hf : 0 ≤ f) (films : List Film)
    (h : ∀ x ∈ films, Fine nsin x) :
    admittance p nsin n3 ≤ carried (fields p f nsin n3 films) ∧
    ((∀ x ∈ films, x.loss = 0) → carried (fields p f nsin n3 films) = admittance p nsin n3) := by
  induction films with
  | nil =>
    have : carried (fields p f nsin n3 []) = admittance p nsin n3 := by
      simp [carried, fields]
    exact ⟨this.ge, fun _ => this⟩
  | cons x l ih =>
    obtain ⟨i1, i2⟩ := ih fun y hy => h y (List.mem_cons_of_mem x hy)
    have e : fields p f nsin n3 (x :: l) = (film p f nsin x).mulVec (fields p f nsin n3 l) := by
      simp [fields, Matrix.mulVec_mulVec]
    have hx := h x List.mem_cons_self
    obtain ⟨c1, c2⟩ := carried_film p (f := f) (admittance_pos p hx.index) (fields p f nsin n3 l)
    obtain ⟨q1, q2⟩ := phase_im (nsin := nsin) hf hx.thickness (lt_of_le_of_lt (abs_nonneg _) hx.index)
    rw [e]
    exact ⟨i1.trans (c1 (q1 hx.loss)), fun hl => by
      rw [c2 (q2 (hl x List.mem_cons_self)), i2 fun y hy => hl y (List.mem_cons_of_mem x hy)]⟩

theorem incoming {y : ℝ} (hy : 0 < y) (b : Fin 2 → ℂ) :
    Complex.normSq (y * b 0 + b 1) = 4 * y * carried b + Complex.normSq (y * b 0 - b 1) := by
  simp only [carried, Complex.normSq_apply, Complex.mul_re, Complex.mul_im, Complex.add_re,
    Complex.add_im, Complex.sub_re, Complex.sub_im, Complex.ofReal_re, Complex.ofReal_im,
    Complex.star_def, Complex.conj_re, Complex.conj_im]
  ring

theorem incoming_ne {y z : ℝ} (hy : 0 < y) (hz : 0 < z) {b : Fin 2 → ℂ} (h : z ≤ carried b) :
    (y : ℂ) * b 0 + b 1 ≠ 0 := by
  intro h0
  have := incoming hy b
  rw [h0, Complex.normSq_zero] at this
  have h1 := Complex.normSq_nonneg (y * b 0 - b 1)
  have h2 : 0 < 4 * y * carried b := by
    have := lt_of_lt_of_le hz h
    positivity
  linarith

theorem jones_blocks {P S : M2} {n1 n3 i t3 : ℝ} (h1 : 0 < n1) (c1 : 0 < cos i) (c3 : 0 < cos t3) :
    let p := P.mulVec ![1, ((n3 / cos t3 : ℝ) : ℂ)]
    let s := S.mulVec ![1, ((n3 * cos t3 : ℝ) : ℂ)]
    let x : ℂ := ((n1 / cos i : ℝ) : ℂ)
    let y : ℂ := ((n1 * cos i : ℝ) : ℂ)
    x * p 0 + p 1 ≠ 0 → y * s 0 + s 1 ≠ 0 →
    tranToJones ⟨blocks P S, n1, n3, i, some t3⟩ = .ok
      (!![2 * x / (x * p 0 + p 1) * ((cos i / cos t3 : ℝ) : ℂ), 0; 0, 2 * y / (y * s 0 + s 1)],
       !![-((x * p 0 - p 1) / (x * p 0 + p 1)), 0; 0, (y * s 0 - s 1) / (y * s 0 + s 1)]) := by
  intro p s x y hp hs
  have hn1 : (n1 : ℂ) ≠ 0 := by exact_mod_cast h1.ne'
  have hc1 : ((cos i : ℝ) : ℂ) ≠ 0 := by exact_mod_cast c1.ne'
  have hc3 : ((cos t3 : ℝ) : ℂ) ≠ 0 := by exact_mod_cast c3.ne'
  have ep0 : p 0 = P 0 0 + P 0 1 * (n3 / (cos t3 : ℝ)) := by
    simp only [p, Matrix.mulVec, dotProduct, Fin.sum_univ_two]
    push_cast
    simp
  have ep1 : p 1 = P 1 0 + P 1 1 * (n3 / (cos t3 : ℝ)) := by
    simp only [p, Matrix.mulVec, dotProduct, Fin.sum_univ_two]
    push_cast
    simp
  have es0 : s 0 = S 0 0 + S 0 1 * (n3 * (cos t3 : ℝ)) := by
    simp only [s, Matrix.mulVec, dotProduct, Fin.sum_univ_two]
    push_cast
    simp
  have es1 : s 1 = S 1 0 + S 1 1 * (n3 * (cos t3 : ℝ)) := by
    simp only [s, Matrix.mulVec, dotProduct, Fin.sum_univ_two]
    push_cast
    simp
  have ex : x = n1 / (cos i : ℝ) := by simp only [x]; push_cast; rfl
  have ey : y = n1 * (cos i : ℝ) := by simp only [y]; push_cast; rfl
  have eA : (P 0 0 * (cos t3 : ℝ) + P 0 1 * n3) / (cos i : ℝ) = (cos t3 : ℝ) / n1 * (x * p 0) := by
    rw [ex, ep0]
    field_simp
  have eC : (P 1 0 * (cos t3 : ℝ) + P 1 1 * n3) / n1 = (cos t3 : ℝ) / n1 * p 1 := by
    rw [ep1]
    field_simp
  have eK : S 0 0 + S 0 1 * n3 * (cos t3 : ℝ) = s 0 := by rw [es0]; ring
  have eS : (S 1 0 + S 1 1 * n3 * (cos t3 : ℝ)) / (n1 * (cos i : ℝ)) = s 1 / y := by
    rw [es1, ey]
    ring
  have hy : y ≠ 0 := by rw [ey]; exact mul_ne_zero hn1 hc1
  unfold tranToJones
  simp only [bind, Except.bind, pure, Except.pure, blocks, Matrix.of_apply, Matrix.cons_val',
    Matrix.cons_val_zero, Matrix.cons_val_one, Matrix.cons_val_fin_one, Matrix.cons_val, zero_mul, add_zero,
    zero_div, neg_zero, sub_zero, mul_zero, sub_self]
  rw [if_neg (by rintro (h | h); exacts [hc1 h, hn1 h]), eA, eC, eK, eS]
  have hd : ((cos t3 : ℝ) / n1 * (x * p 0) + (cos t3 : ℝ) / n1 * p 1) * (s 0 + s 1 / y) ≠ 0 := by
    rw [← mul_add]
    refine mul_ne_zero (mul_ne_zero (div_ne_zero hc3 hn1) hp) ?_
    intro h
    apply hs
    have := congrArg (fun z => y * z) h
    simp only [mul_add, mul_zero, mul_div_cancel₀ _ hy] at this
    exact this
  rw [if_neg hd]
  have hq : s 0 + s 1 / y = (y * s 0 + s 1) / y := by field_simp
  have hr : (cos t3 : ℝ) / n1 * (x * p 0) + (cos t3 : ℝ) / n1 * p 1 =
      (cos t3 : ℝ) / n1 * (x * p 0 + p 1) := by ring
  have hxc : x * (cos i : ℝ) = n1 := by rw [ex]; field_simp
  rw [hq, hr]
  clear_value x y p s
  clear ep0 ep1 es0 es1 eA eC eK eS hd hq hr ey ex
  generalize hP : x * p 0 + p 1 = dp at *
  generalize hS : y * s 0 + s 1 = ds at *
  congr 2
  · ext a b
    fin_cases a <;> fin_cases b <;> simp only [Matrix.of_apply, Matrix.cons_val', Matrix.cons_val_zero,
      Matrix.cons_val_one, Matrix.cons_val_fin_one, Fin.zero_eta, Fin.mk_one, Fin.isValue]
    · push_cast
      field_simp
      rw [← hxc]
      push_cast
      ring
    · field_simp
  · ext a b
    fin_cases a <;> fin_cases b <;> simp only [Matrix.of_apply, Matrix.cons_val', Matrix.cons_val_zero,
      Matrix.cons_val_one, Matrix.cons_val_fin_one, Fin.zero_eta, Fin.mk_one, Fin.isValue]
    · field_simp
      ring
    · field_simp

theorem slope_front {n i : ℝ} (h : 0 < n) (hi : |i| < π / 2) : slope (sin i * n) n = cos i := by
  unfold slope
  rw [mul_div_cancel_right₀ _ h.ne', ← abs_cos_eq_sqrt_one_sub_sin_sq,
    abs_of_pos (cos_pos_of_mem_Ioo ⟨by linarith [(abs_lt.1 hi).1], (abs_lt.1 hi).2⟩)]

end Films

open Films

/-- Layers to which the theory of thin films applies: no axis, positive index in which the ray at `nsin`
propagates, no amplification. -/
structure FilmLayer (nsin : ℝ) (x : Layer) : Prop where
  axis : x.2.1.extraIndex = x.2.1.ordinaryIndex ∧ x.2.1.extraLoss = x.2.1.ordinaryLoss
  index : |nsin| < x.2.1.ordinaryIndex
  thickness : 0 ≤ x.1
  loss : 0 ≤ x.2.1.ordinaryLoss

/-- **C127.** The Jones matrices of every stack of layers without axes, at every angle of incidence without
total reflection, are diagonal, with the coefficients of the theory of thin films; how the layers and the
stack are turned does not matter.  The sign of the reflected TM field is the other one. -/
theorem C127_films (l : List Layer) (hne : l ≠ []) (f i r n1 n3 : ℝ) (hf : 0 ≤ f) (h1 : 0 < n1)
    (hi : |i| < π / 2) (h3 : |sin i * n1| < n3) (hl : ∀ x ∈ l, FilmLayer (sin i * n1) x) :
    let films := l.map fun x => (⟨x.1, x.2.1.ordinaryIndex, x.2.1.ordinaryLoss⟩ : Film)
    let nsin := n1 * sin i
    jones (ofLayers l) f i r n1 n3 = .ok
      (!![transmission .tm f nsin n1 n3 films * ((cos i / slope nsin n3 : ℝ) : ℂ), 0;
          0, transmission .te f nsin n1 n3 films],
       !![-reflection .tm f nsin n1 n3 films, 0; 0, reflection .te f nsin n1 n3 films]) := by
  intro films nsin
  have hns : nsin = sin i * n1 := mul_comm _ _
  obtain ⟨Ts, hT, hprod⟩ := stack_eq l (f := f) (nsin := sin i * n1) (r := r) (fun x hx => (hl x hx).axis)
    fun x hx => (hl x hx).index
  have p3 : 0 < n3 := lt_of_le_of_lt (abs_nonneg _) h3
  have hlen : (ofLayers l).thicknesses.length ≠ 0 := by
    simpa [ofLayers] using hne
  have hx3 : |sin i * n1 / n3| < 1 := by
    rw [abs_div, abs_of_pos p3, div_lt_one p3]
    exact h3
  have hs : stackTransferMatrix (ofLayers l) f i r n1 n3 =
      .ok ⟨Ts.prod, n1, n3, i, some (arcsin (sin i * n1 / n3))⟩ := by
    unfold stackTransferMatrix
    simp only [bind, Except.bind, pure, Except.pure]
    rw [stack_fold, hT]
    simp only [Except.map, if_neg hlen, Matrix.one_mul]
    rw [if_neg (by rintro (h | h); exacts [p3.ne' h, by linarith])]
  have c1 : 0 < cos i := cos_pos_of_mem_Ioo ⟨by linarith [(abs_lt.1 hi).1], (abs_lt.1 hi).2⟩
  have c3 := cos_arcsin_pos hx3
  have s3 : cos (arcsin (sin i * n1 / n3)) = slope nsin n3 := by
    rw [cos_arcsin, hns]
    rfl
  have s1 : slope nsin n1 = cos i := by rw [hns, slope_front h1 hi]
  have hfine : ∀ x ∈ films, Fine nsin x := by
    intro x hx
    obtain ⟨y, hy, rfl⟩ := List.mem_map.1 hx
    have := hl y hy
    rw [hns]
    exact ⟨this.thickness, this.index, this.loss⟩
  have q1 : |nsin| < n1 := by
    rw [hns, abs_mul, abs_of_pos h1]
    have : |sin i| < 1 := by
      rw [← sq_lt_one_iff_abs_lt_one]
      nlinarith [sin_sq_add_cos_sq i]
    nlinarith
  have q3 : |nsin| < n3 := by rw [hns]; exact h3
  have dTM := incoming_ne (admittance_pos .tm q1) (admittance_pos .tm q3)
    (carried_fields .tm (n3 := n3) hf films hfine).1
  have dTE := incoming_ne (admittance_pos .te q1) (admittance_pos .te q3)
    (carried_fields .te (n3 := n3) hf films hfine).1
  have hj := jones_blocks (P := (films.map (film .tm f nsin)).prod) (S := (films.map (film .te f nsin)).prod)
    (n1 := n1) (n3 := n3) (i := i) (t3 := arcsin (sin i * n1 / n3)) h1 c1 c3
  rw [s3] at hj
  simp only [fields, admittance, s1] at dTM dTE
  have := hj dTM dTE
  unfold jones
  rw [hs, hprod]
  simp only [bind, Except.bind]
  rw [← hns] at this ⊢
  refine this.trans ?_
  simp only [transmission, reflection, fields, admittance, s1]

private theorem snell {n1 n3 i t3 : ℝ} (h3 : 0 < n3) (ht : |t3| < π / 2) (hs : n3 * sin t3 = n1 * sin i) :
    |sin i * n1| < n3 ∧ slope (n1 * sin i) n3 = cos t3 := by
  have c3 : 0 < cos t3 := cos_pos_of_mem_Ioo ⟨by linarith [(abs_lt.1 ht).1], (abs_lt.1 ht).2⟩
  have : |sin t3| < 1 := by
    rw [← sq_lt_one_iff_abs_lt_one]
    nlinarith [sin_sq_add_cos_sq t3]
  constructor
  · rw [mul_comm, ← hs, abs_mul, abs_of_pos h3]
    nlinarith
  · rw [← hs, mul_comm, slope_front h3 ht]

/-- **C127, energy.** At every angle of incidence no polarization comes out of a stack of layers without
axes with more energy than went in, and without losses none is lost.  `t3` is the angle of the ray that
leaves, and the energy that crosses the plane is index times cosine times power. -/
theorem C127_energy (l : List Layer) (hne : l ≠ []) (f i r n1 n3 t3 : ℝ) (hf : 0 ≤ f) (h1 : 0 < n1)
    (h3 : 0 < n3) (hi : |i| < π / 2) (ht : |t3| < π / 2) (hs : n3 * sin t3 = n1 * sin i)
    (hl : ∀ x ∈ l, FilmLayer (sin i * n1) x) :
    ∃ jt jr, jones (ofLayers l) f i r n1 n3 = .ok (jt, jr) ∧ ∀ e,
      n3 * cos t3 * power (jt.mulVec e) + n1 * cos i * power (jr.mulVec e) ≤ n1 * cos i * power e ∧
      ((∀ x ∈ l, x.2.1.ordinaryLoss = 0) →
        n3 * cos t3 * power (jt.mulVec e) + n1 * cos i * power (jr.mulVec e) = n1 * cos i * power e) := by
  obtain ⟨g3, s3⟩ := snell h3 ht hs
  refine ⟨_, _, C127_films l hne f i r n1 n3 hf h1 hi g3 hl, fun e => ?_⟩
  have c1 : 0 < cos i := cos_pos_of_mem_Ioo ⟨by linarith [(abs_lt.1 hi).1], (abs_lt.1 hi).2⟩
  have c3 : 0 < cos t3 := cos_pos_of_mem_Ioo ⟨by linarith [(abs_lt.1 ht).1], (abs_lt.1 ht).2⟩
  have s1 : slope (n1 * sin i) n1 = cos i := by rw [mul_comm, slope_front h1 hi]
  have hfine : ∀ x ∈ l.map (fun x => (⟨x.1, x.2.1.ordinaryIndex, x.2.1.ordinaryLoss⟩ : Film)),
      Fine (n1 * sin i) x := by
    intro x hx
    obtain ⟨y, hy, rfl⟩ := List.mem_map.1 hx
    have := hl y hy
    rw [mul_comm n1]
    exact ⟨this.thickness, this.index, this.loss⟩
  have hloss : (∀ x ∈ l, x.2.1.ordinaryLoss = 0) →
      ∀ x ∈ l.map (fun x => (⟨x.1, x.2.1.ordinaryIndex, x.2.1.ordinaryLoss⟩ : Film)), x.loss = 0 := by
    intro h x hx
    obtain ⟨y, hy, rfl⟩ := List.mem_map.1 hx
    exact h y hy
  rw [s3]
  generalize l.map (fun x => (⟨x.1, x.2.1.ordinaryIndex, x.2.1.ordinaryLoss⟩ : Film)) = films at *
  have q1 : |n1 * sin i| < n1 := by
    rw [abs_mul, abs_of_pos h1]
    have : |sin i| < 1 := by
      rw [← sq_lt_one_iff_abs_lt_one]
      nlinarith [sin_sq_add_cos_sq i]
    nlinarith
  have q3 : |n1 * sin i| < n3 := by rw [mul_comm]; exact g3
  have main : ∀ p : Pol,
      (admittance p (n1 * sin i) n3 * ‖transmission p f (n1 * sin i) n1 n3 films‖ ^ 2 +
        admittance p (n1 * sin i) n1 * ‖reflection p f (n1 * sin i) n1 n3 films‖ ^ 2 ≤
          admittance p (n1 * sin i) n1) ∧
      ((∀ x ∈ films, x.loss = 0) →
        admittance p (n1 * sin i) n3 * ‖transmission p f (n1 * sin i) n1 n3 films‖ ^ 2 +
        admittance p (n1 * sin i) n1 * ‖reflection p f (n1 * sin i) n1 n3 films‖ ^ 2 =
          admittance p (n1 * sin i) n1) := by
    intro p
    have hy := admittance_pos p q1
    have hz := admittance_pos p q3
    obtain ⟨k1, k2⟩ := carried_fields p (n3 := n3) hf films hfine
    have hd := incoming_ne hy hz k1
    have hin := incoming hy (fields p f (n1 * sin i) n3 films)
    unfold transmission reflection
    dsimp only
    generalize admittance p (n1 * sin i) n1 = y at *
    generalize admittance p (n1 * sin i) n3 = z at *
    generalize fields p f (n1 * sin i) n3 films = b at *
    rw [norm_div, norm_div, div_pow, div_pow, ← Complex.normSq_eq_norm_sq ((y : ℂ) * b 0 + b 1),
      ← Complex.normSq_eq_norm_sq ((y : ℂ) * b 0 - b 1)]
    have hD := Complex.normSq_pos.2 hd
    have h2 : ‖(2 * (y : ℂ))‖ ^ 2 = 4 * y ^ 2 := by
      rw [← Complex.normSq_eq_norm_sq, Complex.normSq_mul, Complex.normSq_ofReal]
      norm_num [Complex.normSq_apply]
      ring
    rw [h2]
    have e : z * (4 * y ^ 2 / Complex.normSq ((y : ℂ) * b 0 + b 1)) +
        y * (Complex.normSq ((y : ℂ) * b 0 - b 1) / Complex.normSq ((y : ℂ) * b 0 + b 1)) =
        y * ((4 * y * z + Complex.normSq ((y : ℂ) * b 0 - b 1)) / Complex.normSq ((y : ℂ) * b 0 + b 1)) := by
      ring
    rw [e]
    constructor
    · have : (4 * y * z + Complex.normSq ((y : ℂ) * b 0 - b 1)) / Complex.normSq ((y : ℂ) * b 0 + b 1) ≤ 1 := by
        rw [div_le_one hD, hin]
        have := mul_le_mul_of_nonneg_left k1 (show 0 ≤ 4 * y by positivity)
        linarith
      nlinarith
    · intro hll
      rw [← k2 hll, ← hin, div_self hD.ne', mul_one]
  obtain ⟨m1, m2⟩ := main .tm
  obtain ⟨m3, m4⟩ := main .te
  simp only [admittance, s1, s3] at m1 m2 m3 m4
  have pw : ∀ a b : ℂ, power ((!![a, 0; 0, b] : M2).mulVec e) = ‖a‖ ^ 2 * ‖e 0‖ ^ 2 + ‖b‖ ^ 2 * ‖e 1‖ ^ 2 := by
    intro a b
    simp [power, Matrix.mulVec, dotProduct, Fin.sum_univ_two, mul_pow]
  have hc : ‖((cos i / cos t3 : ℝ) : ℂ)‖ = cos i / cos t3 := by
    rw [Complex.norm_real, norm_eq_abs, abs_of_pos (by positivity)]
  rw [pw, pw, norm_mul, norm_neg, hc]
  generalize ‖transmission .tm f (n1 * sin i) n1 n3 films‖ = a at *
  generalize ‖transmission .te f (n1 * sin i) n1 n3 films‖ = b at *
  generalize ‖reflection .tm f (n1 * sin i) n1 n3 films‖ = u at *
  generalize ‖reflection .te f (n1 * sin i) n1 n3 films‖ = v at *
  unfold power
  have e1 : n3 * cos t3 * ((a * (cos i / cos t3)) ^ 2 * ‖e 0‖ ^ 2 + b ^ 2 * ‖e 1‖ ^ 2) +
      n1 * cos i * (u ^ 2 * ‖e 0‖ ^ 2 + v ^ 2 * ‖e 1‖ ^ 2) =
      cos i ^ 2 * (n3 / cos t3 * a ^ 2 + n1 / cos i * u ^ 2) * ‖e 0‖ ^ 2 +
      (n3 * cos t3 * b ^ 2 + n1 * cos i * v ^ 2) * ‖e 1‖ ^ 2 := by
    field_simp
    ring
  have e2 : n1 * cos i * (‖e 0‖ ^ 2 + ‖e 1‖ ^ 2) =
      cos i ^ 2 * (n1 / cos i) * ‖e 0‖ ^ 2 + n1 * cos i * ‖e 1‖ ^ 2 := by
    field_simp
  rw [e1, e2]
  constructor
  · gcongr
  · intro hll
    rw [m2 (hloss hll), m4 (hloss hll)]

/-! ### Well known cases -/

private theorem film_zero (p : Pol) (f nsin n loss : ℝ) : film p f nsin ⟨0, n, loss⟩ = 1 := by
  have : phase f nsin ⟨0, n, loss⟩ = 0 := by simp [phase]
  unfold film
  rw [this]
  ext i j
  fin_cases i <;> fin_cases j <;> simp

private theorem fields_zero (p : Pol) (f nsin n3 : ℝ) (films : List Film) (h : ∀ x ∈ films, x.thickness = 0) :
    fields p f nsin n3 films = ![1, ((admittance p nsin n3 : ℝ) : ℂ)] := by
  have : (films.map (film p f nsin)).prod = 1 := by
    induction films with
    | nil => rfl
    | cons x l ih =>
      rw [List.map_cons, List.prod_cons, ih fun y hy => h y (List.mem_cons_of_mem x hy), mul_one]
      obtain ⟨t, n, q⟩ := x
      have : t = 0 := h _ List.mem_cons_self
      subst this
      exact film_zero p f nsin n q
  rw [fields, this, Matrix.one_mulVec]

/-- **C127, Fresnel.** At a bare interface (all layers of thickness zero) from index `n1` to index `n3` the
Jones matrices are Fresnel's coefficients; `t3` is the angle of refraction. -/
theorem C127_fresnel (l : List Layer) (hne : l ≠ []) (hz : ∀ x ∈ l, x.1 = 0) (f i r n1 n3 t3 : ℝ)
    (hf : 0 ≤ f) (h1 : 0 < n1) (h3 : 0 < n3) (hi : |i| < π / 2) (ht : |t3| < π / 2)
    (hs : n3 * sin t3 = n1 * sin i) (hl : ∀ x ∈ l, FilmLayer (sin i * n1) x) :
    jones (ofLayers l) f i r n1 n3 = .ok
      (!![((2 * n1 * cos i / (n3 * cos i + n1 * cos t3) : ℝ) : ℂ), 0;
          0, ((2 * n1 * cos i / (n1 * cos i + n3 * cos t3) : ℝ) : ℂ)],
       !![(((n3 * cos i - n1 * cos t3) / (n3 * cos i + n1 * cos t3) : ℝ) : ℂ), 0;
          0, (((n1 * cos i - n3 * cos t3) / (n1 * cos i + n3 * cos t3) : ℝ) : ℂ)]) := by
  obtain ⟨g3, s3⟩ := snell h3 ht hs
  rw [C127_films l hne f i r n1 n3 hf h1 hi g3 hl]
  have c1 : 0 < cos i := cos_pos_of_mem_Ioo ⟨by linarith [(abs_lt.1 hi).1], (abs_lt.1 hi).2⟩
  have c3 : 0 < cos t3 := cos_pos_of_mem_Ioo ⟨by linarith [(abs_lt.1 ht).1], (abs_lt.1 ht).2⟩
  have s1 : slope (n1 * sin i) n1 = cos i := by rw [mul_comm, slope_front h1 hi]
  have hz' : ∀ x ∈ l.map (fun x => (⟨x.1, x.2.1.ordinaryIndex, x.2.1.ordinaryLoss⟩ : Film)),
      x.thickness = 0 := by
    intro x hx
    obtain ⟨y, hy, rfl⟩ := List.mem_map.1 hx
    exact hz y hy
  simp only [transmission, reflection, fields_zero _ _ _ _ _ hz', admittance, s1, s3,
    Matrix.cons_val_zero, Matrix.cons_val_one, mul_one]
  have d1 : n3 * cos i + n1 * cos t3 ≠ 0 := by positivity
  have d2 : n1 / cos i + n3 / cos t3 ≠ 0 := by positivity
  have d3 : n1 * cos i + n3 * cos t3 ≠ 0 := by positivity
  have a1 : 2 * ((n1 / cos i : ℝ) : ℂ) / (((n1 / cos i : ℝ) : ℂ) + ((n3 / cos t3 : ℝ) : ℂ)) *
      ((cos i / cos t3 : ℝ) : ℂ) = ((2 * n1 * cos i / (n3 * cos i + n1 * cos t3) : ℝ) : ℂ) := by
    have : 2 * (n1 / cos i) / (n1 / cos i + n3 / cos t3) * (cos i / cos t3) =
        2 * n1 * cos i / (n3 * cos i + n1 * cos t3) := by
      rw [div_add_div _ _ c1.ne' c3.ne', div_div_eq_mul_div]
      field_simp
      ring
    exact_mod_cast congrArg (fun x : ℝ => (x : ℂ)) this
  have a2 : -((((n1 / cos i : ℝ) : ℂ) - ((n3 / cos t3 : ℝ) : ℂ)) /
      (((n1 / cos i : ℝ) : ℂ) + ((n3 / cos t3 : ℝ) : ℂ))) =
      (((n3 * cos i - n1 * cos t3) / (n3 * cos i + n1 * cos t3) : ℝ) : ℂ) := by
    have : -((n1 / cos i - n3 / cos t3) / (n1 / cos i + n3 / cos t3)) =
        (n3 * cos i - n1 * cos t3) / (n3 * cos i + n1 * cos t3) := by
      rw [div_add_div _ _ c1.ne' c3.ne', div_sub_div _ _ c1.ne' c3.ne', div_div_div_cancel_right₀ (by positivity)]
      rw [← neg_div]
      congr 1 <;> ring
    exact_mod_cast congrArg (fun x : ℝ => (x : ℂ)) this
  rw [a1, a2]
  push_cast
  simp only [mul_assoc]

/-- **C127, Brewster.** At the angle whose tangent is the ratio of the indices a bare interface reflects
nothing that is polarized in the plane of incidence. -/
theorem C127_brewster (l : List Layer) (hne : l ≠ []) (hz : ∀ x ∈ l, x.1 = 0) (f r n1 n3 : ℝ)
    (hf : 0 ≤ f) (h1 : 0 < n1) (h3 : 0 < n3)
    (hl : ∀ x ∈ l, FilmLayer (sin (arctan (n3 / n1)) * n1) x) :
    ∃ jt jr, jones (ofLayers l) f (arctan (n3 / n1)) r n1 n3 = .ok (jt, jr) ∧ ∀ a, jr.mulVec ![a, 0] = 0 := by
  set i := arctan (n3 / n1) with hi
  have i0 : 0 < i := by rw [hi, ← arctan_zero]; exact arctan_strictMono (by positivity)
  have i1 : i < π / 2 := arctan_lt_pi_div_two _
  have c1 : 0 < cos i := cos_arctan_pos _
  have key : n1 * sin i = n3 * cos i := by
    have : tan i = n3 / n1 := tan_arctan _
    rw [tan_eq_sin_div_cos] at this
    field_simp at this
    linarith
  refine ⟨_, _, C127_fresnel l hne hz f i r n1 n3 (π / 2 - i) hf h1 h3 (abs_lt.2 ⟨by linarith, i1⟩)
    (abs_lt.2 ⟨by linarith, by linarith⟩) (by rw [sin_pi_div_two_sub]; exact key.symm) hl, fun a => ?_⟩
  rw [cos_pi_div_two_sub, key, sub_self, zero_div]
  funext j
  fin_cases j <;> simp [Matrix.mulVec, dotProduct, Fin.sum_univ_two]

/-- **C127, anti-reflection coating.** At normal incidence a layer without losses whose index is the geometric
mean of those on the two sides and whose optical thickness is an odd number of quarter wavelengths reflects
nothing. -/
theorem C127_coating (m : Material) (t a f r n1 n3 : ℝ) (k : Nat) (ht : 0 ≤ t) (hf : 0 ≤ f) (h1 : 0 < n1)
    (h3 : 0 < n3) (iso : m.extraIndex = m.ordinaryIndex) (lO : m.ordinaryLoss = 0) (lE : m.extraLoss = 0)
    (hn : 0 < m.ordinaryIndex) (hg : m.ordinaryIndex ^ 2 = n1 * n3)
    (hq : 4 * m.ordinaryIndex * t * f = (2 * k + 1) * 2.998e8) :
    ∃ jt, jones (ofLayers [(t, m, a)]) f 0 r n1 n3 = .ok (jt, 0) := by
  have hfilm : ∀ x ∈ [((t, m, a) : Layer)], FilmLayer (sin 0 * n1) x := by
    intro x hx
    rw [List.mem_singleton] at hx
    subst hx
    exact ⟨⟨iso, by rw [lE, lO]⟩, by simpa using hn, ht, lO.ge⟩
  have hj := C127_films [(t, m, a)] (by simp) f 0 r n1 n3 hf h1 (by simp [pi_pos]) (by simpa using h3) hfilm
  have hph : phase f (n1 * sin 0) ⟨t, m.ordinaryIndex, m.ordinaryLoss⟩ = ((k * π + π / 2 : ℝ) : ℂ) := by
    unfold phase slope
    rw [lO]
    simp only [sin_zero, mul_zero, zero_div, Complex.ofReal_zero, sub_zero, Complex.one_cpow, mul_one]
    norm_num only [Real.sqrt_one]
    congr 1
    have : f * t * m.ordinaryIndex = (2 * k + 1) * 2.998e8 / 4 := by linarith
    have e : 2 * π * f / 299800000 * t * 1 * m.ordinaryIndex = 2 * π / 299800000 * (f * t * m.ordinaryIndex) := by
      ring
    rw [e, this]
    norm_num
    ring
  have hcos : Complex.cos ((k * π + π / 2 : ℝ) : ℂ) = 0 := by
    rw [← Complex.ofReal_cos, cos_add_pi_div_two, sin_nat_mul_pi]
    simp
  have hsin : Complex.sin ((k * π + π / 2 : ℝ) : ℂ) ≠ 0 := by
    rw [← Complex.ofReal_sin, sin_add_pi_div_two, cos_nat_mul_pi]
    simp
  have hslope : ∀ n : ℝ, slope (n1 * sin 0) n = 1 := by
    intro n
    simp [slope]
  have hy : ∀ (p : Pol) (n : ℝ), admittance p (n1 * sin 0) n = n := by
    intro p n
    cases p <;> simp only [admittance, hslope, div_one, mul_one]
  have hr : ∀ p : Pol, reflection p f (n1 * sin 0) n1 n3 [⟨t, m.ordinaryIndex, m.ordinaryLoss⟩] = 0 := by
    intro p
    unfold reflection fields
    simp only [List.map_cons, List.map_nil, List.prod_cons, List.prod_nil, mul_one]
    unfold film
    rw [hph]
    simp only [hy, hcos, Matrix.mulVec, dotProduct, Fin.sum_univ_two, Matrix.of_apply, Matrix.cons_val',
      Matrix.cons_val_zero, Matrix.cons_val_one, Matrix.cons_val_fin_one, zero_mul, zero_add, add_zero,
      mul_one]
    rw [div_eq_zero_iff]
    left
    have hg' : (m.ordinaryIndex : ℂ) ^ 2 = n1 * n3 := by exact_mod_cast hg
    have hn' : (m.ordinaryIndex : ℂ) ≠ 0 := by exact_mod_cast hn.ne'
    field_simp
    rw [hg']
    ring
  simp only [List.map_cons, List.map_nil, hr, neg_zero] at hj
  rw [show (!![0, 0; 0, 0] : M2) = 0 by ext i j; fin_cases i <;> fin_cases j <;> rfl] at hj
  exact ⟨_, hj⟩

/-- **C127, half-wave layer.** At any angle a layer without losses and without axis, whose optical thickness
along the normal is a whole number of half wavelengths, changes nothing wherever it is put in a stack, but the
sign of what is transmitted. -/
theorem C127_halfwave (l1 l2 : List Layer) (hne : l1 ++ l2 ≠ []) (x : Layer) (f i r n1 n3 : ℝ) (k : Nat)
    (hf : 0 ≤ f) (h1 : 0 < n1) (hi : |i| < π / 2) (h3 : |sin i * n1| < n3)
    (hl : ∀ y ∈ l1 ++ x :: l2, FilmLayer (sin i * n1) y) (lO : x.2.1.ordinaryLoss = 0)
    (hq : 2 * x.1 * f * (x.2.1.ordinaryIndex * slope (n1 * sin i) x.2.1.ordinaryIndex) = k * 2.998e8) :
    ∃ jt jr, jones (ofLayers (l1 ++ l2)) f i r n1 n3 = .ok (jt, jr) ∧
      jones (ofLayers (l1 ++ x :: l2)) f i r n1 n3 = .ok ((-1 : ℂ) ^ k • jt, jr) := by
  have j1 := C127_films (l1 ++ l2) hne f i r n1 n3 hf h1 hi h3 fun y hy => hl y (by
    rw [List.mem_append] at hy ⊢
    rcases hy with hy | hy
    · exact Or.inl hy
    · exact Or.inr (List.mem_cons_of_mem x hy))
  have j2 := C127_films (l1 ++ x :: l2) (by simp) f i r n1 n3 hf h1 hi h3 hl
  refine ⟨_, _, j1, j2.trans ?_⟩
  have hph : phase f (n1 * sin i) ⟨x.1, x.2.1.ordinaryIndex, x.2.1.ordinaryLoss⟩ = ((k * π : ℝ) : ℂ) := by
    unfold phase
    rw [lO]
    simp only [Complex.ofReal_zero, mul_zero, sub_zero, Complex.one_cpow, mul_one]
    congr 1
    generalize slope (n1 * sin i) x.2.1.ordinaryIndex = s at *
    have e : 2 * π * f / 2.998e8 * x.1 * s * x.2.1.ordinaryIndex =
        π / 2.998e8 * (2 * x.1 * f * (x.2.1.ordinaryIndex * s)) := by ring
    rw [e, hq]
    norm_num
    ring
  have hfilm : ∀ p, film p f (n1 * sin i) ⟨x.1, x.2.1.ordinaryIndex, x.2.1.ordinaryLoss⟩ =
      (-1 : ℂ) ^ k • (1 : M2) := by
    intro p
    unfold film
    dsimp only
    rw [hph, ← Complex.ofReal_cos, ← Complex.ofReal_sin, sin_nat_mul_pi, cos_nat_mul_pi]
    ext a b
    fin_cases a <;> fin_cases b <;> simp
  have hfields : ∀ p, fields p f (n1 * sin i) n3 ((l1 ++ x :: l2).map fun x =>
      (⟨x.1, x.2.1.ordinaryIndex, x.2.1.ordinaryLoss⟩ : Film)) =
      (-1 : ℂ) ^ k • fields p f (n1 * sin i) n3 ((l1 ++ l2).map fun x =>
      (⟨x.1, x.2.1.ordinaryIndex, x.2.1.ordinaryLoss⟩ : Film)) := by
    intro p
    simp only [fields, List.map_append, List.map_cons, List.prod_append, List.prod_cons, hfilm,
      Matrix.smul_mul, Matrix.mul_smul, one_mul, Matrix.smul_mulVec]
  have hs : ((-1 : ℂ) ^ k) ≠ 0 := pow_ne_zero _ (by norm_num)
  have hinv : ((-1 : ℂ) ^ k)⁻¹ = (-1) ^ k := by rw [← inv_pow]; norm_num
  have ht : ∀ p, transmission p f (n1 * sin i) n1 n3 ((l1 ++ x :: l2).map fun x =>
      (⟨x.1, x.2.1.ordinaryIndex, x.2.1.ordinaryLoss⟩ : Film)) =
      (-1 : ℂ) ^ k * transmission p f (n1 * sin i) n1 n3 ((l1 ++ l2).map fun x =>
      (⟨x.1, x.2.1.ordinaryIndex, x.2.1.ordinaryLoss⟩ : Film)) := by
    intro p
    unfold transmission
    rw [hfields]
    simp only [Pi.smul_apply, smul_eq_mul]
    rw [mul_left_comm, ← mul_add, div_eq_mul_inv, mul_inv, hinv, div_eq_mul_inv]
    ring
  have hr : ∀ p, reflection p f (n1 * sin i) n1 n3 ((l1 ++ x :: l2).map fun x =>
      (⟨x.1, x.2.1.ordinaryIndex, x.2.1.ordinaryLoss⟩ : Film)) =
      reflection p f (n1 * sin i) n1 n3 ((l1 ++ l2).map fun x =>
      (⟨x.1, x.2.1.ordinaryIndex, x.2.1.ordinaryLoss⟩ : Film)) := by
    intro p
    unfold reflection
    rw [hfields]
    simp only [Pi.smul_apply, smul_eq_mul]
    rw [mul_left_comm, ← mul_add, ← mul_sub, mul_div_mul_left _ _ hs]
  simp only [ht, hr]
  congr 2
  ext a b
  fin_cases a <;> fin_cases b <;> simp [mul_assoc]

/-- A quartz window with a quarter-wave coating at 150 GHz, seen at 20 degrees. -/
example : ∀ x ∈ ([(0.00035, ⟨1.4, 1.4, 0, 0⟩, 0), (0.01, ⟨1.96, 1.96, 1e-4, 1e-4⟩, 0.3)] : List Layer),
    FilmLayer (sin (π / 9) * 1) x := by
  have h : |sin (π / 9) * 1| ≤ 1 := by rw [mul_one]; exact abs_sin_le_one _
  intro x hx
  simp only [List.mem_cons, List.not_mem_nil, or_false] at hx
  rcases hx with rfl | rfl <;>
    exact ⟨⟨by norm_num, by norm_num⟩, lt_of_le_of_lt h (by norm_num), by norm_num, by norm_num⟩

/-- A quarter wavelength at 150 GHz between vacuum and quartz. -/
example : (1.4 : ℝ) ^ 2 = 1 * 1.96 ∧
    4 * 1.4 * (2.998e8 / (4 * 1.4 * 150e9)) * 150e9 = (2 * ((0 : Nat) : ℝ) + 1) * 2.998e8 := by
  constructor <;> norm_num

end Verif.Props
