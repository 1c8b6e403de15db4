import Verif.Model.HwpModels
import Verif.Lemmas.Normal
import Verif.Props.Optics
import Mathlib.LinearAlgebra.Matrix.ToLinearEquiv

/-!
# Properties C64 - C66: energy balance, rotation of a stack, the predefined HWP models
-/

namespace Verif.Props

open Verif.Optics Real Matrix

/-- Transmitted and reflected Jones matrix of a stack: `TranToJones(stackTransferMatrix(...))`. -/
noncomputable def jones (s : Stack) (frequency incidenceAngle rotation n1 n3 : ℝ) :
    PyM (M2 × M2) := do
  let tr ← stackTransferMatrix s frequency incidenceAngle rotation n1 n3
  tranToJones tr

/-- The power of a field (specification). -/
noncomputable def power (e : Fin 2 → ℂ) : ℝ := ‖e 0‖ ^ 2 + ‖e 1‖ ^ 2

/-- A layer that does not amplify: non-negative thickness and losses, positive indices. -/
def Passive (x : Layer) : Prop :=
  0 ≤ x.1 ∧ 0 < x.2.1.ordinaryIndex ∧ 0 < x.2.1.extraIndex ∧ 0 ≤ x.2.1.ordinaryLoss ∧
    0 ≤ x.2.1.extraLoss

/-- A layer without losses. -/
def Lossless (x : Layer) : Prop := x.2.1.ordinaryLoss = 0 ∧ x.2.1.extraLoss = 0

theorem stack_normal (l : List Layer) (hne : l ≠ []) (f r n1 n3 : ℝ) (h3 : n3 ≠ 0)
    {Ts : List M4} (hT : l.mapM (layerMat f 0 r) = .ok Ts) :
    stackTransferMatrix (ofLayers l) f 0 r n1 n3 = .ok ⟨Ts.prod, n1, n3, 0, some 0⟩ := by
  have hlen : (ofLayers l).thicknesses.length ≠ 0 := by
    simpa [ofLayers] using hne
  unfold stackTransferMatrix
  simp only [bind, Except.bind, pure, Except.pure, sin_zero, zero_mul]
  rw [stack_fold, hT]
  simp only [Except.map, if_neg hlen, Matrix.one_mul, zero_div, arcsin_zero]
  rw [if_neg (by simpa using h3)]

theorem flux_stack (l : List Layer) (hl : ∀ x ∈ l, Passive x) (f r : ℝ) (hf : 0 ≤ f) :
    ∃ Ts, l.mapM (layerMat f 0 r) = .ok Ts ∧ ∀ v, flux v ≤ flux (Ts.prod.mulVec v) ∧
      ((∀ x ∈ l, Lossless x) → flux (Ts.prod.mulVec v) = flux v) := by
  induction l with
  | nil =>
    refine ⟨[], rfl, fun v => ?_⟩
    simp
  | cons x l ih =>
    obtain ⟨Ts, h, hv⟩ := ih fun y hy => hl y (List.mem_cons_of_mem x hy)
    obtain ⟨p1, p2, p3, p4, p5⟩ := hl x List.mem_cons_self
    obtain ⟨T, ht⟩ : ∃ T, transferMatrix x.2.1 x.1 f 0 (x.2.2 + r) = .ok T :=
      ⟨_, (transferMatrix_normal p2 p3 x.1 f (x.2.2 + r)).2⟩
    refine ⟨T :: Ts, ?_, fun v => ?_⟩
    rotate_left
    · rw [List.prod_cons, ← Matrix.mulVec_mulVec]
      have hx := flux_layer p2 p3 p1 hf (x.2.2 + r) ht (Ts.prod.mulVec v)
      refine ⟨le_trans (hv v).1 (hx.1 p4 p5), fun hll => ?_⟩
      have h0 := hll x List.mem_cons_self
      rw [hx.2 h0.1 h0.2, (hv v).2 fun y hy => hll y (List.mem_cons_of_mem x hy)]
    · rw [List.mapM_cons, h, layerMat, ht]
      rfl

/-- The fields on both sides of a stack, in terms of its Jones matrices: the incoming field is `e`,
the transmitted one `jt e`, and the reflected one `jr e` with the sign of its first component
reversed. -/
theorem jones_fields {m : M4} {n1 n3 : ℝ} (h1 : 0 < n1) (h3 : 0 < n3)
    (hm : ∀ v, flux v ≤ flux (m.mulVec v)) :
    ∃ jt jr, tranToJones ⟨m, n1, n3, 0, some 0⟩ = .ok (jt, jr) ∧ ∀ e : Fin 2 → ℂ,
      m.mulVec ![jt.mulVec e 0, n3 * jt.mulVec e 0, jt.mulVec e 1, n3 * jt.mulVec e 1]
        = ![e 0 - jr.mulVec e 0, n1 * (e 0 + jr.mulVec e 0), e 1 + jr.mulVec e 1,
            n1 * (e 1 - jr.mulVec e 1)] := by
  have hn1 : (n1 : ℂ) ≠ 0 := by exact_mod_cast h1.ne'
  unfold tranToJones
  simp only [bind, Except.bind, pure, Except.pure, cos_zero, Complex.ofReal_one, mul_one, div_one]
  rw [if_neg (by rintro (h | h); exacts [one_ne_zero h, hn1 h])]
  set A := m 0 0 + m 0 1 * n3 with hA
  set B := m 0 2 + m 0 3 * n3 with hB
  set C := (m 1 0 + m 1 1 * n3) / n1 with hC
  set D := (m 1 2 + m 1 3 * n3) / n1 with hD
  set N := m 2 0 + m 2 1 * n3 with hN
  set K := m 2 2 + m 2 3 * n3 with hK
  set P := (m 3 0 + m 3 1 * n3) / n1 with hP
  set S := (m 3 2 + m 3 3 * n3) / n1 with hS
  have hmv : ∀ t0 t1 : ℂ, m.mulVec ![t0, n3 * t0, t1, n3 * t1]
      = ![A * t0 + B * t1, n1 * (C * t0 + D * t1), N * t0 + K * t1, n1 * (P * t0 + S * t1)] := by
    intro t0 t1
    funext i
    fin_cases i <;>
      simp [Matrix.mulVec, dotProduct, Fin.sum_univ_four, hA, hB, hC, hD, hN, hK, hP, hS] <;>
      field_simp <;> ring
  have hden : (A + C) * (K + S) - (B + D) * (N + P) ≠ 0 := by
    intro h0
    have hdet : (!![A + C, B + D; N + P, K + S] : M2).det = 0 := by
      rw [Matrix.det_fin_two_of]
      exact h0
    obtain ⟨t, ht, hz⟩ := Matrix.exists_mulVec_eq_zero_iff.mpr hdet
    have z0 := congrFun hz 0
    have z1 := congrFun hz 1
    simp [Matrix.mulVec, dotProduct, Fin.sum_univ_two] at z0 z1
    have hfl := hm ![t 0, n3 * t 0, t 1, n3 * t 1]
    rw [hmv] at hfl
    have e1 : C * t 0 + D * t 1 = -(A * t 0 + B * t 1) := by linear_combination z0
    have e2 : P * t 0 + S * t 1 = -(N * t 0 + K * t 1) := by linear_combination z1
    rw [e1, e2] at hfl
    generalize A * t 0 + B * t 1 = x at hfl
    generalize N * t 0 + K * t 1 = y at hfl
    simp only [flux, Matrix.cons_val_zero, Matrix.cons_val_one, Matrix.cons_val, Complex.add_re,
      Complex.mul_re, Complex.star_def, Complex.conj_re, Complex.conj_im, Complex.mul_im,
      Complex.ofReal_re, Complex.ofReal_im, Complex.neg_re, Complex.neg_im, zero_mul, sub_zero,
      add_zero] at hfl
    have hx : 0 ≤ n1 * (x.re ^ 2 + x.im ^ 2 + y.re ^ 2 + y.im ^ 2) := by positivity
    have ht0 : n3 * ((t 0).re ^ 2 + (t 0).im ^ 2 + (t 1).re ^ 2 + (t 1).im ^ 2) ≤ 0 := by
      nlinarith
    have hs : (t 0).re ^ 2 + (t 0).im ^ 2 + (t 1).re ^ 2 + (t 1).im ^ 2 ≤ 0 := by
      by_contra hc
      push Not at hc
      have := mul_pos h3 hc
      linarith
    apply ht
    funext i
    fin_cases i
    · apply Complex.ext <;> simp <;> nlinarith [sq_nonneg (t 0).re, sq_nonneg (t 0).im,
        sq_nonneg (t 1).re, sq_nonneg (t 1).im]
    · apply Complex.ext <;> simp <;> nlinarith [sq_nonneg (t 0).re, sq_nonneg (t 0).im,
        sq_nonneg (t 1).re, sq_nonneg (t 1).im]
  rw [if_neg hden]
  refine ⟨_, _, rfl, fun e => ?_⟩
  rw [hmv]
  clear_value A B C D N K P S
  generalize hd : (A + C) * (K + S) - (B + D) * (N + P) = d at hden ⊢
  funext i
  fin_cases i <;>
    simp [Matrix.mulVec, dotProduct, Fin.sum_univ_two, h1.ne'] <;> field_simp <;> rw [← hd] <;> ring

/-! ## C65: energy balance at normal incidence -/

private theorem power_eq (e : Fin 2 → ℂ) :
    power e = (e 0).re ^ 2 + (e 0).im ^ 2 + (e 1).re ^ 2 + (e 1).im ^ 2 := by
  unfold power
  rw [Complex.sq_norm, Complex.sq_norm, Complex.normSq_apply, Complex.normSq_apply]
  ring

/-- **C65.** For every non-empty stack of passive layers at normal incidence, in any orientation, at
every frequency and between any two media, the Jones matrices exist, no polarisation comes out
with more energy than went in, and without losses the energy is conserved exactly. -/
theorem C65_energy (l : List Layer) (hne : l ≠ []) (hl : ∀ x ∈ l, Passive x) (f r n1 n3 : ℝ)
    (hf : 0 ≤ f) (h1 : 0 < n1) (h3 : 0 < n3) :
    ∃ jt jr, jones (ofLayers l) f 0 r n1 n3 = .ok (jt, jr) ∧ ∀ e,
      n3 * power (jt.mulVec e) + n1 * power (jr.mulVec e) ≤ n1 * power e ∧
      ((∀ x ∈ l, Lossless x) →
        n3 * power (jt.mulVec e) + n1 * power (jr.mulVec e) = n1 * power e) := by
  obtain ⟨Ts, hT, hfl⟩ := flux_stack l hl f r hf
  obtain ⟨jt, jr, hj, he⟩ := jones_fields h1 h3 fun v => (hfl v).1
  refine ⟨jt, jr, ?_, fun e => ?_⟩
  · unfold jones
    rw [stack_normal l hne f r n1 n3 h3.ne' hT]
    exact hj
  · have h := hfl ![jt.mulVec e 0, n3 * jt.mulVec e 0, jt.mulVec e 1, n3 * jt.mulVec e 1]
    rw [he e] at h
    simp only [power_eq]
    generalize jt.mulVec e = t at h ⊢
    generalize jr.mulVec e = q at h ⊢
    simp only [flux, Matrix.cons_val_zero, Matrix.cons_val_one, Matrix.cons_val, Complex.add_re,
      Complex.mul_re, Complex.star_def, Complex.conj_re, Complex.conj_im, Complex.mul_im,
      Complex.ofReal_re, Complex.ofReal_im, Complex.sub_re, Complex.sub_im, Complex.add_im,
      zero_mul, sub_zero, add_zero] at h
    exact ⟨by nlinarith [h.1], fun hll => by nlinarith [h.2 hll]⟩

/-- Non-vacuity: a lossless sapphire plate between two quarter-wave coatings. -/
example : ∀ x ∈ ([(0.0005, ⟨1.9, 1.9, 0, 0⟩, 0), (0.00375, ⟨3.019, 3.336, 0, 0⟩, 0.5),
    (0.0005, ⟨1.9, 1.9, 0, 0⟩, 0)] : List Layer), Passive x ∧ Lossless x := by
  intro x hx
  simp at hx
  rcases hx with rfl | rfl | rfl <;> constructor <;> constructor <;> norm_num

/-! ## C66: rotating the stack -/

private theorem mapM_rotate (l : List Layer)
    (hl : ∀ x ∈ l, 0 < x.2.1.ordinaryIndex ∧ 0 < x.2.1.extraIndex) (f r : ℝ) :
    ∃ Ts Ts', l.mapM (layerMat f 0 0) = .ok Ts ∧ l.mapM (layerMat f 0 r) = .ok Ts' ∧
      Ts'.prod = toC (rot4 r) * Ts.prod * toC (rot4 (-r)) := by
  induction l with
  | nil => exact ⟨[], [], rfl, rfl, by simp [rot4_neg]⟩
  | cons x l ih =>
    obtain ⟨Ts, Ts', a, b, hp⟩ := ih fun y hy => hl y (List.mem_cons_of_mem x hy)
    obtain ⟨p2, p3⟩ := hl x List.mem_cons_self
    obtain ⟨T, ht⟩ : ∃ T, transferMatrix x.2.1 x.1 f 0 (x.2.2 + 0) = .ok T :=
      ⟨_, (transferMatrix_normal p2 p3 x.1 f (x.2.2 + 0)).2⟩
    have ht' := transferMatrix_rotate p2 p3 x.1 f (x.2.2 + 0) r ht
    rw [add_zero] at ht'
    refine ⟨T :: Ts, (toC (rot4 r) * T * toC (rot4 (-r))) :: Ts', ?_, ?_, ?_⟩
    · rw [List.mapM_cons, a, layerMat, ht]
      rfl
    · rw [List.mapM_cons, b, layerMat, ht']
      rfl
    · rw [List.prod_cons, List.prod_cons, hp]
      calc toC (rot4 r) * T * toC (rot4 (-r)) * (toC (rot4 r) * Ts.prod * toC (rot4 (-r)))
          = toC (rot4 r) * T * (toC (rot4 (-r)) * toC (rot4 r)) * Ts.prod * toC (rot4 (-r)) := by
            simp only [Matrix.mul_assoc]
        _ = _ := by
            rw [rot4_neg', Matrix.mul_one]
            simp only [Matrix.mul_assoc]

/-- The transmitted Jones matrix at normal incidence, for indices that are not zero. -/
theorem tran_normal (m : M4) {n1 n3 : ℝ} (h1 : n1 ≠ 0) :
    (tranToJones ⟨m, n1, n3, 0, some 0⟩).map Prod.fst =
      let X : M2 := !![m 0 0 + m 0 1 * n3 + (m 1 0 + m 1 1 * n3) / n1,
          m 0 2 + m 0 3 * n3 + (m 1 2 + m 1 3 * n3) / n1;
        m 2 0 + m 2 1 * n3 + (m 3 0 + m 3 1 * n3) / n1,
          m 2 2 + m 2 3 * n3 + (m 3 2 + m 3 3 * n3) / n1]
      if X.det = 0 then .error .valueError
      else .ok !![X 1 1 * 2 / X.det, -X 0 1 * 2 / X.det; -X 1 0 * 2 / X.det, X 0 0 * 2 / X.det] := by
  have hn1 : (n1 : ℂ) ≠ 0 := by exact_mod_cast h1
  unfold tranToJones
  simp only [bind, Except.bind, pure, Except.pure, cos_zero, Complex.ofReal_one, mul_one, div_one]
  rw [if_neg (by rintro (h | h); exacts [one_ne_zero h, hn1 h])]
  simp only [Matrix.det_fin_two_of, Matrix.of_apply, Matrix.cons_val', Matrix.cons_val_zero,
    Matrix.cons_val_one, Matrix.cons_val_fin_one]
  generalize m 0 0 + m 0 1 * (n3 : ℂ) = A
  generalize m 0 2 + m 0 3 * (n3 : ℂ) = B
  generalize (m 1 0 + m 1 1 * (n3 : ℂ)) / n1 = C
  generalize (m 1 2 + m 1 3 * (n3 : ℂ)) / n1 = D
  generalize m 2 0 + m 2 1 * (n3 : ℂ) = N
  generalize m 2 2 + m 2 3 * (n3 : ℂ) = K
  generalize (m 3 0 + m 3 1 * (n3 : ℂ)) / n1 = P
  generalize (m 3 2 + m 3 3 * (n3 : ℂ)) / n1 = S
  by_cases h : (A + C) * (K + S) - (B + D) * (N + P) = 0
  · rw [if_pos h, if_pos h]
    rfl
  · rw [if_neg h, if_neg h]
    simp only [Except.map, neg_add']

/-- **C66.** At normal incidence, rotating a stack by `r` (the `rotation` argument) rotates its
transmitted Jones matrix by that angle, as `JonesRotation` does (which takes degrees); if one
does not exist then neither does the other. -/
theorem C66_rotation (l : List Layer) (hne : l ≠ [])
    (hl : ∀ x ∈ l, 0 < x.2.1.ordinaryIndex ∧ 0 < x.2.1.extraIndex) (f r n1 n3 : ℝ) (h1 : n1 ≠ 0)
    (h3 : n3 ≠ 0) :
    (jones (ofLayers l) f 0 r n1 n3).map Prod.fst = (do
      let J ← (jones (ofLayers l) f 0 0 n1 n3).map Prod.fst
      jonesRotation J (r * (180 / π))) := by
  obtain ⟨Ts, Ts', a, b, hp⟩ := mapM_rotate l hl f r
  unfold jones
  rw [stack_normal l hne f r n1 n3 h3 b, stack_normal l hne f 0 n1 n3 h3 a]
  simp only [bind, Except.bind, jonesRotation_eq]
  have hpi : π ≠ 0 := pi_pos.ne'
  rw [show r * (180 / π) * (π / 180) = r by field_simp]
  rw [hp]
  generalize Ts.prod = m
  rw [tran_normal m h1, tran_normal _ h1]
  have hn1 : (n1 : ℂ) ≠ 0 := by exact_mod_cast h1
  set X : M2 := !![m 0 0 + m 0 1 * n3 + (m 1 0 + m 1 1 * n3) / n1,
          m 0 2 + m 0 3 * n3 + (m 1 2 + m 1 3 * n3) / n1;
        m 2 0 + m 2 1 * n3 + (m 3 0 + m 3 1 * n3) / n1,
          m 2 2 + m 2 3 * n3 + (m 3 2 + m 3 3 * n3) / n1] with hX
  set m' := toC (rot4 r) * m * toC (rot4 (-r)) with hm'
  have hX' : (!![m' 0 0 + m' 0 1 * n3 + (m' 1 0 + m' 1 1 * n3) / n1,
          m' 0 2 + m' 0 3 * n3 + (m' 1 2 + m' 1 3 * n3) / n1;
        m' 2 0 + m' 2 1 * n3 + (m' 3 0 + m' 3 1 * n3) / n1,
          m' 2 2 + m' 2 3 * n3 + (m' 3 2 + m' 3 3 * n3) / n1] : M2)
      = rotJ r * X * rotJ (-r) := by
    ext i j
    fin_cases i <;> fin_cases j <;>
      simp [hm', hX, rot4, rotJ, toC, Matrix.mul_apply, Fin.sum_univ_four, Fin.sum_univ_two] <;>
      field_simp <;> ring
  rw [hX']
  have hdet : (rotJ r * X * rotJ (-r)).det = X.det := by
    rw [Matrix.det_mul, Matrix.det_mul, rotJ_det, rotJ_det, one_mul, mul_one]
  simp only [hdet]
  by_cases hd : X.det = 0
  · simp only [if_pos hd]
  · simp only [if_neg hd, Except.ok.injEq]
    clear_value X m'
    have hadj : ∀ Y : M2, (!![Y 1 1 * 2 / X.det, -Y 0 1 * 2 / X.det; -Y 1 0 * 2 / X.det,
        Y 0 0 * 2 / X.det] : M2) = (2 / X.det) • Y.adjugate := by
      intro Y
      rw [Matrix.adjugate_fin_two]
      ext i j
      fin_cases i <;> fin_cases j <;> simp <;> ring
    have hadjR : ∀ t, (rotJ t).adjugate = rotJ (-t) := by
      intro t
      rw [Matrix.adjugate_fin_two]
      ext i j
      fin_cases i <;> fin_cases j <;> simp [rotJ]
    rw [hadj, hadj, Matrix.adjugate_mul_distrib, Matrix.adjugate_mul_distrib, hadjR, hadjR, neg_neg,
      Matrix.smul_mul, Matrix.mul_smul]

/-- Non-vacuity: at normal incidence a rotated stack of passive layers has a Jones matrix. -/
example : ∃ J, (jones (ofLayers [(0.00375, ⟨3.019, 3.336, 2.3e-4, 1.25e-4⟩, 0)]) 150e9 0 0.3 1 1).map
    Prod.fst = .ok J := by
  obtain ⟨jt, jr, h, -⟩ := C65_energy [(0.00375, ⟨3.019, 3.336, 2.3e-4, 1.25e-4⟩, 0)] (by simp)
    (by
      intro x hx
      simp at hx
      subst hx
      refine ⟨?_, ?_, ?_, ?_, ?_⟩ <;> norm_num) 150e9 0.3 1 1 (by norm_num) one_pos one_pos
  rw [h]
  exact ⟨jt, rfl⟩

/-! ## C64: the predefined models -/

/-- The names documented by the source. -/
def hwpNames : List String :=
  ["SPIDER_95", "SPIDER_150", "3AR1BRopti", "1BR", "3AR3BRopti", "3BR", "3AR5BRopti", "3AR5BRstd",
    "5BR"]

/-- A stack a half-wave plate can be made of (specification): as many materials and angles as
thicknesses, at least one layer, positive thicknesses, indices above that of vacuum and
non-negative losses. -/
def WellFormed (s : Stack) : Prop :=
  s.thicknesses ≠ [] ∧ s.materials.length = s.thicknesses.length ∧
  s.angles.length = s.thicknesses.length ∧ (∀ t ∈ s.thicknesses, 0 < t) ∧
  ∀ m ∈ s.materials, 1 < m.ordinaryIndex ∧ 1 < m.extraIndex ∧ 0 ≤ m.ordinaryLoss ∧ 0 ≤ m.extraLoss

private theorem wellFormed_layers {s : Stack} (h : WellFormed s) :
    ∃ l : List Layer, s = ofLayers l ∧ l ≠ [] ∧ (∀ x ∈ l, 0 < x.1) ∧
      ∀ x ∈ l, 1 < x.2.1.ordinaryIndex ∧ 1 < x.2.1.extraIndex ∧ 0 ≤ x.2.1.ordinaryLoss ∧
        0 ≤ x.2.1.extraLoss := by
  obtain ⟨h0, h1, h2, h3, h4⟩ := h
  refine ⟨s.thicknesses.zip (s.materials.zip s.angles), ?_, ?_, ?_, ?_⟩
  · have e1 : (s.thicknesses.zip (s.materials.zip s.angles)).map (·.1) = s.thicknesses := by
      rw [List.map_fst_zip]
      simp [h1, h2]
    have e2 : (s.thicknesses.zip (s.materials.zip s.angles)).map (·.2)
        = s.materials.zip s.angles := by
      rw [List.map_snd_zip]
      simp [h1, h2]
    have e3 : (s.materials.zip s.angles).map (·.1) = s.materials := by
      rw [List.map_fst_zip]
      simp [h1, h2]
    have e4 : (s.materials.zip s.angles).map (·.2) = s.angles := by
      rw [List.map_snd_zip]
      simp [h1, h2]
    have e5 := congrArg (List.map (·.1)) e2
    have e6 := congrArg (List.map (·.2)) e2
    rw [List.map_map, e3] at e5
    rw [List.map_map, e4] at e6
    rcases s with ⟨a, b, d⟩
    simp only [ofLayers, Stack.mk.injEq]
    exact ⟨e1.symm, e5.symm, e6.symm⟩
  · intro h
    have := congrArg List.length h
    simp [h1, h2] at this
    exact h0 this
  · intro x hx
    exact h3 _ (List.of_mem_zip hx).1
  · intro x hx
    exact h4 _ (List.of_mem_zip (List.of_mem_zip hx).2).1

private theorem models_ok (name : String) (h : name ∈ hwpNames) :
    ∃ s, chooseHwpModel name = .ok s ∧ WellFormed s := by
  simp only [hwpNames, List.mem_cons, List.not_mem_nil, or_false] at h
  unfold chooseHwpModel
  rcases h with rfl | rfl | rfl | rfl | rfl | rfl | rfl | rfl | rfl <;>
  · simp only [String.reduceEq, if_true, if_false]
    refine ⟨_, rfl, ?_, ?_, ?_, ?_, ?_⟩
    · simp
    · simp [degs]
    · simp [degs]
    · simp [mm] <;> norm_num
    · simp [spiderSapphire, quartz, circlex, hdpe, artAr1Mono, artAr2Mono, artAr3Mono, equalAr1,
        equalAr2, equalAr3, a3b3Ar1, a3b3Ar2, a3b3Ar3, a3b5Ar1, a3b5Ar2, a3b5Ar3, iso]
      norm_num

/-- **C64 (names).** `choose_HWP_model` accepts exactly the documented names, and every accepted
model is a well-formed stack. -/
theorem C64_models (name : String) :
    (name ∈ hwpNames → ∃ s, chooseHwpModel name = .ok s ∧ WellFormed s) ∧
    (name ∉ hwpNames → chooseHwpModel name = .error .valueError) := by
  refine ⟨models_ok name, fun h => ?_⟩
  simp only [hwpNames, List.mem_cons, List.not_mem_nil, or_false, not_or] at h
  obtain ⟨a, b, d, e, f, g, i, j, k⟩ := h
  unfold chooseHwpModel
  simp only [if_neg a, if_neg b, if_neg d, if_neg e, if_neg f, if_neg g, if_neg i, if_neg j,
    if_neg k]

/-- The design of a half-wave plate (specification): anti-reflection coatings from the outside
inwards, each with thickness [mm], index and loss; the thickness [mm] of one sapphire plate; and the
directions of the optical axes of the plates [deg]. -/
structure Design where
  coats : List (ℝ × ℝ × ℝ)
  plate : ℝ
  axes : List ℝ

/-- The stack of a design: the coatings, the plates, and the coatings in reverse.  Lengths in metres,
angles in radians; a coating is isotropic and not rotated, a plate is birefringent sapphire. -/
noncomputable def Design.stack (d : Design) : Stack :=
  let coat := fun (c : ℝ × ℝ × ℝ) => (c.1 / 1000, (⟨c.2.1, c.2.1, c.2.2, c.2.2⟩ : Material), (0 : ℝ))
  let plate := fun (a : ℝ) =>
    (d.plate / 1000, (⟨3.019, 3.336, 2.3e-4, 1.25e-4⟩ : Material), a * (π / 180))
  ofLayers (d.coats.map coat ++ d.axes.map plate ++ d.coats.reverse.map coat)

/-- The documented designs (specification). -/
noncomputable def designs : List (String × Design) :=
  let std := [(0.5, 1.268, 1.2e-3), (0.31, 1.979, 1.2e-3), (0.257, 2.855, 1.2e-3)]
  [("SPIDER_95", ⟨[(0.427, 1.951, 1.2e-3)], 4.93, [0]⟩),
   ("SPIDER_150", ⟨[(0.254, 1.935, 1.2e-3), (0.006, 1.51, 1e-3)], 3.16, [0]⟩),
   ("3AR1BRopti", ⟨[(0.358, 1.524, 1.2e-3), (1.849, 2.644, 1.2e-3), (1.978, 3.439, 1.2e-3)], 3.6,
     [0]⟩),
   ("1BR", ⟨std, 3.75, [0]⟩),
   ("3AR3BRopti", ⟨[(0.338, 1.344, 1.2e-3), (0.132, 1.542, 1.2e-3), (0.240, 2.350, 1.2e-3)], 3.86,
     [0, 52.5, 0]⟩),
   ("3BR", ⟨std, 3.75, [0, 54, 0]⟩),
   ("3AR5BRopti", ⟨[(0.356, 1.279, 1.2e-3), (0.225, 1.782, 1.2e-3), (0.188, 2.511, 1.2e-3)], 3.86,
     [0, 29, 94.5, 29, 2]⟩),
   ("3AR5BRstd", ⟨std, 3.75, [0, 26.5, 94.8, 28.1, -2.6]⟩),
   ("5BR", ⟨std, 3.75, [22.9, -50, 0, 50, -22.9]⟩)]

/-- **C64 (designs).** Every predefined model is the stack of its design: the same coatings on both
sides in mirrored order, in between one sapphire plate for each angle, with exactly those angles. -/
theorem C64_design (name : String) (d : Design) (h : (name, d) ∈ designs) :
    chooseHwpModel name = .ok d.stack := by
  simp only [designs, List.mem_cons, List.not_mem_nil, or_false, Prod.mk.injEq] at h
  rcases h with ⟨rfl, rfl⟩ | ⟨rfl, rfl⟩ | ⟨rfl, rfl⟩ | ⟨rfl, rfl⟩ | ⟨rfl, rfl⟩ | ⟨rfl, rfl⟩ |
    ⟨rfl, rfl⟩ | ⟨rfl, rfl⟩ | ⟨rfl, rfl⟩ <;>
  · unfold chooseHwpModel
    simp only [Design.stack, ofLayers, degs, mm, quartz, circlex, hdpe, artAr1Mono, artAr2Mono,
      artAr3Mono, equalAr1, equalAr2, equalAr3, a3b3Ar1, a3b3Ar2, a3b3Ar3, a3b5Ar1, a3b5Ar2, a3b5Ar3,
      iso, spiderSapphire, List.map_cons, List.map_nil, List.cons_append, List.nil_append,
      List.reverse_cons, List.reverse_nil, List.append_nil, String.reduceEq, if_true, if_false,
      Except.ok.injEq, Stack.mk.injEq, List.cons.injEq, and_true, true_and, Material.mk.injEq]
    norm_num
    try ring_nf
    try simp

example : ("5BR", (⟨[(0.5, 1.268, 1.2e-3), (0.31, 1.979, 1.2e-3), (0.257, 2.855, 1.2e-3)], 3.75,
    [22.9, -50, 0, 50, -22.9]⟩ : Design)) ∈ designs ∧ designs.map (·.1) = hwpNames := by
  simp [designs, hwpNames]

/-- **C64 (oblique incidence).** For every well-formed stack the transfer matrix that
`compute_mueller` needs exists for every frequency and every incidence angle. -/
theorem C64_transfer_exists (s : Stack) (hs : WellFormed s) (freq vartheta : ℝ) :
    ∃ tr, stackTransferMatrix s (1.0e9 * freq) vartheta 0 1 1 = .ok tr := by
  obtain ⟨l, rfl, -, -, hl⟩ := wellFormed_layers hs
  have hb : |sin vartheta * 1| ≤ 1 := by rw [mul_one]; exact abs_sin_le_one _
  obtain ⟨T, hT⟩ := C37_exists l (1.0e9 * freq) vartheta 0 1 1 one_ne_zero (by simpa using hb)
    (fun x hx => ⟨lt_of_le_of_lt hb (hl x hx).1, lt_of_le_of_lt hb (hl x hx).2.1⟩)
  unfold total at hT
  rcases h : stackTransferMatrix (ofLayers l) (1.0e9 * freq) vartheta 0 1 1 with e | tr
  · rw [h] at hT
    cases hT
  · exact ⟨tr, rfl⟩

/-- **C64 (normal incidence).** For every well-formed stack and every frequency `compute_mueller`
returns a Mueller matrix, and no fully polarised radiation leaves the plate brighter than it
came. -/
theorem C64_compute_mueller (s : Stack) (hs : WellFormed s) (freq : ℝ) (hf : 0 ≤ freq) :
    ∃ M, computeMueller (some s) freq 0 = .ok M ∧
      ∀ e, 0 ≤ M.mulVec (stokes e) 0 ∧ M.mulVec (stokes e) 0 ≤ stokes e 0 := by
  obtain ⟨l, rfl, hne, ht, hl⟩ := wellFormed_layers hs
  obtain ⟨jt, jr, hj, he⟩ := C65_energy l hne
    (fun x hx => ⟨(ht x hx).le, by linarith [(hl x hx).1], by linarith [(hl x hx).2.1],
      (hl x hx).2.2.1, (hl x hx).2.2.2⟩) (1.0e9 * freq) 0 1 1 (by positivity) one_pos one_pos
  refine ⟨jonesToMueller jt, ?_, fun e => ?_⟩
  · unfold computeMueller mueller
    unfold jones at hj
    simp only [bind, Except.bind] at hj ⊢
    rcases h : stackTransferMatrix (ofLayers l) (1.0e9 * freq) 0 0 1 1 with e | tr
    · rw [h] at hj
      cases hj
    · rw [h] at hj
      simp only at hj ⊢
      rw [hj]
      rfl
  · rw [C35_stokes]
    have h := (he e).1
    simp only [one_mul] at h
    have h2 : 0 ≤ power (jr.mulVec e) := by unfold power; positivity
    have h3 : 0 ≤ power (jt.mulVec e) := by unfold power; positivity
    have hst : ∀ d : Fin 2 → ℂ, stokes d 0 = power d := fun d => rfl
    rw [hst, hst]
    exact ⟨h3, by linarith⟩

/-- **C64 (`stack_builder`).** User-defined stacks: arrays of matching sizes give a stack with the
given layers, thicknesses converted from millimetres to metres; other sizes are refused. -/
theorem C64_stack_builder (layers : List (ℝ × (ℝ × ℝ) × (ℝ × ℝ) × ℝ)) :
    stackBuilder (layers.map (·.1)) (layers.map (·.2.1)) (layers.map (·.2.2.1))
        (layers.map (·.2.2.2))
      = .ok (ofLayers (layers.map fun x =>
          (x.1 / 1000, ⟨x.2.1.1, x.2.1.2, x.2.2.1.1, x.2.2.1.2⟩, x.2.2.2))) ∧
    ∀ (t a : List ℝ) (i l : List (ℝ × ℝ)),
      t.length ≠ a.length ∨ t.length ≠ i.length ∨ t.length ≠ l.length →
      stackBuilder t i l a = .error .valueError := by
  constructor
  · unfold stackBuilder
    rw [if_neg (by simp)]
    simp only [ofLayers, List.map_map, List.zipWith_map, Except.ok.injEq, Stack.mk.injEq]
    refine ⟨?_, ?_, rfl⟩
    · apply List.map_congr_left
      intro x _
      simp only [Function.comp, mm]
      ring
    · induction layers with
      | nil => rfl
      | cons x l ih => simp [ih]
  · intro t a i l h
    unfold stackBuilder
    rw [if_pos (by omega)]

/-- `compute_mueller` before a stack is set raises. -/
example (f v : ℝ) : computeMueller none f v = .error .attributeError := rfl

end Verif.Props
