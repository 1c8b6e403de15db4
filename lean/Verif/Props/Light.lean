import Verif.Spec.Light
import Verif.Props.Band

/-!
# Property C128: light stays light
-/

noncomputable section

namespace Verif.Props

open Verif.Optics Verif.Spec.Light Real Matrix

namespace Lit

theorem stokes_possible (e : Fin 2 → ℂ) : Possible (stokes e) := by
  have h0 : ‖e 0‖ ^ 2 = (e 0).re ^ 2 + (e 0).im ^ 2 := by
    rw [← Complex.normSq_eq_norm_sq, Complex.normSq_apply]
    ring
  have h1 : ‖e 1‖ ^ 2 = (e 1).re ^ 2 + (e 1).im ^ 2 := by
    rw [← Complex.normSq_eq_norm_sq, Complex.normSq_apply]
    ring
  constructor
  · show 0 ≤ ‖e 0‖ ^ 2 + ‖e 1‖ ^ 2
    positivity
  · apply le_of_eq
    show (‖e 0‖ ^ 2 - ‖e 1‖ ^ 2) ^ 2 + (2 * (e 0 * star (e 1)).re) ^ 2 + (-2 * (e 0 * star (e 1)).im) ^ 2 =
      (‖e 0‖ ^ 2 + ‖e 1‖ ^ 2) ^ 2
    rw [h0, h1]
    simp only [Complex.mul_re, Complex.mul_im, Complex.star_def, Complex.conj_re, Complex.conj_im]
    ring

theorem possible_add {s t : Fin 4 → ℝ} (hs : Possible s) (ht : Possible t) : Possible (s + t) := by
  obtain ⟨a0, a⟩ := hs
  obtain ⟨b0, b⟩ := ht
  refine ⟨add_nonneg a0 b0, ?_⟩
  simp only [Pi.add_apply]
  have cs : (s 1 * t 1 + s 2 * t 2 + s 3 * t 3) ^ 2 ≤ (s 0 * t 0) ^ 2 := by
    calc (s 1 * t 1 + s 2 * t 2 + s 3 * t 3) ^ 2
        ≤ (s 1 ^ 2 + s 2 ^ 2 + s 3 ^ 2) * (t 1 ^ 2 + t 2 ^ 2 + t 3 ^ 2) := by
          nlinarith [sq_nonneg (s 1 * t 2 - s 2 * t 1), sq_nonneg (s 1 * t 3 - s 3 * t 1),
            sq_nonneg (s 2 * t 3 - s 3 * t 2)]
      _ ≤ s 0 ^ 2 * t 0 ^ 2 := mul_le_mul a b (by positivity) (by positivity)
      _ = (s 0 * t 0) ^ 2 := by ring
  have := abs_le_of_sq_le_sq' cs (mul_nonneg a0 b0)
  nlinarith [this.2]

theorem possible_smul {k : ℝ} (hk : 0 ≤ k) {s : Fin 4 → ℝ} (hs : Possible s) : Possible (k • s) := by
  refine ⟨mul_nonneg hk hs.1, ?_⟩
  simp only [Pi.smul_apply, smul_eq_mul, mul_pow]
  have := mul_le_mul_of_nonneg_left hs.2 (sq_nonneg k)
  linarith

theorem possible_zero : Possible 0 := ⟨le_rfl, by simp⟩

theorem possible_sum {n : Nat} {f : Nat → Fin 4 → ℝ} (h : ∀ i < n, Possible (f i)) :
    Possible (∑ i ∈ Finset.range n, f i) := by
  induction n with
  | zero => simpa using possible_zero
  | succ n ih =>
    rw [Finset.sum_range_succ]
    exact possible_add (ih fun i hi => h i (by omega)) (h n (by omega))

/-- Fully polarized light is the light of a field. -/
theorem polarized {s : Fin 4 → ℝ} (h0 : 0 ≤ s 0) (h : s 1 ^ 2 + s 2 ^ 2 + s 3 ^ 2 = s 0 ^ 2) :
    ∃ e, stokes e = s := by
  have habs : |s 1| ≤ s 0 := abs_le_of_sq_le_sq (by nlinarith [sq_nonneg (s 2), sq_nonneg (s 3)]) h0
  have hle := abs_le.1 habs
  rcases eq_or_lt_of_le (show 0 ≤ s 0 + s 1 by linarith) with hz | hz
  · have e1 : s 1 = -s 0 := by linarith
    have e23 : s 2 ^ 2 + s 3 ^ 2 = 0 := by rw [e1] at h; linarith
    have e2 : s 2 = 0 := by nlinarith [sq_nonneg (s 2), sq_nonneg (s 3)]
    have e3 : s 3 = 0 := by nlinarith [sq_nonneg (s 2), sq_nonneg (s 3)]
    refine ⟨![0, ((√(s 0) : ℝ) : ℂ)], ?_⟩
    funext k
    fin_cases k
    · simp [stokes, Complex.norm_real, sq_sqrt h0]
    · simp [stokes, Complex.norm_real, sq_sqrt h0, e1]
    · simp [stokes, e2]
    · simp [stokes, e3]
  · have ha : 0 < (s 0 + s 1) / 2 := by linarith
    obtain ⟨a, hapos, hasq⟩ : ∃ a : ℝ, 0 < a ∧ a ^ 2 = (s 0 + s 1) / 2 :=
      ⟨_, sqrt_pos.2 ha, sq_sqrt ha.le⟩
    refine ⟨![(a : ℂ), ⟨s 2 / (2 * a), s 3 / (2 * a)⟩], ?_⟩
    have n0 : ‖(a : ℂ)‖ ^ 2 = (s 0 + s 1) / 2 := by
      rw [Complex.norm_real, norm_eq_abs, sq_abs, hasq]
    have n1 : ‖(⟨s 2 / (2 * a), s 3 / (2 * a)⟩ : ℂ)‖ ^ 2 = (s 0 - s 1) / 2 := by
      rw [← Complex.normSq_eq_norm_sq, Complex.normSq_apply]
      simp only
      have : s 2 / (2 * a) * (s 2 / (2 * a)) + s 3 / (2 * a) * (s 3 / (2 * a)) =
          (s 2 ^ 2 + s 3 ^ 2) / (4 * a ^ 2) := by
        field_simp
        ring
      rw [this, hasq, div_eq_iff (by linarith)]
      nlinarith
    funext k
    fin_cases k
    · show ‖(a : ℂ)‖ ^ 2 + ‖(⟨s 2 / (2 * a), s 3 / (2 * a)⟩ : ℂ)‖ ^ 2 = s 0
      rw [n0, n1]
      ring
    · show ‖(a : ℂ)‖ ^ 2 - ‖(⟨s 2 / (2 * a), s 3 / (2 * a)⟩ : ℂ)‖ ^ 2 = s 1
      rw [n0, n1]
      ring
    · show 2 * ((a : ℂ) * star (⟨s 2 / (2 * a), s 3 / (2 * a)⟩ : ℂ)).re = s 2
      simp only [Complex.mul_re, Complex.star_def, Complex.conj_re, Complex.conj_im, Complex.ofReal_re,
        Complex.ofReal_im]
      field_simp
      ring
    · show -2 * ((a : ℂ) * star (⟨s 2 / (2 * a), s 3 / (2 * a)⟩ : ℂ)).im = s 3
      simp only [Complex.mul_im, Complex.star_def, Complex.conj_re, Complex.conj_im, Complex.ofReal_re,
        Complex.ofReal_im]
      field_simp
      ring

/-- Possible light is the sum of the light of three fields. -/
theorem three {s : Fin 4 → ℝ} (h : Possible s) : ∃ a b c, s = stokes a + stokes b + stokes c := by
  set p := √(s 1 ^ 2 + s 2 ^ 2 + s 3 ^ 2) with hp
  have hp0 : 0 ≤ p := sqrt_nonneg _
  have hp2 : p ^ 2 = s 1 ^ 2 + s 2 ^ 2 + s 3 ^ 2 := sq_sqrt (by positivity)
  have hps : p ≤ s 0 := le_of_sq_le_sq (by rw [hp2]; exact h.2) h.1
  obtain ⟨a, ha⟩ := polarized (s := ![p, s 1, s 2, s 3]) hp0 (by simpa using hp2.symm)
  obtain ⟨b, hb⟩ := polarized (s := ![(s 0 - p) / 2, (s 0 - p) / 2, 0, 0])
    (by show 0 ≤ (s 0 - p) / 2; linarith) (by simp)
  obtain ⟨c, hc⟩ := polarized (s := ![(s 0 - p) / 2, -((s 0 - p) / 2), 0, 0])
    (by show 0 ≤ (s 0 - p) / 2; linarith) (by simp)
  refine ⟨a, b, c, ?_⟩
  rw [ha, hb, hc]
  funext k
  fin_cases k <;> simp
  ring

end Lit

open Lit

/-- **C128.** The Mueller matrix of every Jones matrix turns light that is possible into light that is
possible. -/
theorem C128_mueller (J : M2) (s : Fin 4 → ℝ) (h : Possible s) :
    Possible ((jonesToMueller J).mulVec s) := by
  obtain ⟨a, b, c, rfl⟩ := three h
  rw [Matrix.mulVec_add, Matrix.mulVec_add, C35_stokes, C35_stokes, C35_stokes]
  exact possible_add (possible_add (stokes_possible _) (stokes_possible _)) (stokes_possible _)

private theorem mueller_is {s : Stack} {f i r n1 n3 : ℝ} {reflected : Bool} {M : MR4}
    (h : mueller s f i r n1 n3 reflected = .ok M) : ∃ J, M = jonesToMueller J := by
  unfold mueller at h
  simp only [bind, Except.bind] at h
  split at h
  · cases h
  · split at h
    · cases h
    · cases h
      exact ⟨_, rfl⟩

/-- **C128, stacks.** So does every matrix that `Mueller` or `compute_mueller` gives, for transmitted and
reflected light, at any angle, whatever the layers are. -/
theorem C128_stack {st : Stack} {f i r n1 n3 : ℝ} {reflected : Bool} {M : MR4}
    (h : mueller st f i r n1 n3 reflected = .ok M) (s : Fin 4 → ℝ) (hs : Possible s) :
    Possible (M.mulVec s) := by
  obtain ⟨J, rfl⟩ := mueller_is h
  exact C128_mueller J s hs

theorem C128_plate {st : Option Stack} {f v : ℝ} {M : MR4} (h : computeMueller st f v = .ok M)
    (s : Fin 4 → ℝ) (hs : Possible s) : Possible (M.mulVec s) := by
  cases st with
  | none => cases h
  | some st => exact C128_stack h s hs

/-- **C128, bands.** So does the average over every band in which neither the source nor the detector
response is negative. -/
theorem C128_band {st : Stack} {spectrum : List (ℝ × ℝ)} {a b : ℝ} {reflected : Bool}
    {pb : Option (List (ℝ × ℝ))} {inc : ℝ} {n : Nat} {rot n1 n3 : ℝ} {M : MR4}
    (h : bandAveragedMueller st spectrum a b reflected pb inc n rot n1 n3 = .ok (some M))
    (hs : ∀ r ∈ spectrum, 0 ≤ r.2) (hp : ∀ data, pb = some data → ∀ r ∈ data, 0 ≤ r.2)
    (s : Fin 4 → ℝ) (hl : Possible s) : Possible (M.mulVec s) := by
  obtain ⟨S, P, Ms, h1, -, h3⟩ := C104_average_partial h
  have hw : ∀ i < n, 0 ≤ edge n i * (S i * P i) := fun i hi =>
    weights_nonneg hs hp (h1 i hi).1 (h1 i hi).2.1
  rw [h3 M rfl, Matrix.smul_mulVec]
  apply possible_smul (inv_nonneg.2 (Finset.sum_nonneg fun i hi => hw i (Finset.mem_range.1 hi)))
  have : (∑ i ∈ Finset.range n, (edge n i * (S i * P i)) • Ms i).mulVec s =
      ∑ i ∈ Finset.range n, (edge n i * (S i * P i)) • (Ms i).mulVec s := by
    rw [Matrix.sum_mulVec]
    exact Finset.sum_congr rfl fun i _ => Matrix.smul_mulVec _ _ _
  rw [this]
  exact possible_sum fun i hi => possible_smul (hw i hi) (C128_stack (h1 i hi).2.2 s hl)

/-- **C128, energy.** A plate of passive layers at normal incidence makes no light of any polarization, in
part or in whole, brighter. -/
theorem C128_energy (st : Stack) (hst : WellFormed st) (freq : ℝ) (hf : 0 ≤ freq) :
    ∃ M, computeMueller (some st) freq 0 = .ok M ∧ ∀ s, Possible s →
      Possible (M.mulVec s) ∧ M.mulVec s 0 ≤ s 0 := by
  obtain ⟨M, hM, he⟩ := C64_compute_mueller st hst freq hf
  refine ⟨M, hM, fun s hs => ⟨C128_plate hM s hs, ?_⟩⟩
  obtain ⟨a, b, c, rfl⟩ := three hs
  rw [Matrix.mulVec_add, Matrix.mulVec_add]
  exact add_le_add (add_le_add (he a).2 (he b).2) (he c).2

/-- **C128, rotation.** `MuellerRotation` by multiples of 90 degrees of a matrix that keeps light possible
keeps light possible.  Missing: all other angles (`C128_violation_rotation`). -/
theorem C128_rotation_partial (M : MR4) (hM : ∀ s, Possible s → Possible (M.mulVec s)) (theta : ℝ)
    (h : sin (2 * theta) = 0) (s : Fin 4 → ℝ) (hs : Possible s) :
    Possible ((muellerRotation M theta).mulVec s) := by
  have hc : cos (2 * theta) ^ 2 = 1 := by
    have := cos_sq_add_sin_sq (2 * theta)
    rw [h] at this
    linarith
  have e : -2 * theta = -(2 * theta) := by ring
  have hr : ∀ v : Fin 4 → ℝ, Possible v → Possible ((!![1, 0, 0, 0; 0, cos (2 * theta), 0, 0;
      0, 0, cos (2 * theta), 0; 0, 0, 0, 1] : MR4).mulVec v) := by
    rintro v ⟨h0, h1⟩
    refine ⟨?_, ?_⟩
    · simpa [Matrix.mulVec, dotProduct, Fin.sum_univ_four] using h0
    · simp [Matrix.mulVec, dotProduct, Fin.sum_univ_four]
      rw [mul_pow, mul_pow, hc, one_mul, one_mul]
      exact h1
  have := hr _ (hM _ (hr s hs))
  rw [Matrix.mulVec_mulVec, Matrix.mulVec_mulVec] at this
  simpa only [muellerRotation, e, cos_neg, sin_neg, h, neg_zero, Matrix.mul_assoc] using this

/-- The hypotheses of `C128_rotation_partial` are met by a polarizer that is turned by 90 degrees. -/
example (s : Fin 4 → ℝ) (hs : Possible s) :
    Possible ((muellerRotation (jonesToMueller !![1, 0; 0, 0]) (π / 2)).mulVec s) :=
  C128_rotation_partial _ (C128_mueller _) _ (by rw [mul_div_cancel₀ _ two_ne_zero]; exact sin_pi) s hs

/-- **C128 (violation).** `MuellerRotation` makes impossible light: fully polarized light comes out of a plate
that does nothing, turned by 22.5 degrees, with more polarization than light. -/
theorem C128_violation_rotation :
    Possible ![1, 1, 0, 0] ∧
    ¬ Possible ((muellerRotation (jonesToMueller 1) (π / 8)).mulVec ![1, 1, 0, 0]) := by
  refine ⟨⟨by norm_num, by simp⟩, ?_⟩
  rw [C35_identity]
  rintro ⟨-, h⟩
  have e1 : 2 * (π / 8) = π / 4 := by ring
  have e2 : -2 * (π / 8) = -(π / 4) := by ring
  have h2 : (√2 / 2) * (√2 / 2) = (1 / 2 : ℝ) := by
    have := mul_self_sqrt (show (0 : ℝ) ≤ 2 by norm_num)
    nlinarith
  simp only [muellerRotation, e1, e2, cos_neg, sin_neg, cos_pi_div_four, sin_pi_div_four, Matrix.one_mul,
    ← Matrix.mulVec_mulVec] at h
  simp [Matrix.mulVec, dotProduct, Fin.sum_univ_four] at h
  nlinarith

/-- Light of every kind is possible: none, unpolarized, partly polarized; negative intensity is not. -/
example : Possible ![0, 0, 0, 0] ∧ Possible ![1, 0, 0, 0] ∧ Possible ![2, 1, 1, 1] ∧
    ¬ Possible ![-1, 0, 0, 0] ∧ ¬ Possible ![1, 1, 0.5, 0] := by
  refine ⟨⟨?_, ?_⟩, ⟨?_, ?_⟩, ⟨?_, ?_⟩, ?_, ?_⟩ <;> simp [Possible] <;> norm_num

end Verif.Props
