import Mathlib.MeasureTheory.Function.L1Space.Integrable
import Mathlib.Probability.ProbabilityMassFunction.Integrals
import Mathlib.Probability.Distributions.Uniform
import Verif.Spec.Noise
import Verif.Props.BestFit

/-!
# C155: the noise of solved maps
-/

noncomputable section

namespace Verif.Props

open Verif.MapMaking Verif.ScanInstrument Verif.Spec MeasureTheory

namespace Noise

/-- The weights of an observation in pixel `p`. -/
def z (p : Nat) (o : Obs) : Fin 3 → ℝ := if o.pix = (p : Int) then o.w else 0

theorem proj_sum {n : Nat} (obs : Fin n → Obs) (p : Nat) :
    projAt ((List.finRange n).map obs) p = ∑ k, Matrix.vecMulVec (z p (obs k)) (z p (obs k)) := by
  have : ∀ ks : List (Fin n), projAt (ks.map obs) p =
      (ks.map fun k => Matrix.vecMulVec (z p (obs k)) (z p (obs k))).sum := by
    intro ks
    unfold projAt here
    induction ks with
    | nil => rfl
    | cons k ks ih =>
      simp only [List.map_cons, List.filter_cons, List.sum_cons]
      by_cases h : (obs k).pix = (p : Int)
      · rw [if_pos (decide_eq_true h), List.map_cons, List.sum_cons, ih, z, if_pos h]
      · rw [if_neg (by simpa using h), ih, z, if_neg h]
        simp
  rw [this, ← List.sum_ofFn, List.ofFn_eq_map]

theorem vec_sum {n : Nat} (obs : Fin n → Obs) (d : Fin n → ℝ) (p : Nat) :
    vecAt ((List.finRange n).map fun k => (obs k).reading (d k)) p = ∑ k, d k • z p (obs k) := by
  have : ∀ ks : List (Fin n), vecAt (ks.map fun k => (obs k).reading (d k)) p =
      (ks.map fun k => d k • z p (obs k)).sum := by
    intro ks
    unfold vecAt here
    induction ks with
    | nil => rfl
    | cons k ks ih =>
      simp only [List.map_cons, List.filter_cons, List.sum_cons]
      by_cases h : (obs k).pix = (p : Int)
      · rw [if_pos (decide_eq_true (by exact h)), List.map_cons, List.sum_cons, ih, z, if_pos h]
        rfl
      · rw [if_neg (by rw [decide_eq_true_eq]; exact h), ih, z, if_neg h]
        simp
  rw [this, ← List.sum_ofFn, List.ofFn_eq_map]

variable {Ω : Type} [MeasurableSpace Ω] {μ : Measure Ω} {n : Nat} {noise : Fin n → Ω → ℝ} {var : ℝ}

theorem mean [IsProbabilityMeasure μ] (hw : White μ noise var) (a : Fin n → ℝ) :
    ∫ ω, ∑ k, a k * noise k ω ∂μ = 0 := by
  rw [integral_finsetSum _ fun k _ => ((hw.square k).integrable one_le_two).const_mul _]
  refine Finset.sum_eq_zero fun k _ => ?_
  rw [integral_const_mul, hw.mean, mul_zero]

theorem cov (hw : White μ noise var) (a b : Fin n → ℝ) :
    ∫ ω, (∑ k, a k * noise k ω) * (∑ l, b l * noise l ω) ∂μ = var * ∑ k, a k * b k := by
  have hi : ∀ k l, Integrable (fun ω => noise k ω * noise l ω) μ := fun k l =>
    (hw.square k).integrable_mul (hw.square l)
  have e : ∀ ω, (∑ k, a k * noise k ω) * (∑ l, b l * noise l ω) =
      ∑ k, ∑ l, (a k * b l) * (noise k ω * noise l ω) := by
    intro ω
    rw [Finset.sum_mul_sum]
    exact Finset.sum_congr rfl fun k _ => Finset.sum_congr rfl fun l _ => by ring
  simp only [e]
  rw [integral_finsetSum _ fun k _ => integrable_finsetSum _ fun l _ => (hi k l).const_mul _, Finset.mul_sum]
  refine Finset.sum_congr rfl fun k _ => ?_
  rw [integral_finsetSum _ fun l _ => (hi k l).const_mul _]
  simp only [integral_const_mul, hw.cov]
  simp only [mul_ite, mul_zero, Finset.sum_ite_eq, Finset.mem_univ, if_true]
  ring

/-- The solved map of noisy observations. -/
theorem solved (q : QExt) (hs : SolveOk q) {nside : Nat} (obs : Fin n → Obs)
    (hu : ∀ k, (obs k).c ^ 2 + (obs k).s ^ 2 = 1) {m : Maps} (h : Holds nside m ((List.finRange n).map obs))
    (fill : ℝ) {p : Nat} (hp : p < 12 * nside ^ 2) (h3 : ThreeAngles (here p ((List.finRange n).map obs))) :
    ∃ v c, (solveForMap q m fill)[p]? = some v ∧ m[p]? = some c ∧ (sym c.proj).det ≠ 0 ∧
      sym c.proj = projAt ((List.finRange n).map obs) p ∧
      ∀ (d : Fin n → ℝ) (m' : Maps),
        Holds nside m' ((List.finRange n).map fun k => (obs k).reading ((obs k).d + d k)) →
        (solveForMap q m' fill)[p]? =
          some (v + fun i => ∑ k, ((sym c.proj)⁻¹.mulVec (z p (obs k))) i * d k) := by
  have hu0 : ∀ o ∈ (List.finRange n).map obs, o.c ^ 2 + o.s ^ 2 = 1 := by
    intro o ho
    obtain ⟨k, -, rfl⟩ := List.mem_map.1 ho
    exact hu k
  obtain ⟨v, v1, -⟩ := BestFit.normal q hs h hu0 fill hp h3
  have hl : p < m.length := by rw [h.npix]; exact hp
  have hc : m[p]? = some m[p] := List.getElem?_eq_getElem hl
  have hdet := (C88_regular h hu0 hc).2 h3
  have hproj := (h.cells p _ hc).2
  refine ⟨v, m[p], v1, hc, hdet, hproj, fun d m' h' => ?_⟩
  obtain ⟨v', e, e1, e2, e3⟩ := C150_noise q hs (List.finRange n) obs d (fun k _ => hu k) h
    (holds_mapsOf nside ((List.finRange n).map fun k => (obs k).reading (d k))) h' fill hp h3
  have : v' = v := Option.some.inj (e1.symm.trans v1)
  subst this
  rw [e3]
  have hn := holds_mapsOf nside ((List.finRange n).map fun k => (obs k).reading (d k))
  have hb : ((List.finRange n).map fun k => (obs k).reading (d k)).map blank =
      ((List.finRange n).map obs).map blank := by
    simp [blank, Obs.reading, Function.comp_def]
  obtain ⟨e', f1, f2⟩ := BestFit.normal q hs hn (by
    intro o ho
    obtain ⟨k, -, rfl⟩ := List.mem_map.1 ho
    exact hu k) fill hp (by rwa [← three_blank, ← here_blank, hb, here_blank, three_blank])
  have : e' = e := Option.some.inj (f1.symm.trans e2)
  subst this
  have hP : projAt ((List.finRange n).map fun k => (obs k).reading (d k)) p =
      projAt ((List.finRange n).map obs) p := by
    rw [proj_sum, proj_sum]
    rfl
  rw [hP, ← hproj, vec_sum] at f2
  congr 2
  have hunit : IsUnit (sym m[p].proj).det := isUnit_iff_ne_zero.2 hdet
  have : e' = (sym m[p].proj)⁻¹.mulVec (∑ k, d k • z p (obs k)) := by
    rw [← f2, Matrix.mulVec_mulVec, Matrix.nonsing_inv_mul _ hunit, Matrix.one_mulVec]
  rw [this, Matrix.mulVec_sum]
  funext i
  rw [Finset.sum_apply]
  refine Finset.sum_congr rfl fun k _ => ?_
  rw [Matrix.mulVec_smul, Pi.smul_apply, smul_eq_mul, mul_comm]

theorem gram {A : Matrix (Fin 3) (Fin 3) ℝ} (hd : A.det ≠ 0) (y : Fin n → Fin 3 → ℝ)
    (hA : A = ∑ k, Matrix.vecMulVec (y k) (y k)) (i j : Fin 3) :
    ∑ k, (A⁻¹.mulVec (y k)) i * (A⁻¹.mulVec (y k)) j = A⁻¹ i j := by
  have ht : A.transpose = A := by
    rw [hA, Matrix.transpose_sum]
    exact Finset.sum_congr rfl fun k _ => by
      ext a b
      simp [Matrix.vecMulVec_apply, mul_comm]
  have hunit : IsUnit A.det := isUnit_iff_ne_zero.2 hd
  have : ∑ k, Matrix.vecMulVec (A⁻¹.mulVec (y k)) (A⁻¹.mulVec (y k)) = A⁻¹ := by
    have e : ∀ k, Matrix.vecMulVec (A⁻¹.mulVec (y k)) (A⁻¹.mulVec (y k)) =
        A⁻¹ * Matrix.vecMulVec (y k) (y k) * A⁻¹ := by
      intro k
      rw [Matrix.mul_vecMulVec, Matrix.vecMulVec_mul]
      congr 1
      rw [← Matrix.mulVec_transpose, Matrix.transpose_nonsing_inv, ht]
    simp only [e]
    rw [← Finset.sum_mul, ← Finset.mul_sum, ← hA, Matrix.nonsing_inv_mul _ hunit, one_mul]
  have := congrFun (congrFun this i) j
  rw [← this, Matrix.sum_apply]
  rfl

/-- The solved map of one pixel recovers its Stokes parameters. -/
theorem recovers {A : Matrix (Fin 3) (Fin 3) ℝ} (hd : A.det ≠ 0) (obs : Fin n → Obs) (p : Nat)
    (hA : A = ∑ k, Matrix.vecMulVec (z p (obs k)) (z p (obs k))) (i : Fin 3) :
    Recovers obs (fun k => (A⁻¹.mulVec (z p (obs k))) i) p i := by
  intro sky
  have hunit : IsUnit A.det := isUnit_iff_ne_zero.2 hd
  have e : ∀ k, (A⁻¹.mulVec (z p (obs k))) i * (obs k).of sky =
      (A⁻¹.mulVec ((Matrix.vecMulVec (z p (obs k)) (z p (obs k))).mulVec (sky p))) i := by
    intro k
    by_cases h : (obs k).pix = (p : Int)
    · have : (Matrix.vecMulVec (z p (obs k)) (z p (obs k))).mulVec (sky p) =
          (obs k).of sky • z p (obs k) := by
        rw [Matrix.vecMulVec_mulVec]
        unfold z Obs.of
        rw [if_pos h, h]
        simp [Obs.w, dotProduct, Fin.sum_univ_three, mul_comm]
      rw [this, Matrix.mulVec_smul, Pi.smul_apply, smul_eq_mul, mul_comm]
    · unfold z
      rw [if_neg h]
      simp
  simp only [e]
  rw [← Finset.sum_apply, ← Matrix.mulVec_sum, ← Matrix.sum_mulVec, ← hA, Matrix.mulVec_mulVec,
    Matrix.nonsing_inv_mul _ hunit, Matrix.one_mulVec]

theorem hits {n : Nat} (obs : Fin n → Obs) (p : Nat) :
    ((here p ((List.finRange n).map obs)).length : ℝ) = ∑ k, if (obs k).pix = (p : Int) then (1 : ℝ) else 0 := by
  have : ∀ ks : List (Fin n), ((here p (ks.map obs)).length : ℝ) =
      (ks.map fun k => if (obs k).pix = (p : Int) then (1 : ℝ) else 0).sum := by
    intro ks
    unfold here
    induction ks with
    | nil => simp
    | cons k ks ih =>
      simp only [List.map_cons, List.filter_cons, List.sum_cons]
      by_cases h : (obs k).pix = (p : Int)
      · rw [if_pos (decide_eq_true h), if_pos h, List.length_cons, Nat.cast_add, ih, Nat.cast_one, add_comm]
      · rw [if_neg (by simpa using h), if_neg h, ih, zero_add]
  rw [this, ← List.sum_ofFn, List.ofFn_eq_map]

theorem dual {A : Matrix (Fin 3) (Fin 3) ℝ} (hd : A.det ≠ 0) (y : Fin n → Fin 3 → ℝ)
    (hA : A = ∑ k, Matrix.vecMulVec (y k) (y k)) (i j : Fin 3) :
    ∑ k, (A⁻¹.mulVec (y k)) i * y k j = if i = j then 1 else 0 := by
  have hunit : IsUnit A.det := isUnit_iff_ne_zero.2 hd
  have : ∑ k, Matrix.vecMulVec (A⁻¹.mulVec (y k)) (y k) = 1 := by
    simp only [← Matrix.mul_vecMulVec]
    rw [← Finset.mul_sum, ← hA, Matrix.nonsing_inv_mul _ hunit]
  have := congrFun (congrFun this i) j
  rw [Matrix.one_apply] at this
  rw [← this, Matrix.sum_apply]
  rfl

end Noise

open Noise

/-- **C155.** If white noise is added to the observations, the solved map of a pixel that is observed under three
angles has no bias, and the covariance of its noise is the variance times the inverse of the binned matrix of the
pixel, whatever the sky. -/
theorem C155_covariance {Ω : Type} [MeasurableSpace Ω] (μ : Measure Ω) [IsProbabilityMeasure μ] (q : QExt)
    (hs : SolveOk q) {nside n : Nat} (obs : Fin n → Obs) (hu : ∀ k, (obs k).c ^ 2 + (obs k).s ^ 2 = 1)
    (noise : Fin n → Ω → ℝ) (var : ℝ) (hw : White μ noise var) {m : Maps} {m' : Ω → Maps}
    (h : Holds nside m ((List.finRange n).map obs))
    (h' : ∀ ω, Holds nside (m' ω) ((List.finRange n).map fun k => (obs k).reading ((obs k).d + noise k ω)))
    (fill : ℝ) {p : Nat} (hp : p < 12 * nside ^ 2) (h3 : ThreeAngles (here p ((List.finRange n).map obs))) :
    ∃ v c, ∃ x : Ω → Fin 3 → ℝ, (solveForMap q m fill)[p]? = some v ∧ m[p]? = some c ∧
      (∀ ω, (solveForMap q (m' ω) fill)[p]? = some (x ω)) ∧ (sym c.proj).det ≠ 0 ∧
      (∀ i, ∫ ω, x ω i ∂μ = v i) ∧
      ∀ i j, ∫ ω, (x ω i - v i) * (x ω j - v j) ∂μ = var * (sym c.proj)⁻¹ i j := by
  obtain ⟨v, c, v1, c1, hd, hP, hx⟩ := Noise.solved q hs obs hu h fill hp h3
  refine ⟨v, c, _, v1, c1, fun ω => hx _ _ (h' ω), hd, fun i => ?_, fun i j => ?_⟩
  · simp only [Pi.add_apply]
    rw [integral_add (integrable_const _) (integrable_finsetSum _ fun k _ =>
      ((hw.square k).integrable one_le_two).const_mul _), Noise.mean hw]
    simp
  · simp only [Pi.add_apply, add_sub_cancel_left]
    rw [Noise.cov hw, gram hd (fun k => z p (obs k)) (hP.trans (proj_sum obs p))]

/-- **C155, any noise.** Noise that is not white, such as drifts, or that differs between detectors does not bias a
solved pixel either, if its mean is zero in every sample. -/
theorem C155_unbiased {Ω : Type} [MeasurableSpace Ω] (μ : Measure Ω) [IsProbabilityMeasure μ] (q : QExt)
    (hs : SolveOk q) {nside n : Nat} (obs : Fin n → Obs) (hu : ∀ k, (obs k).c ^ 2 + (obs k).s ^ 2 = 1)
    (noise : Fin n → Ω → ℝ) (hi : ∀ k, Integrable (noise k) μ) (h0 : ∀ k, ∫ ω, noise k ω ∂μ = 0)
    {m : Maps} {m' : Ω → Maps} (h : Holds nside m ((List.finRange n).map obs))
    (h' : ∀ ω, Holds nside (m' ω) ((List.finRange n).map fun k => (obs k).reading ((obs k).d + noise k ω)))
    (fill : ℝ) {p : Nat} (hp : p < 12 * nside ^ 2) (h3 : ThreeAngles (here p ((List.finRange n).map obs))) :
    ∃ v, ∃ x : Ω → Fin 3 → ℝ, (solveForMap q m fill)[p]? = some v ∧
      (∀ ω, (solveForMap q (m' ω) fill)[p]? = some (x ω)) ∧ ∀ i, ∫ ω, x ω i ∂μ = v i := by
  obtain ⟨v, c, v1, c1, hd, hP, hx⟩ := Noise.solved q hs obs hu h fill hp h3
  refine ⟨v, _, v1, fun ω => hx _ _ (h' ω), fun i => ?_⟩
  simp only [Pi.add_apply]
  rw [integral_add (integrable_const _) (integrable_finsetSum _ fun k _ => (hi k).const_mul _),
    integral_finsetSum _ fun k _ => (hi k).const_mul _]
  simp only [integral_const_mul, h0]
  simp

/-- **C155, best estimate.** No sum of the observations that recovers a Stokes parameter of the pixel for all
skies has less noise than the solved map (the theorem of Gauss and Markov). -/
theorem C155_least_noise {Ω : Type} [MeasurableSpace Ω] (μ : Measure Ω) [IsProbabilityMeasure μ] (q : QExt)
    (hs : SolveOk q) {nside n : Nat} (obs : Fin n → Obs) (hu : ∀ k, (obs k).c ^ 2 + (obs k).s ^ 2 = 1)
    (noise : Fin n → Ω → ℝ) (var : ℝ) (hw : White μ noise var) {m : Maps} {m' : Ω → Maps}
    (h : Holds nside m ((List.finRange n).map obs))
    (h' : ∀ ω, Holds nside (m' ω) ((List.finRange n).map fun k => (obs k).reading ((obs k).d + noise k ω)))
    (fill : ℝ) {p : Nat} (hp : p < 12 * nside ^ 2) (h3 : ThreeAngles (here p ((List.finRange n).map obs)))
    (i : Fin 3) (g : Fin n → ℝ) (hg : Recovers obs g p i) :
    ∃ v, ∃ x : Ω → Fin 3 → ℝ, (solveForMap q m fill)[p]? = some v ∧
      (∀ ω, (solveForMap q (m' ω) fill)[p]? = some (x ω)) ∧
      ∫ ω, (x ω i - v i) ^ 2 ∂μ ≤
        ∫ ω, (∑ k, g k * ((obs k).d + noise k ω) - ∑ k, g k * (obs k).d) ^ 2 ∂μ := by
  obtain ⟨v, c, v1, c1, hd, hP, hx⟩ := Noise.solved q hs obs hu h fill hp h3
  refine ⟨v, _, v1, fun ω => hx _ _ (h' ω), ?_⟩
  have e : ∀ ω, ∑ k, g k * ((obs k).d + noise k ω) - ∑ k, g k * (obs k).d = ∑ k, g k * noise k ω := by
    intro ω
    rw [← Finset.sum_sub_distrib]
    exact Finset.sum_congr rfl fun k _ => by ring
  simp only [Pi.add_apply, add_sub_cancel_left, e, pow_two]
  rw [Noise.cov hw, Noise.cov hw]
  have hA := hP.trans (proj_sum obs p)
  have hG := gram hd (fun k => z p (obs k)) hA i i
  have hz : ∑ k, g k • z p (obs k) = Pi.single i 1 := by
    funext j
    have := hg fun p' => if p' = (p : Int) then Pi.single j 1 else 0
    rw [if_pos rfl] at this
    rw [Finset.sum_apply, Pi.single_comm]
    refine Eq.trans (Finset.sum_congr rfl fun k _ => ?_) this
    unfold z Obs.of
    dsimp only
    by_cases hk : (obs k).pix = (p : Int)
    · rw [if_pos hk, if_pos hk]
      fin_cases j <;> simp [Obs.w]
    · rw [if_neg hk, if_neg hk]
      simp
  have hc : ∑ k, g k * ((sym c.proj)⁻¹.mulVec (z p (obs k))) i = (sym c.proj)⁻¹ i i := by
    have := congrFun (congrArg (sym c.proj)⁻¹.mulVec hz) i
    rw [Matrix.mulVec_sum, Finset.sum_apply] at this
    simp only [Matrix.mulVec_smul, Pi.smul_apply, smul_eq_mul] at this
    rw [this]
    simp
  have hv : 0 ≤ var ∨ n = 0 := by
    rcases Nat.eq_zero_or_pos n with h0 | h0
    · exact .inr h0
    · have := hw.cov ⟨0, h0⟩ ⟨0, h0⟩
      rw [if_pos rfl] at this
      exact .inl (this ▸ integral_nonneg fun ω => mul_self_nonneg _)
  rcases hv with hv | rfl
  · refine mul_le_mul_of_nonneg_left ?_ hv
    have hq : 0 ≤ ∑ k, (g k - ((sym c.proj)⁻¹.mulVec (z p (obs k))) i) ^ 2 :=
      Finset.sum_nonneg fun k _ => sq_nonneg _
    have : ∑ k, (g k - ((sym c.proj)⁻¹.mulVec (z p (obs k))) i) ^ 2 =
        ∑ k, g k * g k - 2 * ∑ k, g k * ((sym c.proj)⁻¹.mulVec (z p (obs k))) i +
        ∑ k, ((sym c.proj)⁻¹.mulVec (z p (obs k))) i * ((sym c.proj)⁻¹.mulVec (z p (obs k))) i := by
      rw [Finset.mul_sum, ← Finset.sum_sub_distrib, ← Finset.sum_add_distrib]
      exact Finset.sum_congr rfl fun k _ => by ring
    rw [this, hc, hG] at hq
    rw [hG]
    linarith
  · simp

/-- **C155, more observations.** Further observations do not make a solved pixel noisier. -/
theorem C155_more {Ω : Type} [MeasurableSpace Ω] (μ : Measure Ω) [IsProbabilityMeasure μ] (q : QExt)
    (hs : SolveOk q) {nside n r : Nat} (obs : Fin (n + r) → Obs) (hu : ∀ k, (obs k).c ^ 2 + (obs k).s ^ 2 = 1)
    (noise : Fin (n + r) → Ω → ℝ) (var : ℝ) (hw : White μ noise var) {few all : Maps} {few' all' : Ω → Maps}
    (hf : Holds nside few ((List.finRange n).map fun k => obs (k.castAdd r)))
    (hf' : ∀ ω, Holds nside (few' ω) ((List.finRange n).map fun k =>
      (obs (k.castAdd r)).reading ((obs (k.castAdd r)).d + noise (k.castAdd r) ω)))
    (ha : Holds nside all ((List.finRange (n + r)).map obs))
    (ha' : ∀ ω, Holds nside (all' ω) ((List.finRange (n + r)).map fun k =>
      (obs k).reading ((obs k).d + noise k ω)))
    (fill : ℝ) {p : Nat} (hp : p < 12 * nside ^ 2)
    (h3 : ThreeAngles (here p ((List.finRange n).map fun k => obs (k.castAdd r)))) :
    ∃ u v, ∃ x y : Ω → Fin 3 → ℝ, (solveForMap q few fill)[p]? = some u ∧ (solveForMap q all fill)[p]? = some v ∧
      (∀ ω, (solveForMap q (few' ω) fill)[p]? = some (x ω)) ∧
      (∀ ω, (solveForMap q (all' ω) fill)[p]? = some (y ω)) ∧
      ∀ i, ∫ ω, (y ω i - v i) ^ 2 ∂μ ≤ ∫ ω, (x ω i - u i) ^ 2 ∂μ := by
  obtain ⟨u, c, u1, c1, hd, hP, hx⟩ := Noise.solved q hs (fun k => obs (k.castAdd r)) (fun k => hu _) hf fill hp h3
  have hsub : ∀ o ∈ here p ((List.finRange n).map fun k => obs (k.castAdd r)),
      o ∈ here p ((List.finRange (n + r)).map obs) := by
    intro o ho
    obtain ⟨h1, h2⟩ := List.mem_filter.1 ho
    obtain ⟨k, -, rfl⟩ := List.mem_map.1 h1
    exact List.mem_filter.2 ⟨List.mem_map.2 ⟨k.castAdd r, List.mem_finRange _, rfl⟩, h2⟩
  have h3' : ThreeAngles (here p ((List.finRange (n + r)).map obs)) := by
    obtain ⟨o1, m1, o2, m2, o3, m3, h⟩ := h3
    exact ⟨o1, hsub _ m1, o2, hsub _ m2, o3, hsub _ m3, h⟩
  have hrec := recovers hd (fun k => obs (k.castAdd r)) p (hP.trans (proj_sum _ p))
  have key : ∀ i, ∃ v, ∃ y : Ω → Fin 3 → ℝ, (solveForMap q all fill)[p]? = some v ∧
      (∀ ω, (solveForMap q (all' ω) fill)[p]? = some (y ω)) ∧
      ∫ ω, (y ω i - v i) ^ 2 ∂μ ≤
        ∫ ω, (∑ k : Fin n, ((sym c.proj)⁻¹.mulVec (z p (obs (k.castAdd r)))) i * noise (k.castAdd r) ω) ^ 2 ∂μ := by
    intro i
    obtain ⟨v, y, y1, y2, y3⟩ := C155_least_noise μ q hs obs hu noise var hw ha ha' fill hp h3' i
      (Fin.addCases (fun k => ((sym c.proj)⁻¹.mulVec (z p (obs (k.castAdd r)))) i) fun _ => 0) (by
        intro sky
        rw [Fin.sum_univ_add]
        simp only [Fin.addCases_left, Fin.addCases_right, zero_mul, Finset.sum_const_zero, add_zero]
        exact hrec i sky)
    refine ⟨v, y, y1, y2, y3.trans (le_of_eq ?_)⟩
    congr 1
    funext ω
    rw [Fin.sum_univ_add, Fin.sum_univ_add]
    simp only [Fin.addCases_left, Fin.addCases_right, zero_mul, Finset.sum_const_zero, add_zero]
    rw [← Finset.sum_sub_distrib]
    congr 1
    exact Finset.sum_congr rfl fun k _ => by ring
  obtain ⟨v, y, y1, y2, -⟩ := key 0
  refine ⟨u, v, _, y, u1, y1, fun ω => hx _ _ (hf' ω), y2, fun i => ?_⟩
  obtain ⟨v', y', w1, w2, w3⟩ := key i
  have hv : v' = v := Option.some.inj (w1.symm.trans y1)
  have hy : y' = y := funext fun ω => Option.some.inj ((w2 ω).symm.trans (y2 ω))
  subst hv hy
  simp only [Pi.add_apply, add_sub_cancel_left]
  exact w3

/-- **C155, hits.** The noise of a solved pixel cannot be less than its number of hits allows: the variance of the
temperature is at least that of the samples divided by the hits, and those of `Q` and `U` are together at least
four times as large. -/
theorem C155_hits {Ω : Type} [MeasurableSpace Ω] (μ : Measure Ω) [IsProbabilityMeasure μ] (q : QExt)
    (hs : SolveOk q) {nside n : Nat} (obs : Fin n → Obs) (hu : ∀ k, (obs k).c ^ 2 + (obs k).s ^ 2 = 1)
    (noise : Fin n → Ω → ℝ) (var : ℝ) (hw : White μ noise var) {m : Maps} {m' : Ω → Maps}
    (h : Holds nside m ((List.finRange n).map obs))
    (h' : ∀ ω, Holds nside (m' ω) ((List.finRange n).map fun k => (obs k).reading ((obs k).d + noise k ω)))
    (fill : ℝ) {p : Nat} (hp : p < 12 * nside ^ 2) (h3 : ThreeAngles (here p ((List.finRange n).map obs))) :
    ∃ v, ∃ x : Ω → Fin 3 → ℝ, (solveForMap q m fill)[p]? = some v ∧
      (∀ ω, (solveForMap q (m' ω) fill)[p]? = some (x ω)) ∧
      var / (here p ((List.finRange n).map obs)).length ≤ ∫ ω, (x ω 0 - v 0) ^ 2 ∂μ ∧
      4 * (var / (here p ((List.finRange n).map obs)).length) ≤
        ∫ ω, (x ω 1 - v 1) ^ 2 ∂μ + ∫ ω, (x ω 2 - v 2) ^ 2 ∂μ := by
  obtain ⟨v, c, v1, c1, hd, hP, hx⟩ := Noise.solved q hs obs hu h fill hp h3
  refine ⟨v, _, v1, fun ω => hx _ _ (h' ω), ?_⟩
  have hA := hP.trans (proj_sum obs p)
  have hN0 : 0 < (here p ((List.finRange n).map obs)).length := by
    obtain ⟨o, ho, -⟩ := h3
    exact List.length_pos_of_mem ho
  have hn : 0 < n := by
    rcases Nat.eq_zero_or_pos n with rfl | h0
    · simp [here] at hN0
    · exact h0
  have hv : 0 ≤ var := by
    have := hw.cov ⟨0, hn⟩ ⟨0, hn⟩
    rw [if_pos rfl] at this
    exact this ▸ integral_nonneg fun ω => mul_self_nonneg _
  have hN : (0 : ℝ) < (here p ((List.finRange n).map obs)).length := Nat.cast_pos.2 hN0
  have z0 : ∑ k, z p (obs k) 0 ^ 2 = (here p ((List.finRange n).map obs)).length := by
    rw [hits]
    refine Finset.sum_congr rfl fun k _ => ?_
    unfold z
    split <;> simp [Obs.w]
  have z12 : ∑ k, (z p (obs k) 1 ^ 2 + z p (obs k) 2 ^ 2) = (here p ((List.finRange n).map obs)).length := by
    rw [hits]
    refine Finset.sum_congr rfl fun k _ => ?_
    unfold z
    split
    · simpa [Obs.w] using hu k
    · simp
  generalize ((here p ((List.finRange n).map obs)).length : ℝ) = N at hN z0 z12 ⊢
  simp only [Pi.add_apply, add_sub_cancel_left, pow_two]
  rw [Noise.cov hw, Noise.cov hw, Noise.cov hw]
  have d0 := dual hd (fun k => z p (obs k)) hA 0 0
  have d1 := dual hd (fun k => z p (obs k)) hA 1 1
  have d2 := dual hd (fun k => z p (obs k)) hA 2 2
  simp only [if_true] at d0 d1 d2
  constructor
  · have hq : 0 ≤ ∑ k, (((sym c.proj)⁻¹.mulVec (z p (obs k))) 0 - N⁻¹ * z p (obs k) 0) ^ 2 :=
      Finset.sum_nonneg fun k _ => sq_nonneg _
    have e : ∑ k, (((sym c.proj)⁻¹.mulVec (z p (obs k))) 0 - N⁻¹ * z p (obs k) 0) ^ 2 =
        ∑ k, ((sym c.proj)⁻¹.mulVec (z p (obs k))) 0 * ((sym c.proj)⁻¹.mulVec (z p (obs k))) 0 -
        2 * N⁻¹ * ∑ k, ((sym c.proj)⁻¹.mulVec (z p (obs k))) 0 * z p (obs k) 0 +
        N⁻¹ ^ 2 * ∑ k, z p (obs k) 0 ^ 2 := by
      rw [Finset.mul_sum, Finset.mul_sum, ← Finset.sum_sub_distrib, ← Finset.sum_add_distrib]
      exact Finset.sum_congr rfl fun k _ => by ring
    rw [e, d0, z0] at hq
    have e2 : N⁻¹ ^ 2 * N = N⁻¹ := by field_simp
    rw [e2] at hq
    rw [div_eq_mul_inv]
    exact mul_le_mul_of_nonneg_left (by linarith) hv
  · have hq : 0 ≤ ∑ k, ((((sym c.proj)⁻¹.mulVec (z p (obs k))) 1 - 2 * N⁻¹ * z p (obs k) 1) ^ 2 +
        (((sym c.proj)⁻¹.mulVec (z p (obs k))) 2 - 2 * N⁻¹ * z p (obs k) 2) ^ 2) :=
      Finset.sum_nonneg fun k _ => add_nonneg (sq_nonneg _) (sq_nonneg _)
    have e : ∑ k, ((((sym c.proj)⁻¹.mulVec (z p (obs k))) 1 - 2 * N⁻¹ * z p (obs k) 1) ^ 2 +
        (((sym c.proj)⁻¹.mulVec (z p (obs k))) 2 - 2 * N⁻¹ * z p (obs k) 2) ^ 2) =
        ∑ k, ((sym c.proj)⁻¹.mulVec (z p (obs k))) 1 * ((sym c.proj)⁻¹.mulVec (z p (obs k))) 1 +
        ∑ k, ((sym c.proj)⁻¹.mulVec (z p (obs k))) 2 * ((sym c.proj)⁻¹.mulVec (z p (obs k))) 2 -
        4 * N⁻¹ * ∑ k, ((sym c.proj)⁻¹.mulVec (z p (obs k))) 1 * z p (obs k) 1 -
        4 * N⁻¹ * ∑ k, ((sym c.proj)⁻¹.mulVec (z p (obs k))) 2 * z p (obs k) 2 +
        4 * N⁻¹ ^ 2 * ∑ k, (z p (obs k) 1 ^ 2 + z p (obs k) 2 ^ 2) := by
      rw [Finset.mul_sum, Finset.mul_sum, Finset.mul_sum, ← Finset.sum_add_distrib, ← Finset.sum_sub_distrib,
        ← Finset.sum_sub_distrib, ← Finset.sum_add_distrib]
      exact Finset.sum_congr rfl fun k _ => by ring
    rw [e, d1, d2, z12] at hq
    have e2 : 4 * N⁻¹ ^ 2 * N = 4 * N⁻¹ := by field_simp
    rw [e2] at hq
    rw [div_eq_mul_inv, ← mul_add, mul_left_comm]
    exact mul_le_mul_of_nonneg_left (by linarith) hv

/-- **C155, balanced angles.** If the angles under which a pixel is seen are balanced, as with a plate that takes
angles in equal steps, its noise is as small as the hits allow, and not correlated. -/
theorem C155_balanced {Ω : Type} [MeasurableSpace Ω] (μ : Measure Ω) [IsProbabilityMeasure μ] (q : QExt)
    (hs : SolveOk q) {nside n : Nat} (obs : Fin n → Obs) (hu : ∀ k, (obs k).c ^ 2 + (obs k).s ^ 2 = 1)
    (noise : Fin n → Ω → ℝ) (var : ℝ) (hw : White μ noise var) {m : Maps} {m' : Ω → Maps}
    (h : Holds nside m ((List.finRange n).map obs))
    (h' : ∀ ω, Holds nside (m' ω) ((List.finRange n).map fun k => (obs k).reading ((obs k).d + noise k ω)))
    (fill : ℝ) {p : Nat} (hp : p < 12 * nside ^ 2) (h3 : ThreeAngles (here p ((List.finRange n).map obs)))
    (hb : Balanced (here p ((List.finRange n).map obs))) :
    ∃ v, ∃ x : Ω → Fin 3 → ℝ, (solveForMap q m fill)[p]? = some v ∧
      (∀ ω, (solveForMap q (m' ω) fill)[p]? = some (x ω)) ∧
      ∀ i j, ∫ ω, (x ω i - v i) * (x ω j - v j) ∂μ = if i = j then
        (if i = 0 then 1 else 2) * (var / (here p ((List.finRange n).map obs)).length) else 0 := by
  obtain ⟨v, c, x, v1, c1, hx, hd, -, hcov⟩ := C155_covariance μ q hs obs hu noise var hw h h' fill hp h3
  refine ⟨v, x, v1, hx, fun i j => ?_⟩
  rw [hcov]
  have hN0 : 0 < (here p ((List.finRange n).map obs)).length := by
    obtain ⟨o, ho, -⟩ := h3
    exact List.length_pos_of_mem ho
  have hN : (0 : ℝ) < (here p ((List.finRange n).map obs)).length := Nat.cast_pos.2 hN0
  have hu' : ∀ o ∈ here p ((List.finRange n).map obs), o.c ^ 2 + o.s ^ 2 = 1 := by
    intro o ho
    obtain ⟨k, -, rfl⟩ := List.mem_map.1 (List.mem_filter.1 ho).1
    exact hu k
  have hA : sym c.proj = _ := (h.cells p c c1).2
  unfold projAt at hA
  generalize here p ((List.finRange n).map obs) = l at hN hu' hA hb ⊢
  have hsum : ∀ l : List Obs, (∀ o ∈ l, o.c ^ 2 + o.s ^ 2 = 1) →
      (l.map fun o => Matrix.vecMulVec o.w o.w).sum = !![(l.length : ℝ), (l.map Obs.c).sum, (l.map Obs.s).sum;
        (l.map Obs.c).sum, (l.map fun o => o.c ^ 2).sum, (l.map fun o => o.c * o.s).sum;
        (l.map Obs.s).sum, (l.map fun o => o.c * o.s).sum, (l.map fun o => o.s ^ 2).sum] ∧
      (l.map fun o => o.c ^ 2).sum + (l.map fun o => o.s ^ 2).sum = (l.length : ℝ) := by
    intro l
    induction l with
    | nil => intro _; refine ⟨?_, by simp⟩; ext a b; fin_cases a <;> fin_cases b <;> simp
    | cons o l ih =>
      intro hl
      obtain ⟨i1, i2⟩ := ih fun o ho => hl o (List.mem_cons_of_mem _ ho)
      have ho := hl o List.mem_cons_self
      constructor
      · rw [List.map_cons, List.sum_cons, i1]
        ext a b
        fin_cases a <;> fin_cases b <;> simp [Matrix.vecMulVec_apply, Obs.w] <;> ring
      · simp only [List.map_cons, List.sum_cons, List.length_cons, Nat.cast_add, Nat.cast_one]
        linarith
  obtain ⟨s1, s2⟩ := hsum l hu'
  obtain ⟨b1, b2, b3, b4⟩ := hb
  rw [s1, b1, b2, b3] at hA
  have hc2 : (l.map fun o => o.c ^ 2).sum = (l.length : ℝ) / 2 := by linarith
  have hs2 : (l.map fun o => o.s ^ 2).sum = (l.length : ℝ) / 2 := by linarith
  rw [hc2, hs2] at hA
  have hinv : (sym c.proj)⁻¹ = !![(l.length : ℝ)⁻¹, 0, 0; 0, 2 * (l.length : ℝ)⁻¹, 0; 0, 0, 2 * (l.length : ℝ)⁻¹] := by
    refine Matrix.inv_eq_left_inv ?_
    rw [hA]
    ext a b
    fin_cases a <;> fin_cases b <;> simp [Matrix.mul_apply, Fin.sum_univ_three] <;> field_simp
  rw [hinv]
  fin_cases i <;> fin_cases j <;> simp [div_eq_mul_inv] <;> ring

namespace Noise

theorem white_comp {Ω ι κ : Type} [MeasurableSpace Ω] [DecidableEq ι] [DecidableEq κ] {μ : Measure Ω}
    {noise : ι → Ω → ℝ} {var : ℝ} (hw : White μ noise var) (f : κ → ι) (hf : Function.Injective f) :
    White μ (fun k => noise (f k)) var := by
  refine ⟨fun k => hw.square _, fun k => hw.mean _, fun k l => ?_⟩
  rw [hw.cov]
  by_cases h : k = l
  · rw [if_pos h, if_pos (congrArg f h)]
  · rw [if_neg h, if_neg fun e => h (hf e)]

theorem call_obs (q : QExt) (c : Call) (hc : c.tod.length = c.n) (e : Nat → ℝ) :
    ({ c with tod := c.tod.mapIdx fun k d => d + e k } : Call).obs q =
      (((List.range c.n).filter fun k => !flagged c.su c.i k).map fun k =>
        let r := q.quat2pix ((c.st.qBore[c.i + k]?).getD 0)
          (q.hwpQuat (Verif.Timeline.alphaAt c.st.hwpAng k * 180 / Real.pi - c.su.varphi)) (binOff c.off c.polang)
          ((c.st.ctime[c.i + k]?).getD 0) c.su.nsideOut
        (⟨r.1, r.2.1, r.2.2, (c.tod[k]?).getD 0 + e k⟩ : Obs)) := by
  unfold Call.obs observations
  refine List.map_congr_left fun k hk => ?_
  have hk' : k < c.tod.length := by
    rw [hc]
    exact List.mem_range.1 (List.mem_filter.1 hk).1
  simp only [List.getElem?_mapIdx, List.getElem?_eq_getElem hk', Option.map_some, Option.getD_some]

theorem calls_obs (q : QExt) (cs : List Call) (h : ∀ c ∈ cs, c.tod.length = c.n) :
    ∃ L : List ((Nat × Nat) × Obs), (L.map Prod.fst).Nodup ∧ (∀ x ∈ L, Sample cs x.1) ∧
      (cs.flatMap fun c => c.obs q) = L.map Prod.snd ∧
      ∀ e, ((noisy cs e).flatMap fun c => c.obs q) = L.map fun x => x.2.reading (x.2.d + e x.1.1 x.1.2) := by
  induction cs with
  | nil => exact ⟨[], by simp, by simp, rfl, fun e => rfl⟩
  | cons c cs ih =>
    obtain ⟨L, l1, l2, l3, l4⟩ := ih fun c hc => h c (List.mem_cons_of_mem _ hc)
    refine ⟨(((List.range c.n).filter fun k => !flagged c.su c.i k).map fun k => ((0, k),
        let r := q.quat2pix ((c.st.qBore[c.i + k]?).getD 0)
          (q.hwpQuat (Verif.Timeline.alphaAt c.st.hwpAng k * 180 / Real.pi - c.su.varphi)) (binOff c.off c.polang)
          ((c.st.ctime[c.i + k]?).getD 0) c.su.nsideOut
        (⟨r.1, r.2.1, r.2.2, (c.tod[k]?).getD 0⟩ : Obs))) ++
      L.map fun x => ((x.1.1 + 1, x.1.2), x.2), ?_, ?_, ?_, ?_⟩
    · rw [List.map_append, List.map_map, List.map_map, List.nodup_append]
      refine ⟨?_, ?_, ?_⟩
      · refine List.Nodup.map (fun a b hab => ?_) (List.nodup_range.filter _)
        simpa using hab
      · have : (Prod.fst ∘ fun x : (Nat × Nat) × Obs => ((x.1.1 + 1, x.1.2), x.2)) =
            (fun y : Nat × Nat => (y.1 + 1, y.2)) ∘ Prod.fst := rfl
        rw [this, ← List.map_map]
        refine l1.map fun a b hab => ?_
        obtain ⟨h1, h2⟩ := Prod.mk.inj hab
        exact Prod.ext (Nat.succ.inj h1) h2
      · intro a ha b hb hab
        obtain ⟨k, -, rfl⟩ := List.mem_map.1 ha
        obtain ⟨y, -, rfl⟩ := List.mem_map.1 hb
        have := congrArg Prod.fst hab
        simp at this
    · intro x hx
      rcases List.mem_append.1 hx with hx | hx
      · obtain ⟨k, hk, rfl⟩ := List.mem_map.1 hx
        exact ⟨c, rfl, List.mem_range.1 (List.mem_filter.1 hk).1⟩
      · obtain ⟨y, hy, rfl⟩ := List.mem_map.1 hx
        obtain ⟨c', h1, h2⟩ := l2 y hy
        exact ⟨c', by simpa using h1, h2⟩
    · rw [List.flatMap_cons, l3, List.map_append, List.map_map, List.map_map]
      rfl
    · intro e
      unfold noisy
      rw [List.mapIdx_cons, List.flatMap_cons, call_obs q c (h c List.mem_cons_self), List.map_append,
        List.map_map, List.map_map]
      congr 1
      exact l4 fun j k => e (j + 1) k

end Noise

/-- **C155, binned timelines.** White noise in the timelines that are handed to `bin_tod`: binning works, and where
a pixel is seen under three angles, `solve_for_map` returns Stokes parameters without bias, whose covariance is the
variance of the noise times the inverse of the binned matrix. -/
theorem C155_binned {Ω : Type} [MeasurableSpace Ω] (μ : Measure Ω) [IsProbabilityMeasure μ] (q : QExt)
    (hs : SolveOk q) (hq : PixOk q) (mission : List Verif.Chunks.Chunk) {nside : Nat} (hns : 0 < nside)
    (cs : List Call) (h : ∀ c ∈ cs, CallOk mission nside c)
    (hu : ∀ c ∈ cs, ∀ o ∈ c.obs q, o.c ^ 2 + o.s ^ 2 = 1) (noise : Nat → Nat → Ω → ℝ) (var : ℝ)
    (hw : White μ (fun x : {x // Sample cs x} => noise x.1.1 x.1.2) var) (fill : ℝ) :
    ∃ m, ∃ m' : Ω → Maps, binCalls q mission nside cs = .ok m ∧
      (∀ ω, binCalls q mission nside (noisy cs fun j k => noise j k ω) = .ok (m' ω)) ∧
      ∀ p, p < 12 * nside ^ 2 → ThreeAngles (here p (cs.flatMap fun c => c.obs q)) →
        ∃ v c, ∃ x : Ω → Fin 3 → ℝ, (solveForMap q m fill)[p]? = some v ∧ m[p]? = some c ∧
          (∀ ω, (solveForMap q (m' ω) fill)[p]? = some (x ω)) ∧ (sym c.proj).det ≠ 0 ∧
          (∀ i, ∫ ω, x ω i ∂μ = v i) ∧
          ∀ i j, ∫ ω, (x ω i - v i) * (x ω j - v j) ∂μ = var * (sym c.proj)⁻¹ i j := by
  obtain ⟨m, m1, m2⟩ := C86_binning q hq mission nside hns cs h
  have hnoisy : ∀ e, ∀ c ∈ noisy cs e, CallOk mission nside c := by
    intro e c hc
    obtain ⟨j, hj, rfl⟩ := List.mem_mapIdx.1 hc
    have := h _ (List.getElem_mem hj)
    exact ⟨this.nside, this.ok, by simpa using this.tod⟩
  choose m' h1 h2 using fun ω => C86_binning q hq mission nside hns (noisy cs fun j k => noise j k ω) (hnoisy _)
  refine ⟨m, m', m1, h1, fun p hp h3 => ?_⟩
  obtain ⟨L, l1, l2, l3, l4⟩ := Noise.calls_obs q cs fun c hc => (h c hc).tod
  have hget : ∀ {β : Type} (f : (Nat × Nat) × Obs → β), L.map f = (List.finRange L.length).map fun k => f (L.get k) := by
    intro β f
    conv_lhs => rw [← List.map_get_finRange L]
    rw [List.map_map]
    rfl
  rw [l3, hget] at m2 h3
  have hinj : Function.Injective fun k : Fin L.length =>
      (⟨(L.get k).1, l2 _ (List.get_mem _ _)⟩ : {x // Sample cs x}) := by
    intro a b hab
    have hab' : (L.get a).1 = (L.get b).1 := congrArg Subtype.val hab
    have := List.nodup_iff_injective_get.1 l1
    have e := @this (a.cast (List.length_map _).symm) (b.cast (List.length_map _).symm) (by simpa using hab')
    exact Fin.ext (by simpa using congrArg Fin.val e)
  exact C155_covariance μ q hs (fun k => (L.get k).2) (fun k => by
      have : (L.get k).2 ∈ cs.flatMap fun c => c.obs q := by
        rw [l3]
        exact List.mem_map.2 ⟨_, List.get_mem _ _, rfl⟩
      obtain ⟨c, hc, ho⟩ := List.mem_flatMap.1 this
      exact hu c hc _ ho) (fun k => noise (L.get k).1.1 (L.get k).1.2) var (Noise.white_comp hw _ hinj) m2
    (fun ω => by
      have := h2 ω
      rw [l4, hget] at this
      exact this) fill hp h3

/-- The diagonal of the inverse is bounded by the condition number divided by the first entry. -/
theorem Noise.inverse_le {A : Matrix (Fin 3) (Fin 3) ℝ} (hd : A.det ≠ 0) {k : ℝ} (hk : IsCond A k)
    (h0 : 0 < A 0 0) (i : Fin 3) : A⁻¹ i i ≤ k / A 0 0 := by
  have hunit : IsUnit A.det := isUnit_iff_ne_zero.2 hd
  obtain ⟨lo, hi, hlo, rfl, hl, hg⟩ := hk
  have hhi : A 0 0 ≤ hi := hg.2 ⟨Pi.single 0 1, by simp, by simp⟩
  have hscale : ∀ u, lo * dotProduct u u ≤ dotProduct u (A.mulVec u) := by
    intro u
    rcases eq_or_ne u 0 with rfl | hu
    · simp
    · have hp : 0 < dotProduct u u := lt_of_le_of_ne (Finset.sum_nonneg fun j _ => mul_self_nonneg _)
        fun e => hu (dotProduct_self_eq_zero.1 e.symm)
      have hs : Real.sqrt (dotProduct u u) ≠ 0 := (Real.sqrt_pos.2 hp).ne'
      have hss : Real.sqrt (dotProduct u u) * Real.sqrt (dotProduct u u) = dotProduct u u :=
        Real.mul_self_sqrt hp.le
      have := hl.2 ⟨(Real.sqrt (dotProduct u u))⁻¹ • u, by
        rw [smul_dotProduct, dotProduct_smul, smul_eq_mul, smul_eq_mul, ← mul_assoc, ← mul_inv, hss]
        exact inv_mul_cancel₀ hp.ne', rfl⟩
      rw [Matrix.mulVec_smul, smul_dotProduct, dotProduct_smul, smul_eq_mul, smul_eq_mul, ← mul_assoc, ← mul_inv,
        hss, inv_mul_eq_div, le_div_iff₀ hp] at this
      exact this
  have hu := hscale (A⁻¹.mulVec (Pi.single i 1))
  have e1 : A.mulVec (A⁻¹.mulVec (Pi.single i 1)) = Pi.single i 1 := by
    rw [Matrix.mulVec_mulVec, Matrix.mul_nonsing_inv _ hunit, Matrix.one_mulVec]
  have e2 : A⁻¹.mulVec (Pi.single i 1) i = A⁻¹ i i := by simp
  rw [e1] at hu
  have e3 : dotProduct (A⁻¹.mulVec (Pi.single i 1)) (Pi.single i 1) = A⁻¹ i i := by simp
  rw [e3] at hu
  have hsq : A⁻¹ i i ^ 2 ≤ dotProduct (A⁻¹.mulVec (Pi.single i 1)) (A⁻¹.mulVec (Pi.single i 1)) := by
    rw [← e2, pow_two]
    exact Finset.single_le_sum (f := fun j => A⁻¹.mulVec (Pi.single i 1) j * A⁻¹.mulVec (Pi.single i 1) j)
      (fun j _ => mul_self_nonneg _) (Finset.mem_univ i)
  have h1 : lo * A⁻¹ i i ^ 2 ≤ A⁻¹ i i := (mul_le_mul_of_nonneg_left hsq hlo.le).trans hu
  have h2 : A⁻¹ i i ≤ 1 / lo := by
    rw [le_div_iff₀ hlo]
    rcases le_or_gt (A⁻¹ i i) 0 with hn | hn
    · nlinarith
    · nlinarith
  refine h2.trans ?_
  rw [div_div, div_le_div_iff₀ hlo (mul_pos hlo h0)]
  nlinarith

/-- **C155, condition numbers.** The condition number that `solve_for_map` returns for a pixel bounds its noise: no
Stokes parameter has a variance above this number times the variance of the samples divided by the hits. -/
theorem C155_condition {Ω : Type} [MeasurableSpace Ω] (μ : Measure Ω) [IsProbabilityMeasure μ] (q : QExt)
    (hs : SolveOk q) {nside n : Nat} (obs : Fin n → Obs) (hu : ∀ k, (obs k).c ^ 2 + (obs k).s ^ 2 = 1)
    (noise : Fin n → Ω → ℝ) (var : ℝ) (hw : White μ noise var) {m : Maps} {m' : Ω → Maps}
    (h : Holds nside m ((List.finRange n).map obs))
    (h' : ∀ ω, Holds nside (m' ω) ((List.finRange n).map fun k => (obs k).reading ((obs k).d + noise k ω)))
    (fill : ℝ) (returnProj : Bool) {r : Verif.Solve.Result}
    (hr : Solved nside ((List.finRange n).map obs) fill returnProj r)
    {p : Nat} (hp : p < 12 * nside ^ 2) (h3 : ThreeAngles (here p ((List.finRange n).map obs))) :
    ∃ v C k, ∃ x : Ω → Fin 3 → ℝ, (solveForMap q m fill)[p]? = some v ∧ r.cond = some C ∧ C[p]? = some k ∧
      (∀ ω, (solveForMap q (m' ω) fill)[p]? = some (x ω)) ∧
      ∀ i, ∫ ω, (x ω i - v i) ^ 2 ∂μ ≤ k * (var / (here p ((List.finRange n).map obs)).length) := by
  obtain ⟨v, c, x, v1, c1, hx, hd, -, hcov⟩ := C155_covariance μ q hs obs hu noise var hw h h' fill hp h3
  obtain ⟨C, hC, hlen, hk⟩ := hr.cond
  have hCp : C[p]? = some (C[p]'(by rw [hlen]; exact hp)) := List.getElem?_eq_getElem _
  refine ⟨v, C, _, x, v1, hC, hCp, hx, fun i => ?_⟩
  have hcond := (hk p _ hCp).1 h3
  have hP := (h.cells p c c1).2
  rw [← hP] at hcond
  have hN0 : 0 < (here p ((List.finRange n).map obs)).length := by
    obtain ⟨o, ho, -⟩ := h3
    exact List.length_pos_of_mem ho
  have h00 : sym c.proj 0 0 = (here p ((List.finRange n).map obs)).length := by
    rw [hP, proj_sum, Matrix.sum_apply, hits]
    refine Finset.sum_congr rfl fun k _ => ?_
    unfold z
    split <;> simp [Obs.w, Matrix.vecMulVec_apply]
  have hn : 0 < n := by
    rcases Nat.eq_zero_or_pos n with rfl | h0
    · simp [here] at hN0
    · exact h0
  have hv : 0 ≤ var := by
    have := hw.cov ⟨0, hn⟩ ⟨0, hn⟩
    rw [if_pos rfl] at this
    exact this ▸ integral_nonneg fun ω => mul_self_nonneg _
  have := Noise.inverse_le hd hcond (by rw [h00]; exact Nat.cast_pos.2 hN0) i
  rw [h00] at this
  simp only [pow_two]
  rw [hcov]
  refine (mul_le_mul_of_nonneg_left this hv).trans (le_of_eq ?_)
  ring

/-- White noise: one of the samples, chosen at random, gets a random sign. -/
theorem Noise.white (n : Nat) [NeZero n] :
    ∃ (μ : Measure (Fin n × Bool)) (noise : Fin n → Fin n × Bool → ℝ), IsProbabilityMeasure μ ∧
      White μ noise 1 := by
  refine ⟨(PMF.uniformOfFintype (Fin n × Bool)).toMeasure,
    fun k ω => (if ω.1 = k then Real.sqrt n else 0) * (if ω.2 then 1 else -1), inferInstance,
    ⟨fun k => MemLp.of_discrete, fun k => ?_, fun k l => ?_⟩⟩
  · rw [PMF.integral_eq_sum]
    simp [Fintype.sum_prod_type]
  · have hn : (n : ℝ) ≠ 0 := Nat.cast_ne_zero.2 (NeZero.ne n)
    have hq : Real.sqrt n * Real.sqrt n = n := Real.mul_self_sqrt (Nat.cast_nonneg n)
    rw [PMF.integral_eq_sum]
    simp only [PMF.uniformOfFintype_apply, Fintype.sum_prod_type, Fintype.card_prod, Fintype.card_fin,
      Fintype.card_bool, Fintype.sum_bool]
    by_cases h : k = l
    · subst h
      rw [Finset.sum_eq_single k (fun x _ hx => by simp [hx]) (fun hk => absurd (Finset.mem_univ k) hk)]
      simp [hq, hn]
      field_simp
      norm_num
    · rw [if_neg h]
      refine Finset.sum_eq_zero fun x _ => ?_
      by_cases h1 : x = k
      · subst h1
        simp [h]
      · simp [h1]

/-- Four observations of pixel 4. -/
def fourObs : Fin 4 → Obs := ![⟨4, 1, 0, 2⟩, ⟨4, 0, 1, 3⟩, ⟨4, -1, 0, 5⟩, ⟨4, 0, -1, 1⟩]

/-- **C155, unequal noise.** All samples count the same when maps are made. If two of four samples are much noisier
than the others (a bad detector), the mean of the two good ones has less noise than the solved map. -/
theorem C155_unequal (q : QExt) (hs : SolveOk q) (fill : ℝ) :
    ∃ (μ : Measure (Fin 4 × Bool)) (noise : Fin 4 → Fin 4 × Bool → ℝ), IsProbabilityMeasure μ ∧
      (∀ k, MemLp (noise k) 2 μ) ∧ (∀ k, ∫ ω, noise k ω ∂μ = 0) ∧
      (∀ k l, k ≠ l → ∫ ω, noise k ω * noise l ω ∂μ = 0) ∧ Recovers fourObs ![0, 1 / 2, 0, 1 / 2] 4 0 ∧
      ∃ (m : Maps) (m' : Fin 4 × Bool → Maps) (v : Fin 3 → ℝ) (x : Fin 4 × Bool → Fin 3 → ℝ),
        Holds 1 m ((List.finRange 4).map fourObs) ∧
        (∀ ω, Holds 1 (m' ω) ((List.finRange 4).map fun k => (fourObs k).reading ((fourObs k).d + noise k ω))) ∧
        (solveForMap q m fill)[4]? = some v ∧ (∀ ω, (solveForMap q (m' ω) fill)[4]? = some (x ω)) ∧
        ∫ ω, (∑ k, ![0, 1 / 2, 0, 1 / 2] k * ((fourObs k).d + noise k ω) -
          ∑ k, ![0, 1 / 2, 0, 1 / 2] k * (fourObs k).d) ^ 2 ∂μ < ∫ ω, (x ω 0 - v 0) ^ 2 ∂μ := by
  obtain ⟨μ, e, hμ, hw⟩ := Noise.white 4
  have hu : ∀ k, (fourObs k).c ^ 2 + (fourObs k).s ^ 2 = 1 := by
    intro k
    fin_cases k <;> simp [fourObs]
  have h3 : ThreeAngles (here 4 ((List.finRange 4).map fourObs)) := by
    refine ⟨⟨4, 1, 0, 2⟩, ?_, ⟨4, 0, 1, 3⟩, ?_, ⟨4, -1, 0, 5⟩, ?_, ?_, ?_, ?_⟩
    · simp [here, fourObs, List.finRange_succ]
    · simp [here, fourObs, List.finRange_succ]
    · simp [here, fourObs, List.finRange_succ]
    · norm_num
    · norm_num
    · norm_num
  refine ⟨μ, fun k ω => (![10, 1, 10, 1] : Fin 4 → ℝ) k * e k ω, hμ, fun k => (hw.square k).const_mul _, fun k => ?_,
    fun k l hkl => ?_, ?_, ?_⟩
  · rw [integral_const_mul, hw.mean, mul_zero]
  · have : ∀ ω, (![10, 1, 10, 1] : Fin 4 → ℝ) k * e k ω * ((![10, 1, 10, 1] : Fin 4 → ℝ) l * e l ω) =
        ((![10, 1, 10, 1] : Fin 4 → ℝ) k * (![10, 1, 10, 1] : Fin 4 → ℝ) l) * (e k ω * e l ω) := fun ω => by ring
    simp only [this]
    rw [integral_const_mul, hw.cov, if_neg hkl, mul_zero]
  · intro sky
    rw [Fin.sum_univ_four]
    simp [fourObs, Obs.of]
    ring
  · obtain ⟨v, c, v1, c1, hd, hP, hx⟩ := Noise.solved q hs fourObs hu (holds_mapsOf 1 _) fill
      (by norm_num : 4 < 12 * 1 ^ 2) h3
    refine ⟨_, _, v, _, holds_mapsOf 1 _, fun ω => holds_mapsOf 1 _, v1, fun ω => hx _ _ (holds_mapsOf 1 _), ?_⟩
    have hA : sym c.proj = !![4, 0, 0; 0, 2, 0; 0, 0, 2] := by
      rw [hP, proj_sum, Fin.sum_univ_four]
      ext a b
      fin_cases a <;> fin_cases b <;> simp [z, fourObs, Obs.w, Matrix.vecMulVec_apply] <;> norm_num
    have hinv : (sym c.proj)⁻¹ = !![1 / 4, 0, 0; 0, 1 / 2, 0; 0, 0, 1 / 2] := by
      refine Matrix.inv_eq_left_inv ?_
      rw [hA]
      ext a b
      fin_cases a <;> fin_cases b <;> simp [Matrix.mul_apply, Fin.sum_univ_three]
    have e1 : ∀ ω, ∑ k, (![0, 1 / 2, 0, 1 / 2] : Fin 4 → ℝ) k *
        ((fourObs k).d + (![10, 1, 10, 1] : Fin 4 → ℝ) k * e k ω) -
        ∑ k, (![0, 1 / 2, 0, 1 / 2] : Fin 4 → ℝ) k * (fourObs k).d =
        ∑ k, (![0, 1 / 2, 0, 1 / 2] : Fin 4 → ℝ) k * e k ω := by
      intro ω
      simp only [Fin.sum_univ_four]
      simp
      ring
    have e2 : ∀ ω, ∑ k, ((sym c.proj)⁻¹.mulVec (z 4 (fourObs k))) 0 * ((![10, 1, 10, 1] : Fin 4 → ℝ) k * e k ω) =
        ∑ k, (![5 / 2, 1 / 4, 5 / 2, 1 / 4] : Fin 4 → ℝ) k * e k ω := by
      intro ω
      rw [hinv]
      simp only [Fin.sum_univ_four]
      simp [z, fourObs, Obs.w, Matrix.mulVec, dotProduct, Fin.sum_univ_three]
      ring
    simp only [Pi.add_apply, add_sub_cancel_left, e1, e2, pow_two]
    rw [Noise.cov hw, Noise.cov hw]
    simp only [Fin.sum_univ_four]
    simp
    norm_num

/-- The hypotheses of `C155_unbiased` are met by noise that all samples share. -/
example (fill : ℝ) : ∃ (μ : Measure Bool) (v : Fin 3 → ℝ) (x : Bool → Fin 3 → ℝ), IsProbabilityMeasure μ ∧
    ∀ i, ∫ ω, x ω i ∂μ = v i := by
  have hl : (List.finRange 6).map (fun k : Fin 6 => sixObs.get k) = sixObs := by simp [sixObs, List.finRange_succ]
  obtain ⟨v, x, -, -, h⟩ := C155_unbiased (PMF.uniformOfFintype Bool).toMeasure Rec.qp Rec.solve_ok (nside := 1)
    (fun k : Fin 6 => sixObs.get k) (fun k => sixObs_unit _ (List.get_mem _ _)) (fun _ ω => if ω then 1 else -1)
    (fun _ => Integrable.of_finite) (fun _ => by
      rw [PMF.integral_eq_sum]
      simp) (holds_mapsOf 1 _) (fun ω => holds_mapsOf 1 _) fill (by norm_num : 4 < 12 * 1 ^ 2)
    (by rw [hl]; exact sixObs_three)
  exact ⟨_, v, x, inferInstance, h⟩

/-- The hypotheses of `C155_covariance` and `C155_least_noise` are met: the temperature of pixel 4 is also half
the sum of the first and the third observation. -/
example (fill : ℝ) : ∃ (μ : Measure (Fin 6 × Bool)) (noise : Fin 6 → Fin 6 × Bool → ℝ)
    (x : Fin 6 × Bool → Fin 3 → ℝ) (v : Fin 3 → ℝ),
    (∀ ω, (solveForMap Rec.qp (mapsOf (12 * 1 ^ 2) ((List.finRange 6).map fun k =>
      (sixObs.get k).reading ((sixObs.get k).d + noise k ω))) fill)[4]? = some (x ω)) ∧
    (∀ i, ∫ ω, x ω i ∂μ = v i) ∧ ∫ ω, (x ω 0 - v 0) ^ 2 ∂μ ≤
      ∫ ω, (∑ k, ![1 / 2, 0, 1 / 2, 0, 0, 0] k * ((sixObs.get k).d + noise k ω) -
        ∑ k, ![1 / 2, 0, 1 / 2, 0, 0, 0] k * (sixObs.get k).d) ^ 2 ∂μ := by
  obtain ⟨μ, noise, hμ, hw⟩ := Noise.white 6
  have hl : (List.finRange 6).map sixObs.get = sixObs := by simp [sixObs, List.finRange_succ]
  have h3 : ThreeAngles (here 4 ((List.finRange 6).map sixObs.get)) := by
    rw [hl]
    exact sixObs_three
  have hu : ∀ k : Fin 6, (sixObs.get k).c ^ 2 + (sixObs.get k).s ^ 2 = 1 := fun k =>
    sixObs_unit _ (List.get_mem _ _)
  obtain ⟨v, c, x, h1, -, h2, -, h4, -⟩ := C155_covariance μ Rec.qp Rec.solve_ok (nside := 1) sixObs.get hu noise 1
    hw (holds_mapsOf 1 _) (fun ω => holds_mapsOf 1 _) fill (by norm_num) h3
  obtain ⟨v', x', g1, g2, g3⟩ := C155_least_noise μ Rec.qp Rec.solve_ok (nside := 1) sixObs.get hu noise 1
    hw (holds_mapsOf 1 _) (fun ω => holds_mapsOf 1 _) fill (by norm_num) h3 0 ![1 / 2, 0, 1 / 2, 0, 0, 0] (by
      intro sky
      have e : ∑ k : Fin 6, ![1 / 2, 0, 1 / 2, 0, 0, 0] k * (sixObs.get k).of sky = sky 4 0 := by
        rw [Fin.sum_univ_six]
        simp [sixObs, Obs.of]
        ring
      exact e)
  have hv : v' = v := Option.some.inj (g1.symm.trans h1)
  have hx : x' = x := funext fun ω => Option.some.inj ((g2 ω).symm.trans (h2 ω))
  subst hv hx
  exact ⟨μ, noise, x', v', g2, h4, g3⟩

/-- The hypotheses of `C155_hits` and `C155_balanced` are met: the four angles of pixel 4 are balanced. -/
example (fill : ℝ) : ∃ (μ : Measure (Fin 6 × Bool)) (v : Fin 3 → ℝ) (x : Fin 6 × Bool → Fin 3 → ℝ),
    ∫ ω, (x ω 0 - v 0) * (x ω 0 - v 0) ∂μ = 1 / 4 ∧ ∫ ω, (x ω 1 - v 1) * (x ω 1 - v 1) ∂μ = 1 / 2 := by
  obtain ⟨μ, noise, hμ, hw⟩ := Noise.white 6
  have hl : (List.finRange 6).map sixObs.get = sixObs := by simp [sixObs, List.finRange_succ]
  have h3 : ThreeAngles (here 4 ((List.finRange 6).map sixObs.get)) := by
    rw [hl]
    exact sixObs_three
  have hu : ∀ k : Fin 6, (sixObs.get k).c ^ 2 + (sixObs.get k).s ^ 2 = 1 := fun k =>
    sixObs_unit _ (List.get_mem _ _)
  have hn : (here 4 ((List.finRange 6).map sixObs.get)).length = 4 := by
    rw [hl]
    simp [here, sixObs]
  obtain ⟨v, x, -, -, h⟩ := C155_balanced μ Rec.qp Rec.solve_ok (nside := 1) (fun k : Fin 6 => sixObs.get k) hu noise 1
    hw (holds_mapsOf 1 _) (fun ω => holds_mapsOf 1 _) fill (by norm_num : 4 < 12 * 1 ^ 2) h3 (by
      have : Balanced (here 4 ((List.finRange 6).map sixObs.get)) := by
        rw [hl]
        refine ⟨?_, ?_, ?_, ?_⟩ <;> simp [here, sixObs]
      exact this)
  refine ⟨μ, v, x, (h 0 0).trans ?_, (h 1 1).trans ?_⟩
  · have hn' : (here 4 ((List.finRange 6).map fun k : Fin 6 => sixObs.get k)).length = 4 := hn
    rw [hn']
    norm_num
  · have hn' : (here 4 ((List.finRange 6).map fun k : Fin 6 => sixObs.get k)).length = 4 := hn
    rw [hn']
    norm_num

/-- The hypotheses of `C155_condition` are met. -/
example (fill : ℝ) : ∃ (μ : Measure (Fin 6 × Bool)) (v : Fin 3 → ℝ) (C : List ℝ) (k : ℝ)
    (x : Fin 6 × Bool → Fin 3 → ℝ), C[4]? = some k ∧ ∀ i, ∫ ω, (x ω i - v i) ^ 2 ∂μ ≤ k * (1 / 4) := by
  obtain ⟨μ, noise, hμ, hw⟩ := Noise.white 6
  obtain ⟨cond, hcond⟩ := cond_exists
  have hl : (List.finRange 6).map (fun k : Fin 6 => sixObs.get k) = sixObs := by simp [sixObs, List.finRange_succ]
  have hu : ∀ k : Fin 6, (sixObs.get k).c ^ 2 + (sixObs.get k).s ^ 2 = 1 := fun k =>
    sixObs_unit _ (List.get_mem _ _)
  obtain ⟨r, -, hr⟩ := C122_serial Rec.qp Rec.solve_ok cond hcond ⟨none, none, false, 1⟩ false none (by simp) 1
    (fun _ => mapsOf (12 * 1 ^ 2) sixObs) sixObs 0 (holds_mapsOf 1 _) sixObs_unit fill false
  rw [← hl] at hr
  obtain ⟨v, C, k, x, -, -, h1, -, h2⟩ := C155_condition μ Rec.qp Rec.solve_ok (nside := 1)
    (fun k : Fin 6 => sixObs.get k) hu noise 1 hw (holds_mapsOf 1 _) (fun ω => holds_mapsOf 1 _) fill false hr
    (by norm_num : 4 < 12 * 1 ^ 2) (by rw [hl]; exact sixObs_three)
  refine ⟨μ, v, C, k, x, h1, fun i => (h2 i).trans (le_of_eq ?_)⟩
  have hn : (here 4 sixObs).length = 4 := by simp [here, sixObs]
  rw [hl, hn]
  norm_num

/-- A call of `bin_tod` with three samples of pixel 0. -/
def noiseCall : Call := ⟨Rec.job.su, Rec.job.st, Verif.Timeline.offset Rec.ext Rec.job.st.rotAngle Rec.job.det.point,
  Rec.job.polangBin, [1, 2, 3], Rec.job.s, 1, 3⟩

theorem Noise.call_seen : (noiseCall.obs Rec.qp).map (fun o => (o.pix, o.c, o.s)) =
    [(0, 1, 0), (0, 0, -1), (0, -1, 0)] := by
  refine Eq.trans ?_ Rec.seen_job
  unfold seen Call.obs observations
  rw [List.flatMap_singleton, List.map_map, List.map_map]
  rfl

/-- The hypotheses of `C155_binned` are met. -/
example (fill : ℝ) : ∃ (μ : Measure (Fin 3 × Bool)) (noise : Nat → Nat → Fin 3 × Bool → ℝ)
    (m' : Fin 3 × Bool → Maps) (v : Fin 3 → ℝ) (x : Fin 3 × Bool → Fin 3 → ℝ),
    (∀ ω, binCalls Rec.qp Rec.mission 1 (noisy [noiseCall] fun j k => noise j k ω) = .ok (m' ω)) ∧
    (∀ ω, (solveForMap Rec.qp (m' ω) fill)[0]? = some (x ω)) ∧ ∀ i, ∫ ω, x ω i ∂μ = v i := by
  obtain ⟨μ, noise, hμ, hw⟩ := Noise.white 3
  have h := Noise.call_seen
  have hu : ∀ o ∈ noiseCall.obs Rec.qp, o.c ^ 2 + o.s ^ 2 = 1 := by
    intro o ho
    have := List.mem_map_of_mem (f := fun o : Obs => (o.pix, o.c, o.s)) ho
    rw [h] at this
    simp only [List.mem_cons, List.not_mem_nil, or_false, Prod.mk.injEq] at this
    rcases this with ⟨-, h1, h2⟩ | ⟨-, h1, h2⟩ | ⟨-, h1, h2⟩ <;> rw [h1, h2] <;> norm_num
  have h3 : ThreeAngles (here 0 ([noiseCall].flatMap fun c => c.obs Rec.qp)) := by
    rw [List.flatMap_singleton]
    generalize noiseCall.obs Rec.qp = l at h
    rcases l with _ | ⟨a, _ | ⟨b, _ | ⟨c, _ | ⟨d, l⟩⟩⟩⟩ <;> simp at h
    obtain ⟨⟨a1, a2, a3⟩, ⟨b1, b2, b3⟩, ⟨c1, c2, c3⟩⟩ := h
    refine ⟨a, by simp [here, a1], b, by simp [here, a1, b1], c, by simp [here, a1, b1, c1], ?_, ?_, ?_⟩
    · rw [a2, b2]
      norm_num
    · rw [a2, c2]
      norm_num
    · rw [b2, c2]
      norm_num
  have hf : Function.Injective fun x : {x // Sample [noiseCall] x} =>
      (⟨x.1.2 % 3, Nat.mod_lt _ (by norm_num)⟩ : Fin 3) := by
    have key : ∀ x : {x // Sample [noiseCall] x}, x.1.1 = 0 ∧ x.1.2 < 3 := by
      rintro ⟨⟨j, k⟩, c, h1, h2⟩
      rcases j with _ | j
      · have : c = noiseCall := by simpa using h1.symm
        subst this
        exact ⟨rfl, h2⟩
      · simp at h1
    intro x y hxy
    obtain ⟨x1, x2⟩ := key x
    obtain ⟨y1, y2⟩ := key y
    have := congrArg Fin.val hxy
    dsimp only at this
    rw [Nat.mod_eq_of_lt x2, Nat.mod_eq_of_lt y2] at this
    exact Subtype.ext (Prod.ext (x1.trans y1.symm) this)
  obtain ⟨m, m', -, h1, h2⟩ := C155_binned μ Rec.qp Rec.solve_ok Rec.pix_ok Rec.mission (nside := 1) one_pos
    [noiseCall] (by
      intro c hc
      have : c = noiseCall := by simpa using hc
      subst this
      exact ⟨rfl, Rec.bin_ok, rfl⟩) (by
      intro c hc
      have : c = noiseCall := by simpa using hc
      subst this
      exact hu) (fun _ k => noise ⟨k % 3, Nat.mod_lt _ (by norm_num)⟩) 1 (Noise.white_comp hw _ hf) fill
  obtain ⟨v, c, x, -, -, g1, -, g2, -⟩ := h2 0 (by norm_num) h3
  exact ⟨μ, _, m', v, x, h1, g1, g2⟩

/-- The hypotheses of `C155_more` are met: three of the observations are enough to solve pixel 4. -/
example (fill : ℝ) : ∃ (μ : Measure (Fin 6 × Bool)) (u v : Fin 3 → ℝ) (x y : Fin 6 × Bool → Fin 3 → ℝ),
    ∀ i, ∫ ω, (y ω i - v i) ^ 2 ∂μ ≤ ∫ ω, (x ω i - u i) ^ 2 ∂μ := by
  obtain ⟨μ, noise, hμ, hw⟩ := Noise.white 6
  have hl : (List.finRange 3).map (fun k => sixObs.get (k.castAdd 3)) = sixObs.take 3 := by
    simp [sixObs, List.finRange_succ]
  have h3 : ThreeAngles (here 4 ((List.finRange 3).map fun k => sixObs.get (k.castAdd 3))) := by
    rw [hl]
    refine ⟨⟨4, 1, 0, 2⟩, by simp [here, sixObs], ⟨4, 0, 1, 3⟩, by simp [here, sixObs], ⟨4, -1, 0, 5⟩,
      by simp [here, sixObs], ?_, ?_, ?_⟩ <;> norm_num
  have hu : ∀ k : Fin (3 + 3), (sixObs.get k).c ^ 2 + (sixObs.get k).s ^ 2 = 1 := fun k =>
    sixObs_unit _ (List.get_mem _ _)
  obtain ⟨u, v, x, y, -, -, -, -, h⟩ := C155_more (n := 3) (r := 3) μ Rec.qp Rec.solve_ok (nside := 1)
    (fun k => sixObs.get k) hu noise 1 hw (holds_mapsOf 1 _) (fun ω => holds_mapsOf 1 _) (holds_mapsOf 1 _)
    (fun ω => holds_mapsOf 1 _) fill (by norm_num : 4 < 12 * 1 ^ 2) h3
  exact ⟨μ, u, v, x, y, h⟩

end Verif.Props
