import Verif.Model.Quat
import Mathlib.Algebra.Quaternion
import Mathlib.Tactic.FieldSimp

/-!
# Property C26: quaternion helpers

The specification is Mathlib's quaternion algebra `ℍ[ℝ]`: an array `(a, b, c, d)` denotes
`a + b i + c j + d k`.
-/

namespace Verif.Props

open Verif.Quat

open scoped Quaternion

/-- The quaternion denoted by an array (specification). -/
def toH (q : Q) : ℍ[ℝ] := ⟨q 0, q 1, q 2, q 3⟩

private theorem toH_inj {p q : Q} (h : toH p = toH q) : p = q := by
  have h0 := congrArg QuaternionAlgebra.re h
  have h1 := congrArg QuaternionAlgebra.imI h
  have h2 := congrArg QuaternionAlgebra.imJ h
  have h3 := congrArg QuaternionAlgebra.imK h
  funext i
  fin_cases i
  · exact h0
  · exact h1
  · exact h2
  · exact h3

private theorem sumSq (q : Q) : ∑ i, q i ^ 2 = q 0 ^ 2 + q 1 ^ 2 + q 2 ^ 2 + q 3 ^ 2 := by
  rw [Fin.sum_univ_four]

private theorem sumSq_conj (q : Q) : ∑ i, quatConj q i ^ 2 = ∑ i, q i ^ 2 := by
  rw [sumSq, sumSq]
  simp [quatConj]

private theorem sumSq_ne_zero {q : Q} (h : q ≠ 0) : ∑ i, q i ^ 2 ≠ 0 := by
  intro h0
  apply h
  have := (Finset.sum_eq_zero_iff_of_nonneg (fun i _ => sq_nonneg (q i))).mp h0
  funext i
  exact pow_eq_zero_iff (two_ne_zero) |>.mp (this i (Finset.mem_univ i))

/-- **C26 (product).** `quat_left_mult(q2, q)` is the Hamilton product `q2 q`. -/
theorem C26_hamilton_product (q2 q : Q) : toH (quatLeftMult q2 q) = toH q2 * toH q := by
  ext <;> simp only [Quaternion.re_mul, Quaternion.imI_mul, Quaternion.imJ_mul, Quaternion.imK_mul]
    <;> simp [toH, quatLeftMult] <;> ring

/-- **C26 (product is associative).** -/
theorem C26_assoc (p q r : Q) :
    quatLeftMult (quatLeftMult p q) r = quatLeftMult p (quatLeftMult q r) := by
  apply toH_inj
  simp only [C26_hamilton_product, mul_assoc]

/-- **C26 (unit).** `(1, 0, 0, 0)` is a two-sided unit. -/
theorem C26_unit (q : Q) :
    quatLeftMult ![1, 0, 0, 0] q = q ∧ quatLeftMult q ![1, 0, 0, 0] = q := by
  constructor <;> (funext i; fin_cases i <;> simp [quatLeftMult])

/-- **C26 (norm).** The squared norm is multiplicative. -/
theorem C26_norm_mul (p q : Q) :
    ∑ i, quatLeftMult p q i ^ 2 = (∑ i, p i ^ 2) * ∑ i, q i ^ 2 := by
  simp only [sumSq]
  simp [quatLeftMult]
  ring

/-- **C26 (conjugation).** `quat_conj` is quaternion conjugation, so it reverses products and is an
involution. -/
theorem C26_conj (p q : Q) :
    toH (quatConj q) = star (toH q) ∧
    quatConj (quatLeftMult p q) = quatLeftMult (quatConj q) (quatConj p) ∧
    quatConj (quatConj q) = q := by
  refine ⟨?_, ?_, ?_⟩
  · ext <;> simp only [Quaternion.re_star, Quaternion.imI_star, Quaternion.imJ_star,
      Quaternion.imK_star] <;> simp [toH, quatConj]
  · funext i
    fin_cases i <;> simp [quatLeftMult, quatConj] <;> ring
  · funext i
    fin_cases i <;> simp [quatConj]

/-- **C26 (normalisation).** For every non-zero quaternion `quat_norm` returns the unit quaternion
that is a positive multiple of it. -/
theorem C26_quat_norm (q : Q) (h : q ≠ 0) :
    ∃ r, quatNorm q = some r ∧ ∑ i, r i ^ 2 = 1 ∧ ∃ s : ℝ, 0 < s ∧ q = s • r := by
  have hs := sumSq_ne_zero h
  have hpos : 0 < ∑ i, q i ^ 2 :=
    lt_of_le_of_ne (Finset.sum_nonneg fun i _ => sq_nonneg (q i)) (Ne.symm hs)
  have hsq : 0 < Real.sqrt (∑ i, q i ^ 2) := Real.sqrt_pos.mpr hpos
  refine ⟨fun i => q i / Real.sqrt (∑ i, q i ^ 2), ?_, ?_, Real.sqrt (∑ i, q i ^ 2), hsq, ?_⟩
  · simp [quatNorm, divScalar, hsq.ne']
  · simp only [div_pow]
    rw [Real.sq_sqrt hpos.le]
    rw [sumSq] at hs ⊢
    rw [Fin.sum_univ_four]
    field_simp
  · funext i
    simp only [Pi.smul_apply, smul_eq_mul]
    field_simp

/-- **C26 (normalisation, product).** Normalisation commutes with the product. -/
theorem C26_norm_of_product (p q : Q) (hp : p ≠ 0) (hq : q ≠ 0) :
    ∃ p' q', quatNorm p = some p' ∧ quatNorm q = some q' ∧
      quatNorm (quatLeftMult p q) = some (quatLeftMult p' q') := by
  have hp' := sumSq_ne_zero hp
  have hq' := sumSq_ne_zero hq
  have pp : 0 ≤ ∑ i, p i ^ 2 := Finset.sum_nonneg fun i _ => sq_nonneg (p i)
  have pq : 0 ≤ ∑ i, q i ^ 2 := Finset.sum_nonneg fun i _ => sq_nonneg (q i)
  have sp : Real.sqrt (∑ i, p i ^ 2) ≠ 0 := fun h => hp' ((Real.sqrt_eq_zero pp).mp h)
  have sq : Real.sqrt (∑ i, q i ^ 2) ≠ 0 := fun h => hq' ((Real.sqrt_eq_zero pq).mp h)
  refine ⟨fun i => p i / Real.sqrt (∑ i, p i ^ 2), fun i => q i / Real.sqrt (∑ i, q i ^ 2),
    by simp only [quatNorm, divScalar, if_neg sp],
    by simp only [quatNorm, divScalar, if_neg sq], ?_⟩
  have e : Real.sqrt (∑ i, quatLeftMult p q i ^ 2)
      = Real.sqrt (∑ i, p i ^ 2) * Real.sqrt (∑ i, q i ^ 2) := by
    rw [C26_norm_mul, Real.sqrt_mul pp]
  simp only [quatNorm, divScalar, e, if_neg (mul_ne_zero sp sq), Option.some.injEq]
  generalize Real.sqrt (∑ i, p i ^ 2) = a at *
  generalize Real.sqrt (∑ i, q i ^ 2) = b at *
  funext i
  fin_cases i <;> simp [quatLeftMult] <;> field_simp

private theorem quatInv_eq {q : Q} (h : q ≠ 0) :
    quatInv q = some (fun i => quatConj q i / ∑ i, q i ^ 2) := by
  simp only [quatInv, divScalar, sumSq_conj, if_neg (sumSq_ne_zero h)]

/-- **C26 (inverse).** For every non-zero quaternion `quat_inv` returns a two-sided inverse, the
inverse of the quaternion algebra; for zero it returns no quaternion. -/
theorem C26_inverse (q : Q) (h : q ≠ 0) :
    ∃ r, quatInv q = some r ∧ quatLeftMult q r = ![1, 0, 0, 0] ∧
      quatLeftMult r q = ![1, 0, 0, 0] ∧ toH r = (toH q)⁻¹ := by
  have hs := sumSq_ne_zero h
  have hm : ∀ r, quatInv q = some r →
      quatLeftMult q r = ![1, 0, 0, 0] ∧ quatLeftMult r q = ![1, 0, 0, 0] := by
    intro r hr
    rw [quatInv_eq h] at hr
    cases hr
    rw [sumSq] at *
    constructor <;>
    · funext i
      fin_cases i <;> simp [quatLeftMult, quatConj] <;> field_simp <;> ring
  refine ⟨_, quatInv_eq h, (hm _ (quatInv_eq h)).1, (hm _ (quatInv_eq h)).2, ?_⟩
  apply eq_inv_of_mul_eq_one_left
  rw [← C26_hamilton_product, (hm _ (quatInv_eq h)).2]
  ext <;> simp [toH]

theorem C26_inverse_of_zero : quatInv 0 = none ∧ quatNorm 0 = none := by
  constructor <;> simp [quatInv, quatNorm, divScalar, sumSq, quatConj]

/-- **C26 (conjugation by a quaternion).** `quat_conj_by(q, p)` is `p q p⁻¹`: it preserves the norm
and the scalar part of `q`. -/
theorem C26_conj_by (q p : Q) (h : p ≠ 0) :
    ∃ r, quatConjBy q p = some r ∧ toH r = toH p * toH q * (toH p)⁻¹ ∧
      ∑ i, r i ^ 2 = ∑ i, q i ^ 2 ∧ r 0 = q 0 := by
  obtain ⟨pi, hpi, h1, h2, h3⟩ := C26_inverse p h
  have hn : (∑ i, p i ^ 2) * ∑ i, pi i ^ 2 = 1 := by
    rw [← C26_norm_mul, h1]
    simp [sumSq]
  have hi := hpi
  refine ⟨quatLeftMult p (quatLeftMult q pi), by simp [quatConjBy, hpi], ?_, ?_, ?_⟩
  · rw [C26_hamilton_product, C26_hamilton_product, h3, mul_assoc]
  · rw [C26_norm_mul, C26_norm_mul]
    linear_combination (∑ i, q i ^ 2) * hn
  · rw [quatInv_eq h] at hi
    have hs := sumSq_ne_zero h
    cases hi
    rw [sumSq] at *
    simp [quatLeftMult, quatConj]
    field_simp
    ring

/-- **C26 (composition).** Conjugating by `p` and then by `p'` is conjugating by `p' p`. -/
theorem C26_conj_by_comp (q p p' : Q) (h : p ≠ 0) (h' : p' ≠ 0) :
    (quatConjBy q p).bind (quatConjBy · p') = quatConjBy q (quatLeftMult p' p) ∧
    (quatConjBy q p).isSome := by
  have hpp : quatLeftMult p' p ≠ 0 := by
    intro h0
    have := C26_norm_mul p' p
    rw [h0] at this
    simp only [Pi.zero_apply, ne_eq, OfNat.ofNat_ne_zero, not_false_eq_true, zero_pow,
      Finset.sum_const_zero] at this
    exact mul_ne_zero (sumSq_ne_zero h') (sumSq_ne_zero h) this.symm
  obtain ⟨r, hr, er, -, -⟩ := C26_conj_by q p h
  obtain ⟨r', hr', er', -, -⟩ := C26_conj_by r p' h'
  obtain ⟨s, hs, es, -, -⟩ := C26_conj_by q (quatLeftMult p' p) hpp
  refine ⟨?_, by simp [hr]⟩
  rw [hr, hs, Option.bind_some, hr', Option.some.injEq]
  apply toH_inj
  rw [er', er, es, C26_hamilton_product, mul_inv_rev]
  simp only [mul_assoc]

/-- **C26 (rotations).** Conjugation by `(cos(t/2), 0, 0, sin(t/2))` rotates the vector part by `t`
about the third axis. -/
theorem C26_rotation_z (t x y z : ℝ) :
    quatConjBy ![0, x, y, z] ![Real.cos (t / 2), 0, 0, Real.sin (t / 2)]
      = some ![0, Real.cos t * x - Real.sin t * y, Real.sin t * x + Real.cos t * y, z] := by
  have hc : Real.cos t = Real.cos (t / 2) ^ 2 - Real.sin (t / 2) ^ 2 := by
    have := Real.cos_two_mul' (t / 2)
    rwa [mul_div_cancel₀ t (two_ne_zero)] at this
  have hs : Real.sin t = 2 * Real.sin (t / 2) * Real.cos (t / 2) := by
    have := Real.sin_two_mul (t / 2)
    rwa [mul_div_cancel₀ t (two_ne_zero)] at this
  have h1 : Real.sin (t / 2) ^ 2 + Real.cos (t / 2) ^ 2 = 1 := Real.sin_sq_add_cos_sq _
  generalize Real.cos (t / 2) = c at *
  generalize Real.sin (t / 2) = s at *
  have hsum : ∑ i, quatConj ![c, 0, 0, s] i ^ 2 = 1 := by
    simp [sumSq, quatConj]
    linarith
  simp only [quatConjBy, quatInv, divScalar, hsum]
  rw [if_neg one_ne_zero]
  simp only [Option.bind_eq_bind, Option.bind_some, Option.pure_def, Option.some.injEq, hc, hs]
  funext i
  fin_cases i <;> simp [quatLeftMult, quatConj]
  · ring
  · ring
  · ring
  · linear_combination z * h1

/-- Non-vacuity: a non-trivial quaternion meets the hypotheses. -/
example : (![1, 2, -3, 4] : Q) ≠ 0 := fun h => by simpa using congrFun h 0

end Verif.Props
