import Verif.Spec.Maxwell
import Verif.Lemmas.Oblique

/-!
# Property C126: layers carry the waves of Maxwell's equations
-/

noncomputable section

namespace Verif.Props

open Verif.Optics Verif.Spec.Maxwell Real Matrix

namespace Waves

theorem csqrt_real {n : ℝ} (h : 0 < n) : csqrt ((n : ℂ) ^ 2) = n := by
  have h2 := csqrt_sq ((n : ℂ) ^ 2)
  rcases sq_eq_sq_iff_eq_or_eq_neg.1 h2 with h3 | h3
  · exact h3
  · exfalso
    have hp : 0 < ((n : ℂ) ^ 2).re := by
      rw [← Complex.ofReal_pow, Complex.ofReal_re]
      positivity
    have := csqrt_re_pos hp
    rw [h3, Complex.neg_re, Complex.ofReal_re] at this
    linarith

/-- Maxwell's equations in components. -/
theorem parts {m : Material} {chi : ℝ} {s q : ℂ} {E H : Fin 3 → ℂ} (w : Wave (tensor m chi) s q E H) :
    let a : ℂ := (cos chi : ℝ)
    let b : ℂ := (sin chi : ℝ)
    let o : ℂ := (1 - Complex.I * m.ordinaryLoss) * (m.ordinaryIndex : ℂ) ^ 2
    let e : ℂ := (1 - Complex.I * m.extraLoss) * (m.extraIndex : ℂ) ^ 2
    H 0 = -(q * E 1) ∧ H 1 = q * E 0 - s * E 2 ∧ H 2 = s * E 1 ∧
    q * H 1 = o * E 0 + (e - o) * a * (a * E 0 + b * E 1) ∧
    q * H 0 - s * H 2 = -(o * E 1 + (e - o) * b * (a * E 0 + b * E 1)) ∧
    s * H 1 = -(o * E 2) := by
  have f := w.faraday
  have g := w.ampere
  simp only [cross_apply] at f g
  have f0 := congrFun f 0
  have f1 := congrFun f 1
  have f2 := congrFun f 2
  have g0 := congrFun g 0
  have g1 := congrFun g 1
  have g2 := congrFun g 2
  simp [tensor, Matrix.mulVec, dotProduct, Fin.sum_univ_three] at f0 f1 f2 g0 g1 g2
  simp only
  refine ⟨?_, ?_, ?_, ?_, ?_, ?_⟩
  · rw [← f0]
  · rw [← f1]
  · rw [← f2]
  · simp only [Complex.ofReal_cos, Complex.ofReal_sin]
    linear_combination (-1) * g0
  · simp only [Complex.ofReal_cos, Complex.ofReal_sin]
    linear_combination g1
  · linear_combination g2

/-- A matrix for two separate polarizations multiplies waves that fit to its admittances. -/
theorem two_carries {p s : ℝ} (hp : p ≠ 0) (hs : s ≠ 0) {x y z : ℂ} {E H : Fin 3 → ℂ}
    (h1 : (E 0 = 0 ∧ H 1 = 0) ∨ (H 1 = p * E 0 ∧ z = x) ∨ (H 1 = -(p * E 0) ∧ z = -x))
    (h2 : (E 1 = 0 ∧ H 0 = 0) ∨ (H 0 = -(s * E 1) ∧ z = y) ∨ (H 0 = s * E 1 ∧ z = -y)) :
    (twoMat p s x y).mulVec (tangential E H) = Complex.exp z • tangential E H := by
  have hp' : (p : ℂ) ≠ 0 := by exact_mod_cast hp
  have hs' : (s : ℂ) ≠ 0 := by exact_mod_cast hs
  have k1 : Complex.cosh x * E 0 + Complex.sinh x / p * H 1 = Complex.exp z * E 0 ∧
      p * Complex.sinh x * E 0 + Complex.cosh x * H 1 = Complex.exp z * H 1 := by
    rcases h1 with ⟨a, b⟩ | ⟨a, b⟩ | ⟨a, b⟩ <;> rw [a, b]
    · simp
    · constructor <;> rw [Complex.cosh, Complex.sinh] <;> field_simp <;> ring
    · constructor <;> rw [Complex.cosh, Complex.sinh] <;> field_simp <;> ring
  have k2 : Complex.cosh y * E 1 + Complex.sinh y / s * -H 0 = Complex.exp z * E 1 ∧
      s * Complex.sinh y * E 1 + Complex.cosh y * -H 0 = Complex.exp z * -H 0 := by
    rcases h2 with ⟨a, b⟩ | ⟨a, b⟩ | ⟨a, b⟩ <;> rw [a, b]
    · simp
    · constructor <;> rw [Complex.cosh, Complex.sinh] <;> field_simp <;> ring
    · constructor <;> rw [Complex.cosh, Complex.sinh] <;> field_simp <;> ring
  funext i
  fin_cases i
  · simpa [twoMat, tangential, Matrix.mulVec, dotProduct, Fin.sum_univ_four] using k1.1
  · simpa [twoMat, tangential, Matrix.mulVec, dotProduct, Fin.sum_univ_four] using k1.2
  · simpa [twoMat, tangential, Matrix.mulVec, dotProduct, Fin.sum_univ_four] using k2.1
  · simpa [twoMat, tangential, Matrix.mulVec, dotProduct, Fin.sum_univ_four] using k2.2

theorem tm_case {n k : ℝ} (hn : n ≠ 0) (hk : k ≠ 0) {q K t : ℂ} {E H : Fin 3 → ℂ}
    (d : (q ^ 2 - ((n : ℂ) * k) ^ 2) * H 1 = 0) (w : q * H 1 = (n : ℂ) ^ 2 * E 0) :
    (E 0 = 0 ∧ H 1 = 0) ∨
      (H 1 = ((n / k : ℝ) : ℂ) * E 0 ∧ Complex.I * K * q * t = Complex.I * K * (n * k) * t) ∨
      (H 1 = -(((n / k : ℝ) : ℂ) * E 0) ∧ Complex.I * K * q * t = -(Complex.I * K * (n * k) * t)) := by
  have hn' : (n : ℂ) ≠ 0 := by exact_mod_cast hn
  have hk' : (k : ℂ) ≠ 0 := by exact_mod_cast hk
  rcases mul_eq_zero.1 d with h | h
  · right
    have fact : q ^ 2 - ((n : ℂ) * k) ^ 2 = (q - n * k) * (q + n * k) := by ring
    rw [fact] at h
    push_cast
    rcases mul_eq_zero.1 h with h | h
    · left
      have hq : q = n * k := by linear_combination h
      refine ⟨?_, by rw [hq]⟩
      rw [hq] at w
      rw [eq_comm, div_mul_eq_mul_div, div_eq_iff hk']
      apply mul_left_cancel₀ hn'
      linear_combination (-1) * w
    · right
      have hq : q = -(n * k) := by linear_combination h
      refine ⟨?_, by rw [hq]; ring⟩
      rw [hq] at w
      rw [eq_comm, neg_eq_iff_eq_neg, div_mul_eq_mul_div, div_eq_iff hk']
      apply mul_left_cancel₀ hn'
      linear_combination (-1) * w
  · left
    refine ⟨?_, h⟩
    rw [h, mul_zero] at w
    exact (mul_eq_zero.1 w.symm).resolve_left (pow_ne_zero 2 hn')

theorem te_case {n k : ℝ} {q K t : ℂ} {E H : Fin 3 → ℂ}
    (d : (q ^ 2 - ((n : ℂ) * k) ^ 2) * E 1 = 0) (w : H 0 = -(q * E 1)) :
    (E 1 = 0 ∧ H 0 = 0) ∨
      (H 0 = -(((n * k : ℝ) : ℂ) * E 1) ∧ Complex.I * K * q * t = Complex.I * K * (n * k) * t) ∨
      (H 0 = ((n * k : ℝ) : ℂ) * E 1 ∧ Complex.I * K * q * t = -(Complex.I * K * (n * k) * t)) := by
  rcases mul_eq_zero.1 d with h | h
  · right
    have fact : q ^ 2 - ((n : ℂ) * k) ^ 2 = (q - n * k) * (q + n * k) := by ring
    rw [fact] at h
    push_cast
    rcases mul_eq_zero.1 h with h | h
    · left
      have hq : q = n * k := by linear_combination h
      exact ⟨by rw [w, hq], by rw [hq]⟩
    · right
      have hq : q = -(n * k) := by linear_combination h
      exact ⟨by rw [w, hq]; ring, by rw [hq]; ring⟩
  · left
    exact ⟨h, by rw [w, h]; simp⟩

theorem cos_sq_index {nsin n : ℝ} (h : |nsin| < n) :
    (n * cos (arcsin (nsin / n))) ^ 2 = n ^ 2 - nsin ^ 2 ∧ 0 < cos (arcsin (nsin / n)) := by
  have hn : 0 < n := lt_of_le_of_lt (abs_nonneg _) h
  have a1 : |nsin / n| < 1 := by
    rw [abs_div, abs_of_pos hn, div_lt_one hn]
    exact h
  refine ⟨?_, cos_arcsin_pos a1⟩
  rw [mul_pow, cos_sq', sin_arcsin (abs_le.mp a1.le).1 (abs_le.mp a1.le).2]
  field_simp

/-- The phase of the ordinary ray without losses. -/
theorem phaseO_lossless {m : Material} (hO : 0 < m.ordinaryIndex) (l : m.ordinaryLoss = 0)
    (t frequency nsin : ℝ) :
    phaseO m t frequency nsin = Complex.I * ((2 * π * frequency / 2.998e8 : ℝ) : ℂ) *
      (m.ordinaryIndex * (cos (arcsin (nsin / m.ordinaryIndex)) : ℝ)) * t := by
  have hN : m.ordinaryComplexIndex = m.ordinaryIndex := by
    unfold Material.ordinaryComplexIndex
    rw [l]
    simpa using csqrt_real hO
  unfold phaseO c
  rw [hN]
  ring

/-- The phase of the extraordinary ray without losses. -/
theorem phaseE_lossless {m : Material} {nsin chi : ℝ} (hE : 0 < extraEff m nsin chi)
    (l : m.extraLoss = 0) (t frequency : ℝ) :
    phaseE m t frequency nsin chi = Complex.I * ((2 * π * frequency / 2.998e8 : ℝ) : ℂ) *
      (extraEff m nsin chi * (cos (arcsin (nsin / extraEff m nsin chi)) : ℝ)) * t := by
  unfold phaseE c
  rw [l]
  simp only [Complex.ofReal_zero, mul_zero, sub_zero, mul_one]
  rw [csqrt_real hE]
  ring

theorem wcols (chi nO nE : ℝ) (x y z w : ℂ) :
    (toC (wMat chi nO nE)).mulVec ![x, y, z, w] =
      (let a : ℂ := (cos chi : ℝ)
       let b : ℂ := (sin chi : ℝ)
       let n : ℂ := (nO : ℝ)
       let e : ℂ := (nE : ℝ)
       ![-b / n ^ 2 * x + a / e ^ 2 * y + -b / n ^ 2 * z + a / e ^ 2 * w,
         -b / n * x + a / e * y + b / n * z + -a / e * w,
         a / n ^ 2 * x + b / e ^ 2 * y + a / n ^ 2 * z + b / e ^ 2 * w,
         a / n * x + b / e * y + -a / n * z + -b / e * w]) := by
  funext i
  rw [toC_mulVec]
  fin_cases i <;> simp [wMat]

end Waves

open Waves

/-- **C126, no axis.** In an isotropic material without losses, at any angle of incidence.  Missing:
losses (`C126_violation_lossy`). -/
theorem C126_isotropic_partial (m : Material) (iso : m.extraIndex = m.ordinaryIndex)
    (lO : m.ordinaryLoss = 0) (lE : m.extraLoss = 0) (nsin : ℝ) (hn : |nsin| < m.ordinaryIndex)
    (t frequency chi : ℝ) :
    ∃ T, transferMatrix m t frequency nsin chi = .ok T ∧ Carries T m t frequency nsin chi := by
  have hO : 0 < m.ordinaryIndex := lt_of_le_of_lt (abs_nonneg _) hn
  obtain ⟨k1, k2⟩ := cos_sq_index hn
  refine ⟨_, transferMatrix_iso ⟨iso, by rw [lE, lO]⟩ hn t frequency chi, ?_⟩
  intro q E H w
  obtain ⟨w1, w2, w3, w4, w5, w6⟩ := parts w
  rw [phaseO_lossless hO lO]
  simp only [lO, lE, iso, Complex.ofReal_zero, mul_zero, sub_zero, one_mul, sub_self, zero_mul,
    add_zero] at w4 w5 w6
  generalize m.ordinaryIndex = n at *
  generalize cos (arcsin (nsin / n)) = k at *
  have k1' : ((n : ℂ) * k) ^ 2 = n ^ 2 - nsin ^ 2 := by exact_mod_cast k1
  have dTE : (q ^ 2 - (n * k) ^ 2) * E 1 = 0 := by
    rw [k1']
    rw [w1, w3] at w5
    linear_combination (-1) * w5
  have dTM : (q ^ 2 - (n * k) ^ 2) * H 1 = 0 := by
    rw [k1']
    linear_combination (-(n : ℂ) ^ 2) * w2 + q * w4 + nsin * w6
  exact two_carries (div_pos hO k2).ne' (mul_pos hO k2).ne' (tm_case hO.ne' k2.ne' dTM w4)
    (te_case dTE w1)

/-- **C126, axis perpendicular to the plane of incidence.** In a crystal without losses, at any angle of
incidence.  Missing: losses, and other directions of the axis (`C126_violation_oblique`). -/
theorem C126_perpendicular_partial (m : Material) (lO : m.ordinaryLoss = 0) (lE : m.extraLoss = 0) (nsin : ℝ)
    (hO : |nsin| < m.ordinaryIndex) (hE : |nsin| < m.extraIndex) (t frequency chi : ℝ)
    (hc : cos chi = 0) :
    ∃ T, transferMatrix m t frequency nsin chi = .ok T ∧ Carries T m t frequency nsin chi := by
  have pO : 0 < m.ordinaryIndex := lt_of_le_of_lt (abs_nonneg _) hO
  have pE : 0 < m.extraIndex := lt_of_le_of_lt (abs_nonneg _) hE
  have eff : extraEff m nsin chi = m.extraIndex := by
    unfold extraEff
    rw [hc]
    simp
  obtain ⟨k1, k2⟩ := cos_sq_index hO
  obtain ⟨j1, j2⟩ := cos_sq_index hE
  refine ⟨_, transferMatrix_perp ⟨hO, hE⟩ t frequency hc, ?_⟩
  intro q E H w
  obtain ⟨w1, w2, w3, w4, w5, w6⟩ := parts w
  rw [phaseO_lossless pO lO, phaseE_lossless (by rw [eff]; exact pE) lE, eff]
  have hs : sin chi ^ 2 = 1 := by have := sin_sq_add_cos_sq chi; rw [hc] at this; linarith
  have hs' : ((sin chi : ℝ) : ℂ) ^ 2 = 1 := by exact_mod_cast hs
  simp only [lO, lE, hc, Complex.ofReal_zero, mul_zero, sub_zero, one_mul, zero_mul, zero_add,
    add_zero] at w4 w5 w6
  generalize m.ordinaryIndex = n at *
  generalize cos (arcsin (nsin / n)) = k at *
  generalize m.extraIndex = e at *
  generalize cos (arcsin (nsin / e)) = j at *
  generalize ((sin chi : ℝ) : ℂ) = b at *
  have k1' : ((n : ℂ) * k) ^ 2 = n ^ 2 - nsin ^ 2 := by exact_mod_cast k1
  have j1' : ((e : ℂ) * j) ^ 2 = e ^ 2 - nsin ^ 2 := by exact_mod_cast j1
  have dTE : (q ^ 2 - (e * j) ^ 2) * E 1 = 0 := by
    rw [j1']
    rw [w1, w3] at w5
    linear_combination (-1) * w5 + ((e : ℂ) ^ 2 - n ^ 2) * E 1 * hs'
  have dTM : (q ^ 2 - (n * k) ^ 2) * H 1 = 0 := by
    rw [k1']
    linear_combination (-(n : ℂ) ^ 2) * w2 + q * w4 + nsin * w6
  exact two_carries (div_pos pO k2).ne' (mul_pos pE j2).ne' (tm_case pO.ne' k2.ne' dTM w4)
    (te_case dTE w1)

/-- **C126, normal incidence.** In a crystal without losses, in any orientation.  Missing: losses,
and oblique incidence (`C126_violation_oblique`). -/
theorem C126_normal_partial (m : Material) (lO : m.ordinaryLoss = 0) (lE : m.extraLoss = 0)
    (hO : 0 < m.ordinaryIndex) (hE : 0 < m.extraIndex) (t frequency chi : ℝ) :
    ∃ T, transferMatrix m t frequency 0 chi = .ok T ∧ Carries T m t frequency 0 chi := by
  obtain ⟨dW, hT⟩ := transferMatrix_normal hO hE t frequency chi
  refine ⟨_, hT, ?_⟩
  intro q E H w
  obtain ⟨w1, w2, w3, w4, w5, w6⟩ := parts w
  have hN : m.ordinaryComplexIndex = m.ordinaryIndex := by
    unfold Material.ordinaryComplexIndex
    rw [lO]
    simpa using csqrt_real hO
  have hM : csqrt ((m.extraIndex : ℂ) ^ 2 * (1 - Complex.I * m.extraLoss)) = m.extraIndex := by
    rw [lE]
    simpa using csqrt_real hE
  rw [hN, hM]
  simp only [lO, lE, Complex.ofReal_zero, mul_zero, sub_zero, one_mul, zero_mul] at w2 w4 w5 w6
  have hcs := sin_sq_add_cos_sq chi
  have hcs' : ((sin chi : ℝ) : ℂ) ^ 2 + ((cos chi : ℝ) : ℂ) ^ 2 = 1 := by exact_mod_cast hcs
  have act : ∀ u, (toC (wMat chi m.ordinaryIndex m.extraIndex) *
      (propMat (2 * π * frequency / c) (-t) (m.ordinaryIndex : ℂ) (m.extraIndex : ℂ) 0 0 *
        (toC (wMat chi m.ordinaryIndex m.extraIndex))⁻¹)).mulVec
        ((toC (wMat chi m.ordinaryIndex m.extraIndex)).mulVec u) =
      (toC (wMat chi m.ordinaryIndex m.extraIndex)).mulVec
        ((propMat (2 * π * frequency / c) (-t) (m.ordinaryIndex : ℂ) (m.extraIndex : ℂ) 0 0).mulVec u) := by
    intro u
    rw [Matrix.mulVec_mulVec, Matrix.mul_assoc, Matrix.mul_assoc,
      Matrix.nonsing_inv_mul _ (isUnit_iff_ne_zero.mpr dW), Matrix.mul_one, Matrix.mulVec_mulVec]
  generalize (toC (wMat chi m.ordinaryIndex m.extraIndex) *
      (propMat (2 * π * frequency / c) (-t) (m.ordinaryIndex : ℂ) (m.extraIndex : ℂ) 0 0 *
        (toC (wMat chi m.ordinaryIndex m.extraIndex))⁻¹)) = T at act ⊢
  rw [show c = 2.998e8 from rfl] at act
  generalize (2 * π * frequency / 2.998e8 : ℝ) = K at act ⊢
  have eE : (m.extraIndex : ℂ) ≠ 0 := by exact_mod_cast hE.ne'
  have eO : (m.ordinaryIndex : ℂ) ≠ 0 := by exact_mod_cast hO.ne'
  set a : ℂ := ((cos chi : ℝ) : ℂ) with ha
  set b : ℂ := ((sin chi : ℝ) : ℂ) with hb
  set n : ℂ := (m.ordinaryIndex : ℂ) with hn
  set e : ℂ := (m.extraIndex : ℂ) with he
  -- the four waves
  have c0 : T.mulVec ![-b, -(n * b), a, n * a] =
      Complex.exp (Complex.I * K * n * t) • ![-b, -(n * b), a, n * a] := by
    have h := act ![n ^ 2, 0, 0, 0]
    rw [prop_diag, wcols, wcols] at h
    simp only [← ha, ← hb, ← hn, ← he] at h
    convert h using 2 <;> funext i <;> fin_cases i <;> simp <;> field_simp
  have c2 : T.mulVec ![-b, n * b, a, -(n * a)] =
      Complex.exp (-(Complex.I * K * n * t)) • ![-b, n * b, a, -(n * a)] := by
    have h := act ![0, 0, n ^ 2, 0]
    rw [prop_diag, wcols, wcols] at h
    simp only [← ha, ← hb, ← hn, ← he] at h
    convert h using 2 <;> funext i <;> fin_cases i <;> simp <;> field_simp
  have c1 : T.mulVec ![a, e * a, b, e * b] =
      Complex.exp (Complex.I * K * e * t) • ![a, e * a, b, e * b] := by
    have h := act ![0, e ^ 2, 0, 0]
    rw [prop_diag, wcols, wcols] at h
    simp only [← ha, ← hb, ← hn, ← he] at h
    convert h using 2 <;> funext i <;> fin_cases i <;> simp <;> field_simp
  have c3 : T.mulVec ![a, -(e * a), b, -(e * b)] =
      Complex.exp (-(Complex.I * K * e * t)) • ![a, -(e * a), b, -(e * b)] := by
    have h := act ![0, 0, 0, e ^ 2]
    rw [prop_diag, wcols, wcols] at h
    simp only [← ha, ← hb, ← hn, ← he] at h
    convert h using 2 <;> funext i <;> fin_cases i <;> simp <;> field_simp
  clear_value a b n e
  -- the two parts of a wave
  have dE : (q - e) * (q + e) * (a * E 0 + b * E 1) = 0 := by
    rw [w1] at w5
    rw [w2] at w4
    linear_combination a * w4 - b * w5 + ((e ^ 2 - n ^ 2) * (a * E 0 + b * E 1)) * hcs'
  have dO : (q - n) * (q + n) * (-b * E 0 + a * E 1) = 0 := by
    rw [w1] at w5
    rw [w2] at w4
    linear_combination (-b) * w4 - a * w5
  have pE : T.mulVec ![a * (a * E 0 + b * E 1), q * (a * (a * E 0 + b * E 1)),
        b * (a * E 0 + b * E 1), q * (b * (a * E 0 + b * E 1))] =
      Complex.exp (Complex.I * K * q * t) • ![a * (a * E 0 + b * E 1), q * (a * (a * E 0 + b * E 1)),
        b * (a * E 0 + b * E 1), q * (b * (a * E 0 + b * E 1))] := by
    rcases mul_eq_zero.1 dE with h | h
    · generalize a * E 0 + b * E 1 = x
      rcases mul_eq_zero.1 h with h | h
      · have hq : q = e := by linear_combination h
        have := congrArg (fun v => x • v) c1
        simp only [← Matrix.mulVec_smul, smul_comm x] at this
        rw [hq]
        convert this using 2 <;> funext i <;> fin_cases i <;> simp <;> ring
      · have hq : q = -e := by linear_combination h
        have := congrArg (fun v => x • v) c3
        simp only [← Matrix.mulVec_smul, smul_comm x] at this
        rw [hq]
        convert this using 2
        · funext i
          fin_cases i <;> simp <;> ring
        · congr 1
          ring
        · funext i
          fin_cases i <;> simp <;> ring
    · rw [h]
      have : (![a * 0, q * (a * 0), b * 0, q * (b * 0)] : Fin 4 → ℂ) = 0 := by
        funext i
        fin_cases i <;> simp
      rw [this, Matrix.mulVec_zero, smul_zero]
  have pO : T.mulVec ![-b * (-b * E 0 + a * E 1), q * (-b * (-b * E 0 + a * E 1)),
        a * (-b * E 0 + a * E 1), q * (a * (-b * E 0 + a * E 1))] =
      Complex.exp (Complex.I * K * q * t) • ![-b * (-b * E 0 + a * E 1), q * (-b * (-b * E 0 + a * E 1)),
        a * (-b * E 0 + a * E 1), q * (a * (-b * E 0 + a * E 1))] := by
    rcases mul_eq_zero.1 dO with h | h
    · generalize -b * E 0 + a * E 1 = x
      rcases mul_eq_zero.1 h with h | h
      · have hq : q = n := by linear_combination h
        have := congrArg (fun v => x • v) c0
        simp only [← Matrix.mulVec_smul, smul_comm x] at this
        rw [hq]
        convert this using 2 <;> funext i <;> fin_cases i <;> simp <;> ring
      · have hq : q = -n := by linear_combination h
        have := congrArg (fun v => x • v) c2
        simp only [← Matrix.mulVec_smul, smul_comm x] at this
        rw [hq]
        convert this using 2
        · funext i
          fin_cases i <;> simp <;> ring
        · congr 1
          ring
        · funext i
          fin_cases i <;> simp <;> ring
    · rw [h]
      have : (![-b * 0, q * (-b * 0), a * 0, q * (a * 0)] : Fin 4 → ℂ) = 0 := by
        funext i
        fin_cases i <;> simp
      rw [this, Matrix.mulVec_zero, smul_zero]
  have sum : tangential E H = ![a * (a * E 0 + b * E 1), q * (a * (a * E 0 + b * E 1)),
        b * (a * E 0 + b * E 1), q * (b * (a * E 0 + b * E 1))] +
      ![-b * (-b * E 0 + a * E 1), q * (-b * (-b * E 0 + a * E 1)),
        a * (-b * E 0 + a * E 1), q * (a * (-b * E 0 + a * E 1))] := by
    funext i
    fin_cases i <;> simp [tangential, w1, w2]
    · linear_combination (-E 0) * hcs'
    · linear_combination (-q * E 0) * hcs'
    · linear_combination (-E 1) * hcs'
    · linear_combination (-q * E 1) * hcs'
  rw [sum, Matrix.mulVec_add, pE, pO, smul_add]

/-- **C126 (violation).** With the axis in the plane of incidence and oblique incidence, some wave in the
crystal is not carried: the code turns displacements to fields with the effective index. -/
theorem C126_violation_oblique (m : Material) (lO : m.ordinaryLoss = 0) (lE : m.extraLoss = 0)
    (nsin : ℝ) (hs : nsin ≠ 0) (hO : |nsin| < m.ordinaryIndex) (hE : |nsin| < m.extraIndex)
    (hne : m.ordinaryIndex ≠ m.extraIndex) (t frequency : ℝ)
    (ht : sin (2 * π * frequency / 2.998e8 * (m.extraIndex * √(1 - nsin ^ 2 / m.ordinaryIndex ^ 2)) * t)
      ≠ 0) :
    ∃ T, transferMatrix m t frequency nsin 0 = .ok T ∧ ¬ Carries T m t frequency nsin 0 := by
  have pO : 0 < m.ordinaryIndex := lt_of_le_of_lt (abs_nonneg _) hO
  have pE : 0 < m.extraIndex := lt_of_le_of_lt (abs_nonneg _) hE
  obtain ⟨hr, hnE, hlt⟩ := extraEff_sq (chi := 0) (m := m) (nsin := nsin) ⟨hO, hE⟩
  refine ⟨_, transferMatrix_plane ⟨hO, hE⟩ t frequency sin_zero, ?_⟩
  rw [phaseE_lossless hnE lE]
  obtain ⟨k1, k2⟩ := cos_sq_index hlt
  have q1 := sq_lt_of_abs_lt hO
  -- the normal component
  have hQ0 : 0 < 1 - nsin ^ 2 / m.ordinaryIndex ^ 2 := by
    rw [sub_pos, div_lt_one (by positivity)]
    exact q1
  have hQ := sq_sqrt hQ0.le
  have hQpos := sqrt_pos.2 hQ0
  generalize √(1 - nsin ^ 2 / m.ordinaryIndex ^ 2) = Q at *
  have heff : extraEff m nsin 0 ^ 2 =
      m.extraIndex ^ 2 + nsin ^ 2 - nsin ^ 2 * m.extraIndex ^ 2 / m.ordinaryIndex ^ 2 := by
    unfold extraEff
    rw [mul_pow, sq_sqrt hr.le, cos_zero]
    field_simp
    ring
  have hne' : extraEff m nsin 0 ^ 2 ≠ m.extraIndex ^ 2 := by
    rw [heff]
    intro h
    have h2 : nsin ^ 2 * (m.ordinaryIndex ^ 2 - m.extraIndex ^ 2) = 0 := by
      have h3 : nsin ^ 2 = nsin ^ 2 * m.extraIndex ^ 2 / m.ordinaryIndex ^ 2 := by linarith
      rw [eq_div_iff (by positivity)] at h3
      linarith
    rcases mul_eq_zero.1 h2 with h3 | h3
    · exact hs (by simpa using h3)
    · have : m.ordinaryIndex ^ 2 = m.extraIndex ^ 2 := by linarith
      rcases sq_eq_sq_iff_eq_or_eq_neg.1 this with h4 | h4
      · exact hne h4
      · linarith
  have hphase : extraEff m nsin 0 * cos (arcsin (nsin / extraEff m nsin 0)) = m.extraIndex * Q := by
    have e1 : (extraEff m nsin 0 * cos (arcsin (nsin / extraEff m nsin 0))) ^ 2 =
        (m.extraIndex * Q) ^ 2 := by
      rw [k1, heff, mul_pow, hQ]
      field_simp
      ring
    rcases sq_eq_sq_iff_eq_or_eq_neg.1 e1 with h | h
    · exact h
    · have h1 := mul_pos hnE k2
      have h2 := mul_pos pE hQpos
      linarith
  intro hcar
  -- the extraordinary wave
  have pO' : (m.ordinaryIndex : ℂ) ≠ 0 := by exact_mod_cast pO.ne'
  have pE' : (m.extraIndex : ℂ) ≠ 0 := by exact_mod_cast pE.ne'
  have hQ' : (Q : ℂ) ^ 2 = 1 - nsin ^ 2 / m.ordinaryIndex ^ 2 := by exact_mod_cast hQ
  have hw : Wave (tensor m 0) nsin (m.extraIndex * Q : ℂ)
      ![(Q : ℂ) / m.extraIndex, 0, -(nsin / m.ordinaryIndex ^ 2 : ℂ)] ![0, 1, 0] := by
    constructor
    · rw [cross_apply]
      funext i
      fin_cases i <;> simp
      field_simp
      rw [hQ']
      field_simp
      ring
    · rw [cross_apply]
      funext i
      fin_cases i <;> simp only [tensor, Matrix.mulVec, dotProduct, Fin.sum_univ_three, lO, lE, Pi.neg_apply,
        Matrix.of_apply] <;> simp <;> field_simp
  have h := hcar _ _ _ hw
  have h0 := congrFun h 1
  have hpush : ((extraEff m nsin 0 : ℝ) : ℂ) * ((cos (arcsin (nsin / extraEff m nsin 0)) : ℝ) : ℂ) =
      m.extraIndex * Q := by exact_mod_cast hphase
  rw [hpush] at h0
  simp only [tangential, twoMat, Matrix.mulVec, dotProduct, Fin.sum_univ_four, Matrix.of_apply,
    Matrix.cons_val', Matrix.cons_val_zero, Matrix.cons_val_one, Matrix.cons_val_fin_one, Matrix.cons_val,
    Pi.smul_apply, smul_eq_mul, zero_mul, add_zero, mul_one] at h0
  generalize hz : Complex.I * ((2 * π * frequency / 2.998e8 : ℝ) : ℂ) * (m.extraIndex * Q) * t = z at h0
  have hsinh : Complex.sinh z ≠ 0 := by
    rw [← hz, show Complex.I * ((2 * π * frequency / 2.998e8 : ℝ) : ℂ) * ((m.extraIndex : ℂ) * Q) * t =
      ((2 * π * frequency / 2.998e8 * (m.extraIndex * Q) * t : ℝ) : ℂ) * Complex.I by push_cast; ring,
      Complex.sinh_mul_I]
    apply mul_ne_zero _ Complex.I_ne_zero
    rw [← Complex.ofReal_sin]
    exact_mod_cast ht
  have h1 : ((extraEff m nsin 0 / cos (arcsin (nsin / extraEff m nsin 0)) : ℝ) : ℂ) *
      ((Q : ℂ) / m.extraIndex) = 1 := by
    apply mul_left_cancel₀ hsinh
    have : Complex.exp z = Complex.cosh z + Complex.sinh z := (Complex.cosh_add_sinh z).symm
    rw [this] at h0
    linear_combination h0
  have h2 : extraEff m nsin 0 / cos (arcsin (nsin / extraEff m nsin 0)) * (Q / m.extraIndex) = 1 := by
    exact_mod_cast h1
  apply hne'
  have h3 : extraEff m nsin 0 * Q = cos (arcsin (nsin / extraEff m nsin 0)) * m.extraIndex := by
    have := k2.ne'
    field_simp at h2
    linarith
  have h4 : extraEff m nsin 0 ^ 2 * Q = m.extraIndex ^ 2 * Q := by
    rw [pow_two, mul_assoc, h3, ← mul_assoc, hphase]
    ring
  exact mul_right_cancel₀ hQpos.ne' h4

/-- **C126 (violation).** In a material with losses no thickness carries the wave at normal incidence: the
code damps it in the layer but meets it at the interfaces as if there were no losses. -/
theorem C126_violation_lossy (m : Material) (iso : m.extraIndex = m.ordinaryIndex)
    (loss : m.extraLoss = m.ordinaryLoss) (hO : 0 < m.ordinaryIndex) (hl : 0 < m.ordinaryLoss)
    (t frequency chi : ℝ) (ht : t ≠ 0) (hf : frequency ≠ 0) :
    ∃ T, transferMatrix m t frequency 0 chi = .ok T ∧ ¬ Carries T m t frequency 0 chi := by
  refine ⟨_, transferMatrix_iso ⟨iso, loss⟩ (by simpa using hO) t frequency chi, ?_⟩
  intro hcar
  have hsq : m.ordinaryComplexIndex ^ 2 = (1 - Complex.I * m.ordinaryLoss) * (m.ordinaryIndex : ℂ) ^ 2 :=
    csqrt_sq _
  have him : m.ordinaryComplexIndex.im ≠ 0 := by
    intro h0
    have h1 := congrArg Complex.im hsq
    rw [pow_two, Complex.mul_im, h0, ← Complex.ofReal_pow, Complex.mul_im, Complex.ofReal_im,
      Complex.ofReal_re] at h1
    simp only [Complex.sub_im, Complex.one_im, Complex.mul_im, Complex.I_im, Complex.I_re,
      Complex.ofReal_re, Complex.ofReal_im] at h1
    have : 0 < m.ordinaryLoss * m.ordinaryIndex ^ 2 := by positivity
    linarith
  have hw : Wave (tensor m chi) ((0 : ℝ) : ℂ) m.ordinaryComplexIndex ![1, 0, 0]
      ![0, m.ordinaryComplexIndex, 0] := by
    constructor
    · rw [cross_apply]
      funext i
      fin_cases i <;> simp
    · rw [cross_apply]
      funext i
      fin_cases i <;> simp only [tensor, Matrix.mulVec, dotProduct, Fin.sum_univ_three, iso, loss,
        Pi.neg_apply, Matrix.of_apply, sub_self, zero_mul, add_zero] <;> simp
      rw [← pow_two, hsq]
  have h0 := congrFun (hcar _ _ _ hw) 0
  simp only [tangential, twoMat, Matrix.mulVec, dotProduct, Fin.sum_univ_four, Matrix.of_apply,
    Matrix.cons_val', Matrix.cons_val_zero, Matrix.cons_val_one, Matrix.cons_val_fin_one, Matrix.cons_val,
    Pi.smul_apply, smul_eq_mul, zero_mul, add_zero, mul_one] at h0
  have hz : phaseO m t frequency 0 =
      Complex.I * ((2 * π * frequency / 2.998e8 : ℝ) : ℂ) * m.ordinaryComplexIndex * t := by
    unfold phaseO c
    simp
  rw [hz] at h0
  generalize hx : Complex.I * ((2 * π * frequency / 2.998e8 : ℝ) : ℂ) * m.ordinaryComplexIndex * t = x at h0
  have hre : x.re ≠ 0 := by
    have h1 : x.re = -(2 * π * frequency / 2.998e8 * m.ordinaryComplexIndex.im * t) := by
      rw [← hx]
      simp only [Complex.mul_re, Complex.mul_im, Complex.I_re, Complex.I_im, Complex.ofReal_re,
        Complex.ofReal_im]
      ring
    rw [h1]
    have : π ≠ 0 := pi_ne_zero
    simp only [neg_ne_zero]
    positivity
  have hsinh : Complex.sinh x ≠ 0 := by
    intro h
    have h1 : Complex.exp x = Complex.exp (-x) := by
      rw [Complex.sinh, div_eq_zero_iff] at h
      rcases h with h | h
      · exact sub_eq_zero.1 h
      · norm_num at h
    have h2 := congrArg (fun z => ‖z‖) h1
    simp only [Complex.norm_exp, Complex.neg_re, exp_eq_exp] at h2
    exact hre (by linarith)
  simp only [zero_div, arcsin_zero, cos_zero, div_one] at h0
  rw [← Complex.cosh_add_sinh] at h0
  have hn' : (m.ordinaryIndex : ℂ) ≠ 0 := by exact_mod_cast hO.ne'
  have h1 : Complex.sinh x * m.ordinaryComplexIndex = Complex.sinh x * m.ordinaryIndex := by
    field_simp at h0
    linear_combination h0
  have h2 := mul_left_cancel₀ hsinh h1
  rw [h2] at him
  simp at him

/-- Sapphire meets the hypotheses of the four theorems, also those of the violation. -/
example : |(0.3 : ℝ)| < (3.019 : ℝ) ∧ |(0.3 : ℝ)| < (3.336 : ℝ) ∧ (3.019 : ℝ) ≠ 3.336 ∧ (0.3 : ℝ) ≠ 0 ∧
    cos (π / 2) = 0 := by
  refine ⟨?_, ?_, ?_, ?_, cos_pi_div_two⟩ <;> norm_num [abs_of_pos]

example : ∃ t : ℝ, sin (2 * π * 150e9 / 2.998e8 * (3.336 * √(1 - 0.3 ^ 2 / 3.019 ^ 2)) * t) ≠ 0 := by
  have hq : 0 < √(1 - (0.3 : ℝ) ^ 2 / 3.019 ^ 2) := sqrt_pos.2 (by norm_num)
  have hk : 2 * π * 150e9 / 2.998e8 * (3.336 * √(1 - (0.3 : ℝ) ^ 2 / 3.019 ^ 2)) ≠ 0 := by positivity
  refine ⟨π / 2 / (2 * π * 150e9 / 2.998e8 * (3.336 * √(1 - 0.3 ^ 2 / 3.019 ^ 2))), ?_⟩
  rw [mul_div_cancel₀ _ hk, sin_pi_div_two]
  exact one_ne_zero

/-- Waves that only one matrix can carry: in vacuum at normal incidence they are all tangential fields. -/
example (T U : M4) (t f : ℝ) (hT : Carries T ⟨1, 1, 0, 0⟩ t f 0 0) (hU : Carries U ⟨1, 1, 0, 0⟩ t f 0 0) :
    T = U := by
  have w1 : Wave (tensor ⟨1, 1, 0, 0⟩ 0) ((0 : ℝ) : ℂ) 1 ![1, 0, 0] ![0, 1, 0] := by
    constructor <;> rw [cross_apply] <;> funext i <;> fin_cases i <;>
      simp only [tensor, Matrix.mulVec, dotProduct, Fin.sum_univ_three, Pi.neg_apply, Matrix.of_apply] <;>
      simp
  have w2 : Wave (tensor ⟨1, 1, 0, 0⟩ 0) ((0 : ℝ) : ℂ) (-1) ![1, 0, 0] ![0, -1, 0] := by
    constructor <;> rw [cross_apply] <;> funext i <;> fin_cases i <;>
      simp only [tensor, Matrix.mulVec, dotProduct, Fin.sum_univ_three, Pi.neg_apply, Matrix.of_apply] <;>
      simp
  have w3 : Wave (tensor ⟨1, 1, 0, 0⟩ 0) ((0 : ℝ) : ℂ) 1 ![0, 1, 0] ![-1, 0, 0] := by
    constructor <;> rw [cross_apply] <;> funext i <;> fin_cases i <;>
      simp only [tensor, Matrix.mulVec, dotProduct, Fin.sum_univ_three, Pi.neg_apply, Matrix.of_apply] <;>
      simp
  have w4 : Wave (tensor ⟨1, 1, 0, 0⟩ 0) ((0 : ℝ) : ℂ) (-1) ![0, 1, 0] ![1, 0, 0] := by
    constructor <;> rw [cross_apply] <;> funext i <;> fin_cases i <;>
      simp only [tensor, Matrix.mulVec, dotProduct, Fin.sum_univ_three, Pi.neg_apply, Matrix.of_apply] <;>
      simp
  have e1 := (hT _ _ _ w1).trans (hU _ _ _ w1).symm
  have e2 := (hT _ _ _ w2).trans (hU _ _ _ w2).symm
  have e3 := (hT _ _ _ w3).trans (hU _ _ _ w3).symm
  have e4 := (hT _ _ _ w4).trans (hU _ _ _ w4).symm
  ext i j
  have f1 := congrFun e1 i
  have f2 := congrFun e2 i
  have f3 := congrFun e3 i
  have f4 := congrFun e4 i
  simp [tangential, Matrix.mulVec, dotProduct, Fin.sum_univ_four] at f1 f2 f3 f4
  fin_cases j
  · show T i 0 = U i 0
    linear_combination (f1 + f2) / 2
  · show T i 1 = U i 1
    linear_combination (f1 - f2) / 2
  · show T i 2 = U i 2
    linear_combination (f3 + f4) / 2
  · show T i 3 = U i 3
    linear_combination (f3 - f4) / 2

end Verif.Props
