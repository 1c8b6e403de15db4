import Verif.Model.Angles

/-!
# Lemmas about angle wrapping and spherical coordinates
-/

namespace Verif.Angles

open Real

theorem truncR_nonneg {x : ℝ} (h : 0 ≤ x) : truncR x = ⌊x⌋ := if_pos h

theorem truncR_neg {x : ℝ} (h : x < 0) : truncR x = ⌈x⌉ := if_neg (not_le.mpr h)

theorem wrap2_eq (x : ℝ) : wraparound2pi [x] = .ok [x - truncR (x / (2 * π)) * 2 * π] := rfl

theorem wrapN_eq (x : ℝ) {n : ℝ} (hn : n ≠ 0) :
    wraparoundNpi [x] n = .ok [x - ((if x < 0 then truncR (x / (n * π)) - 1
      else truncR (x / (n * π)) : ℤ) : ℝ) * n * π] := by
  simp only [wraparoundNpi, if_neg hn]

theorem floor_div_spec {x p : ℝ} (hp : 0 < p) : 0 ≤ x - ⌊x / p⌋ * p ∧ x - ⌊x / p⌋ * p < p := by
  have h1 := Int.floor_le (x / p)
  have h2 := Int.lt_floor_add_one (x / p)
  rw [le_div_iff₀ hp] at h1
  rw [div_lt_iff₀ hp] at h2
  constructor <;> nlinarith

theorem ceil_div_spec {x p : ℝ} (hp : 0 < p) : -p < x - ⌈x / p⌉ * p ∧ x - ⌈x / p⌉ * p ≤ 0 := by
  have h1 := Int.le_ceil (x / p)
  have h2 := Int.ceil_lt_add_one (x / p)
  rw [div_le_iff₀ hp] at h1
  rw [← sub_lt_iff_lt_add, lt_div_iff₀ hp] at h2
  constructor <;> nlinarith

theorem wrapN_nonneg {x n : ℝ} (hn : 0 < n) (hx : 0 ≤ x) :
    ∃ k : ℤ, wraparoundNpi [x] n = .ok [x - k * (n * π)] ∧
      0 ≤ x - k * (n * π) ∧ x - k * (n * π) < n * π := by
  have hp : 0 < n * π := mul_pos hn pi_pos
  refine ⟨⌊x / (n * π)⌋, ?_, floor_div_spec hp⟩
  rw [wrapN_eq x hn.ne', if_neg (not_lt.mpr hx), truncR_nonneg (div_nonneg hx hp.le), mul_assoc]

theorem wrapN_neg {x n : ℝ} (hn : 0 < n) (hx : x < 0) :
    ∃ k : ℤ, wraparoundNpi [x] n = .ok [x - k * (n * π)] ∧
      0 < x - k * (n * π) ∧ x - k * (n * π) ≤ n * π ∧
      ((∀ j : ℤ, x ≠ j * (n * π)) → x - k * (n * π) < n * π) := by
  have hp : 0 < n * π := mul_pos hn pi_pos
  obtain ⟨h1, h2⟩ := ceil_div_spec (x := x) hp
  have e : x - ((⌈x / (n * π)⌉ - 1 : ℤ) : ℝ) * (n * π) = x - ⌈x / (n * π)⌉ * (n * π) + n * π := by
    push_cast
    ring
  refine ⟨⌈x / (n * π)⌉ - 1, ?_, ?_, ?_, ?_⟩
  · rw [wrapN_eq x hn.ne', if_pos hx, truncR_neg (div_neg_of_neg_of_pos hx hp), mul_assoc]
  · rw [e]; linarith
  · rw [e]; linarith
  · intro hj
    rw [e]
    have : x - ⌈x / (n * π)⌉ * (n * π) ≠ 0 := fun h0 => hj ⌈x / (n * π)⌉ (by linarith)
    have := lt_of_le_of_ne h2 this
    linarith

/-- Uniqueness of the reduced angle. -/
theorem wrap_unique {a b p : ℝ} {k : ℤ} (ha : 0 ≤ a) (ha' : a < p) (hb : 0 ≤ b) (hb' : b < p)
    (h : a = b + k * p) : a = b := by
  have hp : 0 < p := lt_of_le_of_lt ha ha'
  have h1 : (k : ℝ) * p < 1 * p := by linarith
  have h2 : (-1 : ℝ) * p < k * p := by linarith
  have h3 : (k : ℝ) < 1 := lt_of_mul_lt_mul_right h1 hp.le
  have h4 : (-1 : ℝ) < k := lt_of_mul_lt_mul_right h2 hp.le
  have h5 : k < 1 := by exact_mod_cast h3
  have h6 : -1 < k := by exact_mod_cast h4
  have : k = 0 := by omega
  rw [h, this]
  simp

/-- Squared length. -/
def nsq (v : V3) : ℝ := v.x ^ 2 + v.y ^ 2 + v.z ^ 2

/-- Scalar product. -/
def dot (a b : V3) : ℝ := a.x * b.x + a.y * b.y + a.z * b.z

theorem V3.ext' {a b : V3} (hx : a.x = b.x) (hy : a.y = b.y) (hz : a.z = b.z) : a = b := by
  cases a
  cases b
  simp_all

theorem dot_rotXY (t : ℝ) (a b : V3) : dot (rotXY t a) (rotXY t b) = dot a b := by
  simp only [dot, rotXY]
  linear_combination (a.x * b.x + a.y * b.y) * sin_sq_add_cos_sq t

theorem dot_rotXZ (t : ℝ) (a b : V3) : dot (rotXZ t a) (rotXZ t b) = dot a b := by
  simp only [dot, rotXZ]
  linear_combination (a.x * b.x + a.z * b.z) * sin_sq_add_cos_sq t

theorem nsq_eq_dot (v : V3) : nsq v = dot v v := by
  simp only [nsq, dot]
  ring

theorem dot_postRot (p : L2Par) (th ph t : ℝ) (a b : V3) :
    dot (postRot p th ph t a) (postRot p th ph t b) = dot a b := by
  simp only [postRot, dot_rotXY, dot_rotXZ]

theorem nsq_preVec (p : L2Par) (th ph t : ℝ) : nsq (preVec p th ph t) = 1 := by
  rw [nsq_eq_dot]
  simp only [preVec, dot_rotXY, dot_rotXZ]
  simp only [dot, sunVec]
  linear_combination sin th ^ 2 * sin_sq_add_cos_sq ph + sin_sq_add_cos_sq th

theorem relPhi_ecl (ph : ℝ) :
    cos (relPhi (sunVec (π / 2) ph)) = cos ph ∧ sin (relPhi (sunVec (π / 2) ph)) = sin ph := by
  simp only [relPhi, sunVec, sin_pi_div_two, one_mul, ge_iff_le]
  have hc : cos (arccos (cos ph)) = cos ph := cos_arccos (neg_one_le_cos ph) (cos_le_one ph)
  have hs : sin (arccos (cos ph)) = |sin ph| := by
    rw [sin_arccos, ← abs_sin_eq_sqrt_one_sub_cos_sq]
  split
  · rename_i h
    exact ⟨hc, by rw [hs, abs_of_nonneg h]⟩
  · rename_i h
    rw [cos_add_two_pi, sin_add_two_pi, cos_neg, sin_neg]
    exact ⟨hc, by rw [hs, abs_of_neg (not_le.mp h), neg_neg]⟩

theorem preVec_ecl (p : L2Par) (ph t : ℝ) :
    preVec p (π / 2) ph t = ⟨cos (p.omegaSpin * t + π) * sin p.thetaBoresight,
      sin (p.omegaSpin * t + π) * sin p.thetaBoresight, cos p.thetaBoresight⟩ := by
  obtain ⟨hc, hs⟩ := relPhi_ecl ph
  have h1 := sin_sq_add_cos_sq ph
  have e1 : cos (-π / 2) = 0 := by rw [neg_div, cos_neg, cos_pi_div_two]
  have e2 : sin (-π / 2) = -1 := by rw [neg_div, sin_neg, sin_pi_div_two]
  simp only [preVec, rotXY, rotXZ, cos_neg, sin_neg, hc, hs, e1, e2]
  simp only [sunVec, sin_pi_div_two, cos_pi_div_two]
  apply V3.ext' <;> dsimp only
  · linear_combination cos (p.omegaSpin * t + π) * sin p.thetaBoresight * h1
  · linear_combination sin (p.omegaSpin * t + π) * sin p.thetaBoresight * h1
  · linear_combination cos p.thetaBoresight * h1

/-! ### spherical coordinates -/

theorem arctan2_spec (v : V3) :
    √(v.x ^ 2 + v.y ^ 2) * cos (arctan2 v.y v.x) = v.x ∧
    √(v.x ^ 2 + v.y ^ 2) * sin (arctan2 v.y v.x) = v.y := by
  have hn : ‖(⟨v.x, v.y⟩ : ℂ)‖ = √(v.x ^ 2 + v.y ^ 2) := by
    rw [Complex.norm_def, Complex.normSq_mk]
    congr 1
    ring
  constructor
  · rw [← hn]; exact Complex.norm_mul_cos_arg ⟨v.x, v.y⟩
  · rw [← hn]; exact Complex.norm_mul_sin_arg ⟨v.x, v.y⟩

theorem arctan2_range (y x : ℝ) : -π < arctan2 y x ∧ arctan2 y x ≤ π :=
  ⟨Complex.neg_pi_lt_arg _, Complex.arg_le_pi _⟩

theorem unit_z {v : V3} (h : nsq v = 1) : -1 ≤ v.z ∧ v.z ≤ 1 := by
  simp only [nsq] at h
  constructor <;> nlinarith [sq_nonneg v.x, sq_nonneg v.y]

theorem unit_r {v : V3} (h : nsq v = 1) : √(v.x * v.x + v.y * v.y) = √(1 - v.z ^ 2) := by
  simp only [nsq] at h
  congr 1
  linarith

theorem arctan2_rz {v : V3} (h : nsq v = 1) : arctan2 (√(v.x ^ 2 + v.y ^ 2)) v.z = arccos v.z := by
  have hr : v.x ^ 2 + v.y ^ 2 = 1 - v.z ^ 2 := by simp only [nsq] at h; linarith
  have hz := unit_z h
  have hnn : 0 ≤ 1 - v.z ^ 2 := by nlinarith
  have hn : ‖(⟨v.z, √(v.x ^ 2 + v.y ^ 2)⟩ : ℂ)‖ = 1 := by
    rw [Complex.norm_def, Complex.normSq_mk, mul_self_sqrt (by rw [hr]; exact hnn), hr]
    rw [show v.z * v.z + (1 - v.z ^ 2) = 1 by ring, sqrt_one]
  have h0 : (⟨v.z, √(v.x ^ 2 + v.y ^ 2)⟩ : ℂ) ≠ 0 := by
    intro h0
    rw [h0, norm_zero] at hn
    exact zero_ne_one hn
  rw [arctan2, Complex.arg_of_im_nonneg_of_ne_zero (sqrt_nonneg _) h0, hn, div_one]

/-- The polar angle computed by `np.arctan(np.sqrt(x*x+y*y)/z)` for a unit vector. -/
theorem arctanRZ_spec {v : V3} (h : nsq v = 1) :
    arctanRZ v = some (if 0 ≤ v.z then arccos v.z else arccos v.z - π) := by
  have hr := unit_r h
  unfold arctanRZ
  by_cases h0 : v.z = 0
  · have hne : ¬ v.x * v.x + v.y * v.y = 0 := by
      simp only [nsq, h0] at h
      intro h1
      nlinarith
    rw [if_pos h0, if_neg hne, h0, if_pos le_rfl, arccos_zero]
  · rw [if_neg h0, hr]
    congr 1
    split
    · rename_i h1
      exact (arccos_eq_arctan (lt_of_le_of_ne h1 (Ne.symm h0))).symm
    · rename_i h1
      have h2 : 0 < -v.z := by linarith [not_le.mp h1]
      have := arccos_eq_arctan h2
      rw [arccos_neg, neg_sq, div_neg, arctan_neg] at this
      linarith

theorem arccos_lt_pi {z : ℝ} (h : -1 < z) : arccos z < π := by
  refine lt_of_le_of_ne (arccos_le_pi z) ?_
  intro he
  rw [arccos_eq_pi] at he
  linarith

/-- `deriv_theta` on one unit vector other than the south pole. -/
theorem derivTheta_spec {v : V3} (h : nsq v = 1) (hz : -1 < v.z) :
    ∃ ph : ℝ, cos ph = cos (arctan2 v.y v.x) ∧ sin ph = sin (arctan2 v.y v.x) ∧
      derivTheta [v] = .ok [⟨cos (arccos v.z) * cos ph, cos (arccos v.z) * sin ph,
        -sin (arccos v.z)⟩] := by
  have hpi := pi_pos
  have hth : thetas (5 * π) [v] = .ok [(if 0 ≤ v.z then arccos v.z else arccos v.z - π) + 5 * π] := by
    simp [thetas, arctanRZ_spec h]
  have ha := arccos_nonneg v.z
  have hb := arccos_lt_pi hz
  have hx : 0 ≤ (if 0 ≤ v.z then arccos v.z else arccos v.z - π) + 5 * π := by split <;> linarith
  obtain ⟨k, hk, hk1, hk2⟩ := wrapN_nonneg one_pos hx
  have hw : (if 0 ≤ v.z then arccos v.z else arccos v.z - π) + 5 * π - k * (1 * π) = arccos v.z := by
    split at hk1
    · rename_i h0
      rw [if_pos h0] at hk2 ⊢
      refine wrap_unique (k := 5 - k) hk1 hk2 ha (by linarith) ?_
      push_cast
      ring
    · rename_i h0
      rw [if_neg h0] at hk2 ⊢
      refine wrap_unique (k := 4 - k) hk1 hk2 ha (by linarith) ?_
      push_cast
      ring
  rw [hw] at hk
  have hx2 : 0 ≤ arctan2 v.y v.x + 10 * π := by linarith [(arctan2_range v.y v.x).1]
  obtain ⟨j, hj, -, -⟩ := wrapN_nonneg two_pos hx2
  refine ⟨arctan2 v.y v.x + 10 * π - j * (2 * π), ?_, ?_, ?_⟩
  rotate_left 2
  · simp only [derivTheta, hth, bind, Except.bind, hk, List.map_cons, List.map_nil, hj,
      pure, Except.pure, List.zipWith_cons_cons, List.zipWith_nil_left]
  · rw [show arctan2 v.y v.x + 10 * π - j * (2 * π) = arctan2 v.y v.x + ((5 - j : ℤ) : ℝ) * (2 * π) by
      push_cast; ring, cos_add_int_mul_two_pi]
  · rw [show arctan2 v.y v.x + 10 * π - j * (2 * π) = arctan2 v.y v.x + ((5 - j : ℤ) : ℝ) * (2 * π) by
      push_cast; ring, sin_add_int_mul_two_pi]

/-- `deriv_phi` on one unit vector. -/
theorem derivPhi_spec {v : V3} (h : nsq v = 1) :
    ∃ ph : ℝ, cos ph = cos (arctan2 v.y v.x) ∧ sin ph = sin (arctan2 v.y v.x) ∧
      derivPhi [v] = .ok [⟨-sin ph, cos ph, 0⟩] := by
  have hth : thetas 0 [v] = .ok [(if 0 ≤ v.z then arccos v.z else arccos v.z - π) + 0] := by
    simp [thetas, arctanRZ_spec h]
  have hx2 : 0 ≤ arctan2 v.y v.x + 10 * π := by
    linarith [(arctan2_range v.y v.x).1, pi_pos]
  obtain ⟨j, hj, -, -⟩ := wrapN_nonneg two_pos hx2
  refine ⟨arctan2 v.y v.x + 10 * π - j * (2 * π), ?_, ?_, ?_⟩
  rotate_left 2
  · simp only [derivPhi, hth, bind, Except.bind, wrapN_eq _ one_ne_zero, List.map_cons,
      List.map_nil, hj, pure, Except.pure, mul_zero]
  · rw [show arctan2 v.y v.x + 10 * π - j * (2 * π) = arctan2 v.y v.x + ((5 - j : ℤ) : ℝ) * (2 * π) by
      push_cast; ring, cos_add_int_mul_two_pi]
  · rw [show arctan2 v.y v.x + 10 * π - j * (2 * π) = arctan2 v.y v.x + ((5 - j : ℤ) : ℝ) * (2 * π) by
      push_cast; ring, sin_add_int_mul_two_pi]

/-- The signed angle: `psiSign (arccos c) (arccos s)` has cosine `c` and sine `s`. -/
theorem psiSign_spec {c s : ℝ} (h : c ^ 2 + s ^ 2 = 1) :
    cos (psiSign (arccos c) (arccos s)) = c ∧ sin (psiSign (arccos c) (arccos s)) = s := by
  have hc1 : -1 ≤ c := by nlinarith [sq_nonneg s]
  have hc2 : c ≤ 1 := by nlinarith [sq_nonneg s]
  have hs1 : -1 ≤ s := by nlinarith [sq_nonneg c]
  have hs2 : s ≤ 1 := by nlinarith [sq_nonneg c]
  have hsin : sin (arccos c) = |s| := by
    rw [sin_arccos, show 1 - c ^ 2 = s ^ 2 by linarith, sqrt_sq_eq_abs]
  have hcos := cos_arccos hc1 hc2
  have hpi := pi_pos
  by_cases hs : s < 0
  · have hph : arccos s > 1 / 2 * π ∧ arccos s ≤ π := by
      refine ⟨?_, arccos_le_pi s⟩
      have := arccos_lt_arccos hs1 hs (by norm_num : (0 : ℝ) ≤ 1)
      rw [arccos_zero] at this
      linarith
    have hc3 : c < 1 := by nlinarith
    have h0 : 0 < arccos c := arccos_pos.mpr hc3
    have e : psiSign (arccos c) (arccos s) = -arccos c := by
      unfold psiSign
      dsimp only
      by_cases h1 : arccos c ≤ 1 / 2 * π
      · have hin : (arccos c > 0 ∧ arccos c ≤ 1 / 2 * π) ∧ (arccos s > 1 / 2 * π ∧ arccos s ≤ π) :=
          ⟨⟨h0, h1⟩, hph⟩
        rw [if_pos hin, if_neg (fun h => by linarith [h.1.1])]
      · rw [if_neg (show ¬((arccos c > 0 ∧ arccos c ≤ 1 / 2 * π) ∧ _) from fun h => h1 h.1.2),
          if_pos ⟨⟨not_le.mp h1, arccos_le_pi c⟩, hph⟩]
    rw [e, cos_neg, sin_neg, hcos, hsin, abs_of_neg hs, neg_neg]
    exact ⟨rfl, rfl⟩
  · have hph : ¬ (arccos s > 1 / 2 * π ∧ arccos s ≤ π) := by
      intro h1
      have : arccos s ≤ π / 2 := arccos_le_pi_div_two.mpr (not_lt.mp hs)
      linarith [h1.1]
    have e : psiSign (arccos c) (arccos s) = arccos c := by
      unfold psiSign
      dsimp only
      rw [if_neg (fun h => hph h.2), if_neg (fun h => hph h.2)]
    rw [e, hcos, hsin, abs_of_nonneg (not_lt.mp hs)]
    exact ⟨rfl, rfl⟩

theorem cosangle_unit {a b : V3} (ha : nsq a = 1) (hb : nsq b = 1) :
    cosangle a b = arccos (dot a b) := by
  simp only [nsq, pow_two] at ha hb
  simp only [cosangle, ha, hb, sqrt_one, div_one, dot]

end Verif.Angles
