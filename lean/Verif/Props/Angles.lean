import Verif.Lemmas.Angles

/-!
# Properties C31 - C34, C61, C62: angle conversions and the L2 scan
-/

namespace Verif.Props

open Verif.Angles Real

/-! ## C31 -/

/-- **C31 (partial).** For every right ascension and every declination in `(-90, 90]`, the result
is the longitude in `[0, 2 pi)` equivalent to the right ascension, and the colatitude
`90 - dec` degrees.

Missing: the south pole, see `C31_south_pole_violation`. -/
theorem C31_radec2colatlong_partial (ra dec : ℝ) (h1 : -90 < dec) (h2 : dec ≤ 90) :
    let r := radec2colatlong1 ra dec
    (0 ≤ r.1 ∧ r.1 < 2 * π ∧ ∃ k : ℤ, r.1 = (ra + k * 360) * (π / 180)) ∧
    r.2 = (90 - dec) * (π / 180) := by
  have hpi := pi_pos
  dsimp only [radec2colatlong1, Hwp.npMod]
  refine ⟨⟨?_, ?_, -⌊ra * (π / 180) / (2 * π)⌋, ?_⟩, ?_⟩
  · have := (floor_div_spec (x := ra * (π / 180)) (p := 2 * π) (by linarith)).1
    linarith
  · have := (floor_div_spec (x := ra * (π / 180)) (p := 2 * π) (by linarith)).2
    linarith
  · push_cast
    ring
  · have e : dec * (π / 180) * -1 + π / 2 = (90 - dec) / 180 * π := by ring
    have hf : ⌊(dec * (π / 180) * -1 + π / 2) / π⌋ = 0 := by
      rw [e, mul_div_assoc, div_self hpi.ne', mul_one, Int.floor_eq_zero_iff]
      constructor
      · apply div_nonneg <;> linarith
      · rw [div_lt_one] <;> linarith
    rw [hf]
    push_cast
    ring

/-- **C31 (violated at the south pole).** Declination -90 degrees is mapped to colatitude 0, the
north pole, instead of `pi`. -/
theorem C31_south_pole_violation (ra : ℝ) :
    (radec2colatlong1 ra (-90)).2 = 0 ∧ (0 : ℝ) ≠ (90 - (-90)) * (π / 180) := by
  have hpi := pi_pos
  refine ⟨?_, ?_⟩
  · dsimp only [radec2colatlong1, Hwp.npMod]
    have e : (-90 * (π / 180) * -1 + π / 2) / π = 1 := by
      rw [div_eq_one_iff_eq hpi.ne']
      ring
    rw [e, Int.floor_one]
    push_cast
    ring
  · intro h
    linarith

/-- **C31 (arrays).** The array function is elementwise. -/
theorem C31_elementwise (ra dec : List ℝ) (i : Nat) :
    (radec2colatlong ra dec).1[i]? = ra[i]?.map (fun r => (radec2colatlong1 r 0).1) ∧
    (radec2colatlong ra dec).2[i]? = dec[i]?.map (fun d => (radec2colatlong1 0 d).2) ∧
    ∀ r d, (radec2colatlong1 r 0).1 = (radec2colatlong1 r d).1 ∧
      (radec2colatlong1 0 d).2 = (radec2colatlong1 r d).2 := by
  refine ⟨by simp [radec2colatlong], by simp [radec2colatlong], fun r d => ⟨rfl, rfl⟩⟩

example : (-90 : ℝ) < -30 ∧ (-30 : ℝ) ≤ 90 := by norm_num

/-- **C31 (pixels), part.** `radec2ind_hp` gives for every direction north of the south pole the
pixel of colatitude `90 - dec` and of the longitude equivalent to the right ascension.

Missing: the south pole, and arrays that are used again (`C31_violation_twice`). -/
theorem C31_pixels_partial (ang2pix : Nat → ℝ → ℝ → Int) (ra dec : List ℝ) (nside : Nat)
    (i : Nat) (r d : ℝ) (hr : ra[i]? = some r) (hd : dec[i]? = some d) (h1 : -90 < d)
    (h2 : d ≤ 90) :
    ∃ phi, 0 ≤ phi ∧ phi < 2 * π ∧ (∃ k : ℤ, phi = (r + k * 360) * (π / 180)) ∧
      (radec2indHp ang2pix ra dec nside).1[i]? =
        some (ang2pix nside ((90 - d) * (π / 180)) phi) := by
  obtain ⟨⟨a, b, c⟩, e⟩ := C31_radec2colatlong_partial r d h1 h2
  refine ⟨_, a, b, c, ?_⟩
  simp only [radec2indHp, radec2colatlong, List.getElem?_zipWith, List.getElem?_map, hr, hd,
    Option.map_some]
  rw [show (radec2colatlong1 0 d).2 = (radec2colatlong1 r d).2 from rfl, e]
  rfl

example : ([10, 20] : List ℝ)[1]? = some 20 ∧ ([0, -89] : List ℝ)[1]? = some (-89 : ℝ) := by simp

/-- **C31 (violated for arrays that are used again).** The conversion overwrites its arguments: a
second call with the same arrays, for instance for another resolution, gives the pixel of another
direction. -/
theorem C31_violation_twice : ∃ (ang2pix : Nat → ℝ → ℝ → Int) (ra dec : List ℝ),
    (radec2indHp ang2pix ra dec 1).1 = [0] ∧
      (radec2indHp ang2pix (radec2indHp ang2pix ra dec 1).2.1
        (radec2indHp ang2pix ra dec 1).2.2 1).1 = [1] := by
  classical
  have hpi := pi_pos
  have hpi4 := pi_le_four
  have e1 : (radec2colatlong1 0 0).2 = π / 2 := by
    have := (C31_radec2colatlong_partial 0 0 (by norm_num) (by norm_num)).2
    rw [this]; ring
  have e2 : (radec2colatlong1 0 (π / 2)).2 = (90 - π / 2) * (π / 180) :=
    (C31_radec2colatlong_partial 0 (π / 2) (by linarith) (by linarith)).2
  refine ⟨fun _ theta _ => if theta = π / 2 then 0 else 1, [0], [0], ?_, ?_⟩
  · simp [radec2indHp, radec2colatlong, e1]
  · simp only [radec2indHp, radec2colatlong, List.map_cons, List.map_nil, e1, e2,
      List.zipWith_cons_cons, List.zipWith_nil_right]
    rw [if_neg]
    intro h
    have h3 : (90 - π / 2) * (π / 180) - π / 2 = -(π ^ 2 / 360) := by ring
    have h4 : 0 < π ^ 2 / 360 := by positivity
    linarith

/-! ## C32 -/

/-- `y` is the angle in `[0, period)` equivalent to `x` modulo `period` (specification). -/
def IsWrapped (period x y : ℝ) : Prop := 0 ≤ y ∧ y < period ∧ ∃ k : ℤ, y = x + k * period

/-- **C32 (partial).** For a single angle: `wraparound_2pi` is right for every non-negative angle
and for negative angles returns an equivalent angle in `(-2 pi, 0]`.

Missing: negative angles and arrays, see the violations below. -/
theorem C32_wraparound_2pi_partial (x : ℝ) :
    ∃ y, wraparound2pi [x] = .ok [y] ∧ (0 ≤ x → IsWrapped (2 * π) x y) ∧
      (x < 0 → -(2 * π) < y ∧ y ≤ 0 ∧ ∃ k : ℤ, y = x + k * (2 * π)) := by
  have hp : 0 < 2 * π := by linarith [pi_pos]
  refine ⟨_, wrap2_eq x, ?_, ?_⟩
  · intro hx
    rw [truncR_nonneg (div_nonneg hx hp.le), mul_assoc]
    obtain ⟨h1, h2⟩ := floor_div_spec (x := x) hp
    refine ⟨h1, h2, -⌊x / (2 * π)⌋, ?_⟩
    push_cast
    ring
  · intro hx
    rw [truncR_neg (div_neg_of_neg_of_pos hx hp), mul_assoc]
    obtain ⟨h1, h2⟩ := ceil_div_spec (x := x) hp
    refine ⟨by linarith, h2, -⌈x / (2 * π)⌉, ?_⟩
    push_cast
    ring

/-- **C32 (violated for negative angles).** Every negative angle that is not a multiple of `2 pi`
is mapped to a negative angle; -1 is one. -/
theorem C32_negative_violation (x : ℝ) (hx : x < 0) (h : ∀ k : ℤ, x ≠ k * (2 * π)) :
    ∃ y, wraparound2pi [x] = .ok [y] ∧ y < 0 := by
  obtain ⟨y, hy, -, h2⟩ := C32_wraparound_2pi_partial x
  obtain ⟨-, h3, k, hk⟩ := h2 hx
  refine ⟨y, hy, lt_of_le_of_ne h3 ?_⟩
  intro h0
  apply h (-k)
  push_cast
  linarith

example : ∀ k : ℤ, (-1 : ℝ) ≠ k * (2 * π) := by
  intro k hk
  have h3 := two_le_pi
  rcases lt_trichotomy k 0 with h | h | h
  · have : (k : ℝ) ≤ -1 := by exact_mod_cast Int.le_sub_one_of_lt h
    nlinarith
  · simp [h] at hk
  · have : (1 : ℝ) ≤ k := by exact_mod_cast h
    nlinarith

/-- **C32 (partial).** For a single angle `wraparound_npi` returns the equivalent angle in
`[0, n pi)`, for every `n > 0` and every angle except the negative multiples of `n pi`. -/
theorem C32_wraparound_npi_partial (x n : ℝ) (hn : 0 < n)
    (h : 0 ≤ x ∨ ∀ k : ℤ, x ≠ k * (n * π)) :
    ∃ y, wraparoundNpi [x] n = .ok [y] ∧ IsWrapped (n * π) x y := by
  by_cases hx : 0 ≤ x
  · obtain ⟨k, hk, h1, h2⟩ := wrapN_nonneg hn hx
    refine ⟨_, hk, h1, h2, -k, ?_⟩
    push_cast
    ring
  · have hk := h.resolve_left hx
    obtain ⟨k, hk', h1, h2, h3⟩ := wrapN_neg hn (not_le.mp hx)
    refine ⟨_, hk', h1.le, h3 hk, -k, ?_⟩
    push_cast
    ring

/-- **C32 (violated at negative multiples).** `-n pi` is mapped to `n pi`, outside `[0, n pi)`. -/
theorem C32_npi_multiple_violation (n : ℝ) (hn : 0 < n) :
    wraparoundNpi [-(n * π)] n = .ok [n * π] := by
  have hp : 0 < n * π := mul_pos hn pi_pos
  rw [wrapN_eq _ hn.ne', if_pos (by linarith), neg_div, div_self hp.ne', truncR_neg (by norm_num)]
  have : ⌈(-1 : ℝ)⌉ = -1 := by rw [Int.ceil_eq_iff]; norm_num
  rw [this]
  push_cast
  congr 2
  ring

/-- **C32 (violated for arrays).** Both functions raise for every array whose length is not one. -/
theorem C32_array_violation (x : List ℝ) (n : ℝ) (h : x.length ≠ 1) :
    wraparound2pi x = .error .nameError ∧
    (wraparoundNpi x n = .error .nameError ∨ wraparoundNpi x n = .error .typeError) := by
  rcases x with _ | ⟨a, _ | ⟨b, l⟩⟩
  · exact ⟨rfl, .inl rfl⟩
  · simp at h
  · exact ⟨rfl, .inr rfl⟩

/-! ## C33 -/

/-- **C33 (partial).** `ctime2DJD` is the Dublin Julian date: days since 1899-12-31 12:00, which is
unix time -2209032000.

Missing: `ctime2bore` does not use this date, see `C33_double_offset_violation`. -/
theorem C33_ctime2DJD_partial (t : ℝ) : ctime2DJD t = (t - (-2209032000)) / 86400 := by
  simp only [ctime2DJD]
  norm_num
  ring

/-- The longitude of the Sun in the model of `sun_position_quick` at a Dublin Julian date
(specification: one turn in 365.25 days). -/
noncomputable def sunLongitude (djd : ℝ) : ℝ := 2 * π * (djd / 365.25)

/-- **C33 (violated).** `ctime2bore` converts a date that is already in DJD format once more, so
that it evaluates the Sun's longitude 2415020 days too early; the resulting longitude is wrong for
every time (it differs from the right one by no multiple of a full turn). -/
theorem C33_double_offset_violation (t : ℝ) :
    ∃ phi th, sunPositionQuick [convertJulian2Dublin (ctime2DJD t)] = .ok ([phi], [th]) ∧
      (∃ k : ℤ, phi = sunLongitude ((t + 2209032000) / 86400 - 2415020) + k * (2 * π)) ∧
      ∀ k : ℤ, phi ≠ sunLongitude ((t + 2209032000) / 86400) + k * (2 * π) := by
  obtain ⟨y, hy, h1, h2⟩ := C32_wraparound_2pi_partial
    (2 * π * (1 / (365.25 * 24 * 60 * 60)) * convertJulian2Dublin (ctime2DJD t) * (24 * 60 * 60))
  have hk : ∃ k : ℤ, y = sunLongitude ((t + 2209032000) / 86400 - 2415020) + k * (2 * π) := by
    have e : 2 * π * (1 / (365.25 * 24 * 60 * 60)) * convertJulian2Dublin (ctime2DJD t)
        * (24 * 60 * 60) = sunLongitude ((t + 2209032000) / 86400 - 2415020) := by
      rw [C33_ctime2DJD_partial]
      simp only [sunLongitude, convertJulian2Dublin]
      ring
    rw [e] at h1 h2
    rcases le_or_gt 0 (sunLongitude ((t + 2209032000) / 86400 - 2415020)) with h | h
    · exact (h1 h).2.2
    · exact (h2 h).2.2
  refine ⟨y, 0, ?_, hk, ?_⟩
  · simp only [sunPositionQuick, List.map_cons, List.map_nil, hy, bind, Except.bind, pure,
      Except.pure, List.length_cons, List.length_nil, List.replicate_succ, List.replicate_zero]
  · obtain ⟨k, hk⟩ := hk
    intro j hj
    rw [hk] at hj
    have hpi := pi_pos
    simp only [sunLongitude] at hj
    have h3 : (2 * π) * ((j : ℝ) - k + 9660080 / 1461) = 0 := by
      linear_combination (-1 : ℝ) * hj
    have h4 : (j : ℝ) - k + 9660080 / 1461 = 0 := by
      rcases mul_eq_zero.mp h3 with h | h
      · linarith
      · exact h
    have h5 : (1461 * (j - k) + 9660080 : ℝ) = 0 := by linarith
    have h6 : 1461 * (j - k) + 9660080 = 0 := by exact_mod_cast h5
    omega

/-! ## C34 -/

/-- The boresight vector of the L2 scan before the conversion to RA/Dec (rows 0-2 of the array
returned by `LB_rotmatrix_multi2`). -/
noncomputable def boresight (p : L2Par) (thetaAsp phiAsp t : ℝ) : V3 :=
  postRot p thetaAsp phiAsp t (preVec p thetaAsp phiAsp t)

/-- **C34 (unit vector).** For all scan angles, rates, Sun positions and times the boresight is a
unit vector. -/
theorem C34_unit_vector (p : L2Par) (thetaAsp phiAsp t : ℝ) :
    nsq (boresight p thetaAsp phiAsp t) = 1 := by
  rw [nsq_eq_dot, boresight, dot_postRot, ← nsq_eq_dot, nsq_preVec]

/-- Components of `postRot` in the basis attached to the Sun direction. -/
theorem postRot_ecl (p : L2Par) (ph t : ℝ) (v : V3) :
    dot (postRot p (π / 2) ph t v) ⟨cos ph, sin ph, 0⟩
      = -sin p.thetaAntisun * v.x + cos p.thetaAntisun * v.z ∧
    dot (postRot p (π / 2) ph t v) ⟨-sin ph, cos ph, 0⟩
      = sin (p.omegaPre * t + 3 / 2 * π) * (cos p.thetaAntisun * v.x + sin p.thetaAntisun * v.z)
        + cos (p.omegaPre * t + 3 / 2 * π) * v.y ∧
    (postRot p (π / 2) ph t v).z
      = -(cos (p.omegaPre * t + 3 / 2 * π) * (cos p.thetaAntisun * v.x + sin p.thetaAntisun * v.z)
        - sin (p.omegaPre * t + 3 / 2 * π) * v.y) := by
  obtain ⟨hc, hs⟩ := relPhi_ecl ph
  have h1 := sin_sq_add_cos_sq ph
  simp only [postRot, rotXY, rotXZ, dot, hc, hs, sin_pi_div_two, cos_pi_div_two]
  refine ⟨?_, ?_, ?_⟩
  · linear_combination (-sin p.thetaAntisun * v.x + cos p.thetaAntisun * v.z) * h1
  · linear_combination (sin (p.omegaPre * t + 3 / 2 * π)
      * (cos p.thetaAntisun * v.x + sin p.thetaAntisun * v.z)
        + cos (p.omegaPre * t + 3 / 2 * π) * v.y) * h1
  · ring

/-- **C34 (opening angles).** There is a spin axis, depending only on the Sun's longitude, the
antisun angle, the precession rate and time, such that the spin axis makes the antisun angle with
the (ecliptic) Sun direction and precesses about it at the precession rate, and the boresight makes
the boresight angle with the spin axis, whatever the spin rate. -/
theorem C34_opening_angles :
    ∃ spin : (phi thetaAntisun omegaPre t : ℝ) → V3, ∀ phi thetaAntisun omegaPre t : ℝ,
      nsq (spin phi thetaAntisun omegaPre t) = 1 ∧
      dot (spin phi thetaAntisun omegaPre t) ⟨cos phi, sin phi, 0⟩ = cos thetaAntisun ∧
      dot (spin phi thetaAntisun omegaPre t) ⟨-sin phi, cos phi, 0⟩
        = sin thetaAntisun * sin (omegaPre * t + 3 / 2 * π) ∧
      dot (spin phi thetaAntisun omegaPre t) ⟨0, 0, 1⟩
        = -sin thetaAntisun * cos (omegaPre * t + 3 / 2 * π) ∧
      ∀ thetaBoresight omegaSpin : ℝ,
        dot (boresight ⟨thetaAntisun, thetaBoresight, omegaPre, omegaSpin⟩ (π / 2) phi t)
          (spin phi thetaAntisun omegaPre t) = cos thetaBoresight := by
  refine ⟨fun phi a w t => postRot ⟨a, 0, w, 0⟩ (π / 2) phi t ⟨0, 0, 1⟩, ?_⟩
  intro phi a w t
  obtain ⟨h1, h2, h3⟩ := postRot_ecl ⟨a, 0, w, 0⟩ phi t ⟨0, 0, 1⟩
  refine ⟨?_, ?_, ?_, ?_, ?_⟩
  · rw [nsq_eq_dot, dot_postRot]
    simp [dot]
  · rw [h1]
    simp
  · rw [h2]
    dsimp only
    ring
  · simp only [dot, mul_zero, mul_one, zero_add]
    rw [h3]
    dsimp only
    ring
  · intro b s
    have e : postRot ⟨a, 0, w, 0⟩ (π / 2) phi t ⟨0, 0, 1⟩
        = postRot ⟨a, b, w, s⟩ (π / 2) phi t ⟨0, 0, 1⟩ := rfl
    dsimp only
    rw [e, boresight, dot_postRot, preVec_ecl]
    simp [dot]

/-- **C34 (spin).** In a frame that does not depend on the boresight angle and the spin rate and
whose third axis is the spin axis, the boresight turns about that axis at the spin rate. -/
theorem C34_spin_rate :
    ∃ e1 e2 e3 : (phi thetaAntisun omegaPre t : ℝ) → V3, ∀ phi thetaAntisun omegaPre t : ℝ,
      let a := e1 phi thetaAntisun omegaPre t
      let b := e2 phi thetaAntisun omegaPre t
      let c := e3 phi thetaAntisun omegaPre t
      (nsq a = 1 ∧ nsq b = 1 ∧ nsq c = 1 ∧ dot a b = 0 ∧ dot a c = 0 ∧ dot b c = 0) ∧
      ∀ thetaBoresight omegaSpin : ℝ,
        let v := boresight ⟨thetaAntisun, thetaBoresight, omegaPre, omegaSpin⟩ (π / 2) phi t
        dot v a = sin thetaBoresight * cos (omegaSpin * t + π) ∧
        dot v b = sin thetaBoresight * sin (omegaSpin * t + π) ∧
        dot v c = cos thetaBoresight := by
  refine ⟨fun phi a w t => postRot ⟨a, 0, w, 0⟩ (π / 2) phi t ⟨1, 0, 0⟩,
    fun phi a w t => postRot ⟨a, 0, w, 0⟩ (π / 2) phi t ⟨0, 1, 0⟩,
    fun phi a w t => postRot ⟨a, 0, w, 0⟩ (π / 2) phi t ⟨0, 0, 1⟩, ?_⟩
  intro phi a w t
  dsimp only
  refine ⟨?_, ?_⟩
  · simp only [nsq_eq_dot, dot_postRot]
    simp [dot]
  · intro b s
    have e : ∀ u, postRot ⟨a, 0, w, 0⟩ (π / 2) phi t u
        = postRot ⟨a, b, w, s⟩ (π / 2) phi t u := fun _ => rfl
    simp only [e, boresight, dot_postRot, preVec_ecl]
    simp [dot, mul_comm]

/-! ### C62: the position angle -/

/-- **C62 (partial).** For one sample the third angle `psi` returned by `LB_rotmatrix_multi2` is
the oriented angle of the scan direction in the tangent plane at the boresight: there is a unit
vector `d` orthogonal to the boresight and to the spin axis (the direction in which the spin moves
the boresight) with `d = cos psi e_theta + sin psi e_phi`, where `e_theta`, `e_phi` are the unit
tangent vectors at the boresight with polar angles `theta`, `phi`.

Missing: arrays of several samples (they raise, `C34_array_violation`) and the south pole. -/
theorem C62_psi_partial (p : L2Par) (ph t : ℝ) (hz : -1 < (boresight p (π / 2) ph t).z) :
    ∃ psi, lbRotmatrix p [(π / 2, ph, t)] = .ok [(boresight p (π / 2) ph t, psi)] ∧
      ∃ d : V3, nsq d = 1 ∧ dot d (boresight p (π / 2) ph t) = 0 ∧
        dot d (postRot p (π / 2) ph t ⟨0, 0, 1⟩) = 0 ∧
        ∃ theta phi : ℝ,
          boresight p (π / 2) ph t = ⟨sin theta * cos phi, sin theta * sin phi, cos theta⟩ ∧
          d.x = cos psi * (cos theta * cos phi) + sin psi * (-sin phi) ∧
          d.y = cos psi * (cos theta * sin phi) + sin psi * cos phi ∧
          d.z = cos psi * (-sin theta) := by
  have hu := C34_unit_vector p (π / 2) ph t
  obtain ⟨a, ha1, ha2, ha3⟩ := derivPhi_spec (nsq_preVec p (π / 2) ph t)
  obtain ⟨b, hb1, hb2, hb3⟩ := derivTheta_spec hu hz
  obtain ⟨c, hc1, hc2, hc3⟩ := derivPhi_spec hu
  have hpre := nsq_preVec p (π / 2) ph t
  obtain ⟨hp1, hp2⟩ := arctan2_spec (preVec p (π / 2) ph t)
  rw [← ha1] at hp1
  rw [← ha2] at hp2
  obtain ⟨hv1, hv2⟩ := arctan2_spec (boresight p (π / 2) ph t)
  have hz2 := unit_z hu
  have hct : cos (arccos (boresight p (π / 2) ph t).z) = (boresight p (π / 2) ph t).z :=
    cos_arccos hz2.1 hz2.2
  have hst : sin (arccos (boresight p (π / 2) ph t).z)
      = √((boresight p (π / 2) ph t).x ^ 2 + (boresight p (π / 2) ph t).y ^ 2) := by
    rw [sin_arccos]
    congr 1
    simp only [nsq] at hu
    linarith
  -- the scan direction
  have hd1 : nsq (postRot p (π / 2) ph t ⟨-sin a, cos a, 0⟩) = 1 := by
    rw [nsq_eq_dot, dot_postRot]
    simp only [dot]
    linear_combination sin_sq_add_cos_sq a
  have hd2 : dot (postRot p (π / 2) ph t ⟨-sin a, cos a, 0⟩) (boresight p (π / 2) ph t) = 0 := by
    rw [boresight, dot_postRot]
    simp only [dot]
    linear_combination sin a * hp1 - cos a * hp2
  have hd3 : dot (postRot p (π / 2) ph t ⟨-sin a, cos a, 0⟩) (postRot p (π / 2) ph t ⟨0, 0, 1⟩)
      = 0 := by
    rw [dot_postRot]
    simp [dot]
  have hl : lbRotmatrix p [(π / 2, ph, t)] = .ok [(boresight p (π / 2) ph t, psiSign
      (cosangle ⟨cos (arccos (boresight p (π / 2) ph t).z) * cos b,
        cos (arccos (boresight p (π / 2) ph t).z) * sin b,
        -sin (arccos (boresight p (π / 2) ph t).z)⟩ (postRot p (π / 2) ph t ⟨-sin a, cos a, 0⟩))
      (cosangle ⟨-sin c, cos c, 0⟩ (postRot p (π / 2) ph t ⟨-sin a, cos a, 0⟩)))] := by
    have hb3' := hb3
    have hc3' := hc3
    simp only [boresight] at hb3' hc3'
    simp only [lbRotmatrix, List.map_cons, List.map_nil, ha3, hb3', hc3', bind, Except.bind, pure,
      Except.pure, List.zipWith_cons_cons, List.zipWith_nil_left, List.zip_cons_cons,
      List.zip_nil_left, boresight]
  generalize hD : postRot p (π / 2) ph t ⟨-sin a, cos a, 0⟩ = d at *
  generalize hV : boresight p (π / 2) ph t = v at *
  generalize hT : arccos v.z = th at *
  generalize hP : arctan2 v.y v.x = phi at *
  have hv : v = ⟨sin th * cos phi, sin th * sin phi, cos th⟩ :=
    V3.ext' (by rw [hst]; exact hv1.symm) (by rw [hst]; exact hv2.symm) hct.symm
  refine ⟨_, hl, d, hd1, hd2, hd3, th, phi, hv, ?_⟩
  have t1 := sin_sq_add_cos_sq th
  have p1 := sin_sq_add_cos_sq phi
  rw [hb1, hb2, hc1, hc2]
  have n1 : nsq ⟨cos th * cos phi, cos th * sin phi, -sin th⟩ = 1 := by
    simp only [nsq]
    linear_combination cos th ^ 2 * p1 + t1
  have n2 : nsq ⟨-sin phi, cos phi, 0⟩ = 1 := by
    simp only [nsq]
    linear_combination p1
  rw [cosangle_unit n1 hd1, cosangle_unit n2 hd1]
  rw [hv] at hd2
  simp only [dot, nsq] at hd1 hd2
  -- expansion of `d` in the frame
  set A := dot ⟨cos th * cos phi, cos th * sin phi, -sin th⟩ d with hA
  set B := dot ⟨-sin phi, cos phi, 0⟩ d with hB
  simp only [dot] at hA hB
  have ex : d.x = A * (cos th * cos phi) + B * (-sin phi) := by
    rw [hA, hB]
    linear_combination (sin th * cos phi) * hd2 + (-d.x) * p1
      + (-(d.x * cos phi ^ 2 + d.y * sin phi * cos phi)) * t1
  have ey : d.y = A * (cos th * sin phi) + B * cos phi := by
    rw [hA, hB]
    linear_combination (sin th * sin phi) * hd2 + (-d.y) * p1
      + (-(d.x * cos phi * sin phi + d.y * sin phi ^ 2)) * t1
  have ez : d.z = A * (-sin th) := by
    rw [hA]
    linear_combination (cos th) * hd2 + (-d.z) * t1
  have hAB : A ^ 2 + B ^ 2 = 1 := by
    linear_combination A * hA + B * hB - d.x * ex - d.y * ey - d.z * ez + hd1
  obtain ⟨hc, hs⟩ := psiSign_spec hAB
  rw [hc, hs]
  exact ⟨ex, ey, ez⟩

/-! ### C34: RA, Dec and arrays -/

/-- The direction with right ascension `ra` and declination `dec`, in degrees (specification). -/
noncomputable def radecDir (ra dec : ℝ) : V3 :=
  ⟨cos (dec * (π / 180)) * cos (ra * (π / 180)), cos (dec * (π / 180)) * sin (ra * (π / 180)),
    sin (dec * (π / 180))⟩

private theorem ctime2bore_single (t a b per rate : ℝ) (hper : per ≠ 0) :
    ∃ phi : ℝ, (∃ k : ℤ, phi = sunLongitude ((t + 2209032000) / 86400 - 2415020) + k * (2 * π)) ∧
      ∀ v psi, lbRotmatrix ⟨a * (π / 180), b * (π / 180), 2 * π * (1 / (per * 60)),
          2 * π * (rate / 60)⟩ [(π / 2, phi, t)] = .ok [(v, psi)] → nsq v = 1 →
        ∃ ph, (ph = arctan2 v.y v.x ∨ ph = arctan2 v.y v.x + 2 * π) ∧ ∃ psi',
        ctime2bore [t] a b per rate = .ok [(ph * (180 / π) - 180,
          (if v.z = -1 then 0 else arccos v.z) * (180 / π) - 90, psi')] := by
  have hpi := pi_pos
  obtain ⟨phi, th, hsun, hk, -⟩ := C33_double_offset_violation t
  refine ⟨phi, hk, ?_⟩
  intro v psi hv hu
  have hth : th = 0 := by
    unfold sunPositionQuick at hsun
    simp only [List.map_cons, List.map_nil, wrap2_eq, bind, Except.bind, pure, Except.pure,
      List.length_cons, List.length_nil, List.replicate_succ, List.replicate_zero,
      Except.ok.injEq, Prod.mk.injEq, List.cons.injEq, and_true] at hsun
    exact hsun.2.symm
  -- wrapping of theta
  have hw1 : wraparoundNpi [arccos v.z] 1 = .ok [if v.z = -1 then 0 else arccos v.z] := by
    obtain ⟨k, h1, h2, h3⟩ := wrapN_nonneg one_pos (arccos_nonneg v.z)
    rw [h1]
    split
    · rename_i h0
      rw [h0, arccos_neg_one] at h2 h3 ⊢
      congr 2
      refine wrap_unique (p := 1 * π) (k := 1 - k) h2 h3 le_rfl (by linarith) ?_
      push_cast
      ring
    · rename_i h0
      have := arccos_lt_pi (lt_of_le_of_ne (unit_z hu).1 (Ne.symm h0))
      congr 2
      refine wrap_unique (p := 1 * π) (k := -k) h2 h3 (arccos_nonneg v.z) (by linarith) ?_
      push_cast
      ring
  -- wrapping of phi
  obtain ⟨hr1, hr2⟩ := arctan2_range v.y v.x
  have hw2 : ∃ ph, (ph = arctan2 v.y v.x ∨ ph = arctan2 v.y v.x + 2 * π) ∧
      wraparoundNpi [arctan2 v.y v.x] 2 = .ok [ph] := by
    rcases le_or_gt 0 (arctan2 v.y v.x) with h0 | h0
    · obtain ⟨k, h1, h2, h3⟩ := wrapN_nonneg two_pos h0
      refine ⟨_, .inl rfl, ?_⟩
      rw [h1]
      congr 2
      refine wrap_unique (p := 2 * π) (k := -k) h2 h3 h0 (by linarith) ?_
      push_cast
      ring
    · refine ⟨_, .inr rfl, ?_⟩
      rw [wrapN_eq _ two_ne_zero, if_pos h0, truncR_neg (div_neg_of_neg_of_pos h0 (by linarith))]
      have : ⌈arctan2 v.y v.x / (2 * π)⌉ = 0 := by
        rw [Int.ceil_eq_iff]
        constructor
        · rw [Int.cast_zero, zero_sub, lt_div_iff₀ (by linarith)]
          linarith
        · rw [Int.cast_zero]
          exact (div_neg_of_neg_of_pos h0 (by linarith)).le
      rw [this]
      push_cast
      congr 2
      ring
  obtain ⟨ph, hph, hw2⟩ := hw2
  refine ⟨ph, hph, (psi - truncR (psi / (2 * π)) * 2 * π) * (180 / π), ?_⟩
  · unfold ctime2bore
    simp only [if_neg hper, List.map_cons, List.map_nil, hsun, hth, bind, Except.bind, pure,
      Except.pure, sub_zero, List.zip_cons_cons, List.zip_nil_left, hv, arctan2_rz hu, hw1, hw2,
      wrap2_eq]

/-- **C34 (partial).** For a single time, `ctime2bore` hands qpoint the RA and Dec of the
direction opposite to the boresight vector (the vector is built around the Sun, the telescope looks
away from it), unless that vector is exactly the south pole.

Missing: several times at once (`C34_array_violation`), the pole (`C34_pole_violation`). -/
theorem C34_radec_partial (t a b per rate : ℝ) (hper : per ≠ 0) :
    ∃ phi : ℝ, (∃ k : ℤ, phi = sunLongitude ((t + 2209032000) / 86400 - 2415020) + k * (2 * π)) ∧
      let v := boresight ⟨a * (π / 180), b * (π / 180), 2 * π * (1 / (per * 60)),
        2 * π * (rate / 60)⟩ (π / 2) phi t
      v.z > -1 → ∃ ra dec psi, ctime2bore [t] a b per rate = .ok [(ra, dec, psi)] ∧
        radecDir ra dec = ⟨-v.x, -v.y, -v.z⟩ := by
  obtain ⟨phi, hk, h⟩ := ctime2bore_single t a b per rate hper
  refine ⟨phi, hk, ?_⟩
  dsimp only
  intro hz
  have hu := C34_unit_vector ⟨a * (π / 180), b * (π / 180), 2 * π * (1 / (per * 60)),
        2 * π * (rate / 60)⟩ (π / 2) phi t
  obtain ⟨psi, hl, -⟩ := C62_psi_partial _ _ _ hz
  obtain ⟨ph, hph, psi', hres⟩ := h _ _ hl hu
  refine ⟨_, _, _, hres, ?_⟩
  generalize boresight ⟨a * (π / 180), b * (π / 180), 2 * π * (1 / (per * 60)),
        2 * π * (rate / 60)⟩ (π / 2) phi t = v at *
  have hpi : π ≠ 0 := pi_ne_zero
  have hz2 := unit_z hu
  obtain ⟨h1, h2⟩ := arctan2_spec v
  have hc : cos ph = cos (arctan2 v.y v.x) ∧ sin ph = sin (arctan2 v.y v.x) := by
    rcases hph with h | h <;> rw [h]
    · exact ⟨rfl, rfl⟩
    · exact ⟨cos_add_two_pi _, sin_add_two_pi _⟩
  have er : (ph * (180 / π) - 180) * (π / 180) = ph - π := by
    field_simp
  have ed : (arccos v.z * (180 / π) - 90) * (π / 180) = arccos v.z - π / 2 := by
    field_simp
    ring
  rw [if_neg (by linarith)]
  simp only [radecDir]
  rw [er, ed, cos_sub_pi_div_two, sin_sub_pi_div_two, cos_sub_pi, sin_sub_pi, hc.1, hc.2,
    cos_arccos hz2.1 hz2.2]
  have hst : sin (arccos v.z) = √(v.x ^ 2 + v.y ^ 2) := by
    rw [sin_arccos]
    congr 1
    simp only [nsq] at hu
    linarith
  rw [hst]
  apply V3.ext' <;> dsimp only
  · rw [mul_neg, h1]
  · rw [mul_neg, h2]

private theorem lbRotmatrix_ok (p : L2Par) (ph t : ℝ) :
    ∃ psi, lbRotmatrix p [(π / 2, ph, t)] = .ok [(boresight p (π / 2) ph t, psi)] := by
  have hu := C34_unit_vector p (π / 2) ph t
  obtain ⟨a, -, -, ha3⟩ := derivPhi_spec (nsq_preVec p (π / 2) ph t)
  obtain ⟨c, -, -, hc3⟩ := derivPhi_spec hu
  have hb : ∃ u, derivTheta [boresight p (π / 2) ph t] = .ok [u] := by
    unfold derivTheta thetas
    simp only [List.mapM_cons, List.mapM_nil, arctanRZ_spec hu, bind, Option.bind, pure,
      Except.bind, Except.pure, List.map_cons, List.map_nil, wrapN_eq _ one_ne_zero,
      wrapN_eq _ two_ne_zero, List.zipWith_cons_cons, List.zipWith_nil_left]
    exact ⟨_, rfl⟩
  obtain ⟨u, hb⟩ := hb
  simp only [boresight] at hb hc3
  simp only [lbRotmatrix, List.map_cons, List.map_nil, ha3, hb, hc3, bind, Except.bind, pure,
    Except.pure, List.zipWith_cons_cons, List.zipWith_nil_left, List.zip_cons_cons,
    List.zip_nil_left, boresight]
  exact ⟨_, rfl⟩

/-- For a single time `ctime2bore` always returns. -/
theorem ctime2bore_ok (t a b per rate : ℝ) (hper : per ≠ 0) :
    ∃ x, ctime2bore [t] a b per rate = .ok [x] := by
  obtain ⟨phi, -, h⟩ := ctime2bore_single t a b per rate hper
  obtain ⟨psi, hl⟩ := lbRotmatrix_ok _ phi t
  obtain ⟨ph, -, psi', h⟩ := h _ _ hl (C34_unit_vector _ _ _ _)
  exact ⟨_, h⟩

/-- **C34 (violated at the pole).** With the boresight on the spin axis and antisun angle 90
degrees, a quarter of a precession period after time zero the boresight vector is the south pole, so
that the telescope should look at declination +90; the declination returned is -90. -/
theorem C34_pole_violation (per rate : ℝ) (hper : 0 < per) :
    (∀ phi, boresight ⟨90 * (π / 180), 0 * (π / 180), 2 * π * (1 / (per * 60)),
      2 * π * (rate / 60)⟩ (π / 2) phi (15 * per) = ⟨0, 0, -1⟩) ∧
    ∃ ra psi, ctime2bore [15 * per] 90 0 per rate = .ok [(ra, -90, psi)] := by
  have hv : ∀ phi, boresight ⟨90 * (π / 180), 0 * (π / 180), 2 * π * (1 / (per * 60)),
      2 * π * (rate / 60)⟩ (π / 2) phi (15 * per) = ⟨0, 0, -1⟩ := by
    intro phi
    have e1 : 90 * (π / 180) = π / 2 := by ring
    have e2 : 2 * π * (1 / (per * 60)) * (15 * per) + 3 / 2 * π = 2 * π := by
      field_simp
      ring
    obtain ⟨h1, h2⟩ := relPhi_ecl phi
    simp only [boresight, preVec_ecl, postRot, rotXY, rotXZ, e1, e2, zero_mul, sin_zero, cos_zero,
      mul_zero, cos_two_pi, sin_two_pi, sin_pi_div_two, cos_pi_div_two]
    apply V3.ext' <;> dsimp only <;> ring
  refine ⟨hv, ?_⟩
  obtain ⟨phi, -, h⟩ := ctime2bore_single (15 * per) 90 0 per rate hper.ne'
  obtain ⟨psi, hl⟩ := lbRotmatrix_ok ⟨90 * (π / 180), 0 * (π / 180), 2 * π * (1 / (per * 60)),
      2 * π * (rate / 60)⟩ phi (15 * per)
  obtain ⟨ph, -, psi', hres⟩ := h _ _ hl (C34_unit_vector _ _ _ _)
  rw [hv phi, if_pos rfl, zero_mul, zero_sub] at hres
  exact ⟨_, _, hres⟩

/-- **C34, C61, C62 (violated for arrays).** With any number of times other than one the L2 scan
raises NameError, whatever its arguments. -/
theorem C34_array_violation (t : List ℝ) (a b per rate : ℝ) (hper : per ≠ 0) (h : t.length ≠ 1) :
    ctime2bore t a b per rate = .error .nameError := by
  have h1 : sunPositionQuick (t.map fun t => convertJulian2Dublin (ctime2DJD t))
      = .error .nameError := by
    unfold sunPositionQuick
    dsimp only
    have := (C32_array_violation ((t.map fun t => convertJulian2Dublin (ctime2DJD t)).map
      fun d => 2 * π * (1 / (365.25 * 24 * 60 * 60)) * d * (24 * 60 * 60)) 1 (by simpa using h)).1
    rw [this]
    rfl
  unfold ctime2bore
  simp only [if_neg hper, h1, bind, Except.bind, pure, Except.pure]

/-- **C34 (single time, hypothesis met).** With a right antisun angle and boresight on the spin
axis, at time zero. -/
example (phi : ℝ) : -1 < (boresight ⟨π / 2, 0, 1, 1⟩ (π / 2) phi 0).z := by
  have h := (postRot_ecl ⟨π / 2, 0, 1, 1⟩ phi 0 (preVec ⟨π / 2, 0, 1, 1⟩ (π / 2) phi 0)).2.2
  rw [boresight, h, preVec_ecl]
  have e : (3 / 2 * π) = π / 2 + π := by ring
  simp [e, cos_add_pi]

/-! ### C61 -/

/-- **C61 (violated).** The opening angles, rates and jitter given to `l2_scan` have no effect on
the boresight. -/
theorem C61_arguments_ignored_violation (a b fa fb sr j a' b' fa' fb' sr' j' : ℝ) (t : List ℝ) :
    l2Scan a b fa fb sr j t = l2Scan a' b' fa' fb' sr' j' t := rfl

/-- **C61 (partial).** With the documented opening angles and precession period (in fact with any
arguments), a single time is pointed as follows.  There are a spin axis 45 degrees from the Sun,
precessing about it with period 192.348 minutes, and a boresight 50 degrees from the spin axis; the
pointing is the direction opposite to this boresight.  The spin is `C34_spin_rate` with 0.05 rpm.
Missing: other arguments (`C61_arguments_ignored_violation`), several times
(`C34_array_violation`). -/
theorem C61_defaults_partial (fb sr j t : ℝ) :
    ∃ phi : ℝ, (∃ k : ℤ, phi = sunLongitude ((t + 2209032000) / 86400 - 2415020) + k * (2 * π)) ∧
      ∃ spin v : V3, nsq spin = 1 ∧ nsq v = 1 ∧
        dot spin ⟨cos phi, sin phi, 0⟩ = cos (45 * (π / 180)) ∧
        dot spin ⟨-sin phi, cos phi, 0⟩ =
          sin (45 * (π / 180)) * sin (2 * π * (t / (192.348 * 60)) + 3 / 2 * π) ∧
        dot spin ⟨0, 0, 1⟩ =
          -sin (45 * (π / 180)) * cos (2 * π * (t / (192.348 * 60)) + 3 / 2 * π) ∧
        dot v spin = cos (50 * (π / 180)) ∧
        (-1 < v.z → ∃ ra dec psi, l2Scan 45 50 192.348 fb sr j [t] = .ok [(ra, dec, psi)] ∧
          radecDir ra dec = ⟨-v.x, -v.y, -v.z⟩) := by
  obtain ⟨phi, hk, h⟩ := C34_radec_partial t 45 50 192.348 0.05 (by norm_num)
  obtain ⟨spin, hs⟩ := C34_opening_angles
  obtain ⟨h1, h2, h3, h4, h5⟩ := hs phi (45 * (π / 180)) (2 * π * (1 / (192.348 * 60))) t
  have e : 2 * π * (1 / (192.348 * 60)) * t = 2 * π * (t / (192.348 * 60)) := by ring
  rw [e] at h3 h4
  exact ⟨phi, hk, _, _, h1, C34_unit_vector _ _ _ _, h2, h3, h4, h5 _ _, h⟩

/-- At time zero the boresight is not at the pole, so that there is a pointing. -/
example : ∃ ra dec psi, l2Scan 45 50 192.348 (1 / 2) 19 0 [0] = .ok [(ra, dec, psi)] := by
  obtain ⟨phi, -, spin, v, h1, h2, -, -, h5, h6, h⟩ := C61_defaults_partial (1 / 2) 19 0 0
  have hz : spin.z = 0 := by
    have e : (2 * π * ((0 : ℝ) / (192.348 * 60)) + 3 / 2 * π) = π + π / 2 := by ring
    rw [e, cos_add_pi_div_two, sin_pi] at h5
    simpa [dot] using h5
  have hv : -1 < v.z := by
    by_contra hn
    simp only [nsq] at h2
    have hxy : v.x ^ 2 + v.y ^ 2 ≤ 0 := by nlinarith
    have hx : v.x = 0 := by nlinarith [sq_nonneg v.x, sq_nonneg v.y]
    have hy : v.y = 0 := by nlinarith [sq_nonneg v.x, sq_nonneg v.y]
    have h50 : 0 < cos (50 * (π / 180)) := cos_pos_of_mem_Ioo ⟨by linarith [pi_pos], by linarith [pi_pos]⟩
    rw [← h6] at h50
    simp [dot, hx, hy, hz] at h50
  obtain ⟨ra, dec, psi, e, -⟩ := h hv
  exact ⟨ra, dec, psi, e⟩

/-- The opening angles do matter to the computation that `l2_scan` calls: with boresight angle 0
and with boresight angle `pi/2` the boresight vectors differ, so ignoring the argument is a visible
error. -/
theorem C61_angles_matter (a w s phi t : ℝ) :
    boresight ⟨a, 0, w, s⟩ (π / 2) phi t ≠ boresight ⟨a, π / 2, w, s⟩ (π / 2) phi t := by
  intro h
  obtain ⟨spin, hs⟩ := C34_opening_angles
  have h1 := (hs phi a w t).2.2.2.2 0 s
  have h2 := (hs phi a w t).2.2.2.2 (π / 2) s
  rw [h, h2, cos_pi_div_two, cos_zero] at h1
  exact zero_ne_one h1

end Verif.Props
