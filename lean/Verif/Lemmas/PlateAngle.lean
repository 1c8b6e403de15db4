import Verif.Lemmas.AnyPlate

/-! # The signal of any beam behind a plate at a polarization angle -/

noncomputable section

namespace Verif.Spinmaps

open Verif.Alm Verif.Spin Verif.Spec Verif.Timeline Complex

/-- The coefficients of the beam turned by `-psi`. -/
def rot (psi : ℝ) (b : Nat → Nat → Nat → ℂ) : Nat → Nat → Nat → ℂ := fun i l m =>
  if i = 1 then b 1 l m * exp (-(I * (2 * psi))) else
  if i = 2 then b 2 l m * exp (I * (2 * psi)) else b i l m

theorem star_phase (psi : ℝ) : star (exp (I * (2 * psi))) = exp (-(I * (2 * psi))) := by
  show (starRingEnd ℂ) _ = _
  rw [← exp_conj]
  congr 1
  rw [map_mul, map_mul, conj_I, conj_ofReal, map_ofNat]
  ring

theorem star_phase' (psi : ℝ) : star (exp (-(I * (2 * psi)))) = exp (I * (2 * psi)) := by
  rw [← star_phase, star_star]

theorem rot_mode1 (psi : ℝ) (b : Nat → Nat → Nat → ℂ) (s : Int) (l : Nat) :
    beamMode (rot psi b 1) (rot psi b 2) s l = exp (-(I * (2 * psi))) * beamMode (b 1) (b 2) s l := by
  rw [← beamMode_scale, star_phase']
  rfl

theorem rot_mode2 (psi : ℝ) (b : Nat → Nat → Nat → ℂ) (s : Int) (l : Nat) :
    beamMode (rot psi b 2) (rot psi b 1) s l = exp (I * (2 * psi)) * beamMode (b 2) (b 1) s l := by
  rw [← beamMode_scale, star_phase]
  rfl

theorem rot_real (psi : ℝ) {L : Nat} {b : Nat → Nat → Nat → ℂ} (hb : RealBeam L b) :
    RealBeam L (rot psi b) := by
  intro l hl
  obtain ⟨h1, h2, h3⟩ := hb l hl
  refine ⟨h1, h2, ?_⟩
  show star (b 1 l 0 * exp (-(I * (2 * psi)))) = b 2 l 0 * exp (I * (2 * psi))
  rw [star_mul, star_phase', h3, mul_comm]

theorem rot_beam (psi : ℝ) (v : Bool) (b : Nat → Nat → Nat → ℂ) :
    beamOf v (rot psi b) = turned (-psi) (beamOf v b) := by
  have e : exp (I * (2 * psi)) = cos (2 * psi) + sin (2 * psi) * I := by
    rw [mul_comm I, exp_mul_I]
  have e' : exp (-(I * (2 * psi))) = cos (2 * psi) - sin (2 * psi) * I := by
    rw [mul_comm I, ← neg_mul, exp_mul_I, Complex.cos_neg, Complex.sin_neg]
    ring
  have hI : I ≠ 0 := I_ne_zero
  unfold beamOf turned
  congr 1
  · funext l s
    rw [rot_mode1, rot_mode2, e, e', mul_neg, Real.cos_neg, Real.sin_neg]
    push_cast
    field_simp
    ring_nf
    simp only [I_sq]
    ring
  · funext l s
    rw [rot_mode1, rot_mode2, e, e', mul_neg, Real.cos_neg, Real.sin_neg]
    push_cast
    field_simp
    ring_nf

/-- The signal behind a plate, at a polarization angle. -/
theorem signal_angle (Y : Harmonics) (hY : Conjugation Y) (hV : Vanishing Y) (nside L : Nat)
    (a b : Nat → Nat → Nat → ℂ) (ha : RealSky L a) (hb : RealBeam L b) (inputV beamV : Bool)
    (M : Fin 4 → Fin 4 → ℝ) (hM : PlateOk M inputV) (psi : ℝ) (hA : AngleOk psi M inputV)
    (symmetric : Bool) (maxSpin : Int) (h0 : 0 ≤ maxSpin) (x : Smp) :
    signalF true (spinsUnpol symmetric maxSpin) (spinsPol symmetric maxSpin)
        (spinsS0a2 symmetric maxSpin) (values Y nside L a b (some (realMat M)) inputV beamV) psi x =
      convolved Y nside L (spinsI symmetric maxSpin) (spinsP symmetric maxSpin) (skyOf inputV a)
        (turnedPlate x.alpha M (turned (-psi) (beamOf beamV b))) x := by
  have hr := rot_real psi hb
  rw [← rot_beam, ← signal_new Y hY hV nside L a _ ha hr inputV beamV M hM symmetric maxSpin h0 x]
  obtain ⟨w, hw, -, -, -, -, -, -, -, -, -, -, -, -, e22, -⟩ := w_entries M
  have one : Real.cos (2 * psi) = 1 → exp (-(I * (2 * psi))) = 1 := by
    intro h
    have hs : Real.sin (2 * psi) = 0 := by
      have := Real.cos_sq_add_sin_sq (2 * psi)
      rw [h] at this
      nlinarith
    have e' : exp (-(I * (2 * psi))) = cos (2 * psi) - sin (2 * psi) * I := by
      rw [mul_comm I, ← neg_mul, exp_mul_I, Complex.cos_neg, Complex.sin_neg]
      ring
    rw [e', show (cos (2 * psi) : ℂ) = ((Real.cos (2 * psi) : ℝ) : ℂ) by push_cast; rfl,
      show (sin (2 * psi) : ℂ) = ((Real.sin (2 * psi) : ℝ) : ℂ) by push_cast; rfl, h, hs]
    simp
  have v4 : ∀ s, values Y nside L a (rot psi b) (some (realMat M)) inputV beamV .s2a4 s =
      fun p => exp (I * (2 * psi)) *
        values Y nside L a b (some (realMat M)) inputV beamV .s2a4 s p := by
    intro s
    funext p
    rw [plate_s2a4 Y hY hV nside L a _ ha hr inputV beamV M hw,
      plate_s2a4 Y hY hV nside L a b ha hb inputV beamV M hw, synth_smul]
    apply synth_congr
    intro l hl m
    rw [rot_mode2]
    ring
  have v0 : ∀ s, values Y nside L a (rot psi b) (some (realMat M)) inputV beamV .s2a0 s =
      values Y nside L a b (some (realMat M)) inputV beamV .s2a0 s := by
    intro s
    funext p
    rw [plate_s2a0 Y hY nside L a _ ha hr inputV beamV M hw,
      plate_s2a0 Y hY nside L a b ha hb inputV beamV M hw]
    apply synth_congr
    intro l hl m
    rw [rot_mode1]
    rcases hA.still with h | ⟨h, h'⟩
    · rw [one h, one_mul]
    · have : w 2 2 = 0 := by
        rw [e22, h', ← ofReal_add, h]
        simp
      rw [this]
      ring
  have v2 : ∀ s, values Y nside L a (rot psi b) (some (realMat M)) inputV beamV .s2a2 s =
      values Y nside L a b (some (realMat M)) inputV beamV .s2a2 s := by
    intro s
    funext p
    rw [plate_s2a2 Y hY hV nside L a _ ha hr inputV beamV M hw,
      plate_s2a2 Y hY hV nside L a b ha hb inputV beamV M hw]
    rfl
  have u0 : ∀ s ∈ spinsUnpol symmetric maxSpin,
      values Y nside L a (rot psi b) (some (realMat M)) inputV beamV .s0a0 s =
      values Y nside L a b (some (realMat M)) inputV beamV .s0a0 s := by
    intro s _
    rfl
  have u2 : ∀ s, values Y nside L a (rot psi b) (some (realMat M)) inputV beamV .s0a2 s =
      fun p => exp (I * (2 * psi)) *
        values Y nside L a b (some (realMat M)) inputV beamV .s0a2 s p := by
    intro s
    funext p
    rw [plate_s0a2 Y hY hV nside L a _ ha hr inputV beamV M hM,
      plate_s0a2 Y hY hV nside L a b ha hb inputV beamV M hM]
    simp only [beamPbar, rot_mode2]
    have k : ∀ g : Nat → Int → ℂ, synth Y nside L s (fun l m =>
        exp (I * (2 * psi)) * beamMode (b 2) (b 1) (s - 2) l * g l m) p =
        exp (I * (2 * psi)) * synth Y nside L s (fun l m =>
          beamMode (b 2) (b 1) (s - 2) l * g l m) p := by
      intro g
      rw [synth_smul]
      apply synth_congr
      intro l hl m
      ring
    rw [k, k]
    ring
  have zero : Real.sin (2 * psi) ≠ 0 →
      ∀ s p, values Y nside L a b (some (realMat M)) inputV beamV .s0a2 s p = 0 := by
    intro hs s p
    obtain ⟨h, h'⟩ := hA.leak.resolve_left hs
    rw [plate_s0a2 Y hY hV nside L a b ha hb inputV beamV M hM, h]
    cases inputV with
    | true => rw [h' rfl]; simp
    | false =>
      have e : ∀ l m, (skyOf false a).V l m = 0 := fun _ _ => rfl
      simp only [e, mul_zero]
      unfold synth
      simp
  have hp : pairF psi x (values Y nside L a b (some (realMat M)) inputV beamV .s0a2) =
      pairF 0 x (values Y nside L a (rot psi b) (some (realMat M)) inputV beamV .s0a2) := by
    funext s
    unfold pairF
    simp only [u2]
    by_cases hs : Real.sin (2 * psi) = 0
    · have c0 : exp (I * (2 * psi)) = (Real.cos (2 * psi) : ℂ) := by
        rw [mul_comm I, exp_mul_I,
          show (sin (2 * psi) : ℂ) = ((Real.sin (2 * psi) : ℝ) : ℂ) by push_cast; rfl, hs]
        push_cast
        ring
      have c1 : exp (-(I * (2 * psi))) = (Real.cos (2 * psi) : ℂ) := by
        rw [← star_phase, c0]
        exact conj_ofReal _
      rw [c0]
      simp only [← look_smul]
      split
      · rw [mul_zero, Real.cos_zero, one_mul, ← re_ofReal_mul]
        congr 1
        ring
      · rw [show I * (2 * (x.alpha : ℂ) + 2 * psi - s * x.pa) =
            I * (2 * x.alpha - s * x.pa) + I * (2 * psi) by ring,
          show I * (2 * (x.alpha : ℂ) - 2 * psi + s * x.pa) =
            I * (2 * x.alpha + s * x.pa) + -(I * (2 * psi)) by ring, exp_add, exp_add, c0, c1]
        push_cast
        rw [mul_zero, add_zero, sub_zero, mul_assoc, mul_assoc]
    · have z := zero hs
      have lz : ∀ s, look x (values Y nside L a b (some (realMat M)) inputV beamV .s0a2 s) = 0 := by
        intro s
        rw [show values Y nside L a b (some (realMat M)) inputV beamV .s0a2 s =
          fun p => (0 : ℂ) * 0 from funext fun p => by rw [z]; ring]
        unfold look
        simp
      simp only [← look_smul, lz]
      split <;> simp
  have s4 : sumC x (spinsPol symmetric maxSpin)
      (values Y nside L a (rot psi b) (some (realMat M)) inputV beamV .s2a4) =
      exp (I * (2 * psi)) * sumC x (spinsPol symmetric maxSpin)
        (values Y nside L a b (some (realMat M)) inputV beamV .s2a4) := by
    unfold sumC
    rw [← List.sum_map_mul_left]
    congr 1
    apply List.map_congr_left
    intro s _
    rw [v4, ← look_smul]
    ring
  have s2 : sumC x (spinsPol symmetric maxSpin)
      (values Y nside L a (rot psi b) (some (realMat M)) inputV beamV .s2a2) =
      sumC x (spinsPol symmetric maxSpin)
        (values Y nside L a b (some (realMat M)) inputV beamV .s2a2) := by
    rw [show values Y nside L a (rot psi b) (some (realMat M)) inputV beamV .s2a2 = _ from funext v2]
  have s0 : sumC x (spinsPol symmetric maxSpin)
      (values Y nside L a (rot psi b) (some (realMat M)) inputV beamV .s2a0) =
      sumC x (spinsPol symmetric maxSpin)
        (values Y nside L a b (some (realMat M)) inputV beamV .s2a0) := by
    rw [show values Y nside L a (rot psi b) (some (realMat M)) inputV beamV .s2a0 = _ from funext v0]
  unfold signalF
  rw [s4, s2, s0, hp]
  have : exp (I * (4 * x.alpha + 2 * psi)) * sumC x (spinsPol symmetric maxSpin)
        (values Y nside L a b (some (realMat M)) inputV beamV .s2a4) =
      exp (I * (4 * x.alpha + 2 * (0 : ℝ))) * (exp (I * (2 * psi)) * sumC x
        (spinsPol symmetric maxSpin)
        (values Y nside L a b (some (realMat M)) inputV beamV .s2a4)) := by
    rw [show I * (4 * (x.alpha : ℂ) + 2 * psi) = I * (4 * x.alpha + 2 * (0 : ℝ)) + I * (2 * psi) by
      push_cast; ring, exp_add, mul_assoc]
  rw [this]
  rfl

end Verif.Spinmaps
