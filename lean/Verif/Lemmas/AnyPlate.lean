import Verif.Lemmas.Symmetric
import Verif.Spec.AnyPlate

/-! # The signal of a symmetric beam behind any plate -/

noncomputable section

namespace Verif.Spinmaps

open Verif.Alm Verif.Spin Verif.Spec Verif.Timeline Complex

theorem turned_Pbar (psi : ℝ) (b : Stokes) (l : Nat) (s : Int) :
    (turned psi b).Pbar l s = exp (-(I * (2 * psi))) * b.Pbar l s := by
  unfold Stokes.Pbar turned
  dsimp only
  rw [mul_comm I (2 * (psi : ℂ)), ← neg_mul, exp_mul_I, Complex.cos_neg, Complex.sin_neg]
  push_cast
  linear_combination -(b.U l (s + 2)) * Complex.sin (2 * psi) * I_sq

/-- The elements of the simulated plate in the complex basis. -/
theorem acted_entries (psi : ℝ) (M : Fin 4 → Fin 4 → ℝ) {w w' : Mat4}
    (hw : mueller2spin (realMat M) = w) (hw' : mueller2spin (realMat (acted psi M)) = w') :
    w' 0 0 = w 0 0 ∧ w' 3 0 = w 3 0 ∧ w' 0 3 = w 0 3 ∧ w' 3 3 = w 3 3 ∧
    w' 0 2 * (Real.sqrt 2 : ℂ) = w 0 2 * (Real.sqrt 2 : ℂ) ∧
    w' 3 2 * (Real.sqrt 2 : ℂ) = w 3 2 * (Real.sqrt 2 : ℂ) ∧
    w' 2 2 = exp (I * (2 * psi)) * w 2 2 ∧ w' 1 2 = w 1 2 ∧
    w' 1 0 * (Real.sqrt 2 : ℂ) =
      Real.cos (2 * psi) * exp (-(I * (2 * psi))) * (M 1 0 - I * M 0 2) ∧
    w' 2 0 * (Real.sqrt 2 : ℂ) = Real.cos (2 * psi) * exp (I * (2 * psi)) * (M 1 0 + I * M 0 2) ∧
    w' 1 3 * (Real.sqrt 2 : ℂ) =
      Real.cos (2 * psi) * exp (-(I * (2 * psi))) * (M 1 3 - I * M 3 2) ∧
    w' 2 3 * (Real.sqrt 2 : ℂ) =
      Real.cos (2 * psi) * exp (I * (2 * psi)) * (M 1 3 + I * M 3 2) := by
  obtain ⟨v, hv, e00, e30, e03, e33, e10, e20, e13, e23, e01, e02, e31, e32, e22, e11, e12, e21⟩ :=
    w_entries M
  obtain ⟨v', hv', f00, f30, f03, f33, f10, f20, f13, f23, f01, f02, f31, f32, f22, f11, f12, f21⟩ :=
    w_entries (acted psi M)
  rw [hw] at hv
  subst hv
  rw [hw'] at hv'
  subst hv'
  rw [f00, f30, f03, f33, f02, f32, f22, f12, f10, f20, f13, f23, e00, e30, e03, e33, e02, e32, e22,
    e12, mul_comm I (2 * (psi : ℂ)), ← neg_mul, exp_mul_I, exp_mul_I, Complex.cos_neg,
    Complex.sin_neg]
  clear e00 e30 e03 e33 e10 e20 e13 e23 e01 e02 e31 e32 e22 e11 e12 e21
  clear f00 f30 f03 f33 f10 f20 f13 f23 f01 f02 f31 f32 f22 f11 f12 f21
  have hI := I_sq
  refine ⟨?_, ?_, ?_, ?_, ?_, ?_, ?_, ?_, ?_, ?_, ?_, ?_⟩ <;> simp [acted] <;>
    first
    | ring1
    | linear_combination -(sin (2 * (psi : ℂ)) * (M 1 2 - M 2 1) / 2) * hI
    | linear_combination -(cos (2 * (psi : ℂ)) * sin (2 * psi) * M 0 2) * hI
    | linear_combination -(cos (2 * (psi : ℂ)) * sin (2 * psi) * M 3 2) * hI

theorem shift_zero (b : Nat → Nat → Nat → ℂ) (hb : CoPolar b) (l : Nat) :
    shiftP (b 1) (b 2) 2 l 0 = (if 2 ≤ l then b 1 l 2 else 0) ∧
    shiftM (b 1) (b 2) 2 l 0 = if 2 ≤ l then b 1 l 2 else 0 := by
  unfold shiftP shiftM extended
  refine ⟨?_, ?_⟩
  · by_cases h : 2 ≤ l
    · rw [if_pos h, if_pos (by simp; omega), if_neg (by simp)]
      simpa using hb.2 l
    · rw [if_neg h, if_neg (by simp; omega)]
  · by_cases h : 2 ≤ l
    · rw [if_pos h, if_pos (by simp; omega), if_pos (by simp)]
      rfl
    · rw [if_neg h, if_neg (by simp; omega)]

theorem window (b : Nat → Nat → Nat → ℂ) (hb : CoPolar b) (v : Bool) (l : Nat) :
    (beamOf v b).P l 2 = (if 2 ≤ l then b 1 l 2 else 0) ∧
    (beamOf v b).Pbar l (-2) = if 2 ≤ l then b 1 l 2 else 0 := by
  rw [beamP, beamPbar]
  unfold beamMode extended
  refine ⟨?_, ?_⟩
  · by_cases h : 2 ≤ l
    · rw [if_pos h, if_neg (by simp; omega), if_pos (by norm_num)]
      rfl
    · rw [if_neg h, if_pos (by simp; omega)]
  · by_cases h : 2 ≤ l
    · rw [if_pos h, if_neg (by simp; omega), if_neg (by norm_num)]
      simpa using hb.2 l
    · rw [if_neg h, if_pos (by simp; omega)]

/-- A map of spin 0 with a real beam: the real part takes the element `u`, the imaginary part the
element `v`. -/
theorem rawComplex_mixed (Y : Harmonics) (hY : Conjugation Y) (nside L : Nat) (a : Nat → Nat → ℂ)
    (ha : ∀ l, l ≤ L → star (a l 0) = a l 0) (β : Nat → ℂ) (hβ : ∀ l, star (β l) = β l)
    (f g : Nat → Nat → ℂ) (hf : ∀ l, f l 0 = β l) (hg : ∀ l, g l 0 = β l) (u v : ℂ) (p : Nat) :
    rawComplex Y nside L a a (fun l m => f l m * u) (fun l m => g l m * v) 0 p =
      ((u.re : ℂ) - I * v.im) * synth Y nside L 0 (fun l m => β l * extended a a l m) p := by
  let z : ℂ := (u.re : ℂ) - I * v.im
  have e : rawComplex Y nside L a a (fun l m => f l m * u) (fun l m => g l m * v) 0 p =
      rawComplex Y nside L a a (fun l _ => β l * z) (fun l _ => β l * star z) 0 p := by
    unfold rawComplex
    simp only [gt_iff_lt, lt_irrefl, if_false, Int.natAbs_zero, Nat.not_lt_zero]
    have h1 : ∀ l, β l * u + star (β l * u) = β l * z + star (β l * z) := by
      intro l
      rw [star_mul, star_mul, hβ, mul_comm (star u), mul_comm (star z), ← mul_add, ← mul_add]
      congr 1
      apply Complex.ext <;> simp [z]
    have h2 : ∀ l, β l * v - star (β l * v) = β l * star z - star (β l * star z) := by
      intro l
      rw [star_mul, star_mul, hβ, mul_comm (star v), mul_comm (star (star z)), ← mul_sub, ← mul_sub]
      congr 1
      apply Complex.ext <;> simp [z]
    congr 3
    · congr 1
      funext l m
      rw [hf, ← mul_add, ← mul_add, h1]
    · congr 1
      funext l m
      rw [hg, ← mul_sub, ← mul_sub, h2]
  rw [e, rawComplex_synth Y hY nside L _ _ _ _ ha (fun l _ => by rw [star_mul, hβ, mul_comm]),
    synth_smul]
  apply synth_congr
  intro l _ m
  have : beamMode (fun l _ => β l * z) (fun l _ => β l * star z) 0 l = β l * z := by
    unfold beamMode extended
    simp
  rw [this]
  ring

/-- The maps with spin 0 and twice the HWP angle. -/
theorem any_s0a2 (Y : Harmonics) (hY : Conjugation Y) (nside L : Nat) (a b : Nat → Nat → Nat → ℂ)
    (ha : RealSky L a) (hb : CoPolar b) (inputV beamV : Bool) (M : Fin 4 → Fin 4 → ℝ) (p : Nat) :
    values Y nside L a b (some (realMat M)) inputV beamV .s0a2 0 p =
      ((M 1 0 : ℂ) - I * M 0 2) * synth Y nside L 0 (fun l m =>
        (if 2 ≤ l then b 1 l 2 else 0) * (skyOf inputV a).I l m) p +
      ((M 1 3 : ℂ) - I * M 3 2) * synth Y nside L 0 (fun l m =>
        (if 2 ≤ l then b 1 l 2 else 0) * (skyOf inputV a).V l m) p := by
  obtain ⟨w, hw, -, -, -, -, -, e20, -, e23, -, e02, -, e32, -⟩ := w_entries M
  have hβ : ∀ l, star (if 2 ≤ l then b 1 l 2 else 0) = if 2 ≤ l then b 1 l 2 else 0 := by
    intro l
    split
    · exact hb.2 l
    · simp
  have key : ∀ (j : Nat) (hj : j < 4) (u v : ℂ) (r q : ℝ), u.re = r → v.im = q →
      rawComplex Y nside L (a j) (a j) (fun l m => shiftP (b 1) (b 2) 2 l m * u)
        (fun l m => shiftM (b 1) (b 2) 2 l m * v) 0 p =
      ((r : ℂ) - I * q) * synth Y nside L 0 (fun l m =>
        (if 2 ≤ l then b 1 l 2 else 0) * extended (a j) (a j) l m) p := by
    intro j hj u v r q hr hq
    rw [rawComplex_mixed Y hY nside L (a j) (fun l hl => ha j hj l hl) _ hβ _ _
      (fun l => (shift_zero b hb l).1) (fun l => (shift_zero b hb l).2), hr, hq]
  have k0 := key 0 (by omega) (w 2 0 * (Real.sqrt 2 : ℂ)) (w 0 2 * (Real.sqrt 2 : ℂ)) (M 1 0) (M 0 2)
    (by rw [e20]; simp) (by rw [e02]; simp)
  have k3 := key 3 (by omega) (w 2 3 * (Real.sqrt 2 : ℂ)) (w 3 2 * (Real.sqrt 2 : ℂ)) (M 1 3) (M 3 2)
    (by rw [e23]; simp) (by rw [e32]; simp)
  have e : values Y nside L a b (some (realMat M)) inputV beamV .s0a2 0 p =
      rawComplex Y nside L (a 0) (a 0)
        (fun l m => shiftP (b 1) (b 2) 2 l m * (w 2 0 * (Real.sqrt 2 : ℂ)))
        (fun l m => shiftM (b 1) (b 2) 2 l m * (w 0 2 * (Real.sqrt 2 : ℂ))) 0 p +
      if inputV then rawComplex Y nside L (a 3) (a 3)
        (fun l m => shiftP (b 1) (b 2) 2 l m * (w 2 3 * (Real.sqrt 2 : ℂ)))
        (fun l m => shiftM (b 1) (b 2) 2 l m * (w 3 2 * (Real.sqrt 2 : ℂ))) 0 p else 0 := by
    rw [← hw]
    rfl
  rw [e, k0, k3]
  cases inputV with
  | false =>
    have e : ∀ l m, (skyOf false a).V l m = 0 := fun _ _ => rfl
    have z : synth Y nside L 0 (fun l m =>
        (if 2 ≤ l then b 1 l 2 else 0) * (skyOf false a).V l m) p = 0 := by
      simp only [e, mul_zero]
      unfold synth
      simp
    rw [z]
    simp only [Bool.false_eq_true, if_false, mul_zero]
    rfl
  | true => rfl

theorem look_real (Y : Harmonics) (hY : Conjugation Y) (nside L : Nat) (x : Smp) (β : Nat → ℂ)
    (hβ : ∀ l, star (β l) = β l) (A : Nat → Int → ℂ) (hA : RealModes L A) :
    star (look x (synth Y nside L 0 fun l m => β l * A l m)) =
      look x (synth Y nside L 0 fun l m => β l * A l m) := by
  rw [← look_star]
  congr 1
  funext p
  rw [synth_star Y hY, neg_zero]
  apply synth_congr
  intro l hl m
  rw [zero_add, star_mul, hβ, ← mul_assoc, hA l hl m, mul_comm]

/-- The signal of a symmetric beam behind any plate. -/
theorem signal_any (Y : Harmonics) (hY : Conjugation Y) (hV : Vanishing Y) (nside L : Nat)
    (a b : Nat → Nat → Nat → ℂ) (ha : RealSky L a) (hb : RealBeam L b) (hc : CoPolar b)
    (inputV beamV : Bool) (M : Fin 4 → Fin 4 → ℝ) (n : Int) (psi : ℝ) (x : Smp) :
    signalF true (spinsUnpol true n) (spinsPol true n) (spinsS0a2 true n)
        (values Y nside L a b (some (realMat M)) inputV beamV) psi x =
      convolved Y nside L {0} {2} (skyOf inputV a)
        (turnedPlate x.alpha (acted psi M) (turned (-psi) (beamOf beamV b))) x := by
  obtain ⟨w, hw, e00, e30, e03, e33, -⟩ := w_entries M
  obtain ⟨w', hw', -⟩ := w_entries (acted psi M)
  obtain ⟨a00, a30, a03, a33, a02, a32, a22, a12, a10, a20, a13, a23⟩ := acted_entries psi M hw hw'
  let β : Nat → ℂ := fun l => if 2 ≤ l then b 1 l 2 else 0
  have hβ : ∀ l, star (β l) = β l := by
    intro l
    show star (if 2 ≤ l then b 1 l 2 else 0) = if 2 ≤ l then b 1 l 2 else 0
    split
    · exact hc.2 l
    · simp
  obtain ⟨rI, rV⟩ := realModes_sky inputV ha
  -- the maps
  have v4 := fun p => plate_s2a4 Y hY hV nside L a b ha hb inputV beamV M hw 2 p
  have v0 := fun p => plate_s2a0 Y hY nside L a b ha hb inputV beamV M hw 2 p
  have v2 := fun p => plate_s2a2 Y hY hV nside L a b ha hb inputV beamV M hw 2 p
  have u0 := fun p => plate_s0a0 Y hY nside L a b ha hb inputV beamV M 0 p
  have u2 := fun p => any_s0a2 Y hY nside L a b ha hc inputV beamV M p
  let E : ℂ := exp (-I * ((2 : Int) : ℂ) * (x.pa : ℂ))
  let FI := look x (synth Y nside L 0 fun l m => β l * (skyOf inputV a).I l m)
  let FV := look x (synth Y nside L 0 fun l m => β l * (skyOf inputV a).V l m)
  have hFI : FI.im = 0 := by
    have := look_real Y hY nside L x β hβ _ rI
    exact conj_eq_iff_im.1 this
  have hFV : FV.im = 0 := by
    have := look_real Y hY nside L x β hβ _ rV
    exact conj_eq_iff_im.1 this
  let S0 := look x (synth Y nside L 0 fun l m =>
        ((M 0 0 : ℂ) * (beamOf beamV b).I l 0 + (M 3 0 : ℂ) * (beamOf beamV b).V l 0) *
          (skyOf inputV a).I l m +
        ((M 0 3 : ℂ) * (beamOf beamV b).I l 0 + (M 3 3 : ℂ) * (beamOf beamV b).V l 0) *
          (skyOf inputV a).V l m)
  -- the part of P
  have hP : look x (synth Y nside L 2 fun l m =>
      (turnedPlate x.alpha (acted psi M) (turned (-psi) (beamOf beamV b))).P l 2 *
        (skyOf inputV a).P l m) =
      exp (I * (4 * x.alpha + 2 * psi)) *
        look x (values Y nside L a b (some (realMat M)) inputV beamV .s2a4 2) +
      exp (I * (2 * x.alpha)) *
        look x (values Y nside L a b (some (realMat M)) inputV beamV .s2a2 2) +
      look x (values Y nside L a b (some (realMat M)) inputV beamV .s2a0 2) := by
    rw [look_smul, look_smul, ← look_add, ← look_add]
    congr 1
    funext p
    rw [v4, v2, v0, synth_smul, synth_smul, synth_add, synth_add]
    apply synth_congr
    intro l hl m
    rw [plate_P x.alpha _ _ l 2 hw', turned_P, turned_Pbar, beamP, beamPbar, a02, a32, a22, a12]
    have t1 : (turned (-psi) (beamOf beamV b)).I = (beamOf beamV b).I := rfl
    have t2 : (turned (-psi) (beamOf beamV b)).V = (beamOf beamV b).V := rfl
    have h1 : exp (I * (4 * x.alpha + 2 * psi)) = exp (I * (4 * x.alpha)) * exp (I * (2 * psi)) := by
      rw [← exp_add]
      congr 1
      ring
    have h2 : exp (I * (2 * (psi : ℂ))) * exp (I * (2 * ((-psi : ℝ) : ℂ))) = 1 := by
      rw [← exp_add]
      push_cast
      simp
    have h3 : exp (-(I * (2 * ((-psi : ℝ) : ℂ)))) = exp (I * (2 * psi)) := by
      push_cast
      congr 1
      ring
    rw [t1, t2, h1, h3]
    linear_combination (w 2 2 * beamMode (b 1) (b 2) 2 l * (skyOf inputV a).P l m) * h2
  -- the part of I and V
  let zI : ℂ := (M 1 0 : ℂ) - I * M 0 2
  let zV : ℂ := (M 1 3 : ℂ) - I * M 3 2
  let e2 : ℂ := exp (I * (2 * x.alpha))
  have hI : look x (synth Y nside L 0 fun l m =>
      (turnedPlate x.alpha (acted psi M) (turned (-psi) (beamOf beamV b))).I l 0 *
        (skyOf inputV a).I l m +
      (turnedPlate x.alpha (acted psi M) (turned (-psi) (beamOf beamV b))).V l 0 *
        (skyOf inputV a).V l m) =
      S0 + ((Real.cos (2 * psi) * (e2 * zI).re : ℝ) * FI +
        (Real.cos (2 * psi) * (e2 * zV).re : ℝ) * FV) := by
    show _ = look x _ + (_ * look x _ + _ * look x _)
    rw [look_smul, look_smul, ← look_add, ← look_add]
    congr 1
    funext p
    rw [synth_smul, synth_smul, synth_add, synth_add]
    apply synth_congr
    intro l hl m
    have t1 : (turned (-psi) (beamOf beamV b)).I = (beamOf beamV b).I := rfl
    have t2 : (turned (-psi) (beamOf beamV b)).V = (beamOf beamV b).V := rfl
    rw [plate_I x.alpha _ _ l 0 hw', plate_V x.alpha _ _ l 0 hw', turned_P, turned_Pbar, t1, t2,
      show (0 : Int) - 2 = -2 by norm_num, show (0 : Int) + 2 = 2 by norm_num, (window b hc beamV l).1,
      (window b hc beamV l).2, a00, a30, a03, a33, a10, a20, a13, a23, e00, e30, e03, e33]
    have h2 : exp (-(I * (2 * (psi : ℂ)))) * exp (-(I * (2 * ((-psi : ℝ) : ℂ)))) = 1 := by
      rw [← exp_add]
      push_cast
      simp
    have h3 : exp (I * (2 * (psi : ℂ))) * exp (I * (2 * ((-psi : ℝ) : ℂ))) = 1 := by
      rw [← exp_add]
      push_cast
      simp
    have h4 : ∀ r q : ℝ, (((e2 * ((r : ℂ) - I * q)).re : ℝ) : ℂ) =
        (exp (I * (2 * x.alpha)) * (r - I * q) + exp (-(I * (2 * x.alpha))) * (r + I * q)) / 2 := by
      intro r q
      rw [re_eq_add_conj, map_mul]
      have : (starRingEnd ℂ) e2 = exp (-(I * (2 * x.alpha))) := by
        show (starRingEnd ℂ) (exp _) = _
        rw [← exp_conj]
        congr 1
        simp [conj_ofReal, map_ofNat]
      rw [this]
      simp [e2]
    have k1 := h4 (M 1 0) (M 0 2)
    have k2 := h4 (M 1 3) (M 3 2)
    push_cast [zI, zV]
    push_cast at k1 k2
    rw [k1, k2]
    show _ = _ + (_ * (β l * _) + _ * (β l * _))
    have hβl : (if 2 ≤ l then b 1 l 2 else 0) = β l := rfl
    rw [hβl]
    push_cast at h2 h3
    linear_combination
      (exp (I * (2 * x.alpha)) * cos (2 * psi) * β l / 2 * ((M 1 0 - I * M 0 2) *
        (skyOf inputV a).I l m + (M 1 3 - I * M 3 2) * (skyOf inputV a).V l m)) * h2 +
      (exp (-(I * (2 * x.alpha))) * cos (2 * psi) * β l / 2 * ((M 1 0 + I * M 0 2) *
        (skyOf inputV a).I l m + (M 1 3 + I * M 3 2) * (skyOf inputV a).V l m)) * h3
  have h02 : look x (values Y nside L a b (some (realMat M)) inputV beamV .s0a2 0) =
      zI * FI + zV * FV := by
    show _ = zI * look x _ + zV * look x _
    rw [look_smul, look_smul, ← look_add]
    congr 1
    funext p
    exact u2 p
  have h00 : look x (values Y nside L a b (some (realMat M)) inputV beamV .s0a0 0) = S0 := by
    show _ = look x _
    congr 1
    funext p
    exact u0 p
  have hFI' : FI = (FI.re : ℂ) := by apply Complex.ext <;> simp [hFI]
  have hFV' : FV = (FV.re : ℂ) := by apply Complex.ext <;> simp [hFV]
  unfold signalF convolved
  rw [Finset.sum_singleton, Finset.sum_singleton, hP, hI, if_pos rfl]
  have f1 : ((spinsS0a2 true n).filter fun s => decide (0 ≤ s)) = [0] := rfl
  have f2 : spinsPol true n = [2] := rfl
  have f3 : spinsUnpol true n = [0] := rfl
  rw [f1, f2, f3]
  unfold sumC sumR
  simp only [List.map_cons, List.map_nil, List.sum_cons, List.sum_nil, add_zero]
  unfold pairF
  rw [if_pos rfl, if_pos trivial, h02, h00]
  have g1 : (e2 * (zI * FI + zV * FV)).re = (e2 * zI).re * FI.re + (e2 * zV).re * FV.re := by
    rw [mul_add, ← mul_assoc, ← mul_assoc, add_re, hFI', hFV', re_mul_ofReal, re_mul_ofReal]
    simp
  have g2 : ∀ r : ℝ, ((r : ℂ) * FI).re = r * FI.re := fun r => re_ofReal_mul r FI
  have g3 : ∀ r : ℝ, ((r : ℂ) * FV).re = r * FV.re := fun r => re_ofReal_mul r FV
  rw [show exp (I * (2 * (x.alpha : ℂ))) = e2 from rfl, g1]
  simp only [Int.cast_zero, mul_zero, zero_mul, exp_zero, mul_one, add_re, g2, g3, add_mul, ← mul_assoc,
    one_mul]
  ring

end Verif.Spinmaps
