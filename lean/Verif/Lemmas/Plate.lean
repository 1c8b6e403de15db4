import Verif.Lemmas.Observe

/-! # The signal behind a plate with a Mueller matrix -/

noncomputable section

namespace Verif.Spinmaps

open Verif.Alm Verif.Spin Verif.Spec Verif.Timeline Complex

/-- A real Mueller matrix. -/
theorem w_entries (M : Fin 4 → Fin 4 → ℝ) :
    ∃ w, mueller2spin (realMat M) = w ∧
    w 0 0 = M 0 0 ∧ w 3 0 = M 3 0 ∧ w 0 3 = M 0 3 ∧ w 3 3 = M 3 3 ∧
    w 1 0 * (Real.sqrt 2 : ℂ) = M 1 0 + I * M 2 0 ∧ w 2 0 * (Real.sqrt 2 : ℂ) = M 1 0 - I * M 2 0 ∧
    w 1 3 * (Real.sqrt 2 : ℂ) = M 1 3 + I * M 2 3 ∧ w 2 3 * (Real.sqrt 2 : ℂ) = M 1 3 - I * M 2 3 ∧
    w 0 1 * (Real.sqrt 2 : ℂ) = M 0 1 - I * M 0 2 ∧ w 0 2 * (Real.sqrt 2 : ℂ) = M 0 1 + I * M 0 2 ∧
    w 3 1 * (Real.sqrt 2 : ℂ) = M 3 1 - I * M 3 2 ∧ w 3 2 * (Real.sqrt 2 : ℂ) = M 3 1 + I * M 3 2 ∧
    w 2 2 = (M 1 1 + M 2 2 + I * (M 1 2 - M 2 1)) / 2 ∧
    w 1 1 = (M 1 1 + M 2 2 - I * (M 1 2 - M 2 1)) / 2 ∧
    w 1 2 = (M 1 1 - M 2 2 + I * (M 1 2 + M 2 1)) / 2 ∧
    w 2 1 = (M 1 1 - M 2 2 - I * (M 1 2 + M 2 1)) / 2 := by
  refine ⟨_, rfl, ?_⟩
  have h2 : ((Real.sqrt 2 : ℝ) : ℂ) * (Real.sqrt 2 : ℂ) = 2 := by
    have : Real.sqrt 2 * Real.sqrt 2 = 2 := Real.mul_self_sqrt (by norm_num)
    exact_mod_cast this
  have hne : ((Real.sqrt 2 : ℝ) : ℂ) ≠ 0 := by
    have : Real.sqrt 2 ≠ 0 := by positivity
    exact_mod_cast this
  let tinv : Mat4 :=
    !![1, 0, 0, 0;
     0, 1 / (Real.sqrt 2 : ℂ), 1 / (Real.sqrt 2 : ℂ), 0;
     0, -I / (Real.sqrt 2 : ℂ), I / (Real.sqrt 2 : ℂ), 0;
     0, 0, 0, 1]
  have h1 : tmat * tinv = 1 := by
    have hI := Complex.I_sq
    have h3 : ((Real.sqrt 2 : ℝ) : ℂ) ^ 2 = 2 := by rw [sq, h2]
    ext i j
    fin_cases i <;> fin_cases j <;>
      simp [tmat, tinv, Matrix.mul_apply, Fin.sum_univ_four] <;>
      field_simp <;> simp [h3] <;> norm_num
  have hi : tmat⁻¹ = tinv := Matrix.inv_eq_right_inv h1
  have hM : ∀ i j, realMat M i j = (M i j : ℂ) := fun _ _ => rfl
  unfold mueller2spin
  rw [hi]
  have hr : ((Real.sqrt 2 : ℝ) : ℂ)⁻¹ * (Real.sqrt 2 : ℂ)⁻¹ = 1 / 2 := by
    rw [← mul_inv, h2]
    norm_num
  have hr' : ((Real.sqrt 2 : ℝ) : ℂ)⁻¹ * (Real.sqrt 2 : ℂ) = 1 := inv_mul_cancel₀ hne
  have hI := I_mul_I
  refine ⟨?_, ?_, ?_, ?_, ?_, ?_, ?_, ?_, ?_, ?_, ?_, ?_, ?_, ?_, ?_, ?_⟩ <;>
    simp only [Matrix.mul_apply, Fin.sum_univ_four, hM] <;>
    simp [tmat, tinv] <;> simp only [div_eq_mul_inv] <;>
    generalize ((Real.sqrt 2 : ℝ) : ℂ)⁻¹ = r at * <;> generalize ((Real.sqrt 2 : ℝ) : ℂ) = t at * <;>
    grind

/-- `P* = Q - iU`. -/
def Stokes.Pbar (b : Stokes) (l : Nat) (s : Int) : ℂ :=
  b.Q l (s + 2) - Complex.I * b.U l (s + 2)

theorem beamPbar (v : Bool) (b : Nat → Nat → Nat → ℂ) (l : Nat) (s : Int) :
    (beamOf v b).Pbar l s = beamMode (b 2) (b 1) s l := by
  unfold Stokes.Pbar beamOf
  dsimp only
  rw [show s + 2 - 2 = s by ring]
  have hI : I ≠ 0 := I_ne_zero
  field_simp
  ring

theorem plate_P (alpha : ℝ) (M : Fin 4 → Fin 4 → ℝ) (b : Stokes) (l : Nat) (s : Int)
    {w : Mat4} (hw : mueller2spin (realMat M) = w) :
    (turnedPlate alpha M b).P l s = w 2 2 * b.P l s +
      exp (I * (2 * alpha)) * (w 0 2 * (Real.sqrt 2 : ℂ) * b.I l (s - 2) +
        w 3 2 * (Real.sqrt 2 : ℂ) * b.V l (s - 2)) +
      exp (I * (4 * alpha)) * (w 1 2 * b.Pbar l (s - 4)) := by
  obtain ⟨w', hw', -, -, -, -, -, -, -, -, -, e02, -, e32, e22, -, e12, -⟩ := w_entries M
  rw [hw] at hw'
  subst hw'
  rw [e02, e32, e22, e12, show I * (4 * (alpha : ℂ)) = I * (2 * alpha) + I * (2 * alpha) by ring,
    exp_add, mul_comm I (2 * (alpha : ℂ)), exp_mul_I]
  unfold Stokes.P Stokes.Pbar turnedPlate plate frame
  rw [show s - 4 + 2 = s - 2 by ring]
  simp
  have hcs := Complex.cos_sq_add_sin_sq (2 * (alpha : ℂ))
  have hI := I_sq
  generalize Complex.cos (2 * (alpha : ℂ)) = c at *
  generalize Complex.sin (2 * (alpha : ℂ)) = z at *
  generalize b.I l (s - 2) = bi
  generalize b.Q l (s - 2) = bq
  generalize b.U l (s - 2) = bu
  generalize b.V l (s - 2) = bv
  grind

theorem plate_I (alpha : ℝ) (M : Fin 4 → Fin 4 → ℝ) (b : Stokes) (l : Nat) (s : Int)
    {w : Mat4} (hw : mueller2spin (realMat M) = w) :
    (turnedPlate alpha M b).I l s = w 0 0 * b.I l s + w 3 0 * b.V l s +
      (exp (I * (2 * alpha)) * (w 1 0 * (Real.sqrt 2 : ℂ) * b.Pbar l (s - 2)) +
        exp (-(I * (2 * alpha))) * (w 2 0 * (Real.sqrt 2 : ℂ) * b.P l (s + 2))) / 2 := by
  obtain ⟨w', hw', e00, e30, -, -, e10, e20, -⟩ := w_entries M
  rw [hw] at hw'
  subst hw'
  rw [e00, e30, e10, e20, mul_comm I (2 * (alpha : ℂ)), ← neg_mul, exp_mul_I, exp_mul_I,
    Complex.cos_neg, Complex.sin_neg]
  unfold Stokes.P Stokes.Pbar turnedPlate plate frame
  rw [show s - 2 + 2 = s by ring, show s + 2 - 2 = s by ring]
  simp
  have hcs := Complex.cos_sq_add_sin_sq (2 * (alpha : ℂ))
  have hI := I_sq
  generalize Complex.cos (2 * (alpha : ℂ)) = c at *
  generalize Complex.sin (2 * (alpha : ℂ)) = z at *
  grind

theorem plate_V (alpha : ℝ) (M : Fin 4 → Fin 4 → ℝ) (b : Stokes) (l : Nat) (s : Int)
    {w : Mat4} (hw : mueller2spin (realMat M) = w) :
    (turnedPlate alpha M b).V l s = w 0 3 * b.I l s + w 3 3 * b.V l s +
      (exp (I * (2 * alpha)) * (w 1 3 * (Real.sqrt 2 : ℂ) * b.Pbar l (s - 2)) +
        exp (-(I * (2 * alpha))) * (w 2 3 * (Real.sqrt 2 : ℂ) * b.P l (s + 2))) / 2 := by
  obtain ⟨w', hw', -, -, e03, e33, -, -, e13, e23, -⟩ := w_entries M
  rw [hw] at hw'
  subst hw'
  rw [e03, e33, e13, e23, mul_comm I (2 * (alpha : ℂ)), ← neg_mul, exp_mul_I, exp_mul_I,
    Complex.cos_neg, Complex.sin_neg]
  unfold Stokes.P Stokes.Pbar turnedPlate plate frame
  rw [show s - 2 + 2 = s by ring, show s + 2 - 2 = s by ring]
  simp
  have hcs := Complex.cos_sq_add_sin_sq (2 * (alpha : ℂ))
  have hI := I_sq
  generalize Complex.cos (2 * (alpha : ℂ)) = c at *
  generalize Complex.sin (2 * (alpha : ℂ)) = z at *
  grind

/-! ### shifted beams -/

theorem shiftP_zero (f g : Nat → Nat → ℂ) (k : Int) (hk : Even k) (l : Nat)
    (h : star (f l 0) = g l 0) (u : ℂ) :
    star (shiftP f g k l 0 * u) = shiftM f g k l 0 * star u := by
  have h' : star (g l 0) = f l 0 := by rw [← h, star_star]
  have e := extended_neg_star g f l h' k
  rw [hk.neg_one_zpow, one_mul] at e
  unfold shiftP shiftM
  simp only [Int.natCast_zero, zero_sub, zero_add, abs_neg]
  split
  · rw [star_mul, e, mul_comm]
  · simp

/-- The modes of the shifted beam. -/
theorem beamMode_shift (f g : Nat → Nat → ℂ) (k : Int) (hk : Even k) (l : Nat)
    (h : star (f l 0) = g l 0) (u : ℂ) (s : Int) (hs : |s| ≤ (l : Int)) :
    beamMode (fun l m => shiftP f g k l m * u) (fun l m => shiftM f g k l m * star u) s l =
      u * beamMode g f (s - k) l := by
  have h' : star (g l 0) = f l 0 := by rw [← h, star_star]
  unfold beamMode
  rw [if_neg (by omega)]
  unfold extended shiftP shiftM
  rw [apply_ite (fun z => u * z), mul_zero]
  by_cases h0 : 0 ≤ s
  · rw [if_pos h0]
    dsimp only
    have e : ((s.toNat : Nat) : Int) = s := by omega
    rw [e]
    by_cases h1 : |s - k| ≤ (l : Int)
    · rw [if_pos h1, if_neg (by omega)]
      unfold extended
      ring
    · rw [if_neg h1, if_pos (by omega)]
      ring
  · rw [if_neg h0]
    dsimp only
    have e : ((s.natAbs : Nat) : Int) = -s := by omega
    have e2 : |(-s) + k| = |s - k| := by rw [← abs_neg]; congr 1; ring
    rw [e, e2]
    by_cases h1 : |s - k| ≤ (l : Int)
    · rw [if_pos h1, if_neg (by omega)]
      have e3 := extended_neg_star f g l h (s - k)
      rw [show -(s - k) = -s + k by ring] at e3
      have e4 : (-1 : ℂ) ^ s.natAbs = (-1) ^ (s - k) := by
        rw [neg_one_zpow_natAbs, zpow_sub₀ (by norm_num), hk.neg_one_zpow, div_one]
      rw [star_mul, star_star, e4]
      change _ = u * extended g f l (s - k)
      rw [← e3]
      ring
    · rw [if_neg h1, if_pos (by omega)]
      simp

theorem beamMode_scale (f g : Nat → Nat → ℂ) (u : ℂ) (s : Int) (l : Nat) :
    beamMode (fun l m => f l m * u) (fun l m => g l m * star u) s l = u * beamMode f g s l := by
  unfold beamMode
  split
  · simp
  · unfold extended
    split
    · ring
    · rw [star_mul, star_star]
      ring

theorem beamMode_add (f g f' g' : Nat → Nat → ℂ) (s : Int) (l : Nat) :
    beamMode (fun l m => f l m + f' l m) (fun l m => g l m + g' l m) s l =
      beamMode f g s l + beamMode f' g' s l := by
  unfold beamMode
  split
  · simp
  · unfold extended
    split
    · rfl
    · rw [star_add]
      ring

/-- Only modes with `l ≥ |s|` count. -/
theorem synth_vanish (Y : Harmonics) (hV : Vanishing Y) (nside L : Nat) (s : Int)
    (A B : Nat → Int → ℂ) (p : Nat)
    (h : ∀ l, l ≤ L → |s| ≤ (l : Int) → ∀ m : Int, A l m = B l m) :
    synth Y nside L s A p = synth Y nside L s B p := by
  unfold synth
  apply Finset.sum_congr rfl
  intro l hl
  rw [Finset.mem_range] at hl
  apply Finset.sum_congr rfl
  intro m _
  by_cases h1 : |s| ≤ (l : Int)
  · rw [h l (by omega) h1 m]
  · rw [hV nside s l m p (by omega), mul_zero, mul_zero]

/-! ### the terms with spin 0 and twice the HWP angle -/

theorem field_star2 (Y : Harmonics) (hY : Conjugation Y) (nside L : Nat) (x : Smp)
    (BI BI' AI : Nat → Int → ℂ)
    (h1 : ∀ l, l ≤ L → ∀ s : Int, (-1) ^ s * star (BI l (-s)) = BI' l s)
    (h3 : RealModes L AI) (s : Int) :
    look x (synth Y nside L s fun l m => BI' l s * AI l m) * exp (-I * (s : ℂ) * (x.pa : ℂ)) =
      star (look x (synth Y nside L (-s) fun l m => BI l (-s) * AI l m) *
        exp (-I * ((-s : Int) : ℂ) * (x.pa : ℂ))) := by
  rw [star_mul, exp_star, neg_neg, mul_comm (exp _), ← look_star]
  congr 2
  funext p
  rw [synth_star Y hY, neg_neg]
  apply synth_congr
  intro l hl m
  rw [zpow_add₀ (by norm_num), star_mul, ← h1 l hl s, ← h3 l hl m, neg_one_zpow_neg]
  ring

theorem sum_half (S : Finset Int) (hS : ∀ s ∈ S, -s ∈ S) (F G : Int → ℂ) (e e' : ℂ)
    (he : e' = star e) (hG : ∀ s, G s = star (F (-s))) :
    (∑ s ∈ S, (e * F s + e' * G s) / 2).re = (e * ∑ s ∈ S, F s).re := by
  have h : ∑ s ∈ S, G s = star (∑ s ∈ S, F s) := by
    rw [star_sum]
    refine Finset.sum_equiv (Equiv.neg Int) ?_ ?_
    · intro i
      constructor
      · exact fun h => hS i h
      · intro h
        have := hS _ h
        simpa using this
    · intro i _
      exact hG i
  simp only [div_eq_mul_inv]
  rw [← Finset.sum_mul, Finset.sum_add_distrib, ← Finset.mul_sum, ← Finset.mul_sum, h, he]
  have e2 : star e * star (∑ s ∈ S, F s) = (starRingEnd ℂ) (e * ∑ s ∈ S, F s) := by
    rw [map_mul]
    rfl
  rw [e2, Complex.add_conj]
  simp
  ring

theorem sum_pairs (x : Smp) (f : Int → Nat → ℂ) (symmetric : Bool) (maxSpin : Int)
    (h : 0 ≤ maxSpin) :
    (((spinsS0a2 symmetric maxSpin).filter fun s => decide (0 ≤ s)).map (pairF 0 x f)).sum =
      (exp (I * (2 * x.alpha)) * ∑ s ∈ spinsI symmetric maxSpin,
        look x (f s) * exp (-I * (s : ℂ) * (x.pa : ℂ))).re := by
  have hpair : ∀ s : Int, s ≠ 0 → pairF 0 x f s =
      (exp (I * (2 * x.alpha)) * (look x (f s) * exp (-I * (s : ℂ) * (x.pa : ℂ)) +
        look x (f (-s)) * exp (-I * ((-s : Int) : ℂ) * (x.pa : ℂ)))).re := by
    intro s hs
    unfold pairF
    rw [if_neg hs, ← add_re]
    congr 1
    have e1 : I * (2 * (x.alpha : ℂ) + 2 * ((0 : ℝ) : ℂ) - s * x.pa) =
        I * (2 * x.alpha) + -I * (s : ℂ) * x.pa := by
      push_cast
      ring
    have e2 : I * (2 * (x.alpha : ℂ) - 2 * ((0 : ℝ) : ℂ) + s * x.pa) =
        I * (2 * x.alpha) + -I * ((-s : Int) : ℂ) * x.pa := by
      push_cast
      ring
    rw [e1, e2, exp_add, exp_add]
    ring
  have h00 : pairF 0 x f 0 = (exp (I * (2 * x.alpha)) * look x (f 0)).re := by
    unfold pairF
    simp
  unfold spinsI
  cases symmetric with
  | true =>
    have e : (spinsS0a2 true maxSpin).filter (fun s => decide (0 ≤ s)) = [0] := by
      simp [spinsS0a2]
    rw [e]
    simp [h00]
  | false =>
    obtain ⟨n, rfl⟩ := Int.eq_ofNat_of_zero_le h
    simp only [Bool.false_eq_true, if_false]
    rw [sum_Icc_sym, mul_add, add_re, Finset.mul_sum, re_sum]
    have e : (spinsS0a2 false n).filter (fun s => decide (0 ≤ s)) =
        0 :: (List.range n).map fun (k : Nat) => (k : Int) + 1 := by
      unfold spinsS0a2 spinsPol
      simp only [Bool.false_eq_true, if_false]
      have e1 : (2 * (n : Int) + 1).toNat = n + (n + 1) := by omega
      unfold intRange
      rw [e1, List.range_add, List.map_append, List.filter_append, List.filter_eq_nil_iff.2,
        List.filter_eq_self.2, List.nil_append, List.range_succ_eq_map]
      · simp only [List.map_cons, List.map_map]
        congr 1
        · simp
        · apply List.map_congr_left
          intro k _
          simp
      · intro a ha
        simp only [List.map_map, List.mem_map, Function.comp] at ha
        obtain ⟨k, _, rfl⟩ := ha
        simp
      · intro a ha
        simp only [List.mem_map, List.mem_range] at ha
        obtain ⟨k, hk, rfl⟩ := ha
        simp
        omega
    rw [e]
    simp only [List.map_cons, List.sum_cons, List.map_map, h00]
    congr 1
    · simp
    · rw [Finset.sum_range, ← List.sum_ofFn]
      congr 1
      apply List.ext_getElem
      · simp
      · intro k h1 h2
        have : ((k : Int) + 1) ≠ 0 := by omega
        simp only [List.getElem_map, List.getElem_range, List.getElem_ofFn, Function.comp]
        rw [hpair _ this]

/-! ### all terms -/

theorem look_add (x : Smp) (f g : Nat → ℂ) :
    (look x fun p => f p + g p) = look x f + look x g := by
  unfold look
  induction x.w with
  | nil => simp
  | cons a w ih =>
    simp only [List.map_cons, List.sum_cons, ih]
    ring

theorem spinsI_neg (symmetric : Bool) (maxSpin : Int) :
    ∀ s ∈ spinsI symmetric maxSpin, -s ∈ spinsI symmetric maxSpin := by
  intro s hs
  unfold spinsI at hs ⊢
  cases symmetric with
  | true => simpa using hs
  | false =>
    simp only [Bool.false_eq_true, if_false, Finset.mem_Icc] at hs ⊢
    omega

/-- The elements of a real matrix in the complex basis are conjugate to each other. -/
theorem w_star (M : Fin 4 → Fin 4 → ℝ) {w : Mat4} (hw : mueller2spin (realMat M) = w) :
    star (w 1 2) = w 2 1 ∧ star (w 2 2) = w 1 1 ∧
    star (w 0 2 * (Real.sqrt 2 : ℂ)) = w 0 1 * (Real.sqrt 2 : ℂ) ∧
    star (w 3 2 * (Real.sqrt 2 : ℂ)) = w 3 1 * (Real.sqrt 2 : ℂ) := by
  obtain ⟨w', hw', -, -, -, -, -, -, -, -, e01, e02, e31, e32, e22, e11, e12, e21⟩ := w_entries M
  rw [hw] at hw'
  subst hw'
  refine ⟨?_, ?_, ?_, ?_⟩
  · rw [e12, e21]
    simp
    ring
  · rw [e22, e11]
    simp
    ring
  · rw [e02, e01]
    simp
    ring
  · rw [e32, e31]
    simp
    ring

/-- The maps with four times the HWP angle. -/
theorem plate_s2a4 (Y : Harmonics) (hY : Conjugation Y) (hV : Vanishing Y) (nside L : Nat)
    (a b : Nat → Nat → Nat → ℂ) (ha : RealSky L a) (hb : RealBeam L b) (inputV beamV : Bool)
    (M : Fin 4 → Fin 4 → ℝ) {w : Mat4} (hw : mueller2spin (realMat M) = w) (s : Int) (p : Nat) :
    values Y nside L a b (some (realMat M)) inputV beamV .s2a4 s p =
    synth Y nside L s (fun l m => w 1 2 * beamMode (b 2) (b 1) (s - 4) l *
      (skyOf inputV a).P l m) p := by
  obtain ⟨c12, c22, c02, c32⟩ := w_star M hw
  have hb0 : ∀ l, l ≤ L → star (b 1 l 0) = b 2 l 0 := fun l hl => (hb l hl).2.2
  have hbI : ∀ l, l ≤ L → star (b 0 l 0) = b 0 l 0 := fun l hl => (hb l hl).1
  have hbV : ∀ l, l ≤ L → star (b 3 l 0) = b 3 l 0 := fun l hl => (hb l hl).2.1
  have e : values Y nside L a b (some (realMat M)) inputV beamV .s2a4 s p =
    rawComplex Y nside L (minus2 (a 1) (a 2)) (plus2 (a 1) (a 2))
      (fun l m => shiftP (b 1) (b 2) 4 l m * w 1 2)
      (fun l m => shiftM (b 1) (b 2) 4 l m * star (w 1 2)) s p := by
    rw [c12, ← hw]
    rfl
  rw [e, rawComplex_synth Y hY nside L _ _ _ _ (sky_zero ha) (fun l hl =>
    shiftP_zero _ _ 4 (by decide) l (hb0 l hl) _)]
  apply synth_vanish Y hV
  intro l hl hs m
  rw [beamMode_shift _ _ 4 (by decide) l (hb0 l hl) _ s hs]
  rfl

/-- The maps without the HWP angle. -/
theorem plate_s2a0 (Y : Harmonics) (hY : Conjugation Y) (nside L : Nat)
    (a b : Nat → Nat → Nat → ℂ) (ha : RealSky L a) (hb : RealBeam L b) (inputV beamV : Bool)
    (M : Fin 4 → Fin 4 → ℝ) {w : Mat4} (hw : mueller2spin (realMat M) = w) (s : Int) (p : Nat) :
    values Y nside L a b (some (realMat M)) inputV beamV .s2a0 s p =
    synth Y nside L s (fun l m => w 2 2 * beamMode (b 1) (b 2) s l *
      (skyOf inputV a).P l m) p := by
  obtain ⟨c12, c22, c02, c32⟩ := w_star M hw
  have hb0 : ∀ l, l ≤ L → star (b 1 l 0) = b 2 l 0 := fun l hl => (hb l hl).2.2
  have hbI : ∀ l, l ≤ L → star (b 0 l 0) = b 0 l 0 := fun l hl => (hb l hl).1
  have hbV : ∀ l, l ≤ L → star (b 3 l 0) = b 3 l 0 := fun l hl => (hb l hl).2.1
  have e : values Y nside L a b (some (realMat M)) inputV beamV .s2a0 s p =
    rawComplex Y nside L (minus2 (a 1) (a 2)) (plus2 (a 1) (a 2))
      (fun l m => b 1 l m * w 2 2) (fun l m => b 2 l m * star (w 2 2)) s p := by
    rw [c22, ← hw]
    rfl
  rw [e, rawComplex_synth Y hY nside L _ _ _ _ (sky_zero ha) (fun l hl => by
    rw [star_mul, hb0 l hl, mul_comm])]
  apply synth_congr
  intro l hl m
  rw [beamMode_scale]
  rfl

/-- The maps with twice the HWP angle. -/
theorem plate_s2a2 (Y : Harmonics) (hY : Conjugation Y) (hV : Vanishing Y) (nside L : Nat)
    (a b : Nat → Nat → Nat → ℂ) (ha : RealSky L a) (hb : RealBeam L b) (inputV beamV : Bool)
    (M : Fin 4 → Fin 4 → ℝ) {w : Mat4} (hw : mueller2spin (realMat M) = w) (s : Int) (p : Nat) :
    values Y nside L a b (some (realMat M)) inputV beamV .s2a2 s p =
    synth Y nside L s (fun l m => (w 0 2 * (Real.sqrt 2 : ℂ) * (beamOf beamV b).I l (s - 2) +
      w 3 2 * (Real.sqrt 2 : ℂ) * (beamOf beamV b).V l (s - 2)) * (skyOf inputV a).P l m) p := by
  obtain ⟨c12, c22, c02, c32⟩ := w_star M hw
  have hb0 : ∀ l, l ≤ L → star (b 1 l 0) = b 2 l 0 := fun l hl => (hb l hl).2.2
  have hbI : ∀ l, l ≤ L → star (b 0 l 0) = b 0 l 0 := fun l hl => (hb l hl).1
  have hbV : ∀ l, l ≤ L → star (b 3 l 0) = b 3 l 0 := fun l hl => (hb l hl).2.1
  cases beamV with
  | false =>
    have e : values Y nside L a b (some (realMat M)) inputV false .s2a2 s p =
      rawComplex Y nside L (minus2 (a 1) (a 2)) (plus2 (a 1) (a 2))
        (fun l m => shiftP (b 0) (b 0) 2 l m * (w 0 2 * (Real.sqrt 2 : ℂ)))
        (fun l m => shiftM (b 0) (b 0) 2 l m * star (w 0 2 * (Real.sqrt 2 : ℂ))) s p := by
      rw [c02, ← hw]
      show rawComplex _ _ _ _ _
        (fun l m => shiftP (b 0) (b 0) 2 l m * (mueller2spin (realMat M) 0 2 * _) + 0)
        (fun l m => shiftM (b 0) (b 0) 2 l m * (mueller2spin (realMat M) 0 1 * _) + 0) _ _ = _
      simp only [add_zero]
    rw [e, rawComplex_synth Y hY nside L _ _ _ _ (sky_zero ha) (fun l hl =>
      shiftP_zero _ _ 2 (by decide) l (hbI l hl) _)]
    apply synth_vanish Y hV
    intro l hl hs m
    rw [beamMode_shift _ _ 2 (by decide) l (hbI l hl) _ s hs]
    have e1 : (beamOf false b).V l (s - 2) = 0 := rfl
    have e2 : (beamOf false b).I l (s - 2) = beamMode (b 0) (b 0) (s - 2) l := rfl
    rw [e1, e2, mul_zero, add_zero]
    rfl
  | true =>
    have e : values Y nside L a b (some (realMat M)) inputV true .s2a2 s p =
      rawComplex Y nside L (minus2 (a 1) (a 2)) (plus2 (a 1) (a 2))
        (fun l m => shiftP (b 0) (b 0) 2 l m * (w 0 2 * (Real.sqrt 2 : ℂ)) +
          shiftP (b 3) (b 3) 2 l m * (w 3 2 * (Real.sqrt 2 : ℂ)))
        (fun l m => shiftM (b 0) (b 0) 2 l m * star (w 0 2 * (Real.sqrt 2 : ℂ)) +
          shiftM (b 3) (b 3) 2 l m * star (w 3 2 * (Real.sqrt 2 : ℂ))) s p := by
      rw [c02, c32, ← hw]
      rfl
    rw [e, rawComplex_synth Y hY nside L _ _ _ _ (sky_zero ha) (fun l hl => by
      rw [star_add, shiftP_zero _ _ 2 (by decide) l (hbI l hl),
        shiftP_zero _ _ 2 (by decide) l (hbV l hl)])]
    apply synth_vanish Y hV
    intro l hl hs m
    rw [beamMode_add, beamMode_shift _ _ 2 (by decide) l (hbI l hl) _ s hs,
      beamMode_shift _ _ 2 (by decide) l (hbV l hl) _ s hs]
    rfl

/-- The part of the signal from polarization. -/
theorem plate_pol (Y : Harmonics) (hY : Conjugation Y) (hV : Vanishing Y) (nside L : Nat)
    (a b : Nat → Nat → Nat → ℂ) (ha : RealSky L a) (hb : RealBeam L b) (inputV beamV : Bool)
    (M : Fin 4 → Fin 4 → ℝ) (x : Smp) (s : Int) :
    exp (I * (4 * x.alpha)) * look x (values Y nside L a b (some (realMat M)) inputV beamV .s2a4 s) +
      exp (I * (2 * x.alpha)) *
        look x (values Y nside L a b (some (realMat M)) inputV beamV .s2a2 s) +
      look x (values Y nside L a b (some (realMat M)) inputV beamV .s2a0 s) =
    look x (synth Y nside L s fun l m =>
      (turnedPlate x.alpha M (beamOf beamV b)).P l s * (skyOf inputV a).P l m) := by
  obtain ⟨w, hw, -⟩ := w_entries M
  have v4 := plate_s2a4 Y hY hV nside L a b ha hb inputV beamV M hw s
  have v0 := plate_s2a0 Y hY nside L a b ha hb inputV beamV M hw s
  have v2 := plate_s2a2 Y hY hV nside L a b ha hb inputV beamV M hw s
  rw [look_smul, look_smul, ← look_add, ← look_add]
  congr 1
  funext p
  rw [v4, v2, v0, synth_smul, synth_smul, synth_add, synth_add]
  apply synth_congr
  intro l hl m
  rw [plate_P x.alpha M _ l s hw, beamP, beamPbar]
  ring

/-- The part with spin 0 and twice the HWP angle. -/
theorem plate_s0a2 (Y : Harmonics) (hY : Conjugation Y) (hV : Vanishing Y) (nside L : Nat)
    (a b : Nat → Nat → Nat → ℂ) (ha : RealSky L a) (hb : RealBeam L b) (inputV beamV : Bool)
    (M : Fin 4 → Fin 4 → ℝ) (hM : PlateOk M inputV) (s : Int) (p : Nat) :
    values Y nside L a b (some (realMat M)) inputV beamV .s0a2 s p =
    (M 1 0 : ℂ) * synth Y nside L s (fun l m =>
        (beamOf beamV b).Pbar l (s - 2) * (skyOf inputV a).I l m) p +
      (M 1 3 : ℂ) * synth Y nside L s (fun l m =>
        (beamOf beamV b).Pbar l (s - 2) * (skyOf inputV a).V l m) p := by
  obtain ⟨w, hw, -, -, -, -, -, e20, -, e23, -, e02, -, e32, -⟩ := w_entries M
  have hb0 : ∀ l, l ≤ L → star (b 1 l 0) = b 2 l 0 := fun l hl => (hb l hl).2.2
  obtain ⟨i1, i2, i3⟩ := hM.i
  have c20 : w 2 0 * (Real.sqrt 2 : ℂ) = M 1 0 := by
    rw [e20, i3]
    simp
  have c02 : w 0 2 * (Real.sqrt 2 : ℂ) = star (M 1 0 : ℂ) := by
    rw [e02, i2, i1]
    simp
  have v1 : rawComplex Y nside L (a 0) (a 0) (hwpPol b w false "s0a2").2
      (hwpPol b w false "s0a2").1 s p = (M 1 0 : ℂ) * synth Y nside L s (fun l m =>
        (beamOf beamV b).Pbar l (s - 2) * (skyOf inputV a).I l m) p := by
    have e : rawComplex Y nside L (a 0) (a 0) (hwpPol b w false "s0a2").2
        (hwpPol b w false "s0a2").1 s p = rawComplex Y nside L (a 0) (a 0)
        (fun l m => shiftP (b 1) (b 2) 2 l m * (M 1 0 : ℂ))
        (fun l m => shiftM (b 1) (b 2) 2 l m * star (M 1 0 : ℂ)) s p := by
      rw [← c02, ← c20]
      rfl
    rw [e, rawComplex_synth Y hY nside L _ _ _ _ (fun l hl => ha 0 (by omega) l hl) (fun l hl =>
      shiftP_zero _ _ 2 (by decide) l (hb0 l hl) _), synth_smul]
    apply synth_vanish Y hV
    intro l hl hs m
    rw [beamMode_shift _ _ 2 (by decide) l (hb0 l hl) _ s hs, beamPbar, mul_assoc]
    rfl
  have v2 : (if inputV then rawComplex Y nside L (a 3) (a 3) (hwpPol b w false "s0a2_v").2
      (hwpPol b w false "s0a2_v").1 s p else 0) = (M 1 3 : ℂ) * synth Y nside L s (fun l m =>
        (beamOf beamV b).Pbar l (s - 2) * (skyOf inputV a).V l m) p := by
    cases inputV with
    | false =>
      have e : ∀ l m, (skyOf false a).V l m = 0 := fun _ _ => rfl
      simp only [Bool.false_eq_true, if_false, e, mul_zero]
      unfold synth
      simp
    | true =>
      rw [if_pos rfl]
      obtain ⟨j1, j2, j3⟩ := hM.v rfl
      have c23 : w 2 3 * (Real.sqrt 2 : ℂ) = M 1 3 := by
        rw [e23, j2]
        simp
      have c32 : w 3 2 * (Real.sqrt 2 : ℂ) = star (M 1 3 : ℂ) := by
        rw [e32, j3, j1]
        simp
      have e : rawComplex Y nside L (a 3) (a 3) (hwpPol b w false "s0a2_v").2
          (hwpPol b w false "s0a2_v").1 s p = rawComplex Y nside L (a 3) (a 3)
          (fun l m => shiftP (b 1) (b 2) 2 l m * (M 1 3 : ℂ))
          (fun l m => shiftM (b 1) (b 2) 2 l m * star (M 1 3 : ℂ)) s p := by
        rw [← c32, ← c23]
        rfl
      rw [e, rawComplex_synth Y hY nside L _ _ _ _ (fun l hl => ha 3 (by omega) l hl) (fun l hl =>
        shiftP_zero _ _ 2 (by decide) l (hb0 l hl) _), synth_smul]
      apply synth_vanish Y hV
      intro l hl hs m
      rw [beamMode_shift _ _ 2 (by decide) l (hb0 l hl) _ s hs, beamPbar, mul_assoc]
      rfl
  rw [← v1, ← v2, ← hw]
  rfl

/-- The part with spin 0 and no HWP angle. -/
theorem plate_s0a0 (Y : Harmonics) (hY : Conjugation Y) (nside L : Nat)
    (a b : Nat → Nat → Nat → ℂ) (ha : RealSky L a) (hb : RealBeam L b) (inputV beamV : Bool)
    (M : Fin 4 → Fin 4 → ℝ) (s : Nat) (p : Nat) :
    values Y nside L a b (some (realMat M)) inputV beamV .s0a0 s p =
      synth Y nside L s (fun l m =>
        ((M 0 0 : ℂ) * (beamOf beamV b).I l s + (M 3 0 : ℂ) * (beamOf beamV b).V l s) *
          (skyOf inputV a).I l m +
        ((M 0 3 : ℂ) * (beamOf beamV b).I l s + (M 3 3 : ℂ) * (beamOf beamV b).V l s) *
          (skyOf inputV a).V l m) p := by
  obtain ⟨w, hw, e00, e30, e03, e33, -⟩ := w_entries M
  have key : ∀ c : Fin 4, ∀ r q : ℝ, w 0 c = (r : ℂ) → w 3 c = (q : ℂ) → ∀ j, j < 4 →
      rawReal Y nside L (a j) (hwpUnpol b w beamV c) s p = synth Y nside L s (fun l m =>
        ((r : ℂ) * (beamOf beamV b).I l s + (q : ℂ) * (beamOf beamV b).V l s) *
          extended (a j) (a j) l m) p := by
    intro c r q hr hq j hj
    rw [rawReal_synth Y hY nside L _ _ (fun l hl => ha j hj l hl) (fun l hl => by
      unfold hwpUnpol
      rw [hr, hq]
      cases beamV with
      | false =>
        have := (hb l hl).1
        simp [star_mul] at this ⊢
        rw [this]
        ring
      | true =>
        have h1 := (hb l hl).1
        have h3 := (hb l hl).2.1
        simp [star_mul] at h1 h3 ⊢
        rw [h1, h3]
        ring)]
    apply synth_congr
    intro l hl m
    congr 1
    have eI : (beamOf beamV b).I l s = beamMode (b 0) (b 0) s l := rfl
    have eV : (beamOf beamV b).V l s = if beamV then beamMode (b 3) (b 3) s l else 0 := rfl
    rw [eI, eV, beamMode_nat, beamMode_nat, beamMode_nat]
    unfold hwpUnpol
    rw [hr, hq]
    cases beamV <;> by_cases h : l < s <;> simp [h] <;> ring
  have e : values Y nside L a b (some (realMat M)) inputV beamV .s0a0 s p =
      rawReal Y nside L (a 0) (hwpUnpol b w beamV 0) s p +
        if inputV then rawReal Y nside L (a 3) (hwpUnpol b w beamV 3) s p else 0 := by
    rw [← hw]
    rfl
  rw [e, key 0 _ _ e00 e30 0 (by omega), key 3 _ _ e03 e33 3 (by omega)]
  cases inputV with
  | false =>
    have e : ∀ l m, (skyOf false a).V l m = 0 := fun _ _ => rfl
    simp only [e, Bool.false_eq_true, if_false, mul_zero, add_zero]
    rfl
  | true =>
    rw [if_pos rfl, synth_add]
    rfl

theorem realModes_sky (inputV : Bool) {L : Nat} {a : Nat → Nat → Nat → ℂ} (ha : RealSky L a) :
    RealModes L (skyOf inputV a).I ∧ RealModes L (skyOf inputV a).V := by
  refine ⟨realModes_extended L _ fun l hl => ha 0 (by omega) l hl, ?_⟩
  intro l hl s
  unfold skyOf
  dsimp only
  split
  · exact realModes_extended L _ (fun l hl => ha 3 (by omega) l hl) l hl s
  · simp

theorem realModes_beamOf (beamV : Bool) {L : Nat} {b : Nat → Nat → Nat → ℂ} (hb : RealBeam L b) :
    RealModes L (beamOf beamV b).I ∧ RealModes L (beamOf beamV b).V := by
  refine ⟨realModes_beam L _ fun l hl => (hb l hl).1, ?_⟩
  intro l hl s
  unfold beamOf
  dsimp only
  split
  · exact realModes_beam L _ (fun l hl => (hb l hl).2.1) l hl s
  · simp

theorem realModes_comb {L : Nat} {B C : Nat → Int → ℂ} (h : RealModes L B) (h' : RealModes L C)
    (r q : ℝ) : RealModes L (fun l s => (r : ℂ) * B l s + (q : ℂ) * C l s) := by
  intro l hl s
  have er : ∀ r : ℝ, star (r : ℂ) = r := fun r => conj_ofReal r
  dsimp only
  rw [← h l hl s, ← h' l hl s, star_add, star_mul, star_mul, er, er]
  ring

/-- The part of the signal from I and V. -/
theorem plate_unpol (Y : Harmonics) (hY : Conjugation Y) (hV : Vanishing Y) (nside L : Nat)
    (a b : Nat → Nat → Nat → ℂ) (ha : RealSky L a) (hb : RealBeam L b) (inputV beamV : Bool)
    (M : Fin 4 → Fin 4 → ℝ) (hM : PlateOk M inputV) (symmetric : Bool) (maxSpin : Int)
    (h0 : 0 ≤ maxSpin) (x : Smp) :
    sumR x (spinsUnpol symmetric maxSpin)
        (values Y nside L a b (some (realMat M)) inputV beamV .s0a0) +
      (((spinsS0a2 symmetric maxSpin).filter fun s => decide (0 ≤ s)).map
        (pairF 0 x (values Y nside L a b (some (realMat M)) inputV beamV .s0a2))).sum =
    (∑ s ∈ spinsI symmetric maxSpin, look x (synth Y nside L s fun l m =>
      (turnedPlate x.alpha M (beamOf beamV b)).I l s * (skyOf inputV a).I l m +
      (turnedPlate x.alpha M (beamOf beamV b)).V l s * (skyOf inputV a).V l m) *
      exp (-Complex.I * (s : ℂ) * (x.pa : ℂ))).re := by
  obtain ⟨hsI, hsV⟩ := realModes_sky inputV ha
  obtain ⟨hbI, hbV⟩ := realModes_beamOf beamV hb
  let E : Int → ℂ := fun s => exp (-Complex.I * (s : ℂ) * (x.pa : ℂ))
  let A : Int → ℂ := fun s => look x (synth Y nside L s (fun l m =>
        ((M 0 0 : ℂ) * (beamOf beamV b).I l s + (M 3 0 : ℂ) * (beamOf beamV b).V l s) *
          (skyOf inputV a).I l m +
        ((M 0 3 : ℂ) * (beamOf beamV b).I l s + (M 3 3 : ℂ) * (beamOf beamV b).V l s) *
          (skyOf inputV a).V l m)) * E s
  let FI : Int → ℂ := fun s => look x (synth Y nside L s (fun l m =>
        (beamOf beamV b).Pbar l (s - 2) * (skyOf inputV a).I l m)) * E s
  let FV : Int → ℂ := fun s => look x (synth Y nside L s (fun l m =>
        (beamOf beamV b).Pbar l (s - 2) * (skyOf inputV a).V l m)) * E s
  let GI : Int → ℂ := fun s => look x (synth Y nside L s (fun l m =>
        (beamOf beamV b).P l (s + 2) * (skyOf inputV a).I l m)) * E s
  let GV : Int → ℂ := fun s => look x (synth Y nside L s (fun l m =>
        (beamOf beamV b).P l (s + 2) * (skyOf inputV a).V l m)) * E s
  have hPP : ∀ l, l ≤ L → ∀ s : Int,
      (-1) ^ s * star ((beamOf beamV b).Pbar l (-s - 2)) = (beamOf beamV b).P l (s + 2) := by
    intro l hl s
    rw [beamPbar, beamP, show -s - 2 = -(s + 2) by ring,
      ← beamMode_star (b 2) (b 1) l (by rw [← (hb l hl).2.2, star_star]) (s + 2)]
    rw [zpow_add₀ (by norm_num)]
    norm_num
  have hGI : ∀ s, GI s = star (FI (-s)) := by
    intro s
    have := field_star2 Y hY nside L x (fun l s => (beamOf beamV b).Pbar l (s - 2))
      (fun l s => (beamOf beamV b).P l (s + 2)) _ hPP hsI s
    exact this
  have hGV : ∀ s, GV s = star (FV (-s)) := by
    intro s
    have := field_star2 Y hY nside L x (fun l s => (beamOf beamV b).Pbar l (s - 2))
      (fun l s => (beamOf beamV b).P l (s + 2)) _ hPP hsV s
    exact this
  have h1 : sumR x (spinsUnpol symmetric maxSpin)
      (values Y nside L a b (some (realMat M)) inputV beamV .s0a0) =
      (∑ s ∈ spinsI symmetric maxSpin, A s).re := by
    rw [← sum_unpol A (by
      intro s
      exact field_star Y hY nside L x _ _ _ _ (realModes_comb hbI hbV _ _)
        (realModes_comb hbI hbV _ _) hsI hsV s) symmetric maxSpin h0]
    unfold sumR
    congr 1
    apply List.map_congr_left
    intro s hs
    have hs0 : 0 ≤ s := by
      unfold spinsUnpol at hs
      split at hs
      · simp at hs
        omega
      · have := (mem_intRange _ _ _).1 hs
        omega
    obtain ⟨n, rfl⟩ := Int.eq_ofNat_of_zero_le hs0
    congr 4
    funext p
    exact plate_s0a0 Y hY nside L a b ha hb inputV beamV M n p
  have h2 := sum_pairs x (values Y nside L a b (some (realMat M)) inputV beamV .s0a2) symmetric
    maxSpin h0
  have h3 : ∀ s, look x (values Y nside L a b (some (realMat M)) inputV beamV .s0a2 s) * E s =
      (M 1 0 : ℂ) * FI s + (M 1 3 : ℂ) * FV s := by
    intro s
    have e : values Y nside L a b (some (realMat M)) inputV beamV .s0a2 s = fun p =>
      (M 1 0 : ℂ) * synth Y nside L s (fun l m =>
        (beamOf beamV b).Pbar l (s - 2) * (skyOf inputV a).I l m) p +
      (M 1 3 : ℂ) * synth Y nside L s (fun l m =>
        (beamOf beamV b).Pbar l (s - 2) * (skyOf inputV a).V l m) p :=
      funext fun p => plate_s0a2 Y hY hV nside L a b ha hb inputV beamV M hM s p
    rw [e, look_add, ← look_smul, ← look_smul]
    show _ = (M 1 0 : ℂ) * (_ * E s) + (M 1 3 : ℂ) * (_ * E s)
    ring
  have h4 := sum_half (spinsI symmetric maxSpin) (spinsI_neg symmetric maxSpin)
    (fun s => (M 1 0 : ℂ) * FI s + (M 1 3 : ℂ) * FV s)
    (fun s => (M 1 0 : ℂ) * GI s + (M 1 3 : ℂ) * GV s)
    (exp (I * (2 * x.alpha))) (exp (-(I * (2 * x.alpha)))) (by
      show _ = (starRingEnd ℂ) _
      rw [← Complex.exp_conj]
      congr 1
      simp [Complex.conj_ofReal, map_ofNat]) (by
      intro s
      have er : ∀ r : ℝ, star (r : ℂ) = r := fun r => conj_ofReal r
      rw [hGI, hGV, star_add, star_mul (M 1 0 : ℂ), star_mul (M 1 3 : ℂ), er, er]
      ring)
  have h5 : ∀ s, look x (synth Y nside L s fun l m =>
      (turnedPlate x.alpha M (beamOf beamV b)).I l s * (skyOf inputV a).I l m +
      (turnedPlate x.alpha M (beamOf beamV b)).V l s * (skyOf inputV a).V l m) * E s =
      A s + (exp (I * (2 * x.alpha)) * ((M 1 0 : ℂ) * FI s + (M 1 3 : ℂ) * FV s) +
        exp (-(I * (2 * x.alpha))) * ((M 1 0 : ℂ) * GI s + (M 1 3 : ℂ) * GV s)) / 2 := by
    intro s
    have hs : (synth Y nside L s fun l m =>
      (turnedPlate x.alpha M (beamOf beamV b)).I l s * (skyOf inputV a).I l m +
      (turnedPlate x.alpha M (beamOf beamV b)).V l s * (skyOf inputV a).V l m) = fun p =>
      synth Y nside L s (fun l m =>
        ((M 0 0 : ℂ) * (beamOf beamV b).I l s + (M 3 0 : ℂ) * (beamOf beamV b).V l s) *
          (skyOf inputV a).I l m +
        ((M 0 3 : ℂ) * (beamOf beamV b).I l s + (M 3 3 : ℂ) * (beamOf beamV b).V l s) *
          (skyOf inputV a).V l m) p +
      ((exp (I * (2 * x.alpha)) / 2 * M 1 0) * synth Y nside L s (fun l m =>
        (beamOf beamV b).Pbar l (s - 2) * (skyOf inputV a).I l m) p +
      ((exp (I * (2 * x.alpha)) / 2 * M 1 3) * synth Y nside L s (fun l m =>
        (beamOf beamV b).Pbar l (s - 2) * (skyOf inputV a).V l m) p +
      ((exp (-(I * (2 * x.alpha))) / 2 * M 1 0) * synth Y nside L s (fun l m =>
        (beamOf beamV b).P l (s + 2) * (skyOf inputV a).I l m) p +
      (exp (-(I * (2 * x.alpha))) / 2 * M 1 3) * synth Y nside L s (fun l m =>
        (beamOf beamV b).P l (s + 2) * (skyOf inputV a).V l m) p))) := by
      funext p
      rw [synth_smul, synth_smul, synth_smul, synth_smul, synth_add, synth_add, synth_add,
        synth_add]
      apply synth_congr
      intro l hl m
      obtain ⟨w, hw, e00, e30, e03, e33, e10, e20, e13, e23, -⟩ := w_entries M
      rw [plate_I x.alpha M _ l s hw, plate_V x.alpha M _ l s hw, e00, e30, e03, e33, e10, e20,
        e13, e23, hM.i.2.2]
      cases inputV with
      | true =>
        rw [(hM.v rfl).2.1]
        push_cast
        ring
      | false =>
        have e : (skyOf false a).V l m = 0 := rfl
        rw [e]
        push_cast
        ring
    rw [hs, look_add, look_add, look_add, look_add, ← look_smul, ← look_smul, ← look_smul,
      ← look_smul]
    show _ = _ * E s + (exp (I * (2 * x.alpha)) * ((M 1 0 : ℂ) * (_ * E s) +
      (M 1 3 : ℂ) * (_ * E s)) + exp (-(I * (2 * x.alpha))) * ((M 1 0 : ℂ) * (_ * E s) +
      (M 1 3 : ℂ) * (_ * E s))) / 2
    ring
  rw [h1, h2, Finset.sum_congr rfl fun s _ => h3 s, ← h4, ← add_re, ← Finset.sum_add_distrib]
  congr 1
  apply Finset.sum_congr rfl
  intro s _
  exact (h5 s).symm

/-- The signal behind a plate. -/
theorem signal_new (Y : Harmonics) (hY : Conjugation Y) (hV : Vanishing Y) (nside L : Nat)
    (a b : Nat → Nat → Nat → ℂ) (ha : RealSky L a) (hb : RealBeam L b) (inputV beamV : Bool)
    (M : Fin 4 → Fin 4 → ℝ) (hM : PlateOk M inputV) (symmetric : Bool) (maxSpin : Int)
    (h0 : 0 ≤ maxSpin) (x : Smp) :
    signalF true (spinsUnpol symmetric maxSpin) (spinsPol symmetric maxSpin)
        (spinsS0a2 symmetric maxSpin) (values Y nside L a b (some (realMat M)) inputV beamV) 0 x =
      convolved Y nside L (spinsI symmetric maxSpin) (spinsP symmetric maxSpin) (skyOf inputV a)
        (turnedPlate x.alpha M (beamOf beamV b)) x := by
  have h1 := plate_unpol Y hY hV nside L a b ha hb inputV beamV M hM symmetric maxSpin h0 x
  unfold signalF convolved
  rw [add_re, ← h1, if_pos rfl]
  have h2 : (∑ s ∈ spinsP symmetric maxSpin, look x (synth Y nside L s fun l m =>
      (turnedPlate x.alpha M (beamOf beamV b)).P l s * (skyOf inputV a).P l m) *
      exp (-Complex.I * (s : ℂ) * (x.pa : ℂ))) =
    exp (I * (4 * x.alpha + 2 * (0 : ℝ))) * sumC x (spinsPol symmetric maxSpin)
        (values Y nside L a b (some (realMat M)) inputV beamV .s2a4) +
    exp (I * (2 * x.alpha)) * sumC x (spinsPol symmetric maxSpin)
        (values Y nside L a b (some (realMat M)) inputV beamV .s2a2) +
    sumC x (spinsPol symmetric maxSpin)
        (values Y nside L a b (some (realMat M)) inputV beamV .s2a0) := by
    unfold sumC
    rw [sum_pol (fun s => look x (values Y nside L a b (some (realMat M)) inputV beamV .s2a4 s) *
        exp (-Complex.I * (s : ℂ) * (x.pa : ℂ))) symmetric maxSpin h0,
      sum_pol (fun s => look x (values Y nside L a b (some (realMat M)) inputV beamV .s2a2 s) *
        exp (-Complex.I * (s : ℂ) * (x.pa : ℂ))) symmetric maxSpin h0,
      sum_pol (fun s => look x (values Y nside L a b (some (realMat M)) inputV beamV .s2a0 s) *
        exp (-Complex.I * (s : ℂ) * (x.pa : ℂ))) symmetric maxSpin h0, Finset.mul_sum,
      Finset.mul_sum, ← Finset.sum_add_distrib, ← Finset.sum_add_distrib]
    apply Finset.sum_congr rfl
    intro s _
    rw [← plate_pol Y hY hV nside L a b ha hb inputV beamV M x s]
    push_cast
    rw [mul_zero, add_zero]
    ring
  rw [h2, add_re, add_re]
  ring

end Verif.Spinmaps
