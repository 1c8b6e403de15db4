import Verif.Lemmas.AnyPlate
import Verif.Props.Plate

/-!
# C129: symmetric beams behind any plate
-/

noncomputable section

namespace Verif.Props

open Verif.Alm Verif.Spin Verif.Spec Verif.Timeline Verif.Spinmaps Complex

/-- **C129.** Symmetric co-polar beams behind any plates at any polarization angles: the timeline is
that of beams, at the opposite polarization angles, behind the plates `acted`, turned by the HWP
angle. -/
theorem C129_any (Y : Harmonics) (hY : Conjugation Y) (hV : Vanishing Y) (x : Ext)
    (hx : ExtOk x) (mission : List Chunks.Chunk)
    {Ls : Nat} {alm : List (List ℂ)} {a : Nat → Nat → Nat → ℂ} {maxSpin : Int}
    {inputV beamV : Bool} {main : Detector} {ghosts : List Detector} {Lb : Detector → Nat}
    {b : Detector → Nat → Nat → Nat → ℂ}
    (h : DetectorOk Ls alm a maxSpin inputV beamV main ghosts Lb b)
    (ha : RealSky Ls a) (hb : ∀ g ∈ main :: ghosts, RealBeam (Lb g) (b g) ∧ CoPolar (b g) ∧
      (g.data.symmetric = true ∨ 2 ≤ min g.data.mmax maxSpin))
    (M : Detector → Fin 4 → Fin 4 → ℝ)
    (hm : ∀ g ∈ main :: ghosts, g.data.mueller = some (realMat (M g)))
    (nside : Nat) (hns : 0 < nside)
    (s : Sub) (interp savePoint : Bool) (st : State) (i n : Nat)
    (hs : SubOk mission st st.qBore s i n)
    (sees : Detector → Nat → ℝ)
    (hsees : ∀ g k, sees g k =
      let y := sampleOf x st interp nside i g.point k
      let psi := g.point.polang * Real.pi / 180
      convolved Y nside (min Ls (Lb g)) {0} {2} (skyOf inputV a)
        (turnedPlate y.alpha (acted psi (M g)) (turned (-psi) (beamOf beamV (b g)))) y) :
    observe Y x mission alm maxSpin nside inputV beamV main ghosts s interp savePoint st =
      .ok ((List.range n).map fun k => sees main k +
        ((ghosts.filter fun g => !g.point.dead).map fun g => sees g k).sum) := by
  rw [observe_spec Y x hx mission h nside hns s interp savePoint st i n hs]
  congr 1
  apply List.map_congr_left
  intro k _
  have hone : ∀ g ∈ main :: ghosts,
      signal (dictOf Y nside Ls a maxSpin inputV beamV Lb b g) (g.point.polang * Real.pi / 180)
        (sampleOf x st interp nside i g.point k) = sees g k := by
    intro g hg
    have h0 := (h.input g hg).spin0
    obtain ⟨b1, b2, b3⟩ := hb g hg
    have hr : InRange nside (sampleOf x st interp nside i g.point k) :=
      sampleAt_inRange x hx interp _ nside hns _ _ _
    unfold dictOf
    rw [signal_dictSpec Y nside _ _ _ _ h0 _ _ _ _ _ _ hr, hm g hg, hsees]
    have e : ∀ sym, (sym = true ∨ 2 ≤ min g.data.mmax maxSpin) → ∀ psi y,
        signalF true (spinsUnpol sym (min g.data.mmax maxSpin))
          (spinsPol sym (min g.data.mmax maxSpin)) (spinsS0a2 sym (min g.data.mmax maxSpin))
          (values Y nside (min Ls (Lb g)) a (b g) (some (realMat (M g))) inputV beamV) psi y =
        signalF true (spinsUnpol true 0) (spinsPol true 0) (spinsS0a2 true 0)
          (values Y nside (min Ls (Lb g)) a (b g) (some (realMat (M g))) inputV beamV) psi y := by
      intro sym hsym psi y
      cases sym with
      | true => rfl
      | false =>
        exact signal_sym Y nside _ a (b g) b2.1 (some (realMat (M g))) inputV beamV _ 0
          (by simpa using hsym) psi y
    refine (e _ b3 _ _).trans ?_
    exact signal_any Y hY hV nside _ a (b g)
      (fun i hi l hl => ha i hi l (le_trans hl (min_le_left _ _)))
      (fun l hl => b1 l (le_trans hl (min_le_right _ _))) b2 inputV beamV (M g) 0 _ _
  rw [hone main List.mem_cons_self]
  congr 2
  apply List.map_congr_left
  intro g hg
  exact hone g (List.mem_cons_of_mem _ (List.mem_filter.1 hg).1)

/-- When the code simulates the plate it is given: either the polarization angle is a multiple of
180 degrees or the Q, U block has no part that commutes with rotations; and the coupling of I with U
is antisymmetric (at multiples of 90 degrees), or that of U to I vanishes and that of I to Q and U
fits to the angle; in the same way for V. -/
def Faithful (psi : ℝ) (M : Fin 4 → Fin 4 → ℝ) : Prop :=
  let c := Real.cos (2 * psi)
  let s := Real.sin (2 * psi)
  (c = 1 ∨ (M 1 1 + M 2 2 = 0 ∧ M 1 2 = M 2 1)) ∧
  ((s = 0 ∧ M 2 0 = -M 0 2) ∨ (M 2 0 = 0 ∧ s * M 1 0 + c * M 0 2 = 0)) ∧
  ((s = 0 ∧ M 2 3 = -M 3 2) ∨ (M 2 3 = 0 ∧ s * M 1 3 + c * M 3 2 = 0))

theorem still_iff (c s d e : ℝ) (h : c ^ 2 + s ^ 2 = 1) :
    (c * d - s * e = d ∧ s * d + c * e = e) ↔ (c = 1 ∨ (d = 0 ∧ e = 0)) := by
  constructor
  · rintro ⟨h1, h2⟩
    by_cases hc : c = 1
    · exact Or.inl hc
    · right
      have hd : (2 - 2 * c) * d = 0 := by linear_combination (c - 1) * h1 + s * h2 - d * h
      have he : (2 - 2 * c) * e = 0 := by linear_combination (c - 1) * h2 - s * h1 - e * h
      have h3 : (2 - 2 * c) ≠ 0 := by
        intro h3
        exact hc (by linarith)
      exact ⟨(mul_eq_zero.1 hd).resolve_left h3, (mul_eq_zero.1 he).resolve_left h3⟩
  · rintro (rfl | ⟨rfl, rfl⟩)
    · have : s = 0 := by nlinarith
      subst this
      simp
    · simp

theorem leak_iff (c s m10 m02 m20 : ℝ) (h : c ^ 2 + s ^ 2 = 1) :
    (c * (c * m10 - s * m02) = m10 ∧ -c * (s * m10 + c * m02) = m20) ↔
      ((s = 0 ∧ m20 = -m02) ∨ (m20 = 0 ∧ s * m10 + c * m02 = 0)) := by
  constructor
  · rintro ⟨h1, h2⟩
    have h3 : s * (s * m10 + c * m02) = 0 := by linear_combination m10 * h - h1
    rcases mul_eq_zero.1 h3 with hs | hs
    · left
      subst hs
      refine ⟨rfl, ?_⟩
      linear_combination -h2 - m02 * h
    · right
      rw [hs, mul_zero] at h2
      exact ⟨h2.symm, hs⟩
  · rintro (⟨rfl, rfl⟩ | ⟨rfl, h2⟩)
    · constructor
      · linear_combination m10 * h
      · linear_combination -m02 * h
    · constructor
      · linear_combination m10 * h - s * h2
      · rw [h2, mul_zero]

/-- **C129, which plates.** The plate that is simulated is the given one exactly if it is
`Faithful`. -/
theorem C129_faithful (psi : ℝ) (M : Fin 4 → Fin 4 → ℝ) : acted psi M = M ↔ Faithful psi M := by
  have h : Real.cos (2 * psi) ^ 2 + Real.sin (2 * psi) ^ 2 = 1 := Real.cos_sq_add_sin_sq _
  have hs := still_iff _ _ ((M 1 1 + M 2 2) / 2) ((M 1 2 - M 2 1) / 2) h
  have hI := leak_iff _ _ (M 1 0) (M 0 2) (M 2 0) h
  have hV := leak_iff _ _ (M 1 3) (M 3 2) (M 2 3) h
  have hs' : (Real.cos (2 * psi) = 1 ∨ ((M 1 1 + M 2 2) / 2 = 0 ∧ (M 1 2 - M 2 1) / 2 = 0)) ↔
      (Real.cos (2 * psi) = 1 ∨ (M 1 1 + M 2 2 = 0 ∧ M 1 2 = M 2 1)) := by
    have e1 : (M 1 1 + M 2 2) / 2 = 0 ↔ M 1 1 + M 2 2 = 0 := by
      constructor <;> intro h <;> linarith
    have e2 : (M 1 2 - M 2 1) / 2 = 0 ↔ M 1 2 = M 2 1 := by
      constructor <;> intro h <;> linarith
    rw [e1, e2]
  show _ ↔ (_ ∧ _ ∧ _)
  rw [← hs', ← hs, ← hI, ← hV]
  constructor
  · intro e
    have f : ∀ i j, acted psi M i j = M i j := fun i j => by rw [e]
    have f11 := f 1 1
    have f22 := f 2 2
    have f12 := f 1 2
    have f21 := f 2 1
    have f10 := f 1 0
    have f20 := f 2 0
    have f13 := f 1 3
    have f23 := f 2 3
    simp [acted] at f11 f22 f12 f21 f10 f20 f13 f23
    refine ⟨⟨by linarith, by linarith⟩, ⟨by linarith, by linarith⟩, ⟨by linarith, by linarith⟩⟩
  · rintro ⟨⟨h1, h2⟩, ⟨h3, h4⟩, ⟨h5, h6⟩⟩
    funext i j
    fin_cases i <;> fin_cases j <;> simp [acted] <;> linarith

/-- **C129, the right timeline.** Symmetric co-polar beams behind plates that are faithful at their
polarization angles: the timeline is that of the beams behind the plates that were given, with the
polarization angle counted in the opposite sense.  Missing: other plates, where it is not right
(`C129_wrong`, `C129_violation`). -/
theorem C129_right_partial (Y : Harmonics) (hY : Conjugation Y) (hV : Vanishing Y) (x : Ext)
    (hx : ExtOk x) (mission : List Chunks.Chunk)
    {Ls : Nat} {alm : List (List ℂ)} {a : Nat → Nat → Nat → ℂ} {maxSpin : Int}
    {inputV beamV : Bool} {main : Detector} {ghosts : List Detector} {Lb : Detector → Nat}
    {b : Detector → Nat → Nat → Nat → ℂ}
    (h : DetectorOk Ls alm a maxSpin inputV beamV main ghosts Lb b)
    (ha : RealSky Ls a) (hb : ∀ g ∈ main :: ghosts, RealBeam (Lb g) (b g) ∧ CoPolar (b g) ∧
      (g.data.symmetric = true ∨ 2 ≤ min g.data.mmax maxSpin))
    (M : Detector → Fin 4 → Fin 4 → ℝ)
    (hm : ∀ g ∈ main :: ghosts, g.data.mueller = some (realMat (M g)) ∧
      Faithful (g.point.polang * Real.pi / 180) (M g))
    (nside : Nat) (hns : 0 < nside)
    (s : Sub) (interp savePoint : Bool) (st : State) (i n : Nat)
    (hs : SubOk mission st st.qBore s i n)
    (sees : Detector → Nat → ℝ)
    (hsees : ∀ g k, sees g k =
      let y := sampleOf x st interp nside i g.point k
      convolved Y nside (min Ls (Lb g)) {0} {2} (skyOf inputV a)
        (turnedPlate y.alpha (M g)
          (turned (-(g.point.polang * Real.pi / 180)) (beamOf beamV (b g)))) y) :
    observe Y x mission alm maxSpin nside inputV beamV main ghosts s interp savePoint st =
      .ok ((List.range n).map fun k => sees main k +
        ((ghosts.filter fun g => !g.point.dead).map fun g => sees g k).sum) := by
  rw [C129_any Y hY hV x hx mission h ha hb M (fun g hg => (hm g hg).1) nside hns s interp
    savePoint st i n hs _ (fun _ _ => rfl)]
  have e : ∀ g ∈ main :: ghosts, acted (g.point.polang * Real.pi / 180) (M g) = M g :=
    fun g hg => (C129_faithful _ _).2 (hm g hg).2
  congr 1
  apply List.map_congr_left
  intro k _
  dsimp only
  rw [e main List.mem_cons_self, hsees]
  congr 2
  apply List.map_congr_left
  intro g hg
  rw [e g (List.mem_cons_of_mem _ (List.mem_filter.1 hg).1), hsees]

/-! ### the condition is needed -/

/-- The signal of a sky with a single coefficient. -/
theorem Conv.convolved_one (r : Nat) (B : Stokes) (pa : ℝ) (hpa : exp (-I * 2 * (pa : ℂ)) = 1)
    (alpha : ℝ) :
    convolved Conv.Y 1 4 {0} {2} (skyOf true (Conv.one r)) B ⟨[(3, 1)], pa, alpha⟩ =
      (B.I 2 0 * Conv.one r 0 2 0 + B.V 2 0 * Conv.one r 3 2 0 +
        B.P 2 2 * plus2 (Conv.one r 1) (Conv.one r 2) 2 0).re := by
  have hz : ∀ (i : Nat) (l : Nat) (m : Int), ¬ (l = 2 ∧ m = 0) →
      extended (Conv.one r i) (Conv.one r i) l m = 0 := by
    intro i l m hlm
    unfold extended Conv.one
    split
    · rw [if_neg (by omega)]
    · rw [if_neg (by omega)]
      simp
  have hp : ∀ (l : Nat) (m : Int), ¬ (l = 2 ∧ m = 0) →
      extended (plus2 (Conv.one r 1) (Conv.one r 2)) (minus2 (Conv.one r 1) (Conv.one r 2)) l m =
        0 := by
    intro l m hlm
    unfold extended plus2 minus2 Conv.one
    split
    · rw [if_neg (by omega), if_neg (by omega)]
      simp
    · rw [if_neg (by omega), if_neg (by omega)]
      simp
  unfold convolved
  rw [Finset.sum_singleton, Finset.sum_singleton]
  unfold look
  simp only [List.map_cons, List.map_nil, List.sum_cons, List.sum_nil, add_zero]
  have e1 : synth Conv.Y 1 4 0 (fun l m => B.I l 0 * (skyOf true (Conv.one r)).I l m +
      B.V l 0 * (skyOf true (Conv.one r)).V l m) (3 : Int).toNat =
      B.I 2 0 * Conv.one r 0 2 0 + B.V 2 0 * Conv.one r 3 2 0 := by
    rw [← synth_add]
    have s1 := Conv.synth_one 0 (by decide) (by decide) (fun l => B.I l 0) _ (hz 0) 3
    have s2 := Conv.synth_one 0 (by decide) (by decide) (fun l => B.V l 0) _ (hz 3) 3
    rw [extended_zero] at s1 s2
    rw [← s1, ← s2]
    rfl
  have e2 : synth Conv.Y 1 4 2 (fun l m => B.P l 2 * (skyOf true (Conv.one r)).P l m)
      (3 : Int).toNat = B.P 2 2 * plus2 (Conv.one r 1) (Conv.one r 2) 2 0 := by
    have s1 := Conv.synth_one 2 (by decide) (by decide) (fun l => B.P l 2) _ hp 3
    rw [extended_zero] at s1
    rw [← s1]
    rfl
  rw [e1, e2]
  have hpa' : exp (-I * ((2 : Int) : ℂ) * (pa : ℂ)) = 1 := by
    rw [← hpa]
    norm_num
  rw [hpa']
  simp

theorem Conv.symb_copolar : CoPolar Conv.symb := by
  refine ⟨Conv.symb_sym, fun l => ?_⟩
  simp [Conv.symb]

/-- The rows of Stokes parameters of the example beam at `l = 2`, behind a turned plate. -/
theorem Conv.signal_one (N : Fin 4 → Fin 4 → ℝ) (psi alpha : ℝ) (u : Fin 4 → ℝ)
    (pa : ℝ)
    (hpa : exp (-I * 2 * (pa : ℂ)) = 1) (hu : ∀ j, u j = 3 * (N 0 j + Real.cos (2 * psi + 2 * alpha) * N 1 j -
      Real.sin (2 * psi + 2 * alpha) * N 2 j)) (r : Nat) :
    convolved Conv.Y 1 4 {0} {2} (skyOf true (Conv.one r)) (turnedPlate alpha N
        (turned (-psi) (beamOf true Conv.symb))) ⟨[(3, 1)], pa, alpha⟩ =
      if r = 0 then u 0
      else if r = 1 then -(u 1 * Real.cos (2 * alpha) - u 2 * Real.sin (2 * alpha))
      else if r = 2 then u 1 * Real.sin (2 * alpha) + u 2 * Real.cos (2 * alpha)
      else if r = 3 then u 3 else 0 := by
  rw [Conv.convolved_one _ _ _ hpa]
  have hI : (beamOf true Conv.symb).I 2 0 = 3 := by
    simp [beamOf, beamMode, extended, Conv.symb]
    norm_num
  have hV : (beamOf true Conv.symb).V 2 0 = 0 := by
    simp [beamOf, beamMode, extended, Conv.symb]
  have hQ : (beamOf true Conv.symb).Q 2 0 = 3 := by
    simp [beamOf, beamMode, extended, Conv.symb]
    rw [map_ofNat]
    norm_num
  have hU : (beamOf true Conv.symb).U 2 0 = 0 := by
    simp [beamOf, beamMode, extended, Conv.symb]
    rw [map_ofNat]
    norm_num
  set B := turnedPlate alpha N (turned (-psi) (beamOf true Conv.symb)) with hB
  have bI : B.I 2 0 = (u 0 : ℝ) := by
    rw [hu, Real.cos_add, Real.sin_add]
    simp only [hB, turnedPlate, plate, turned, frame, hI, hV, hQ, hU]
    simp
    ring
  have bV : B.V 2 0 = (u 3 : ℝ) := by
    rw [hu, Real.cos_add, Real.sin_add]
    simp only [hB, turnedPlate, plate, turned, frame, hI, hV, hQ, hU]
    simp
    ring
  have bP : B.P 2 2 = ((u 1 * Real.cos (2 * alpha) - u 2 * Real.sin (2 * alpha) : ℝ) : ℂ) +
      Complex.I * ((u 1 * Real.sin (2 * alpha) + u 2 * Real.cos (2 * alpha) : ℝ) : ℂ) := by
    rw [hu, hu, Real.cos_add, Real.sin_add]
    unfold Stokes.P
    rw [show (2 : Int) - 2 = 0 by norm_num]
    simp only [hB, turnedPlate, plate, turned, frame, hI, hV, hQ, hU]
    simp
    ring
  rw [bI, bV, bP]
  clear bI bV bP
  generalize u 1 * Real.cos (2 * alpha) - u 2 * Real.sin (2 * alpha) = q
  generalize u 1 * Real.sin (2 * alpha) + u 2 * Real.cos (2 * alpha) = t
  by_cases h0 : r = 0
  · subst h0; simp [Conv.one, plus2]
  by_cases h1 : r = 1
  · subst h1; simp [Conv.one, plus2]
  by_cases h2 : r = 2
  · subst h2; simp [Conv.one, plus2]
  by_cases h3 : r = 3
  · subst h3; simp [Conv.one, plus2]
  rw [if_neg h0, if_neg h1, if_neg h2, if_neg h3]
  simp [Conv.one, plus2, Ne.symm h0, Ne.symm h1, Ne.symm h2, Ne.symm h3]

/-- **C129, the others.** If a plate is not faithful, the timeline is wrong: for the example beam
there are a sky and an angle of the plate at which the signal of the simulated plate is not that of
the given one. -/
theorem C129_wrong (psi : ℝ) (M : Fin 4 → Fin 4 → ℝ) (h : ¬ Faithful psi M) :
    ∃ a alpha, RealSky 4 a ∧
      convolved Conv.Y 1 4 {0} {2} (skyOf true a) (turnedPlate alpha (acted psi M)
        (turned (-psi) (beamOf true Conv.symb))) ⟨[(3, 1)], 0, alpha⟩ ≠
      convolved Conv.Y 1 4 {0} {2} (skyOf true a) (turnedPlate alpha M
        (turned (-psi) (beamOf true Conv.symb))) ⟨[(3, 1)], 0, alpha⟩ := by
  rw [← C129_faithful] at h
  by_contra hno
  apply h
  push Not at hno
  have key : ∀ alpha j, (acted psi M 0 j + Real.cos (2 * psi + 2 * alpha) * acted psi M 1 j -
      Real.sin (2 * psi + 2 * alpha) * acted psi M 2 j) = (M 0 j +
      Real.cos (2 * psi + 2 * alpha) * M 1 j - Real.sin (2 * psi + 2 * alpha) * M 2 j) := by
    intro alpha j
    have hs : ∀ r, _ := fun r => hno (Conv.one r) alpha (Conv.one_real r 4)
    have e := fun r => (Conv.signal_one (acted psi M) psi alpha _ 0 (by simp) (fun _ => rfl) r).symm.trans
      ((hs r).trans (Conv.signal_one M psi alpha _ 0 (by simp) (fun _ => rfl) r))
    have e0 := e 0
    have e1 := e 1
    have e2 := e 2
    have e3 := e 3
    simp only [if_true, if_false, OfNat.ofNat_ne_zero, OfNat.ofNat_ne_one, one_ne_zero,
      show ¬ (3 : Nat) = 2 by decide] at e0 e1 e2 e3
    have hcs := Real.cos_sq_add_sin_sq (2 * alpha)
    generalize Real.cos (2 * alpha) = c at *
    generalize Real.sin (2 * alpha) = s at *
    generalize Real.cos (2 * psi + 2 * alpha) = C at *
    generalize Real.sin (2 * psi + 2 * alpha) = S at *
    generalize acted psi M = N at *
    have inv : ∀ x y x' y' : ℝ, -(x * c - y * s) = -(x' * c - y' * s) →
        x * s + y * c = x' * s + y' * c → x = x' ∧ y = y' := by
      intro x y x' y' h1 h2
      constructor
      · linear_combination -c * h1 + s * h2 + (x' - x) * hcs
      · linear_combination s * h1 + c * h2 + (y' - y) * hcs
    obtain ⟨i1, i2⟩ := inv _ _ _ _ e1 e2
    fin_cases j
    · exact mul_left_cancel₀ (by norm_num) e0
    · exact mul_left_cancel₀ (by norm_num) i1
    · exact mul_left_cancel₀ (by norm_num) i2
    · exact mul_left_cancel₀ (by norm_num) e3
  have k1 := key (-psi)
  have k2 := key (Real.pi / 4 - psi)
  have a1 : 2 * psi + 2 * -psi = 0 := by ring
  have a2 : 2 * psi + 2 * (Real.pi / 4 - psi) = Real.pi / 2 := by ring
  simp only [a1, a2, Real.cos_zero, Real.sin_zero, Real.cos_pi_div_two, Real.sin_pi_div_two,
    one_mul, zero_mul, sub_zero, add_zero] at k1 k2
  funext i j
  have r0 : ∀ j, acted psi M 0 j = M 0 j := by
    intro j
    fin_cases j <;> rfl
  have r3 : ∀ j, acted psi M 3 j = M 3 j := by
    intro j
    fin_cases j <;> rfl
  have e1 := k1 j
  have e2 := k2 j
  have e0 := r0 j
  fin_cases i
  · exact r0 j
  · show acted psi M 1 j = M 1 j
    linarith
  · show acted psi M 2 j = M 2 j
    linarith
  · exact r3 j

/-! ### example -/

/-- A plate with leakage of I into Q. -/
def leakMat : Fin 4 → Fin 4 → ℝ := fun i j =>
  if i = 0 ∧ j = 0 then 1 else if (i = 0 ∧ j = 1) ∨ (i = 1 ∧ j = 0) then 1 / 2 else 0

/-- The plate is faithful at angle 0, but not at 45 degrees, where the leakage is lost. -/
example : Faithful 0 leakMat := by
  simp [Faithful, leakMat]

theorem leak_unfaithful : ¬ Faithful (Real.pi / 4) leakMat := by
  have h : 2 * (Real.pi / 4) = Real.pi / 2 := by ring
  simp [Faithful, leakMat, h]

/-- An ideal half-wave plate is faithful at every angle. -/
example (psi : ℝ) : Faithful psi (fun i j => if i = j then (if i.val < 2 then 1 else -1) else 0) := by
  simp [Faithful]

/-- The hypotheses of `C129_right_partial` are met by a plate with leakage that couples I and U, and a
detector at 90 degrees. -/
example : ∃ t, observe Conv.Y Demo.ext Demo.mission (Conv.rows 4 3 (Conv.coef 1)) 4 1 false false
      (Conv.det (some (realMat fun i j => if i.val + j.val = 1 then 1 / 4 else
        if i = 0 ∧ j = 2 then 1 / 8 else if i = 2 ∧ j = 0 then -1 / 8 else
        if i = 0 ∧ j = 0 then 1 else 0)) 90 false) [] Demo.sub true true Demo.st = .ok t :=
  ⟨_, C129_right_partial Conv.Y Conv.Y_conj Conv.Y_vanishing Demo.ext Demo.ext_ok Demo.mission
    (Conv.det_ok _ _ _ _) (Conv.coef_real 1 4) (fun g hg => by
        rw [List.mem_singleton.1 hg]
        exact ⟨Conv.symb_real _, Conv.symb_copolar, Or.inr (by decide)⟩)
    (fun _ i j => if i.val + j.val = 1 then 1 / 4 else
        if i = 0 ∧ j = 2 then 1 / 8 else if i = 2 ∧ j = 0 then -1 / 8 else
        if i = 0 ∧ j = 0 then 1 else 0) (by
      intro g hg
      rw [List.mem_singleton.1 hg]
      refine ⟨rfl, ?_⟩
      have : 2 * ((Conv.det (some (realMat fun i j => if i.val + j.val = 1 then 1 / 4 else
        if i = 0 ∧ j = 2 then 1 / 8 else if i = 2 ∧ j = 0 then -1 / 8 else
        if i = 0 ∧ j = 0 then 1 else 0)) 90 false).point.polang * Real.pi / 180) = Real.pi := by
        show 2 * ((90 : ℝ) * Real.pi / 180) = Real.pi
        ring
      simp only [Faithful, this]
      simp
      norm_num) 1 one_pos Demo.sub true true Demo.st 1 2 Demo.sub_ok _ (fun _ _ => rfl)⟩

/-- **C129, violation.** A detector at 45 degrees behind a plate with leakage of I into Q, a sky with
one mode of I: the detector measures 3 at every HWP angle, although the convolution gives
`3 - 3/2 sin 2` at HWP angle 1. -/
theorem C129_violation :
    observe Conv.Y Demo.ext Demo.mission (Conv.rows 4 3 (Conv.one 0)) 4 1 false false
      (Conv.det (some (realMat leakMat)) 45 true) [] Demo.sub false true Demo.st = .ok [3, 3] ∧
    (∀ y, y = sampleOf Demo.ext Demo.st false 1 1
        (Conv.det (some (realMat leakMat)) 45 true).point 1 →
      convolved Conv.Y 1 4 {0} {2} (skyOf false (Conv.one 0))
        (turnedPlate y.alpha leakMat (turned (-(Real.pi / 4)) (beamOf false Conv.symb))) y =
          3 - 3 / 2 * Real.sin 2) ∧
    3 - 3 / 2 * Real.sin 2 ≠ (3 : ℝ) := by
  have hpi : exp (-I * 2 * (Real.pi : ℂ)) = 1 := by
    rw [show -I * 2 * (Real.pi : ℂ) = -(2 * Real.pi * I) by ring, exp_neg, exp_two_pi_mul_I, inv_one]
  have hsky : skyOf false (Conv.one 0) = skyOf true (Conv.one 0) := by
    unfold skyOf
    congr 1
    funext l m
    simp [extended, Conv.one]
  have hbeam : beamOf false Conv.symb = beamOf true Conv.symb := by
    unfold beamOf
    congr 1
    funext l m
    simp [beamMode, extended, Conv.symb]
  have hang : 2 * (Real.pi / 4) = Real.pi / 2 := by ring
  refine ⟨?_, ?_, ?_⟩
  · rw [C129_any Conv.Y Conv.Y_conj Conv.Y_vanishing Demo.ext Demo.ext_ok Demo.mission
      (Conv.det_ok (Conv.one 0) _ 45 true) (Conv.one_real 0 4) (fun g hg => by
        rw [List.mem_singleton.1 hg]
        exact ⟨Conv.symb_real _, Conv.symb_copolar, Or.inl rfl⟩) (fun _ => leakMat) (fun g hg => by
        rw [List.mem_singleton.1 hg]
        rfl) 1 one_pos Demo.sub false true Demo.st 1 2 Demo.sub_ok _ (fun _ _ => rfl)]
    have hp : (Conv.det (some (realMat leakMat)) 45 true).point.polang * Real.pi / 180 =
        Real.pi / 4 := by
      show (45 : ℝ) * Real.pi / 180 = Real.pi / 4
      ring
    have e : ∀ k, convolved Conv.Y 1 (min 4 4) {0} {2} (skyOf false (Conv.one 0))
        (turnedPlate (sampleOf Demo.ext Demo.st false 1 1
          (Conv.det (some (realMat leakMat)) 45 true).point k).alpha (acted (Real.pi / 4) leakMat)
          (turned (-(Real.pi / 4)) (beamOf false Conv.symb)))
        (sampleOf Demo.ext Demo.st false 1 1 (Conv.det (some (realMat leakMat)) 45 true).point k) =
          3 := by
      intro k
      rw [Conv.sample, hsky, hbeam, min_self,
        Conv.signal_one _ _ _ _ _ hpi (fun _ => rfl), if_pos rfl]
      simp [acted, hang, leakMat]
    simp only [hp, e, List.filter_nil, List.map_nil, List.sum_nil, add_zero]
    rfl
  · intro y hy
    rw [hy, Conv.sample, hsky, hbeam, Conv.signal_one _ _ _ _ _ hpi (fun _ => rfl), if_pos rfl]
    have eA : alphaAt Demo.st.hwpAng 1 = 1 := by
      simp [alphaAt, Demo.st]
    rw [eA, hang, mul_one, add_comm (Real.pi / 2), Real.cos_add_pi_div_two]
    simp [leakMat]
    ring
  · intro h
    have := Real.sin_pos_of_pos_of_le_two (x := 2) (by norm_num) le_rfl
    linarith

end Verif.Props
