import Verif.Lemmas.PlateAngle
import Verif.Props.Plate

/-!
# C73: plates and polarization angles
-/

noncomputable section

namespace Verif.Props

open Verif.Alm Verif.Spin Verif.Spec Verif.Timeline Verif.Spinmaps Complex

/-- **C73, polarization angles.** With Mueller matrices, a detector at a polarization angle measures the
convolution of the sky with its beam behind the plate, with the polarization angle counted in the opposite
sense, whatever the beam.  Missing: plates that couple I (or V) with U or couple I and Q (V and Q) in an
unsymmetric way (`C73_violation`), and plates that are not as `AngleOk` says, i.e. that at the angle
do not turn all polarization or couple I (or V) and Q (`C72_violation`, `C129_violation`). -/
theorem C73_angles_partial (Y : Harmonics) (hY : Conjugation Y) (hV : Vanishing Y) (x : Ext)
    (hx : ExtOk x) (mission : List Chunks.Chunk)
    {Ls : Nat} {alm : List (List ℂ)} {a : Nat → Nat → Nat → ℂ} {maxSpin : Int}
    {inputV beamV : Bool} {main : Detector} {ghosts : List Detector} {Lb : Detector → Nat}
    {b : Detector → Nat → Nat → Nat → ℂ}
    (h : DetectorOk Ls alm a maxSpin inputV beamV main ghosts Lb b)
    (ha : RealSky Ls a) (hb : ∀ g ∈ main :: ghosts, RealBeam (Lb g) (b g))
    (M : Detector → Fin 4 → Fin 4 → ℝ)
    (hm : ∀ g ∈ main :: ghosts, g.data.mueller = some (realMat (M g)) ∧ PlateOk (M g) inputV ∧
      AngleOk (g.point.polang * Real.pi / 180) (M g) inputV)
    (nside : Nat) (hns : 0 < nside)
    (s : Sub) (interp savePoint : Bool) (st : State) (i n : Nat)
    (hs : SubOk mission st st.qBore s i n)
    (sees : Detector → Nat → ℝ)
    (hsees : ∀ g k, sees g k =
      let y := sampleOf x st interp nside i g.point k
      convolved Y nside (min Ls (Lb g)) (spinsI g.data.symmetric (min g.data.mmax maxSpin))
        (spinsP g.data.symmetric (min g.data.mmax maxSpin)) (skyOf inputV a)
        (turnedPlate y.alpha (M g) (turned (-(g.point.polang * Real.pi / 180)) (beamOf beamV (b g)))) y) :
    observe Y x mission alm maxSpin nside inputV beamV main ghosts s interp savePoint st =
      .ok ((List.range n).map fun k => sees main k +
        ((ghosts.filter fun g => !g.point.dead).map fun g => sees g k).sum) := by
  rw [observe_spec Y x hx mission h nside hns s interp savePoint st i n hs]
  congr 1
  apply List.map_congr_left
  intro k _
  have hone : ∀ g ∈ main :: ghosts,
      signal (dictOf Y nside Ls a maxSpin inputV beamV Lb b g) (g.point.polang * Real.pi / 180)
        (sampleOf x st interp nside i g.point k) = sees g k := by
    intro g hg
    have h0 := (h.input g hg).spin0
    obtain ⟨m1, m2, m3⟩ := hm g hg
    have hr : InRange nside (sampleOf x st interp nside i g.point k) :=
      sampleAt_inRange x hx interp _ nside hns _ _ _
    unfold dictOf
    rw [signal_dictSpec Y nside _ _ _ _ h0 _ _ _ _ _ _ hr, m1, hsees]
    exact signal_angle Y hY hV nside _ a (b g)
      (fun i hi l hl => ha i hi l (le_trans hl (min_le_left _ _)))
      (fun l hl => hb g hg l (le_trans hl (min_le_right _ _))) inputV beamV (M g) m2 _ m3 _ _ h0 _
  rw [hone main List.mem_cons_self]
  congr 2
  apply List.map_congr_left
  intro g hg
  exact hone g (List.mem_cons_of_mem _ (List.mem_filter.1 hg).1)

/-! ### examples -/

/-- At polarization angle 0 every plate is as `AngleOk` says. -/
example (M : Fin 4 → Fin 4 → ℝ) (v : Bool) : AngleOk 0 M v := ⟨by simp, by simp⟩

/-- An ideal half-wave plate, at every angle. -/
example (psi : ℝ) (v : Bool) :
    AngleOk psi (fun i j => if i = j then (if i.val < 2 then 1 else -1) else 0) v :=
  ⟨by simp, by simp⟩

/-- A plate with leakage of I into Q that is turned in its holder. -/
def leakyMat : Fin 4 → Fin 4 → ℝ :=
  ![![1, 1 / 4, 0, 0], ![1 / 4, 1 / 2, 1 / 8, 0], ![0, 1 / 8, -1 / 2, 0], ![0, 0, 0, 1 / 3]]

/-- It is so at 90 degrees, but not at 45. -/
theorem leaky_ok (v : Bool) : PlateOk leakyMat v ∧ AngleOk (90 * Real.pi / 180) leakyMat v := by
  have : 2 * (90 * Real.pi / 180) = Real.pi := by ring
  refine ⟨⟨by simp [leakyMat], by simp [leakyMat]⟩, ⟨.inr ?_, ?_⟩⟩
  · simp [leakyMat]
    norm_num
  · rw [this]
    simp [leakyMat]

example (v : Bool) : ¬ AngleOk (45 * Real.pi / 180) leakyMat v := by
  rintro ⟨-, h⟩
  have : 2 * (45 * Real.pi / 180) = Real.pi / 2 := by ring
  rw [this] at h
  simp [leakyMat] at h

/-- A detector at 90 degrees with a beam that is not symmetric. -/
def turnedDet : Detector :=
  ⟨{ Demo.main with polang := 90 }, ⟨Conv.rows 6 3 (Conv.bcoef 2), 4, false, some (realMat leakyMat), 0⟩⟩

/-- The hypotheses of `C73_angles_partial` are met. -/
example : ∃ t, observe Conv.Y Demo.ext Demo.mission (Conv.rows 5 3 (Conv.coef 1)) 4 1 false false
      turnedDet [] Demo.sub true true Demo.st = .ok t :=
  ⟨_, C73_angles_partial Conv.Y Conv.Y_conj Conv.Y_vanishing Demo.ext Demo.ext_ok Demo.mission
    (Ls := 5) (a := Conv.coef 1) (Lb := fun _ => 6) (b := fun _ => Conv.bcoef 2) (by
      refine ⟨rfl, rfl, ?_, by simp, ⟨0, ?_⟩, by simp⟩
      · intro g hg
        have : g = turnedDet := by simpa using hg
        subst this
        exact ⟨Conv.rows_ok _ _ _, Conv.rows_ok _ _ _, by simp, by simp, by decide, by decide,
          by simp, by simp [turnedDet]⟩
      · intro n
        constructor
        · rintro ⟨g, hg, _⟩
          simp at hg
        · rintro ⟨h1, h2⟩
          exfalso
          omega) (Conv.coef_real 1 5) (fun _ _ => Conv.bcoef_real _ _) (fun _ => leakyMat) (by
      intro g hg
      rw [List.mem_singleton.1 hg]
      exact ⟨rfl, leaky_ok false⟩) 1 one_pos Demo.sub true true Demo.st 1 2 Demo.sub_ok _
    (fun _ _ => rfl)⟩

end Verif.Props
