import Verif.Lemmas.Observe
import Verif.Props.Spinmaps

/-!
# C48, C71, C74: what a detector measures of a sky

`observe` makes the maps of a detector with ghosts and scans them.
-/

noncomputable section

namespace Verif.Props

open Verif.Alm Verif.Spin Verif.Spec Verif.Timeline Verif.Spinmaps Complex

/-! ### A concrete case -/

namespace Conv

/-- The rows of coefficients `f`. -/
def rows (L k : Nat) (f : Nat → Nat → Nat → ℂ) : List (List ℂ) :=
  (List.range k).map fun i => (modes L L).map fun (p : Nat × Nat) => f i p.1 p.2

theorem rows_ok (L k : Nat) (f : Nat → Nat → Nat → ℂ) : HasRows L k (rows L k f) f := by
  intro i hi
  refine ⟨(modes L L).map fun (p : Nat × Nat) => f i p.1 p.2, ?_, rfl⟩
  simp [rows, hi]

/-- Harmonics with the right symmetry. -/
def Y : Harmonics := fun _ s l m _ => if m = 0 ∧ Even s ∧ |s| ≤ (l : Int) then 1 else 0

theorem Y_conj : Conjugation Y := by
  intro nside s l m p
  unfold Y
  by_cases h : m = 0 ∧ Even s ∧ |s| ≤ (l : Int)
  · have h' : -m = 0 ∧ Even (-s) ∧ |(-s)| ≤ (l : Int) := ⟨by omega, h.2.1.neg, by
      rw [abs_neg]
      exact h.2.2⟩
    rw [if_pos h, if_pos h', h.1, add_zero, h.2.1.neg_one_zpow]
    simp
  · have h' : ¬ (-m = 0 ∧ Even (-s) ∧ |(-s)| ≤ (l : Int)) := by
      intro h'
      refine h ⟨by omega, ?_, ?_⟩
      · have := h'.2.1.neg
        rwa [neg_neg] at this
      · have := h'.2.2
        rwa [abs_neg] at this
    rw [if_neg h, if_neg h']
    simp

theorem Y_vanishing : Vanishing Y := by
  intro nside s l m p h
  unfold Y
  rw [if_neg]
  intro h'
  exact absurd h'.2.2 (not_le.2 h)

/-- Real coefficients that depend on `l` and `m`, for `c` skies or beams. -/
def coef (c : Nat) (i l m : Nat) : ℂ := if i < 3 then ((c * (i + 1) * (l + 1) * (m + 1) : Nat) : ℂ) else 0

theorem coef_real (c L : Nat) : RealSky L (coef c) := by
  intro i _ l _
  unfold coef
  split <;> simp

/-- Beam coefficients: `b 1` and `b 2` agree at `m = 0`. -/
def bcoef (c : Nat) (i l m : Nat) : ℂ := if i = 1 ∨ i = 2 then ((c * (l + 1) * (i * m + 1) : Nat) : ℂ)
  else ((c * (l + m + 1) : Nat) : ℂ)

theorem bcoef_real (c L : Nat) : RealBeam L (bcoef c) := by
  intro l _
  unfold bcoef
  simp

def main : Detector := ⟨Demo.main, ⟨rows 6 3 (bcoef 2), 4, false, none, 0⟩⟩

def ghost : Detector := ⟨Demo.ghost, ⟨rows 6 3 (bcoef 3), 4, false, none, 0⟩⟩

def dead : Detector := ⟨Demo.dead, ⟨rows 6 3 (bcoef 3), 4, false, none, 0⟩⟩

def Lb : Detector → Nat := fun _ => 6

def b : Detector → Nat → Nat → Nat → ℂ := fun g => if g.point.ghost then bcoef 3 else bcoef 2

/-- A detector with a live and a dead ghost of band limit 6 and a sky of band limit 5. -/
theorem ok (c : Nat) : DetectorOk 5 (rows 5 3 (coef c)) (coef c) 4 false false main [ghost, dead]
    Lb b := by
  refine ⟨rfl, rfl, ?_, ?_, ⟨1, ?_⟩, ?_⟩
  · intro g hg
    have hb : (g = main ∨ g = ghost) ∨ g = dead := by simpa [or_assoc] using hg
    have h : ∀ f, InputOk 5 6 (rows 5 3 (coef c)) (rows 6 3 f) (coef c) f 4 false none false false :=
      fun f => ⟨rows_ok _ _ _, rows_ok _ _ _, by simp, by simp, by simp, by norm_num, by simp,
        by simp⟩
    rcases hb with (rfl | rfl) | rfl
    · exact h (bcoef 2)
    · exact h (bcoef 3)
    · exact h (bcoef 3)
  · intro g hg
    have hb : g = ghost ∨ g = dead := by simpa using hg
    rcases hb with rfl | rfl <;> exact ⟨rfl, rfl⟩
  · intro n
    constructor
    · rintro ⟨g, hg, h⟩
      have hb : g = ghost ∨ g = dead := by simpa using hg
      have : g.data.ghostIdx = 0 := by rcases hb with rfl | rfl <;> rfl
      omega
    · rintro ⟨h1, h2⟩
      refine ⟨ghost, by simp, ?_⟩
      have : n = 0 := by omega
      rw [this]
      rfl
  · intro g hg g' hg' _
    have hb : g = ghost ∨ g = dead := by simpa using hg
    have hb' : g' = ghost ∨ g' = dead := by simpa using hg'
    rcases hb with rfl | rfl <;> rcases hb' with rfl | rfl <;> exact ⟨rfl, rfl, rfl⟩

end Conv

/-! ## C48 -/

theorem addSky_rows {L k : Nat} {x y : List (List ℂ)} {a a' : Nat → Nat → Nat → ℂ} (c : ℝ)
    (h : HasRows L k x a) (h' : HasRows L k y a') :
    HasRows L k (addSky c x y) (fun i l m => a i l m + c * a' i l m) := by
  intro i hi
  obtain ⟨r, h1, h2⟩ := h i hi
  obtain ⟨r', h1', h2'⟩ := h' i hi
  refine ⟨List.zipWith (fun a b => a + c * b) r r', ?_, represents_zipWith _ h2 h2'⟩
  unfold addSky
  rw [List.getElem?_zipWith, h1, h1']

theorem addSky_input {Ls Lb : Nat} {x y blm : List (List ℂ)} {a a' b : Nat → Nat → Nat → ℂ}
    {maxSpin : Int} {symmetric : Bool} {mueller : Option Mat4} {inputV beamV : Bool} (c : ℝ)
    (h : InputOk Ls Lb x blm a b maxSpin symmetric mueller inputV beamV)
    (h' : InputOk Ls Lb y blm a' b maxSpin symmetric mueller inputV beamV) :
    InputOk Ls Lb (addSky c x y) blm (fun i l m => a i l m + c * a' i l m) b maxSpin symmetric
      mueller inputV beamV :=
  ⟨addSky_rows c h.sky h'.sky, h.beam, fun e => by
    unfold addSky
    rw [List.length_zipWith, h.skyV e, h'.skyV e, min_self], h.beamV, h.spin0, h.spin, h.sym,
    h.mueller⟩

theorem addSky_detector {Ls : Nat} {x y : List (List ℂ)} {a a' : Nat → Nat → Nat → ℂ}
    {maxSpin : Int} {inputV beamV : Bool} {main : Detector} {ghosts : List Detector}
    {Lb : Detector → Nat} {b : Detector → Nat → Nat → Nat → ℂ} (c : ℝ)
    (h : DetectorOk Ls x a maxSpin inputV beamV main ghosts Lb b)
    (h' : DetectorOk Ls y a' maxSpin inputV beamV main ghosts Lb b) :
    DetectorOk Ls (addSky c x y) (fun i l m => a i l m + c * a' i l m) maxSpin inputV beamV main
      ghosts Lb b :=
  ⟨h.live, h.main_ghost, fun g hg => addSky_input c (h.input g hg) (h'.input g hg), h.ghost,
    h.numbers, h.share⟩

theorem s0a2_neg {maxSpin : Int} (symmetric : Bool) (h : 0 ≤ maxSpin) :
    ∀ s ∈ spinsS0a2 symmetric maxSpin, -s ∈ spinsS0a2 symmetric maxSpin := by
  intro s hs
  rw [s0a2_mem symmetric h] at hs ⊢
  cases symmetric
  · simp only [Bool.false_eq_true, if_false] at hs ⊢
    omega
  · simpa using hs

theorem signal_dictSpec (Y : Harmonics) (nside L : Nat) (a b : Nat → Nat → Nat → ℂ) (maxSpin : Int)
    (h : 0 ≤ maxSpin) (symmetric : Bool) (mueller : Option Mat4) (inputV beamV : Bool) (psi : ℝ)
    (x : Smp) (hx : InRange nside x) :
    signal (dictSpec Y nside L a b maxSpin symmetric mueller inputV beamV) psi x =
      signalF mueller.isSome (spinsUnpol symmetric maxSpin) (spinsPol symmetric maxSpin)
        (spinsS0a2 symmetric maxSpin) (values Y nside L a b mueller inputV beamV) psi x :=
  signal_dictF nside _ _ _ _ (s0a2_neg symmetric h) _ psi x hx

/-- **C48.** For every detector with ghosts, with or without Mueller matrices, with or without V,
and every two skies of the same size: the timeline of `sky1 + c sky2` (`c` real) is the timeline of
`sky1` plus `c` times that of `sky2`. -/
theorem C48_linear (Y : Harmonics) (x : Ext) (hx : ExtOk x) (mission : List Chunks.Chunk)
    {Ls : Nat} {sky1 sky2 : List (List ℂ)} {a1 a2 : Nat → Nat → Nat → ℂ} {maxSpin : Int}
    {inputV beamV : Bool} {main : Detector} {ghosts : List Detector} {Lb : Detector → Nat}
    {b : Detector → Nat → Nat → Nat → ℂ}
    (h1 : DetectorOk Ls sky1 a1 maxSpin inputV beamV main ghosts Lb b)
    (h2 : DetectorOk Ls sky2 a2 maxSpin inputV beamV main ghosts Lb b) (c : ℝ)
    (nside : Nat) (hns : 0 < nside)
    (s : Sub) (interp savePoint : Bool) (st : State) (i n : Nat)
    (hs : SubOk mission st st.qBore s i n) :
    ∃ t1 t2, observe Y x mission sky1 maxSpin nside inputV beamV main ghosts s interp savePoint st =
        .ok t1 ∧
      observe Y x mission sky2 maxSpin nside inputV beamV main ghosts s interp savePoint st =
        .ok t2 ∧
      t1.length = n ∧ t2.length = n ∧
      observe Y x mission (addSky c sky1 sky2) maxSpin nside inputV beamV main ghosts s interp
        savePoint st = .ok (List.zipWith (fun u v => u + c * v) t1 t2) := by
  refine ⟨_, _, observe_spec Y x hx mission h1 nside hns s interp savePoint st i n hs,
    observe_spec Y x hx mission h2 nside hns s interp savePoint st i n hs, by simp, by simp, ?_⟩
  rw [observe_spec Y x hx mission (addSky_detector c h1 h2) nside hns s interp savePoint st i n hs]
  rw [List.zipWith_map, List.zipWith_self]
  congr 1
  apply List.map_congr_left
  intro k _
  have hlin : ∀ g ∈ main :: ghosts, ∀ psi, ∀ y, InRange nside y →
      signal (dictOf Y nside Ls (fun i l m => a1 i l m + c * a2 i l m) maxSpin inputV beamV Lb b g)
        psi y = signal (dictOf Y nside Ls a1 maxSpin inputV beamV Lb b g) psi y +
        c * signal (dictOf Y nside Ls a2 maxSpin inputV beamV Lb b g) psi y := by
    intro g hg psi y hy
    have h0 := (h1.input g hg).spin0
    unfold dictOf
    rw [signal_dictSpec Y nside _ _ _ _ h0 _ _ _ _ psi y hy,
      signal_dictSpec Y nside _ _ _ _ h0 _ _ _ _ psi y hy,
      signal_dictSpec Y nside _ _ _ _ h0 _ _ _ _ psi y hy, values_lin, signalF_lin]
  have hr : ∀ g : Timeline.Beam, InRange nside (sampleOf x st interp nside i g k) := fun g =>
    sampleAt_inRange x hx interp _ nside hns _ _ _
  rw [hlin main List.mem_cons_self _ _ (hr _)]
  have hsum : ∀ l : List Detector, (∀ g ∈ l, g ∈ main :: ghosts) →
      (l.map fun g => signal (dictOf Y nside Ls (fun i l m => a1 i l m + c * a2 i l m) maxSpin
        inputV beamV Lb b g) (g.point.polang * Real.pi / 180)
        (sampleOf x st interp nside i g.point k)).sum =
      (l.map fun g => signal (dictOf Y nside Ls a1 maxSpin
        inputV beamV Lb b g) (g.point.polang * Real.pi / 180)
        (sampleOf x st interp nside i g.point k)).sum +
      c * (l.map fun g => signal (dictOf Y nside Ls a2 maxSpin
        inputV beamV Lb b g) (g.point.polang * Real.pi / 180)
        (sampleOf x st interp nside i g.point k)).sum := by
    intro l hl
    induction l with
    | nil => simp
    | cons g l ih =>
      simp only [List.map_cons, List.sum_cons]
      rw [hlin g (hl g List.mem_cons_self) _ _ (hr _),
        ih fun g hg => hl g (List.mem_cons_of_mem _ hg)]
      ring
  rw [hsum _ fun g hg => List.mem_cons_of_mem _ (List.mem_filter.1 hg).1]
  ring

/-- The hypotheses are met: two skies of band limit 5, a detector with a live and a dead ghost. -/
example : ∃ t1 t2, observe Conv.Y Demo.ext Demo.mission (Conv.rows 5 3 (Conv.coef 1)) 4 1 false false
      Conv.main [Conv.ghost, Conv.dead] Demo.sub true true Demo.st = .ok t1 ∧
    observe Conv.Y Demo.ext Demo.mission (Conv.rows 5 3 (Conv.coef 7)) 4 1 false false
      Conv.main [Conv.ghost, Conv.dead] Demo.sub true true Demo.st = .ok t2 ∧
    t1.length = 2 ∧ t2.length = 2 ∧
    observe Conv.Y Demo.ext Demo.mission
      (addSky (1 / 2) (Conv.rows 5 3 (Conv.coef 1)) (Conv.rows 5 3 (Conv.coef 7))) 4 1 false false
      Conv.main [Conv.ghost, Conv.dead] Demo.sub true true Demo.st =
        .ok (List.zipWith (fun u v => u + (1 / 2 : ℝ) * v) t1 t2) :=
  C48_linear Conv.Y Demo.ext Demo.ext_ok Demo.mission (Conv.ok 1) (Conv.ok 7) (1 / 2) 1 one_pos
    Demo.sub true true Demo.st 1 2 Demo.sub_ok

/-! ## C71 -/

/-- **C71.** Without Mueller matrix a detector measures the convolution of the sky with its beam and
the beams of its live ghosts, each turned by its polarization angle and by twice the HWP angle, up to
the lower of the band limits. -/
theorem C71_convolution (Y : Harmonics) (hY : Conjugation Y) (x : Ext) (hx : ExtOk x)
    (mission : List Chunks.Chunk)
    {Ls : Nat} {alm : List (List ℂ)} {a : Nat → Nat → Nat → ℂ} {maxSpin : Int}
    {inputV beamV : Bool} {main : Detector} {ghosts : List Detector} {Lb : Detector → Nat}
    {b : Detector → Nat → Nat → Nat → ℂ}
    (h : DetectorOk Ls alm a maxSpin inputV beamV main ghosts Lb b)
    (ha : RealSky Ls a) (hb : ∀ g ∈ main :: ghosts, RealBeam (Lb g) (b g))
    (hm : ∀ g ∈ main :: ghosts, g.data.mueller = none)
    (nside : Nat) (hns : 0 < nside)
    (s : Sub) (interp savePoint : Bool) (st : State) (i n : Nat)
    (hs : SubOk mission st st.qBore s i n)
    (sees : Detector → Nat → ℝ)
    (hsees : ∀ g k, sees g k =
      let y := sampleOf x st interp nside i g.point k
      convolved Y nside (min Ls (Lb g)) (spinsI g.data.symmetric (min g.data.mmax maxSpin))
        (spinsP g.data.symmetric (min g.data.mmax maxSpin)) (skyOf inputV a)
        (turned (2 * y.alpha + g.point.polang * Real.pi / 180) (beamOf beamV (b g))) y) :
    observe Y x mission alm maxSpin nside inputV beamV main ghosts s interp savePoint st =
      .ok ((List.range n).map fun k => sees main k +
        ((ghosts.filter fun g => !g.point.dead).map fun g => sees g k).sum) := by
  rw [observe_spec Y x hx mission h nside hns s interp savePoint st i n hs]
  congr 1
  apply List.map_congr_left
  intro k _
  have hone : ∀ g ∈ main :: ghosts,
      signal (dictOf Y nside Ls a maxSpin inputV beamV Lb b g) (g.point.polang * Real.pi / 180)
        (sampleOf x st interp nside i g.point k) = sees g k := by
    intro g hg
    have h0 := (h.input g hg).spin0
    have hr : InRange nside (sampleOf x st interp nside i g.point k) :=
      sampleAt_inRange x hx interp _ nside hns _ _ _
    unfold dictOf
    rw [signal_dictSpec Y nside _ _ _ _ h0 _ _ _ _ _ _ hr, hm g hg, hsees]
    exact signal_old Y hY nside _ a (b g) (fun i hi l hl => ha i hi l (le_trans hl (min_le_left _ _)))
      (fun l hl => hb g hg l (le_trans hl (min_le_right _ _))) _ h0 _ _ _ _ _ _
  rw [hone main List.mem_cons_self]
  congr 2
  apply List.map_congr_left
  intro g hg
  exact hone g (List.mem_cons_of_mem _ (List.mem_filter.1 hg).1)

/-- The hypotheses are met. -/
example : ∃ t, observe Conv.Y Demo.ext Demo.mission (Conv.rows 5 3 (Conv.coef 1)) 4 1 false false
      Conv.main [Conv.ghost, Conv.dead] Demo.sub true true Demo.st = .ok t :=
  ⟨_, C71_convolution Conv.Y Conv.Y_conj Demo.ext Demo.ext_ok Demo.mission (Conv.ok 1)
    (Conv.coef_real 1 5) (by
      intro g _
      unfold Conv.b
      split <;> exact Conv.bcoef_real _ _) (by
      intro g hg
      have hb : (g = Conv.main ∨ g = Conv.ghost) ∨ g = Conv.dead := by simpa [or_assoc] using hg
      rcases hb with (rfl | rfl) | rfl <;> rfl) 1 one_pos Demo.sub true true Demo.st 1 2 Demo.sub_ok _
    (fun _ _ => rfl)⟩

/-! ## C70: the hypotheses about the ground maps are met -/

example : ∃ db dg, initSpinmaps Conv.Y (Conv.rows 5 3 (Conv.coef 1)) (some (Conv.rows 5 3 (Conv.coef 7))) 4 1
    false false Conv.main.data [] = .ok ⟨db, some dg, []⟩ :=
  ⟨_, _, C70_ground_coefficients_partial Conv.Y _ _ 4 1 false false Conv.main.data _ _
    (spinmapsOf_spec Conv.Y 1 ((Conv.ok 1).input _ List.mem_cons_self))
    (spinmapsOf_spec Conv.Y 1 ((Conv.ok 7).input _ List.mem_cons_self))⟩

example : ∃ db d dg, initSpinmaps Conv.Y (Conv.rows 5 3 (Conv.coef 1)) (some (Conv.rows 5 3 (Conv.coef 7))) 4 1
    false false Conv.main.data [Conv.ghost.data] = .ok ⟨db, some dg, [some d]⟩ :=
  ⟨_, _, _, C70_ground_coefficients_violation Conv.Y _ _ 4 1 false false Conv.main.data Conv.ghost.data rfl _ _ _
    (spinmapsOf_spec Conv.Y 1 ((Conv.ok 1).input _ List.mem_cons_self))
    (spinmapsOf_spec Conv.Y 1 ((Conv.ok 1).input Conv.ghost (by simp)))
    (spinmapsOf_spec Conv.Y 1
      (show InputOk 5 _ (Conv.rows 5 3 (Conv.coef 7)) Conv.ghost.data.blm (Conv.coef 7) _
          (min Conv.ghost.data.mmax 4) Conv.main.data.symmetric Conv.main.data.mueller false false from
        (Conv.ok 7).input Conv.ghost (by simp)))⟩

end Verif.Props
