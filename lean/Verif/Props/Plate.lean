import Verif.Lemmas.Symmetric
import Verif.Props.Convolution

/-!
# C72-C75: plates with Mueller matrices, symmetric beams
-/

noncomputable section

namespace Verif.Props

open Verif.Alm Verif.Spin Verif.Spec Verif.Timeline Verif.Spinmaps Complex

/-- Two detectors whose beams give the same signals give the same timelines. -/
theorem observe_congr (Y : Harmonics) (x : Ext) (hx : ExtOk x) (mission : List Chunks.Chunk)
    {Ls : Nat} {alm : List (List ℂ)} {a : Nat → Nat → Nat → ℂ} {maxSpin : Int}
    {inputV beamV : Bool} {main : Detector} {ghosts : List Detector} {Lb : Detector → Nat}
    {b : Detector → Nat → Nat → Nat → ℂ} (φ : Detector → Detector) {Lb' : Detector → Nat}
    {b' : Detector → Nat → Nat → Nat → ℂ}
    (h : DetectorOk Ls alm a maxSpin inputV beamV main ghosts Lb b)
    (h' : DetectorOk Ls alm a maxSpin inputV beamV (φ main) (ghosts.map φ) Lb' b')
    (hφ : ∀ g, (φ g).point = g.point) (nside : Nat) (hns : 0 < nside)
    (s : Sub) (interp savePoint : Bool) (st st' : State) (i n : Nat)
    (hs : SubOk mission st st.qBore s i n) (hs' : SubOk mission st' st'.qBore s i n)
    (heq : ∀ g ∈ main :: ghosts, ∀ k,
      signal (dictOf Y nside Ls a maxSpin inputV beamV Lb b g) (g.point.polang * Real.pi / 180)
        (sampleOf x st interp nside i g.point k) =
      signal (dictOf Y nside Ls a maxSpin inputV beamV Lb' b' (φ g))
        (g.point.polang * Real.pi / 180) (sampleOf x st' interp nside i g.point k)) :
    observe Y x mission alm maxSpin nside inputV beamV main ghosts s interp savePoint st =
      observe Y x mission alm maxSpin nside inputV beamV (φ main) (ghosts.map φ) s interp savePoint
        st' := by
  rw [observe_spec Y x hx mission h nside hns s interp savePoint st i n hs,
    observe_spec Y x hx mission h' nside hns s interp savePoint st' i n hs']
  congr 1
  apply List.map_congr_left
  intro k _
  rw [heq main List.mem_cons_self, hφ main]
  congr 2
  rw [List.filter_map, List.map_map]
  have e : (fun g => !g.point.dead) ∘ φ = fun g => !g.point.dead := by
    funext g
    simp only [Function.comp, hφ]
  rw [e]
  apply List.map_congr_left
  intro g hg
  rw [heq g (List.mem_cons_of_mem _ (List.mem_filter.1 hg).1)]
  simp only [Function.comp, hφ]

/-! ## C74 -/

/-- The detector with another `symmetric` flag. -/
def setSymmetric (v : Bool) (g : Detector) : Detector :=
  { g with data := { g.data with symmetric := v } }

/-- **C74.** For beams that are symmetric around their axis the `symmetric` flag makes no
difference, with or without Mueller matrix: the timeline with it is the timeline without it, as long
as azimuthal numbers up to 2 are asked for. -/
theorem C74_symmetric (Y : Harmonics) (x : Ext) (hx : ExtOk x) (mission : List Chunks.Chunk)
    {Ls : Nat} {alm : List (List ℂ)} {a : Nat → Nat → Nat → ℂ} {maxSpin : Int}
    {inputV beamV : Bool} {main : Detector} {ghosts : List Detector} {Lb : Detector → Nat}
    {b : Detector → Nat → Nat → Nat → ℂ}
    (h : DetectorOk Ls alm a maxSpin inputV beamV main ghosts Lb b)
    (hsym : ∀ g ∈ main :: ghosts, g.data.symmetric = false ∧ AxiSym (b g) ∧
      2 ≤ min g.data.mmax maxSpin)
    (nside : Nat) (hns : 0 < nside)
    (s : Sub) (interp savePoint : Bool) (st : State) (i n : Nat)
    (hs : SubOk mission st st.qBore s i n) :
    observe Y x mission alm maxSpin nside inputV beamV main ghosts s interp savePoint st =
      observe Y x mission alm maxSpin nside inputV beamV (setSymmetric true main)
        (ghosts.map (setSymmetric true)) s interp savePoint st := by
  let back : Detector → Detector := setSymmetric false
  have hback : ∀ g ∈ main :: ghosts, back (setSymmetric true g) = g := by
    intro g hg
    have := (hsym g hg).1
    obtain ⟨p, d⟩ := g
    obtain ⟨_, _, sy, _, _⟩ := d
    simp only at this
    subst this
    rfl
  have h' : DetectorOk Ls alm a maxSpin inputV beamV (setSymmetric true main)
      (ghosts.map (setSymmetric true)) (Lb ∘ back) (b ∘ back) := by
    have hmem : ∀ g ∈ setSymmetric true main :: ghosts.map (setSymmetric true),
        ∃ g0 ∈ main :: ghosts, g = setSymmetric true g0 := by
      intro g hg
      rw [← List.map_cons] at hg
      obtain ⟨g0, hg0, rfl⟩ := List.mem_map.1 hg
      exact ⟨g0, hg0, rfl⟩
    refine ⟨h.live, h.main_ghost, ?_, ?_, ?_, ?_⟩
    · intro g hg
      obtain ⟨g0, hg0, rfl⟩ := hmem g hg
      have hi := h.input g0 hg0
      simp only [Function.comp, hback g0 hg0]
      have h2 := (hsym g0 hg0).2.2
      have h3 := hi.spin
      exact ⟨hi.sky, hi.beam, hi.skyV, hi.beamV, hi.spin0, hi.spin, fun _ => by omega, hi.mueller⟩
    · intro g hg
      obtain ⟨g0, hg0, rfl⟩ := List.mem_map.1 hg
      exact h.ghost g0 hg0
    · obtain ⟨k, hk⟩ := h.numbers
      refine ⟨k, fun m => ?_⟩
      rw [← hk m]
      constructor
      · rintro ⟨g, hg, e⟩
        obtain ⟨g0, hg0, rfl⟩ := List.mem_map.1 hg
        exact ⟨g0, hg0, e⟩
      · rintro ⟨g, hg, e⟩
        exact ⟨_, List.mem_map_of_mem hg, e⟩
    · intro g hg g' hg' e
      obtain ⟨g0, hg0, rfl⟩ := List.mem_map.1 hg
      obtain ⟨g1, hg1, rfl⟩ := List.mem_map.1 hg'
      obtain ⟨e1, e2, e3⟩ := h.share g0 hg0 g1 hg1 e
      simp only [Function.comp, hback g0 (List.mem_cons_of_mem _ hg0),
        hback g1 (List.mem_cons_of_mem _ hg1)]
      refine ⟨?_, e2, e3⟩
      show { g0.data with symmetric := true } = { g1.data with symmetric := true }
      rw [e1]
  refine observe_congr Y x hx mission (setSymmetric true) h h' (fun _ => rfl) nside hns s interp
    savePoint st st i n hs hs ?_
  intro g hg k
  have h0 := (h.input g hg).spin0
  obtain ⟨e1, e2, e3⟩ := hsym g hg
  have hr : InRange nside (sampleOf x st interp nside i g.point k) :=
    sampleAt_inRange x hx interp _ nside hns _ _ _
  unfold dictOf
  simp only [Function.comp, hback g hg]
  rw [signal_dictSpec Y nside _ _ _ _ h0 _ _ _ _ _ _ hr, e1]
  refine (signal_sym Y nside _ a (b g) e2 g.data.mueller inputV beamV _ (min g.data.mmax maxSpin) e3
    _ _).trans ?_
  rw [← signal_dictSpec Y nside _ _ _ _ h0 _ _ _ _ _ _ hr]
  rfl

/-! ## C73 -/

/-- **C73.** With Mueller matrices, a detector at polarization angle 0 measures the convolution of
the sky with its beam behind the plate, i.e. the row of Stokes parameters of the beam times the
Mueller matrix turned by the HWP angle.  Missing: plates that couple I (or V) with U or couple I and
Q (V and Q) in an unsymmetric way (`C73_violation`), and polarization angles (`C72_violation`). -/
theorem C73_plate_partial (Y : Harmonics) (hY : Conjugation Y) (hV : Vanishing Y) (x : Ext)
    (hx : ExtOk x) (mission : List Chunks.Chunk)
    {Ls : Nat} {alm : List (List ℂ)} {a : Nat → Nat → Nat → ℂ} {maxSpin : Int}
    {inputV beamV : Bool} {main : Detector} {ghosts : List Detector} {Lb : Detector → Nat}
    {b : Detector → Nat → Nat → Nat → ℂ}
    (h : DetectorOk Ls alm a maxSpin inputV beamV main ghosts Lb b)
    (ha : RealSky Ls a) (hb : ∀ g ∈ main :: ghosts, RealBeam (Lb g) (b g))
    (M : Detector → Fin 4 → Fin 4 → ℝ)
    (hm : ∀ g ∈ main :: ghosts, g.data.mueller = some (realMat (M g)) ∧ PlateOk (M g) inputV ∧
      g.point.polang = 0)
    (nside : Nat) (hns : 0 < nside)
    (s : Sub) (interp savePoint : Bool) (st : State) (i n : Nat)
    (hs : SubOk mission st st.qBore s i n)
    (sees : Detector → Nat → ℝ)
    (hsees : ∀ g k, sees g k =
      let y := sampleOf x st interp nside i g.point k
      convolved Y nside (min Ls (Lb g)) (spinsI g.data.symmetric (min g.data.mmax maxSpin))
        (spinsP g.data.symmetric (min g.data.mmax maxSpin)) (skyOf inputV a)
        (turnedPlate y.alpha (M g) (beamOf beamV (b g))) y) :
    observe Y x mission alm maxSpin nside inputV beamV main ghosts s interp savePoint st =
      .ok ((List.range n).map fun k => sees main k +
        ((ghosts.filter fun g => !g.point.dead).map fun g => sees g k).sum) := by
  rw [observe_spec Y x hx mission h nside hns s interp savePoint st i n hs]
  congr 1
  apply List.map_congr_left
  intro k _
  have hone : ∀ g ∈ main :: ghosts,
      signal (dictOf Y nside Ls a maxSpin inputV beamV Lb b g) (g.point.polang * Real.pi / 180)
        (sampleOf x st interp nside i g.point k) = sees g k := by
    intro g hg
    have h0 := (h.input g hg).spin0
    obtain ⟨m1, m2, m3⟩ := hm g hg
    have hr : InRange nside (sampleOf x st interp nside i g.point k) :=
      sampleAt_inRange x hx interp _ nside hns _ _ _
    unfold dictOf
    rw [signal_dictSpec Y nside _ _ _ _ h0 _ _ _ _ _ _ hr, m1, hsees, m3, zero_mul, zero_div]
    exact signal_new Y hY hV nside _ a (b g)
      (fun i hi l hl => ha i hi l (le_trans hl (min_le_left _ _)))
      (fun l hl => hb g hg l (le_trans hl (min_le_right _ _))) inputV beamV (M g) m2 _ _ h0 _
  rw [hone main List.mem_cons_self]
  congr 2
  apply List.map_congr_left
  intro g hg
  exact hone g (List.mem_cons_of_mem _ (List.mem_filter.1 hg).1)

/-! ## C72 -/

/-- The detector with another Mueller matrix. -/
def setMueller (v : Option Mat4) (g : Detector) : Detector :=
  { g with data := { g.data with mueller := v } }

theorem setMueller_ok {Ls : Nat} {alm : List (List ℂ)} {a : Nat → Nat → Nat → ℂ} {maxSpin : Int}
    {inputV beamV : Bool} {main : Detector} {ghosts : List Detector} {Lb : Detector → Nat}
    {b : Detector → Nat → Nat → Nat → ℂ}
    (h : DetectorOk Ls alm a maxSpin inputV beamV main ghosts Lb b) (M : Option Mat4)
    (hM : ∀ g ∈ main :: ghosts, g.data.mueller = M) :
    (∀ g ∈ main :: ghosts, setMueller M (setMueller none g) = g) ∧
    DetectorOk Ls alm a maxSpin inputV beamV (setMueller none main)
      (ghosts.map (setMueller none)) (Lb ∘ setMueller M) (b ∘ setMueller M) := by
  have hback : ∀ g ∈ main :: ghosts, setMueller M (setMueller none g) = g := by
    intro g hg
    have := hM g hg
    obtain ⟨p, d⟩ := g
    obtain ⟨_, _, _, mu, _⟩ := d
    simp only at this
    subst this
    rfl
  refine ⟨hback, ?_⟩
  have hmem : ∀ g ∈ setMueller none main :: ghosts.map (setMueller none),
      ∃ g0 ∈ main :: ghosts, g = setMueller none g0 := by
    intro g hg
    rw [← List.map_cons] at hg
    obtain ⟨g0, hg0, rfl⟩ := List.mem_map.1 hg
    exact ⟨g0, hg0, rfl⟩
  refine ⟨h.live, h.main_ghost, ?_, ?_, ?_, ?_⟩
  · intro g hg
    obtain ⟨g0, hg0, rfl⟩ := hmem g hg
    have hi := h.input g0 hg0
    simp only [Function.comp, hback g0 hg0]
    exact ⟨hi.sky, hi.beam, hi.skyV, hi.beamV, hi.spin0, hi.spin, hi.sym, fun e => absurd rfl e⟩
  · intro g hg
    obtain ⟨g0, hg0, rfl⟩ := List.mem_map.1 hg
    exact h.ghost g0 hg0
  · obtain ⟨k, hk⟩ := h.numbers
    refine ⟨k, fun m => ?_⟩
    rw [← hk m]
    constructor
    · rintro ⟨g, hg, e⟩
      obtain ⟨g0, hg0, rfl⟩ := List.mem_map.1 hg
      exact ⟨g0, hg0, e⟩
    · rintro ⟨g, hg, e⟩
      exact ⟨_, List.mem_map_of_mem hg, e⟩
  · intro g hg g' hg' e
    obtain ⟨g0, hg0, rfl⟩ := List.mem_map.1 hg
    obtain ⟨g1, hg1, rfl⟩ := List.mem_map.1 hg'
    obtain ⟨e1, e2, e3⟩ := h.share g0 hg0 g1 hg1 e
    simp only [Function.comp, hback g0 (List.mem_cons_of_mem _ hg0),
      hback g1 (List.mem_cons_of_mem _ hg1)]
    refine ⟨?_, e2, e3⟩
    show { g0.data with mueller := none } = { g1.data with mueller := none }
    rw [e1]

def idMat : Fin 4 → Fin 4 → ℝ := fun i j => if i = j then 1 else 0

theorem realMat_id : realMat idMat = 1 := by
  ext i j
  show ((if i = j then 1 else 0 : ℝ) : ℂ) = (1 : Matrix (Fin 4) (Fin 4) ℂ) i j
  rw [Matrix.one_apply]
  split <;> simp

theorem turnedPlate_id (alpha : ℝ) (b : Stokes) : turnedPlate alpha idMat b = b := by
  have hcs := Complex.cos_sq_add_sin_sq (2 * (alpha : ℂ))
  obtain ⟨bI, bQ, bU, bV⟩ := b
  unfold turnedPlate plate frame idMat
  congr 1
  · funext l s
    simp
  · funext l s
    simp
    linear_combination bQ l s * hcs
  · funext l s
    simp
    linear_combination bU l s * hcs
  · funext l s
    simp

theorem turned_zero (b : Stokes) : turned 0 b = b := by
  unfold turned
  simp

theorem convolved_congr (Y : Harmonics) (nside L : Nat) (S T : Finset Int) (sky : Sky) (b : Stokes)
    (x x' : Smp) (hw : x.w = x'.w) (hp : x.pa = x'.pa) :
    convolved Y nside L S T sky b x = convolved Y nside L S T sky b x' := by
  unfold convolved look
  rw [hw, hp]

theorem sampleOf_hwp (x : Ext) (st : State) (h : Option HwpAng) (interp : Bool) (nside i : Nat)
    (g : Timeline.Beam) (k : Nat) :
    (sampleOf x { st with hwpAng := h } interp nside i g k).w =
      (sampleOf x st interp nside i g k).w ∧
    (sampleOf x { st with hwpAng := h } interp nside i g k).pa =
      (sampleOf x st interp nside i g k).pa := by
  unfold sampleOf sampleAt
  cases interp <;> exact ⟨rfl, rfl⟩

/-- **C72.** A plate with the identity as Mueller matrix does nothing: at polarization angle 0 the
timeline is, at every HWP angle, the one without a Mueller matrix and with a HWP that stays at angle
0.  Missing: other polarization angles, see `C72_violation`. -/
theorem C72_identity_partial (Y : Harmonics) (hY : Conjugation Y) (hV : Vanishing Y) (x : Ext)
    (hx : ExtOk x) (mission : List Chunks.Chunk)
    {Ls : Nat} {alm : List (List ℂ)} {a : Nat → Nat → Nat → ℂ} {maxSpin : Int}
    {inputV beamV : Bool} {main : Detector} {ghosts : List Detector} {Lb : Detector → Nat}
    {b : Detector → Nat → Nat → Nat → ℂ}
    (h : DetectorOk Ls alm a maxSpin inputV beamV main ghosts Lb b)
    (ha : RealSky Ls a) (hb : ∀ g ∈ main :: ghosts, RealBeam (Lb g) (b g))
    (hm : ∀ g ∈ main :: ghosts, g.data.mueller = some 1 ∧ g.point.polang = 0)
    (nside : Nat) (hns : 0 < nside)
    (s : Sub) (interp savePoint : Bool) (st : State) (i n : Nat)
    (hs : SubOk mission st st.qBore s i n) :
    observe Y x mission alm maxSpin nside inputV beamV main ghosts s interp savePoint st =
      observe Y x mission alm maxSpin nside inputV beamV (setMueller none main)
        (ghosts.map (setMueller none)) s interp savePoint { st with hwpAng := none } := by
  obtain ⟨hback, h'⟩ := setMueller_ok h (some 1) fun g hg => (hm g hg).1
  refine observe_congr Y x hx mission (setMueller none) h h' (fun _ => rfl) nside hns s interp
    savePoint st { st with hwpAng := none } i n hs
    ⟨hs.chunk, hs.times, hs.bore, fun _ e => by cases e⟩ ?_
  intro g hg k
  have h0 := (h.input g hg).spin0
  obtain ⟨m1, m3⟩ := hm g hg
  have hr : InRange nside (sampleOf x st interp nside i g.point k) :=
    sampleAt_inRange x hx interp _ nside hns _ _ _
  have hr' : InRange nside (sampleOf x { st with hwpAng := none } interp nside i g.point k) :=
    sampleAt_inRange x hx interp _ nside hns _ _ _
  have ha' : RealSky (min Ls (Lb g)) a :=
    fun i hi l hl => ha i hi l (le_trans hl (min_le_left _ _))
  have hb' : RealBeam (min Ls (Lb g)) (b g) :=
    fun l hl => hb g hg l (le_trans hl (min_le_right _ _))
  unfold dictOf
  simp only [Function.comp, hback g hg]
  rw [signal_dictSpec Y nside _ _ _ _ h0 _ _ _ _ _ _ hr, m1, m3, zero_mul, zero_div,
    ← realMat_id]
  refine (signal_new Y hY hV nside _ a (b g) ha' hb' inputV beamV idMat
    ⟨by simp [idMat], fun _ => by simp [idMat]⟩ _ _ h0 _).trans ?_
  refine Eq.symm ((signal_dictSpec Y nside _ _ _ _ h0 _ _ _ _ _ _ hr').trans ?_)
  refine (signal_old Y hY nside _ a (b g) ha' hb' _ h0 _ _ _ _ _ _).trans ?_
  have e0 : (sampleOf x { st with hwpAng := none } interp nside i g.point k).alpha = 0 := by
    unfold sampleOf sampleAt
    cases interp <;> rfl
  rw [e0, mul_zero, add_zero, turned_zero, turnedPlate_id]
  obtain ⟨e1, e2⟩ := sampleOf_hwp x st none interp nside i g.point k
  exact convolved_congr Y nside _ _ _ _ _ _ _ e1 e2

/-! ## C75 -/

/-- The Mueller matrix of an ideal HWP. -/
def idealMat : Fin 4 → Fin 4 → ℝ := fun i j => if i = j then ![1, 1, -1, -1] i else 0

theorem values_ideal (Y : Harmonics) (nside L : Nat) (a b : Nat → Nat → Nat → ℂ) (hb : AxiSym b)
    (hr : ∀ l, star (b 1 l 2) = b 1 l 2) (beamV : Bool) (s : Int) (p : Nat) :
    values Y nside L a b (some (realMat idealMat)) false beamV .s0a0 s p =
      values Y nside L a b none false beamV .s0a0 s p ∧
    values Y nside L a b (some (realMat idealMat)) false beamV .s2a4 s p =
      values Y nside L a b none false beamV .s2a4 s p ∧
    values Y nside L a b (some (realMat idealMat)) false beamV .s2a2 s p = 0 ∧
    values Y nside L a b (some (realMat idealMat)) false beamV .s2a0 s p = 0 ∧
    values Y nside L a b (some (realMat idealMat)) false beamV .s0a2 s p = 0 := by
  obtain ⟨w, hw, e00, e30, -, -, -, e20, -, -, e01, e02, e31, e32, e22, e11, e12, e21⟩ :=
    w_entries idealMat
  have w00 : w 0 0 = 1 := by rw [e00]; simp [idealMat]
  have w30 : w 3 0 = 0 := by rw [e30]; simp [idealMat]
  have w20 : w 2 0 * (Real.sqrt 2 : ℂ) = 0 := by rw [e20]; simp [idealMat]
  have w01 : w 0 1 * (Real.sqrt 2 : ℂ) = 0 := by rw [e01]; simp [idealMat]
  have w02 : w 0 2 * (Real.sqrt 2 : ℂ) = 0 := by rw [e02]; simp [idealMat]
  have w31 : w 3 1 * (Real.sqrt 2 : ℂ) = 0 := by rw [e31]; simp [idealMat]
  have w32 : w 3 2 * (Real.sqrt 2 : ℂ) = 0 := by rw [e32]; simp [idealMat]
  have w22 : w 2 2 = 0 := by rw [e22]; simp [idealMat]
  have w11 : w 1 1 = 0 := by rw [e11]; simp [idealMat]
  have w12 : w 1 2 = 1 := by rw [e12]; simp [idealMat]
  have hv : ∀ m, values Y nside L a b (some (realMat idealMat)) false beamV m =
    valuesNew Y nside L a b w false beamV m := fun m => by rw [← hw]; rfl
  rw [hv, hv, hv, hv, hv]
  refine ⟨?_, ?_, ?_, ?_, ?_⟩
  · show rawReal Y nside L (a 0) (hwpUnpol b w beamV 0) s.toNat p + 0 =
      rawReal Y nside L (a 0) (b 0) s.toNat p + (if (beamV && false) = true then _ else 0)
    have e : hwpUnpol b w beamV 0 = b 0 := by
      funext l m
      unfold hwpUnpol
      rw [w00, w30]
      simp
    rw [e]
    simp
  · by_cases h : s = 2
    · subst h
      refine rawComplex_congr Y nside L _ _ (hwpPol b w false "s2a4").1 (hwpPol b w false "s2a4").2
        (b 1) (b 2) 2 p (fun _ l hl => ?_) (fun h => by omega)
      show shiftP (b 1) (b 2) 4 l 2 * w 1 2 = b 1 l 2
      rw [w12, mul_one]
      have hl : 2 ≤ l := hl
      unfold shiftP extended
      have e : |((2 : Nat) : Int) - 4| = 2 := by norm_num
      rw [e, if_pos (by omega), if_neg (by norm_num)]
      have e2 : (((2 : Nat) : Int) - 4).natAbs = 2 := by norm_num
      rw [e2, hr]
      norm_num
    · have h1 := (values_sym Y nside L a b hb (some (realMat idealMat)) false beamV s p).2.1 h
      rw [hv] at h1
      rw [h1, (values_sym Y nside L a b hb none false beamV s p).2.1 h]
  · refine rawComplex_zero Y nside L _ _ _ _ s p (fun h l => ?_) (fun h l => ?_)
    · show shiftP (b 0) (b 0) 2 l s.natAbs * (w 0 2 * (Real.sqrt 2 : ℂ)) + (if beamV = true then
        shiftP (b 3) (b 3) 2 l s.natAbs * (w 3 2 * (Real.sqrt 2 : ℂ)) else 0) = 0
      rw [w02, w32]
      simp
    · show shiftM (b 0) (b 0) 2 l s.natAbs * (w 0 1 * (Real.sqrt 2 : ℂ)) + (if beamV = true then
        shiftM (b 3) (b 3) 2 l s.natAbs * (w 3 1 * (Real.sqrt 2 : ℂ)) else 0) = 0
      rw [w01, w31]
      simp
  · refine rawComplex_zero Y nside L _ _ _ _ s p (fun h l => ?_) (fun h l => ?_)
    · show b 1 l s.natAbs * w 2 2 = 0
      rw [w22, mul_zero]
    · show b 2 l s.natAbs * w 1 1 = 0
      rw [w11, mul_zero]
  · show rawComplex Y nside L (a 0) (a 0) _ _ s p + 0 = 0
    rw [rawComplex_zero Y nside L _ _ _ _ s p (fun h l => ?_) (fun h l => ?_), add_zero]
    · show shiftP (b 1) (b 2) 2 l s.natAbs * (w 2 0 * (Real.sqrt 2 : ℂ)) = 0
      rw [w20, mul_zero]
    · show shiftM (b 1) (b 2) 2 l s.natAbs * (w 0 2 * (Real.sqrt 2 : ℂ)) = 0
      rw [w02, mul_zero]

/-- **C75.** For beams that are symmetric around their axis and have real polarization coefficients,
and without V sky: giving the Mueller matrix of an ideal HWP is the same as giving none, at all HWP
and polarization angles. -/
theorem C75_ideal (Y : Harmonics) (x : Ext)
    (hx : ExtOk x) (mission : List Chunks.Chunk)
    {Ls : Nat} {alm : List (List ℂ)} {a : Nat → Nat → Nat → ℂ} {maxSpin : Int}
    {beamV : Bool} {main : Detector} {ghosts : List Detector} {Lb : Detector → Nat}
    {b : Detector → Nat → Nat → Nat → ℂ}
    (h : DetectorOk Ls alm a maxSpin false beamV main ghosts Lb b)
    (hm : ∀ g ∈ main :: ghosts, g.data.mueller = some (Matrix.diagonal ![1, 1, -1, -1]) ∧
      AxiSym (b g) ∧ ∀ l, star (b g 1 l 2) = b g 1 l 2)
    (nside : Nat) (hns : 0 < nside)
    (s : Sub) (interp savePoint : Bool) (st : State) (i n : Nat)
    (hs : SubOk mission st st.qBore s i n) :
    observe Y x mission alm maxSpin nside false beamV main ghosts s interp savePoint st =
      observe Y x mission alm maxSpin nside false beamV (setMueller none main)
        (ghosts.map (setMueller none)) s interp savePoint st := by
  have hd : (Matrix.diagonal ![1, 1, -1, -1] : Mat4) = realMat idealMat := by
    ext i j
    fin_cases i <;> fin_cases j <;> simp [realMat, idealMat]
  rw [hd] at hm
  obtain ⟨hback, h'⟩ := setMueller_ok h _ fun g hg => (hm g hg).1
  refine observe_congr Y x hx mission (setMueller none) h h' (fun _ => rfl) nside hns s interp
    savePoint st st i n hs hs ?_
  intro g hg k
  have h0 := (h.input g hg).spin0
  obtain ⟨m1, m2, m3⟩ := hm g hg
  have hr : InRange nside (sampleOf x st interp nside i g.point k) :=
    sampleAt_inRange x hx interp _ nside hns _ _ _
  have hv := values_ideal Y nside (min Ls (Lb g)) a (b g) m2 m3 beamV
  unfold dictOf
  simp only [Function.comp, hback g hg]
  rw [signal_dictSpec Y nside _ _ _ _ h0 _ _ _ _ _ _ hr, m1]
  refine Eq.trans ?_ (signal_dictSpec Y nside _ _ _ _ h0 _ _ _ _ _ _ hr).symm
  show signalF true _ _ _ _ _ _ = signalF false _ _ _ _ _ _
  unfold signalF
  have e4 : values Y nside (min Ls (Lb g)) a (b g) (some (realMat idealMat)) false beamV .s2a4 =
      values Y nside (min Ls (Lb g)) a (b g) none false beamV .s2a4 :=
    funext fun s => funext fun p => (hv s p).2.1
  have e0 : values Y nside (min Ls (Lb g)) a (b g) (some (realMat idealMat)) false beamV .s0a0 =
      values Y nside (min Ls (Lb g)) a (b g) none false beamV .s0a0 :=
    funext fun s => funext fun p => (hv s p).1
  have hz : ∀ (y : Smp) (l : List Int) (f : Int → Nat → ℂ), (∀ s p, f s p = 0) → sumC y l f = 0 := by
    intro y l f hf
    unfold sumC
    simp [look_zero y _ (hf _)]
  have hp : ∀ (psi : ℝ) (y : Smp) (f : Int → Nat → ℂ), (∀ s p, f s p = 0) →
      pairF psi y f = fun _ => 0 := by
    intro psi y f hf
    funext s
    unfold pairF
    simp [look_zero y _ (hf _)]
  rw [e4, e0, hz _ _ _ fun s p => (hv s p).2.2.1, hz _ _ _ fun s p => (hv s p).2.2.2.1,
    hp _ _ _ fun s p => (hv s p).2.2.2.2]
  simp [setMueller]

/-! ## Concrete cases and violations -/

namespace Conv

/-- A symmetric beam. -/
def symb (i l m : Nat) : ℂ :=
  if (i = 0 ∧ m = 0) ∨ (i = 1 ∧ m = 2) then ((l + 1 : Nat) : ℂ) else 0

theorem symb_real (L : Nat) : RealBeam L symb := by
  intro l _
  simp [symb]

theorem symb_sym : AxiSym symb := by
  refine ⟨fun l m h => ?_, fun l m h => ?_, fun l m => ?_⟩ <;> simp_all [symb]

/-- A sky with the single coefficient `(l, m) = (2, 0)` in row `r`. -/
def one (r i l m : Nat) : ℂ := if i = r ∧ l = 2 ∧ m = 0 then 1 else 0

theorem one_real (r L : Nat) : RealSky L (one r) := by
  intro i _ l _
  unfold one
  split <;> simp

/-- A detector without ghosts. -/
def det (M : Option Mat4) (polang : ℝ) (symmetric : Bool) : Detector :=
  ⟨⟨false, false, 0, 0, 0, polang⟩, ⟨rows 4 3 symb, 4, symmetric, M, 0⟩⟩

theorem det_ok (a : Nat → Nat → Nat → ℂ) (M : Option Mat4) (polang : ℝ) (symmetric : Bool) :
    DetectorOk 4 (rows 4 3 a) a 4 false false (det M polang symmetric) [] (fun _ => 4)
      (fun _ => symb) := by
  refine ⟨rfl, rfl, ?_, by simp, ⟨0, ?_⟩, by simp⟩
  · intro g hg
    have hg : g = det M polang symmetric := by simpa using hg
    subst hg
    exact ⟨rows_ok _ _ _, rows_ok _ _ _, by simp, by simp, by simp [det], by simp [det], by simp,
      by simp⟩
  · intro n
    simp

/-- The field of spin `s` with a single coefficient. -/
theorem synth_one (s : Int) (hs : Even s) (hs2 : |s| ≤ 2) (B : Nat → ℂ) (A : Nat → Int → ℂ)
    (hA : ∀ l m, ¬ (l = 2 ∧ m = 0) → A l m = 0) (p : Nat) :
    synth Y 1 4 s (fun l m => B l * A l m) p = B 2 * A 2 0 := by
  unfold synth
  rw [Finset.sum_eq_single 2, Finset.sum_eq_single 0]
  · have : Y 1 s 2 0 p = 1 := by
      unfold Y
      rw [if_pos ⟨rfl, hs, by exact_mod_cast hs2⟩]
    rw [this, mul_one]
  · intro m _ hm
    dsimp only
    rw [hA 2 m (by simp [hm]), mul_zero, zero_mul]
  · simp
  · intro l _ hl
    apply Finset.sum_eq_zero
    intro m _
    dsimp only
    rw [hA l m (by simp [hl]), mul_zero, zero_mul]
  · simp

theorem sample (x : State) (k : Nat) (g : Timeline.Beam) :
    sampleOf Demo.ext x false 1 1 g k = ⟨[(3, 1)], Real.pi, alphaAt x.hwpAng k⟩ := by
  unfold sampleOf sampleAt Demo.ext
  simp

theorem rawComplex_sky (nside L : Nat) (a2 ap b2 bp : Nat → Nat → ℂ) (s : Int)
    (p : Nat) (h2 : ∀ l m, a2 l m = 0) (hp : ∀ l m, ap l m = 0) :
    rawComplex Y nside L a2 ap b2 bp s p = 0 := by
  unfold rawComplex
  simp only [h2, hp, zero_mul, spinAt_zero, star_zero, sub_zero, add_zero, zero_div, scalarAt_zero,
    ofReal_zero, mul_zero, ite_self]

theorem rawReal_sky (nside L : Nat) (a b : Nat → Nat → ℂ) (s p : Nat) (h : ∀ l m, a l m = 0) :
    rawReal Y nside L a b s p = 0 := by
  unfold rawReal
  simp only [h, zero_mul, spinAt_zero, scalarAt_zero, ofReal_zero, ite_self]

end Conv

/-- The hypotheses of `C74_symmetric` are met, here with a Mueller matrix. -/
example : observe Conv.Y Demo.ext Demo.mission (Conv.rows 4 3 (Conv.coef 1)) 4 1 false false
      (Conv.det (some (Matrix.diagonal ![1, 1 / 2, 1 / 3, 1 / 4])) 30 false) [] Demo.sub true true
        Demo.st =
    observe Conv.Y Demo.ext Demo.mission (Conv.rows 4 3 (Conv.coef 1)) 4 1 false false
      (Conv.det (some (Matrix.diagonal ![1, 1 / 2, 1 / 3, 1 / 4])) 30 true) [] Demo.sub true true
        Demo.st :=
  C74_symmetric Conv.Y Demo.ext Demo.ext_ok Demo.mission (Conv.det_ok _ _ _ _) (by
    intro g hg
    rw [List.mem_singleton.1 hg]
    exact ⟨rfl, Conv.symb_sym, by simp [Conv.det]⟩) 1 one_pos Demo.sub true true Demo.st 1 2
    Demo.sub_ok

/-- The hypotheses of `C73_plate_partial` are met by a partial polarizer. -/
example : ∃ t, observe Conv.Y Demo.ext Demo.mission (Conv.rows 4 3 (Conv.coef 1)) 4 1 false false
      (Conv.det (some (realMat fun i j => if i.val + j.val = 1 then 1 / 4 else
        if i = j then 1 / 2 else 0)) 0 false) [] Demo.sub true true Demo.st = .ok t :=
  ⟨_, C73_plate_partial Conv.Y Conv.Y_conj Conv.Y_vanishing Demo.ext Demo.ext_ok Demo.mission
    (Conv.det_ok _ _ _ _) (Conv.coef_real 1 4) (fun _ _ => Conv.symb_real _)
    (fun _ i j => if i.val + j.val = 1 then 1 / 4 else if i = j then 1 / 2 else 0) (by
      intro g hg
      rw [List.mem_singleton.1 hg]
      exact ⟨rfl, ⟨by simp, by simp⟩, rfl⟩) 1 one_pos Demo.sub true true Demo.st 1 2 Demo.sub_ok _
    (fun _ _ => rfl)⟩

/-- The hypotheses of `C72_identity_partial` are met. -/
example : observe Conv.Y Demo.ext Demo.mission (Conv.rows 4 3 (Conv.coef 1)) 4 1 false false
      (Conv.det (some 1) 0 false) [] Demo.sub true true Demo.st =
    observe Conv.Y Demo.ext Demo.mission (Conv.rows 4 3 (Conv.coef 1)) 4 1 false false
      (Conv.det none 0 false) [] Demo.sub true true { Demo.st with hwpAng := none } :=
  C72_identity_partial Conv.Y Conv.Y_conj Conv.Y_vanishing Demo.ext Demo.ext_ok Demo.mission
    (Conv.det_ok _ _ _ _) (Conv.coef_real 1 4) (fun _ _ => Conv.symb_real _) (by
      intro g hg
      rw [List.mem_singleton.1 hg]
      exact ⟨rfl, rfl⟩) 1 one_pos Demo.sub true true Demo.st 1 2 Demo.sub_ok

/-- The hypotheses of `C75_ideal` are met. -/
example : observe Conv.Y Demo.ext Demo.mission (Conv.rows 4 3 (Conv.coef 1)) 4 1 false false
      (Conv.det (some (Matrix.diagonal ![1, 1, -1, -1])) 30 false) [] Demo.sub true true Demo.st =
    observe Conv.Y Demo.ext Demo.mission (Conv.rows 4 3 (Conv.coef 1)) 4 1 false false
      (Conv.det none 30 false) [] Demo.sub true true Demo.st :=
  C75_ideal Conv.Y Demo.ext Demo.ext_ok Demo.mission (Conv.det_ok _ _ _ _) (by
      intro g hg
      rw [List.mem_singleton.1 hg]
      refine ⟨rfl, Conv.symb_sym, ?_⟩
      intro l
      simp [Conv.symb]) 1 one_pos Demo.sub true true Demo.st 1 2 Demo.sub_ok

/-- What a symmetric detector measures in the example. -/
theorem Conv.observe_det (a : Nat → Nat → Nat → ℂ) (M : Option Mat4) (polang : ℝ) (st : State)
    (hs : SubOk Demo.mission st st.qBore Demo.sub 1 2) :
    observe Conv.Y Demo.ext Demo.mission (Conv.rows 4 3 a) 4 1 false false
        (Conv.det M polang true) [] Demo.sub false true st =
      .ok ((List.range 2).map fun k => signalF M.isSome [0] [2] [0]
        (values Conv.Y 1 4 a Conv.symb M false false) (polang * Real.pi / 180)
        ⟨[(3, 1)], Real.pi, alphaAt st.hwpAng k⟩) := by
  rw [observe_spec Conv.Y Demo.ext Demo.ext_ok Demo.mission (Conv.det_ok _ M polang true) 1 one_pos
    Demo.sub false true _ 1 2 hs]
  congr 1
  apply List.map_congr_left
  intro k _
  rw [Conv.sample]
  unfold dictOf
  rw [signal_dictSpec Conv.Y 1 _ _ _ _ (by simp [Conv.det]) _ _ _ _ _ _ (by
    intro iw hiw
    have : iw = (3, 1) := by simpa using hiw
    subst this
    norm_num)]
  simp [Conv.det, spinsUnpol, spinsPol, spinsS0a2]

theorem Conv.turn : exp (-(I * 2 * (Real.pi : ℂ))) = 1 := by
  rw [Complex.exp_neg, mul_assoc, mul_comm I, exp_two_pi_mul_I]
  simp

theorem Conv.raw_E (p : Nat) : rawComplex Conv.Y 1 4 (minus2 (Conv.one 1 1) (Conv.one 1 2))
    (plus2 (Conv.one 1 1) (Conv.one 1 2)) (Conv.symb 1) (Conv.symb 2) 2 p = -3 := by
  rw [rawComplex_synth Conv.Y Conv.Y_conj 1 4 _ _ _ _ (sky_zero (Conv.one_real 1 4))
    (fun l hl => (Conv.symb_real 4 l hl).2.2), Conv.synth_one 2 (by decide) (by decide) _ _ (by
      intro l m hlm
      unfold extended plus2 minus2 Conv.one
      split
      · rename_i h
        rw [if_neg (by omega), if_neg (by omega)]
        simp
      · rename_i h
        rw [if_neg (by omega), if_neg (by omega)]
        simp)]
  rw [extended_zero]
  have : beamMode (Conv.symb 1) (Conv.symb 2) 2 2 = 3 := by
    have := beamMode_nat (Conv.symb 1) (Conv.symb 2) 2 2
    rw [show ((2 : Nat) : Int) = 2 from rfl] at this
    rw [this]
    simp [Conv.symb]
  rw [this]
  simp [plus2, Conv.one]

/-- **C72, violation.** A symmetric detector at 45 degrees, a HWP that stays at angle 0 and a sky of
one E mode: without Mueller matrix the detector measures 0, with the identity as Mueller matrix it
measures -3 as if its polarization angle were 0. -/
theorem C72_violation :
    observe Conv.Y Demo.ext Demo.mission (Conv.rows 4 3 (Conv.one 1)) 4 1 false false
      (Conv.det none 45 true) [] Demo.sub false true { Demo.st with hwpAng := none } =
        .ok [0, 0] ∧
    observe Conv.Y Demo.ext Demo.mission (Conv.rows 4 3 (Conv.one 1)) 4 1 false false
      (Conv.det (some 1) 45 true) [] Demo.sub false true { Demo.st with hwpAng := none } =
        .ok [-3, -3] ∧
    observe Conv.Y Demo.ext Demo.mission (Conv.rows 4 3 (Conv.one 1)) 4 1 false false
      (Conv.det none 0 true) [] Demo.sub false true { Demo.st with hwpAng := none } =
        .ok [-3, -3] := by
  have hs : SubOk Demo.mission { Demo.st with hwpAng := none } Demo.st.qBore Demo.sub 1 2 :=
    ⟨Demo.sub_ok.chunk, Demo.sub_ok.times, Demo.sub_ok.bore, fun _ e => by cases e⟩
  have key : ∀ (M : Option Mat4) (polang v : ℝ),
      signalF M.isSome [0] [2] [0] (values Conv.Y 1 4 (Conv.one 1) Conv.symb M false false)
        (polang * Real.pi / 180) ⟨[(3, 1)], Real.pi, 0⟩ = v →
      observe Conv.Y Demo.ext Demo.mission (Conv.rows 4 3 (Conv.one 1)) 4 1 false false
        (Conv.det M polang true) [] Demo.sub false true { Demo.st with hwpAng := none } =
          .ok [v, v] := by
    intro M polang v hv
    rw [Conv.observe_det _ _ _ _ hs]
    show Except.ok ((List.range 2).map fun _ => signalF M.isSome [0] [2] [0] _ _
      ⟨[(3, 1)], Real.pi, 0⟩) = _
    rw [hv]
    rfl
  have h00 : ∀ (b : Nat → Nat → ℂ) (p : Nat), rawReal Conv.Y 1 4 (Conv.one 1 0) b 0 p = 0 :=
    fun b p => Conv.rawReal_sky 1 4 _ _ _ _ fun l m => by simp [Conv.one]
  have hnone : ∀ psi : ℝ, signalF false [0] [2] [0]
      (values Conv.Y 1 4 (Conv.one 1) Conv.symb none false false) psi ⟨[(3, 1)], Real.pi, 0⟩ =
      -3 * Real.cos (2 * psi) := by
    intro psi
    have e4 : ∀ p, values Conv.Y 1 4 (Conv.one 1) Conv.symb none false false .s2a4 2 p = -3 :=
      Conv.raw_E
    have e0 : ∀ p, values Conv.Y 1 4 (Conv.one 1) Conv.symb none false false .s0a0 0 p = 0 := by
      intro p
      show rawReal _ _ _ _ _ _ _ + 0 = 0
      rw [Int.toNat_zero, h00, add_zero]
    unfold signalF sumC sumR look
    simp [e4, e0]
    rw [Conv.turn]
    have e2 : (exp (I * (2 * (psi : ℂ)))).re = Real.cos (2 * psi) := by
      rw [mul_comm I, show (2 * (psi : ℂ)) = ((2 * psi : ℝ) : ℂ) by push_cast; ring,
        exp_ofReal_mul_I_re]
    simp [e2]
    ring
  refine ⟨key none 45 0 ?_, key (some 1) 45 (-3) ?_, key none 0 (-3) ?_⟩
  · have := hnone (45 * Real.pi / 180)
    rw [show 2 * (45 * Real.pi / 180) = Real.pi / 2 by ring, Real.cos_pi_div_two, mul_zero] at this
    exact this
  · obtain ⟨w, hw, -, -, -, -, -, e20, -, -, e01, e02, -, -, e22, -, e12, -⟩ := w_entries idMat
    rw [← realMat_id]
    have hv : ∀ m, values Conv.Y 1 4 (Conv.one 1) Conv.symb (some (realMat idMat)) false false m =
      valuesNew Conv.Y 1 4 (Conv.one 1) Conv.symb w false false m := fun m => by rw [← hw]; rfl
    have w22 : w 2 2 = 1 := by rw [e22]; simp [idMat]
    have w12 : w 1 2 = 0 := by rw [e12]; simp [idMat]
    have w02 : w 0 2 * (Real.sqrt 2 : ℂ) = 0 := by rw [e02]; simp [idMat]
    have f4 : ∀ p, valuesNew Conv.Y 1 4 (Conv.one 1) Conv.symb w false false .s2a4 2 p = 0 := by
      intro p
      refine rawComplex_zero Conv.Y 1 4 _ _ (hwpPol Conv.symb w false "s2a4").1
        (hwpPol Conv.symb w false "s2a4").2 2 p (fun _ l => ?_) (fun h => by omega)
      show shiftP _ _ 4 l 2 * w 1 2 = 0
      rw [w12, mul_zero]
    have f2 : ∀ p, valuesNew Conv.Y 1 4 (Conv.one 1) Conv.symb w false false .s2a2 2 p = 0 := by
      intro p
      refine rawComplex_zero Conv.Y 1 4 _ _ (hwpPol Conv.symb w false "s2a2").1
        (hwpPol Conv.symb w false "s2a2").2 2 p (fun _ l => ?_) (fun h => by omega)
      show shiftP _ _ 2 l 2 * (w 0 2 * (Real.sqrt 2 : ℂ)) + 0 = 0
      rw [w02, mul_zero, add_zero]
    have f0 : ∀ p, valuesNew Conv.Y 1 4 (Conv.one 1) Conv.symb w false false .s2a0 2 p = -3 := by
      intro p
      rw [← Conv.raw_E p]
      refine rawComplex_congr Conv.Y 1 4 _ _ (hwpPol Conv.symb w false "s2a0").1
        (hwpPol Conv.symb w false "s2a0").2 (Conv.symb 1) (Conv.symb 2) 2 p (fun _ l _ => ?_)
        (fun h => by omega)
      show Conv.symb 1 l 2 * w 2 2 = _
      rw [w22, mul_one]
      rfl
    have g2 : ∀ p, valuesNew Conv.Y 1 4 (Conv.one 1) Conv.symb w false false .s0a2 0 p = 0 := by
      intro p
      show rawComplex _ _ _ _ _ _ _ _ _ + 0 = 0
      rw [Conv.rawComplex_sky _ _ _ _ _ _ _ _ (fun l m => by simp [Conv.one])
        (fun l m => by simp [Conv.one]), add_zero]
    have g0 : ∀ p, valuesNew Conv.Y 1 4 (Conv.one 1) Conv.symb w false false .s0a0 0 p = 0 := by
      intro p
      show rawReal _ _ _ _ _ _ _ + 0 = 0
      rw [Int.toNat_zero, h00, add_zero]
    unfold signalF sumC sumR pairF look
    simp [hv, f4, f2, f0, g2, g0]
    rw [Conv.turn]
    simp
  · have := hnone (0 * Real.pi / 180)
    simpa using this

/-- A plate that turns the U of the beam into I. -/
def mixMat : Fin 4 → Fin 4 → ℝ := fun i j =>
  if i = 0 ∧ j = 0 then 1 else if i = 2 ∧ j = 0 then 1 / 2 else 0

/-- **C73, violation.** A plate that couples U and I in its own frame, a sky with one mode of I: the
detector measures 3 at every HWP angle, although the beam behind the plate changes with that angle
and the convolution gives `3 - 3/2 sin 2` at HWP angle 1. -/
theorem C73_violation :
    observe Conv.Y Demo.ext Demo.mission (Conv.rows 4 3 (Conv.one 0)) 4 1 false false
      (Conv.det (some (realMat mixMat)) 0 true) [] Demo.sub false true Demo.st = .ok [3, 3] ∧
    (∀ y, y = sampleOf Demo.ext Demo.st false 1 1
        (Conv.det (some (realMat mixMat)) 0 true).point 1 →
      convolved Conv.Y 1 4 (spinsI true 4) (spinsP true 4) (skyOf false (Conv.one 0))
        (turnedPlate y.alpha mixMat (beamOf false Conv.symb)) y = 3 - 3 / 2 * Real.sin 2) ∧
    3 - 3 / 2 * Real.sin 2 ≠ (3 : ℝ) := by
  refine ⟨?_, ?_, ?_⟩
  · rw [Conv.observe_det _ _ _ _ Demo.sub_ok]
    obtain ⟨w, hw, e00, -, -, -, -, e20, -, -, e01, e02, -, -, e22, -, e12, -⟩ := w_entries mixMat
    have hv : ∀ m, values Conv.Y 1 4 (Conv.one 0) Conv.symb (some (realMat mixMat)) false false m =
      valuesNew Conv.Y 1 4 (Conv.one 0) Conv.symb w false false m := fun m => by rw [← hw]; rfl
    have w20 : w 2 0 * (Real.sqrt 2 : ℂ) = -I / 2 := by
      rw [e20]
      simp [mixMat]
      ring
    have w02 : w 0 2 * (Real.sqrt 2 : ℂ) = 0 := by rw [e02]; simp [mixMat]
    have hP : ∀ (b2 bp : Nat → Nat → ℂ) (s : Int) (p : Nat), rawComplex Conv.Y 1 4
        (minus2 (Conv.one 0 1) (Conv.one 0 2))
        (plus2 (Conv.one 0 1) (Conv.one 0 2)) b2 bp s p = 0 := fun b2 bp s p =>
      Conv.rawComplex_sky 1 4 _ _ _ _ _ _ (fun l m => by simp [minus2, Conv.one])
        (fun l m => by simp [plus2, Conv.one])
    have f4 : ∀ p, valuesNew Conv.Y 1 4 (Conv.one 0) Conv.symb w false false .s2a4 2 p = 0 :=
      hP (hwpPol Conv.symb w false "s2a4").1 (hwpPol Conv.symb w false "s2a4").2 2
    have f2 : ∀ p, valuesNew Conv.Y 1 4 (Conv.one 0) Conv.symb w false false .s2a2 2 p = 0 :=
      hP (hwpPol Conv.symb w false "s2a2").1 (hwpPol Conv.symb w false "s2a2").2 2
    have f0 : ∀ p, valuesNew Conv.Y 1 4 (Conv.one 0) Conv.symb w false false .s2a0 2 p = 0 :=
      hP (hwpPol Conv.symb w false "s2a0").1 (hwpPol Conv.symb w false "s2a0").2 2
    have g2 : ∀ p, valuesNew Conv.Y 1 4 (Conv.one 0) Conv.symb w false false .s0a2 0 p = 0 := by
      intro p
      show rawComplex _ _ _ _ _ _ _ _ _ + 0 = 0
      have eM : ∀ l, star ((hwpPol Conv.symb w false "s0a2").2 l 0) =
          -(hwpPol Conv.symb w false "s0a2").2 l 0 := by
        intro l
        show star (shiftP (Conv.symb 1) (Conv.symb 2) 2 l 0 * (w 2 0 * (Real.sqrt 2 : ℂ))) =
          -(shiftP (Conv.symb 1) (Conv.symb 2) 2 l 0 * (w 2 0 * (Real.sqrt 2 : ℂ)))
        rw [w20]
        unfold shiftP extended Conv.symb
        split
        · simp
          ring
        · simp
      have eP : ∀ l, (hwpPol Conv.symb w false "s0a2").1 l 0 = 0 := by
        intro l
        show shiftM (Conv.symb 1) (Conv.symb 2) 2 l 0 * (w 0 2 * (Real.sqrt 2 : ℂ)) = 0
        rw [w02, mul_zero]
      unfold rawComplex
      simp [eM, eP, scalarAt_zero]
    have g0 : ∀ p, valuesNew Conv.Y 1 4 (Conv.one 0) Conv.symb w false false .s0a0 0 p = 3 := by
      intro p
      have := plate_s0a0 Conv.Y Conv.Y_conj 1 4 _ _ (Conv.one_real 0 4) (Conv.symb_real 4) false
        false mixMat 0 p
      rw [hv] at this
      rw [Nat.cast_zero] at this
      rw [this]
      have e : (fun (l : Nat) (m : Int) => ((mixMat 0 0 : ℂ) * (beamOf false Conv.symb).I l 0 +
          (mixMat 3 0 : ℂ) * (beamOf false Conv.symb).V l 0) * (skyOf false (Conv.one 0)).I l m +
          ((mixMat 0 3 : ℂ) * (beamOf false Conv.symb).I l 0 +
          (mixMat 3 3 : ℂ) * (beamOf false Conv.symb).V l 0) * (skyOf false (Conv.one 0)).V l m) =
          fun l m => Conv.symb 0 l 0 * extended (Conv.one 0 0) (Conv.one 0 0) l m := by
        funext l m
        simp [mixMat, beamOf, skyOf, beamMode, extended_zero]
      rw [e, Conv.synth_one 0 (by decide) (by decide) (fun l => Conv.symb 0 l 0) _ (by
        intro l m hlm
        unfold extended Conv.one
        split
        · rename_i h
          rw [if_neg (by omega)]
        · rename_i h
          rw [if_neg (by omega)]
          simp), extended_zero]
      simp [Conv.symb, Conv.one]
    have e : ∀ alpha, signalF (some (realMat mixMat)).isSome [0] [2] [0]
        (values Conv.Y 1 4 (Conv.one 0) Conv.symb (some (realMat mixMat)) false false)
        (0 * Real.pi / 180) ⟨[(3, 1)], Real.pi, alpha⟩ = 3 := by
      intro alpha
      unfold signalF sumC sumR pairF look
      simp [hv, f4, f2, f0, g2, g0]
    simp only [e]
    rfl
  · intro y hy
    rw [hy, Conv.sample]
    have eI : ∀ (l : Nat), (turnedPlate 1 mixMat (beamOf false Conv.symb)).I l 0 =
        (beamOf false Conv.symb).I l 0 - Real.sin 2 * (beamOf false Conv.symb).Q l 0 / 2 +
          Real.cos 2 * (beamOf false Conv.symb).U l 0 / 2 := by
      intro l
      unfold turnedPlate plate frame mixMat
      simp
      ring
    have eS : (fun (l : Nat) (m : Int) => (turnedPlate 1 mixMat (beamOf false Conv.symb)).I l 0 *
        (skyOf false (Conv.one 0)).I l m + (turnedPlate 1 mixMat (beamOf false Conv.symb)).V l 0 *
        (skyOf false (Conv.one 0)).V l m) = fun l m =>
        (turnedPlate 1 mixMat (beamOf false Conv.symb)).I l 0 *
          extended (Conv.one 0 0) (Conv.one 0 0) l m := by
      funext l m
      simp [skyOf]
    have eT : (fun (l : Nat) (m : Int) => (turnedPlate 1 mixMat (beamOf false Conv.symb)).P l 2 *
        (skyOf false (Conv.one 0)).P l m) = fun l m => 0 * 0 := by
      funext l m
      simp [skyOf, extended, plus2, minus2, Conv.one]
    have eA : alphaAt Demo.st.hwpAng 1 = 1 := by
      simp [alphaAt, Demo.st]
    unfold convolved spinsI spinsP
    rw [eA, if_pos rfl, if_pos rfl, Finset.sum_singleton, Finset.sum_singleton, eS, eT]
    unfold look
    rw [List.map_singleton, List.map_singleton, List.sum_singleton, List.sum_singleton]
    rw [Conv.synth_one 0 (by decide) (by decide)
      (fun l => (turnedPlate 1 mixMat (beamOf false Conv.symb)).I l 0) _ (by
        intro l m hlm
        unfold extended Conv.one
        split
        · rename_i h
          rw [if_neg (by omega)]
        · rename_i h
          rw [if_neg (by omega)]
          simp), Conv.synth_one 2 (by decide) (by decide) (fun _ => 0) (fun _ _ => 0)
            (fun _ _ _ => rfl), extended_zero, eI]
    have c2 : (starRingEnd ℂ) 2 = 2 := conj_ofNat 2
    have eQ : (beamOf false Conv.symb).Q 2 0 = 3 := by
      simp [beamOf, beamMode, extended, Conv.symb]
      rw [c2]
      norm_num
    have eU : (beamOf false Conv.symb).U 2 0 = 0 := by
      simp [beamOf, beamMode, extended, Conv.symb]
      rw [c2]
      norm_num
    have e0 : (beamOf false Conv.symb).I 2 0 = 3 := by
      simp [beamOf, beamMode, extended, Conv.symb]
      norm_num
    rw [eQ, eU, e0]
    have e1 : Conv.one 0 0 2 0 = 1 := by simp [Conv.one]
    rw [e1]
    have e2 : (exp (-I * ((0 : Int) : ℂ) * (Real.pi : ℂ))) = 1 := by simp
    rw [e2]
    have e3 : ((3 : ℂ) - Real.sin 2 * 3 / 2 + Real.cos 2 * 0 / 2) * 1 * ((1 : ℝ) : ℂ) * 1 +
        0 * 0 * ((1 : ℝ) : ℂ) * exp (-I * ((2 : Int) : ℂ) * (Real.pi : ℂ)) =
        ((3 - 3 / 2 * Real.sin 2 : ℝ) : ℂ) := by
      push_cast
      ring
    rw [e3, ofReal_re]
  · intro h
    have := Real.sin_pos_of_pos_of_le_two (x := 2) (by norm_num) le_rfl
    linarith

end Verif.Props
