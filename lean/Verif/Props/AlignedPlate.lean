import Verif.Lemmas.AlignedPlate
import Verif.Props.PlateSetting
import Verif.Props.PlateAngle
import Verif.Props.AnyPlate

/-!
# Property C131: scans with plates that are given by their layers, with aligned axes
-/

noncomputable section

namespace Verif.Props

open Verif.Alm Verif.Spin Verif.Spec Verif.Timeline Verif.Spinmaps Verif.Optics Verif.Spec.ThinFilm
  Verif.Spec.AlignedPlate Real

/-- The stack of the layers. -/
def stackOf (l : List Uniaxial) : Stack :=
  ⟨l.map (·.thickness), l.map fun x => ⟨x.ordinary, x.extra, x.ordinaryLoss, x.extraLoss⟩, l.map (·.angle)⟩

theorem stackOf_eq (l : List Uniaxial) : stackOf l = ofLayers (l.map Films.layerOf) := by
  unfold stackOf ofLayers Films.layerOf
  simp only [List.map_map]
  rfl

/-- **C131, the matrix.** The Mueller matrix of aligned layers, at every frequency and every angle of
incidence below 90 degrees, is that of a plate that lets pass the amplitudes of the theory of thin films
along and across the axis. -/
theorem C131_matrix (l : List Uniaxial) (hne : l ≠ []) (freq i : ℝ) (hf : 0 ≤ freq) (hi : |i| < π / 2)
    (h : ∀ x ∈ l, Aligned (sin i) x) :
    computeMueller (some (stackOf l)) freq i =
      .ok (Matrix.of (waveplate (amplitudes (1e9 * freq) i l).1 (amplitudes (1e9 * freq) i l).2)) := by
  obtain ⟨jr, hj⟩ := Films.aligned_jones l hne (1e9 * freq) i (by positivity) hi h
  have he : (1.0e9 : ℝ) = 1e9 := by norm_num
  unfold computeMueller mueller
  unfold jones at hj
  rw [he, stackOf_eq]
  simp only [bind, Except.bind] at hj ⊢
  rcases hs : stackTransferMatrix (ofLayers (l.map Films.layerOf)) (1e9 * freq) i 0 1 1 with e | tr
  · rw [hs] at hj
    cases hj
  · rw [hs] at hj
    simp only at hj ⊢
    rw [hj]
    simp only [pure, Except.pure, Bool.false_eq_true, if_false]
    rw [Films.mueller_diag]

/-- **C131, energy.** Neither amplitude is larger than one. -/
theorem C131_passive (l : List Uniaxial) (f i : ℝ) (hf : 0 ≤ f) (hi : |i| < π / 2)
    (h : ∀ x ∈ l, Aligned (sin i) x) :
    ‖(amplitudes f i l).1‖ ≤ 1 ∧ ‖(amplitudes f i l).2‖ ≤ 1 := by
  have hs1 : |sin i| < 1 := by
    have c1 : 0 < cos i := cos_pos_of_mem_Ioo ⟨by linarith [(abs_lt.1 hi).1], (abs_lt.1 hi).2⟩
    rw [← sq_lt_one_iff_abs_lt_one]
    nlinarith [sin_sq_add_cos_sq i]
  have main : ∀ p films, (∀ x ∈ films, Films.Fine (sin i) x) →
      ‖transmission p f (sin i) 1 1 films‖ ≤ 1 := by
    intro p films hx
    have hy := Films.admittance_pos p hs1
    have hc := (Films.carried_fields p (f := f) (n3 := 1) hf films hx).1
    have hn := Films.incoming hy (fields p f (sin i) 1 films)
    have h0 := Films.incoming_ne hy hy hc
    unfold transmission
    dsimp only
    generalize fields p f (sin i) 1 films = b at *
    generalize admittance p (sin i) 1 = y at *
    rw [norm_div, div_le_one (norm_pos_iff.2 h0), ← sq_le_sq₀ (norm_nonneg _) (norm_nonneg _),
      ← Complex.normSq_eq_norm_sq, ← Complex.normSq_eq_norm_sq, hn, Complex.normSq_mul,
      Complex.normSq_ofReal]
    have h2 : Complex.normSq 2 = 4 := by norm_num [Complex.normSq_apply]
    rw [h2]
    have := Complex.normSq_nonneg (y * b 0 - b 1)
    nlinarith
  constructor
  · refine main _ _ fun x hx => ?_
    obtain ⟨y, hy, rfl⟩ := List.mem_map.1 hx
    exact (Films.aligned_fine (h y hy)).1
  · refine main _ _ fun x hx => ?_
    obtain ⟨y, hy, rfl⟩ := List.mem_map.1 hx
    exact (Films.aligned_fine (h y hy)).2

theorem waveplate_turns (p q : ℂ) :
    waveplate p q 1 1 + waveplate p q 2 2 = Complex.normSq (p + q) / 2 := by
  simp [waveplate, Complex.normSq_apply]
  ring

theorem waveplate_ideal {p q : ℂ} (h : p + q = 0) :
    waveplate p q 1 0 = 0 ∧ waveplate p q 2 3 = 0 ∧ waveplate p q 3 2 = 0 := by
  have : q = -p := by linear_combination h
  subst this
  refine ⟨by simp [waveplate], ?_, ?_⟩ <;> simp [waveplate] <;> ring

/-- **C131, which angles.** The polarization angles at which the matrix of such a plate is simulated as it is:
the multiples of 180 degrees and, if what passes along the axis is opposite to what passes across it, all
angles. -/
theorem C131_angles (psi : ℝ) (p q : ℂ) :
    Faithful psi (waveplate p q) ↔ (cos (2 * psi) = 1 ∨ p + q = 0) := by
  unfold Faithful
  dsimp only
  rw [waveplate_turns]
  constructor
  · rintro ⟨h | h, -, -⟩
    · exact Or.inl h
    · right
      exact Complex.normSq_eq_zero.1 (by linarith [h.1])
  · rintro (h | h)
    · have hs : sin (2 * psi) = 0 := by
        have := sin_sq_add_cos_sq (2 * psi)
        rw [h] at this
        nlinarith
      refine ⟨Or.inl h, Or.inl ⟨hs, ?_⟩, Or.inl ⟨hs, ?_⟩⟩ <;> simp [waveplate]
    · obtain ⟨h1, h2, h3⟩ := waveplate_ideal h
      refine ⟨Or.inr ⟨by rw [h]; simp, by simp [waveplate]⟩, Or.inr ⟨by simp [waveplate], ?_⟩, Or.inr ⟨h2, ?_⟩⟩
      · rw [h1]
        simp [waveplate]
      · rw [h3]
        simp [waveplate]

theorem waveplate_ok (p q : ℂ) : PlateOk (waveplate p q) false :=
  ⟨by simp [waveplate], by simp⟩

theorem waveplate_angle {psi : ℝ} {p q : ℂ} (h : cos (2 * psi) = 1 ∨ p + q = 0) :
    AngleOk psi (waveplate p q) false := by
  obtain ⟨h1, -, -⟩ := (C131_angles psi p q).2 h
  refine ⟨h1, ?_⟩
  rcases h with h | h
  · left
    have := sin_sq_add_cos_sq (2 * psi)
    rw [h] at this
    nlinarith
  · exact Or.inr ⟨(waveplate_ideal h).1, by simp⟩

/-- A detector behind aligned layers: its beam has the matrix of the layers `l` at the frequency `freq` and
the angle of incidence `i`. -/
structure Behind (g : Detector) (l : List Uniaxial) (freq i : ℝ) : Prop where
  layers : l ≠ []
  frequency : 0 ≤ freq
  incidence : |i| < π / 2
  aligned : ∀ x ∈ l, Aligned (sin i) x
  matrix : ∃ M, computeMueller (some (stackOf l)) freq i = .ok M ∧ g.data.mueller = some (realMat fun a b => M a b)

theorem behind_matrix {g : Detector} {l : List Uniaxial} {freq i : ℝ} (h : Behind g l freq i) :
    g.data.mueller =
      some (realMat (waveplate (amplitudes (1e9 * freq) i l).1 (amplitudes (1e9 * freq) i l).2)) := by
  obtain ⟨M, h1, h2⟩ := h.matrix
  rw [C131_matrix l h.layers freq i h.frequency h.incidence h.aligned] at h1
  cases h1
  exact h2

/-- **C131, scans.** Detectors with any beams behind aligned layers, without V: the timeline is the convolution
of the sky with the beams behind plates that let pass the amplitudes of the theory of thin films, turned by
the HWP angle.  Missing: polarization angles that are not multiples of 180 degrees, unless the amplitudes are
opposite (`C131_wrong`, `C131_violation`), and V for beams that are not symmetric. -/
theorem C131_scan_partial (Y : Harmonics) (hY : Conjugation Y) (hV : Vanishing Y) (x : Ext)
    (hx : ExtOk x) (mission : List Chunks.Chunk)
    {Ls : Nat} {alm : List (List ℂ)} {a : Nat → Nat → Nat → ℂ} {maxSpin : Int}
    {beamV : Bool} {main : Detector} {ghosts : List Detector} {Lb : Detector → Nat}
    {b : Detector → Nat → Nat → Nat → ℂ}
    (h : DetectorOk Ls alm a maxSpin false beamV main ghosts Lb b)
    (ha : RealSky Ls a) (hb : ∀ g ∈ main :: ghosts, RealBeam (Lb g) (b g))
    (layers : Detector → List Uniaxial) (freq incidence : Detector → ℝ) (amp : Detector → ℂ × ℂ)
    (hamp : ∀ g, amp g = amplitudes (1e9 * freq g) (incidence g) (layers g))
    (hp : ∀ g ∈ main :: ghosts, Behind g (layers g) (freq g) (incidence g))
    (hang : ∀ g ∈ main :: ghosts, (∃ k : Int, g.point.polang = 180 * k) ∨ (amp g).1 + (amp g).2 = 0)
    (nside : Nat) (hns : 0 < nside)
    (s : Sub) (interp savePoint : Bool) (st : State) (i n : Nat)
    (hs : SubOk mission st st.qBore s i n)
    (sees : Detector → Nat → ℝ)
    (hsees : ∀ g k, sees g k =
      let y := sampleOf x st interp nside i g.point k
      convolved Y nside (min Ls (Lb g)) (spinsI g.data.symmetric (min g.data.mmax maxSpin))
        (spinsP g.data.symmetric (min g.data.mmax maxSpin)) (skyOf false a)
        (turnedPlate y.alpha (waveplate (amp g).1 (amp g).2)
          (turned (-(g.point.polang * Real.pi / 180)) (beamOf beamV (b g)))) y) :
    observe Y x mission alm maxSpin nside false beamV main ghosts s interp savePoint st =
      .ok ((List.range n).map fun k => sees main k +
        ((ghosts.filter fun g => !g.point.dead).map fun g => sees g k).sum) := by
  refine C73_angles_partial Y hY hV x hx mission h ha hb (fun g => waveplate (amp g).1 (amp g).2) ?_ nside hns
    s interp savePoint st i n hs sees hsees
  intro g hg
  refine ⟨by rw [behind_matrix (hp g hg), hamp g], waveplate_ok _ _, waveplate_angle ?_⟩
  rcases hang g hg with ⟨k, hk⟩ | h0
  · left
    rw [hk, show 2 * (180 * (k : ℝ) * π / 180) = k * (2 * π) by ring]
    exact cos_int_mul_two_pi k
  · exact Or.inr h0

/-- **C131, scans with V.** The same with V, for symmetric co-polar beams. Missing: polarization angles that
are not multiples of 180 degrees, unless the amplitudes are opposite (`C131_wrong`, `C131_violation`). -/
theorem C131_symmetric_partial (Y : Harmonics) (hY : Conjugation Y) (hV : Vanishing Y) (x : Ext)
    (hx : ExtOk x) (mission : List Chunks.Chunk)
    {Ls : Nat} {alm : List (List ℂ)} {a : Nat → Nat → Nat → ℂ} {maxSpin : Int}
    {inputV beamV : Bool} {main : Detector} {ghosts : List Detector} {Lb : Detector → Nat}
    {b : Detector → Nat → Nat → Nat → ℂ}
    (h : DetectorOk Ls alm a maxSpin inputV beamV main ghosts Lb b)
    (ha : RealSky Ls a) (hb : ∀ g ∈ main :: ghosts, RealBeam (Lb g) (b g) ∧ CoPolar (b g) ∧
      (g.data.symmetric = true ∨ 2 ≤ min g.data.mmax maxSpin))
    (layers : Detector → List Uniaxial) (freq incidence : Detector → ℝ) (amp : Detector → ℂ × ℂ)
    (hamp : ∀ g, amp g = amplitudes (1e9 * freq g) (incidence g) (layers g))
    (hp : ∀ g ∈ main :: ghosts, Behind g (layers g) (freq g) (incidence g))
    (hang : ∀ g ∈ main :: ghosts, (∃ k : Int, g.point.polang = 180 * k) ∨ (amp g).1 + (amp g).2 = 0)
    (nside : Nat) (hns : 0 < nside)
    (s : Sub) (interp savePoint : Bool) (st : State) (i n : Nat)
    (hs : SubOk mission st st.qBore s i n)
    (sees : Detector → Nat → ℝ)
    (hsees : ∀ g k, sees g k =
      let y := sampleOf x st interp nside i g.point k
      convolved Y nside (min Ls (Lb g)) {0} {2} (skyOf inputV a)
        (turnedPlate y.alpha (waveplate (amp g).1 (amp g).2)
          (turned (-(g.point.polang * Real.pi / 180)) (beamOf beamV (b g)))) y) :
    observe Y x mission alm maxSpin nside inputV beamV main ghosts s interp savePoint st =
      .ok ((List.range n).map fun k => sees main k +
        ((ghosts.filter fun g => !g.point.dead).map fun g => sees g k).sum) := by
  refine C129_right_partial Y hY hV x hx mission h ha hb (fun g => waveplate (amp g).1 (amp g).2) ?_ nside hns
    s interp savePoint st i n hs sees hsees
  intro g hg
  refine ⟨by rw [behind_matrix (hp g hg), hamp g], (C131_angles _ _ _).2 ?_⟩
  rcases hang g hg with ⟨k, hk⟩ | h0
  · left
    rw [hk, show 2 * (180 * (k : ℝ) * π / 180) = k * (2 * π) by ring]
    exact cos_int_mul_two_pi k
  · exact Or.inr h0

/-- **C131, the others.** At every other polarization angle the timeline is wrong for some sky. -/
theorem C131_wrong (psi : ℝ) (p q : ℂ) (h : cos (2 * psi) ≠ 1) (hpq : p + q ≠ 0) :
    ∃ a alpha, RealSky 4 a ∧
      convolved Conv.Y 1 4 {0} {2} (skyOf true a) (turnedPlate alpha (acted psi (waveplate p q))
        (turned (-psi) (beamOf true Conv.symb))) ⟨[(3, 1)], 0, alpha⟩ ≠
      convolved Conv.Y 1 4 {0} {2} (skyOf true a) (turnedPlate alpha (waveplate p q)
        (turned (-psi) (beamOf true Conv.symb))) ⟨[(3, 1)], 0, alpha⟩ :=
  C129_wrong psi _ (by
    rw [C131_angles]
    rintro (h1 | h1)
    · exact h h1
    · exact hpq h1)

/-- The presets whose layers are all aligned. -/
def alignedPresets : List String := ["SPIDER_95", "SPIDER_150", "3AR1BRopti", "1BR"]

/-- **C131, presets.** `set_hwp_mueller` with one of the presets with aligned layers succeeds for every beam
less than 90 degrees from the axis at every frequency, and gives it the matrix of a plate with the amplitudes
of the theory of thin films, for the layers of the preset. -/
theorem C131_presets (ps : Plates) (b : PlateBeam) (hb : HasPlate ps b) (name : String)
    (hn : name ∈ alignedPresets) (h0 : b.az ^ 2 + b.el ^ 2 < 90 ^ 2) (hf : 0 ≤ b.sensitiveFreq) :
    ∃ l s, chooseHwpModel name = .ok s ∧ s = stackOf l ∧ (∀ x ∈ l, Aligned (sin (offAxis b)) x) ∧
      ∃ p q, (p, q) = amplitudes (1e9 * b.sensitiveFreq) (offAxis b) l ∧
      let r := setHwpMueller ps b { modelName := some name }
      r.2 = .ok () ∧ r.1.2.hwpMueller = some (Matrix.of (waveplate p q)) := by
  have hi : |offAxis b| < π / 2 := by
    unfold offAxis
    rw [abs_of_nonneg (by positivity)]
    have : √(b.az ^ 2 + b.el ^ 2) < 90 := by
      rw [sqrt_lt' (by norm_num)]
      exact h0
    have hp := pi_pos
    nlinarith
  have hs1 : |sin (offAxis b)| ≤ 1 := abs_sin_le_one _
  have key : ∀ l : List Uniaxial, l ≠ [] → chooseHwpModel name = .ok (stackOf l) →
      (∀ x ∈ l, Aligned (sin (offAxis b)) x) →
      ∃ l s, chooseHwpModel name = .ok s ∧ s = stackOf l ∧ (∀ x ∈ l, Aligned (sin (offAxis b)) x) ∧
        ∃ p q, (p, q) = amplitudes (1e9 * b.sensitiveFreq) (offAxis b) l ∧
        let r := setHwpMueller ps b { modelName := some name }
        r.2 = .ok () ∧ r.1.2.hwpMueller = some (Matrix.of (waveplate p q)) := by
    intro l hne hl hal
    have hM := C131_matrix l hne b.sensitiveFreq (offAxis b) hf hi hal
    have he : (1.0e9 : ℝ) = 1e9 := by norm_num
    unfold computeMueller at hM
    rw [he] at hM
    obtain ⟨g1, g2, -⟩ := (C130_matrix ps b { modelName := some name } hb).1 _ _ (.preset rfl hl) hM
    exact ⟨l, _, hl, rfl, hal, _, _, rfl, g1, g2⟩
  have al : ∀ t nO nE lO lE : ℝ, 0 ≤ t → 1 < nO → 1 < nE → 0 ≤ lO → 0 ≤ lE →
      Aligned (sin (offAxis b)) ⟨t, nO, nE, lO, lE, 0⟩ := fun t nO nE lO lE h1 h2 h3 h4 h5 =>
    ⟨Or.inl sin_zero, h1, ⟨lt_of_le_of_lt hs1 h2, lt_of_le_of_lt hs1 h3⟩, ⟨h4, h5⟩⟩
  have conv : ∀ s : Stack, chooseHwpModel name = .ok s → s.angles = s.thicknesses.map (fun _ => 0) →
      WellFormed s → ∃ l, l ≠ [] ∧ s = stackOf l ∧ ∀ x ∈ l, Aligned (sin (offAxis b)) x := by
    intro s _ ha hw
    obtain ⟨w0, w1, w2, w3, w4⟩ := hw
    have hz : s.materials = (s.thicknesses.zip s.materials).map (·.2) := by
      rw [List.map_snd_zip]
      omega
    have hz1 : s.thicknesses = (s.thicknesses.zip s.materials).map (·.1) := by
      rw [List.map_fst_zip]
      omega
    refine ⟨(s.thicknesses.zip s.materials).map fun y => ⟨y.1, y.2.ordinaryIndex, y.2.extraIndex,
      y.2.ordinaryLoss, y.2.extraLoss, 0⟩, ?_, ?_, ?_⟩
    · intro h
      apply w0
      rw [hz1, List.map_eq_nil_iff.1 h]
      rfl
    · obtain ⟨t, m, a⟩ := s
      simp only at ha hz hz1
      unfold stackOf
      simp only [List.map_map]
      rw [Stack.mk.injEq]
      refine ⟨?_, ?_, ?_⟩
      · exact hz1
      · exact hz
      · rw [ha]
        conv_lhs => rw [hz1]
        rw [List.map_map]
        rfl
    · intro x hx
      obtain ⟨y, hy, rfl⟩ := List.mem_map.1 hx
      have hm := List.of_mem_zip (a := y.1) (b := y.2) hy
      have := w4 _ hm.2
      exact al _ _ _ _ _ (w3 _ hm.1).le this.1 this.2.1 this.2.2.1 this.2.2.2
  obtain ⟨s, hs, hw⟩ := (C64_models name).1 (by
    simp only [alignedPresets, List.mem_cons, List.not_mem_nil, or_false] at hn
    rcases hn with rfl | rfl | rfl | rfl <;> decide)
  obtain ⟨l, h1, h2, h3⟩ := conv s hs (by
    simp only [alignedPresets, List.mem_cons, List.not_mem_nil, or_false] at hn
    unfold chooseHwpModel at hs
    rcases hn with rfl | rfl | rfl | rfl <;>
    · simp only [String.reduceEq, if_true, if_false, Except.ok.injEq] at hs
      subst hs
      simp) hw
  exact key l h1 (h2 ▸ hs) h3

/-! ### examples -/

/-- A layer without losses whose optical thicknesses at 150 GHz are a quarter wavelength times the indices. -/
def waveLayer (nO nE : ℝ) : Uniaxial := ⟨2.998e8 / (4 * 150e9), nO, nE, 0, 0, 0⟩

theorem waveLayer_aligned {nO nE : ℝ} (h1 : 1 < nO) (h2 : 1 < nE) (i : ℝ) :
    Aligned (sin i) (waveLayer nO nE) := by
  have hs1 : |sin i| ≤ 1 := abs_sin_le_one _
  exact ⟨Or.inl sin_zero, by unfold waveLayer; norm_num, ⟨lt_of_le_of_lt hs1 h1, lt_of_le_of_lt hs1 h2⟩,
    ⟨le_refl _, le_refl _⟩⟩

theorem half_waves (p : Pol) (k : Nat) :
    transmission p 150e9 0 1 1 [⟨2.998e8 / (4 * 150e9), 2 * k, 0⟩] = (-1) ^ k := by
  have hsl : ∀ n, slope 0 n = 1 := by
    intro n
    simp [slope]
  have hph : ThinFilm.phase 150e9 0 ⟨2.998e8 / (4 * 150e9), 2 * k, 0⟩ = ((k * π : ℝ) : ℂ) := by
    unfold ThinFilm.phase
    simp only [hsl, Complex.ofReal_zero, mul_zero, sub_zero, Complex.one_cpow, mul_one]
    congr 1
    ring
  have hfilm : film p 150e9 0 ⟨2.998e8 / (4 * 150e9), 2 * k, 0⟩ = (-1 : ℂ) ^ k • (1 : M2) := by
    unfold film
    dsimp only
    rw [hph, ← Complex.ofReal_cos, ← Complex.ofReal_sin, sin_nat_mul_pi, cos_nat_mul_pi]
    ext a b
    fin_cases a <;> fin_cases b <;> simp
  have hadm : admittance p 0 1 = 1 := by
    cases p <;> simp [admittance, hsl]
  have hs : ((-1 : ℂ) ^ k) ≠ 0 := pow_ne_zero _ (by norm_num)
  have hinv : ((-1 : ℂ) ^ k)⁻¹ = (-1) ^ k := by rw [← inv_pow]; norm_num
  unfold transmission fields
  simp only [List.map_cons, List.map_nil, List.prod_cons, List.prod_nil, mul_one, hfilm, hadm,
    Matrix.smul_mulVec, Matrix.one_mulVec, Pi.smul_apply, smul_eq_mul]
  simp only [Complex.ofReal_one, Matrix.cons_val_zero, Matrix.cons_val_one, mul_one, one_mul]
  rw [← two_mul, div_eq_mul_inv, mul_inv, hinv]
  ring

/-- An ideal half-wave plate, and a window. -/
theorem waveLayer_amplitudes (k m : Nat) :
    amplitudes (1e9 * 150) 0 [waveLayer (2 * k) (2 * m)] = ((-1) ^ m, (-1) ^ k) := by
  have e : (1e9 * 150 : ℝ) = 150e9 := by norm_num
  have h1 := half_waves .tm m
  have h2 := half_waves .te k
  unfold amplitudes
  rw [e, sin_zero]
  simp only [List.map_cons, List.map_nil, inPlane, across, waveLayer, sin_zero, if_true, along]
  simp only [ne_eq, OfNat.ofNat_ne_zero, not_false_eq_true, zero_pow, mul_zero, add_zero, sqrt_one, mul_one]
  rw [h1, h2]

/-- The ideal plate at 45 degrees. -/
def idealDet : Detector :=
  ⟨{ Demo.main with polang := 45 },
    ⟨Conv.rows 6 3 (Conv.bcoef 2), 4, false, some (realMat (waveplate 1 (-1))), 0⟩⟩

theorem ideal_behind : Behind idealDet [waveLayer 2 4] 150 0 := by
  have hal : ∀ x ∈ [waveLayer 2 4], Aligned (sin 0) x := by
    intro x hx
    rw [List.mem_singleton.1 hx]
    exact waveLayer_aligned (by norm_num) (by norm_num) 0
  have hamp := waveLayer_amplitudes 1 2
  norm_num at hamp
  have hpi := pi_pos
  refine ⟨by simp, by norm_num, by simpa using hpi, hal, _,
    C131_matrix _ (by simp) 150 0 (by norm_num) (by simpa using hpi) hal, ?_⟩
  norm_num
  rw [hamp]
  rfl

/-- The hypotheses of `C131_scan_partial` are met. -/
example : ∃ t, observe Conv.Y Demo.ext Demo.mission (Conv.rows 5 3 (Conv.coef 1)) 4 1 false false
      idealDet [] Demo.sub true true Demo.st = .ok t :=
  ⟨_, C131_scan_partial Conv.Y Conv.Y_conj Conv.Y_vanishing Demo.ext Demo.ext_ok Demo.mission
    (Ls := 5) (a := Conv.coef 1) (Lb := fun _ => 6) (b := fun _ => Conv.bcoef 2) (by
      refine ⟨rfl, rfl, ?_, by simp, ⟨0, ?_⟩, by simp⟩
      · intro g hg
        have : g = idealDet := by simpa using hg
        subst this
        exact ⟨Conv.rows_ok _ _ _, Conv.rows_ok _ _ _, by simp, by simp, by decide, by decide,
          by simp, by simp [idealDet]⟩
      · intro n
        constructor
        · rintro ⟨g, hg, _⟩
          simp at hg
        · rintro ⟨h1, h2⟩
          exfalso
          omega) (Conv.coef_real 1 5) (fun _ _ => Conv.bcoef_real _ _)
    (fun _ => [waveLayer 2 4]) (fun _ => 150) (fun _ => 0) _ (fun _ => rfl) (by
      intro g hg
      rw [List.mem_singleton.1 hg]
      exact ideal_behind) (by
      intro g hg
      right
      have hamp := waveLayer_amplitudes 1 2
      norm_num at hamp
      norm_num
      rw [hamp]
      norm_num) 1 one_pos Demo.sub true true Demo.st 1 2 Demo.sub_ok _ (fun _ _ => rfl)⟩

/-- **C131, violation.** A detector at 90 degrees behind a clear window (a layer of one index, two half
wavelengths thick, which changes nothing), a sky with one mode of E: the detector measures -3 where it should
measure 3. -/
theorem C131_violation :
    computeMueller (some (stackOf [waveLayer 4 4])) 150 0 = .ok (Matrix.of (waveplate 1 1)) ∧
    observe Conv.Y Demo.ext Demo.mission (Conv.rows 4 3 (Conv.one 1)) 4 1 false false
      (Conv.det (some (realMat (waveplate 1 1))) 90 true) [] Demo.sub false true Demo.st = .ok [-3, -3] ∧
    (∀ k y, y = sampleOf Demo.ext Demo.st false 1 1
        (Conv.det (some (realMat (waveplate 1 1))) 90 true).point k →
      convolved Conv.Y 1 4 {0} {2} (skyOf false (Conv.one 1))
        (turnedPlate y.alpha (waveplate 1 1) (turned (-(Real.pi / 2)) (beamOf false Conv.symb))) y = 3) := by
  have hpi : Complex.exp (-Complex.I * 2 * (Real.pi : ℂ)) = 1 := by
    rw [show -Complex.I * 2 * (Real.pi : ℂ) = -(2 * Real.pi * Complex.I) by ring, Complex.exp_neg,
      Complex.exp_two_pi_mul_I, inv_one]
  have hsky : skyOf false (Conv.one 1) = skyOf true (Conv.one 1) := by
    unfold skyOf
    congr 1
    funext l m
    simp [extended, Conv.one]
  have hbeam : beamOf false Conv.symb = beamOf true Conv.symb := by
    unfold beamOf
    congr 1
    funext l m
    simp [beamMode, extended, Conv.symb]
  have hang : 2 * (Real.pi / 2) = Real.pi := by ring
  refine ⟨?_, ?_, ?_⟩
  · have hamp := waveLayer_amplitudes 2 2
    norm_num at hamp
    have hp := pi_pos
    rw [C131_matrix _ (by simp) 150 0 (by norm_num) (by simpa using hp) (by
      intro x hx
      rw [List.mem_singleton.1 hx]
      exact waveLayer_aligned (by norm_num) (by norm_num) 0)]
    norm_num
    rw [hamp]
  · rw [C129_any Conv.Y Conv.Y_conj Conv.Y_vanishing Demo.ext Demo.ext_ok Demo.mission
      (Conv.det_ok (Conv.one 1) _ 90 true) (Conv.one_real 1 4) (fun g hg => by
        rw [List.mem_singleton.1 hg]
        exact ⟨Conv.symb_real _, Conv.symb_copolar, Or.inl rfl⟩) (fun _ => waveplate 1 1) (fun g hg => by
        rw [List.mem_singleton.1 hg]
        rfl) 1 one_pos Demo.sub false true Demo.st 1 2 Demo.sub_ok _ (fun _ _ => rfl)]
    have hp : (Conv.det (some (realMat (waveplate 1 1))) 90 true).point.polang * Real.pi / 180 =
        Real.pi / 2 := by
      show (90 : ℝ) * Real.pi / 180 = Real.pi / 2
      ring
    have e : ∀ k, convolved Conv.Y 1 (min 4 4) {0} {2} (skyOf false (Conv.one 1))
        (turnedPlate (sampleOf Demo.ext Demo.st false 1 1
          (Conv.det (some (realMat (waveplate 1 1))) 90 true).point k).alpha (acted (Real.pi / 2) (waveplate 1 1))
          (turned (-(Real.pi / 2)) (beamOf false Conv.symb)))
        (sampleOf Demo.ext Demo.st false 1 1 (Conv.det (some (realMat (waveplate 1 1))) 90 true).point k) =
          -3 := by
      intro k
      rw [Conv.sample, hsky, hbeam, min_self,
        Conv.signal_one _ _ _ _ _ hpi (fun _ => rfl), if_neg one_ne_zero, if_pos rfl, hang, add_comm Real.pi,
        cos_add_pi, sin_add_pi]
      simp [acted, hang, waveplate]
      nlinarith [sin_sq_add_cos_sq (2 * alphaAt Demo.st.hwpAng k)]
    simp only [hp, e, List.filter_nil, List.map_nil, List.sum_nil, add_zero]
    rfl
  · intro k y hy
    rw [hy, Conv.sample, hsky, hbeam, Conv.signal_one _ _ _ _ _ hpi (fun _ => rfl), if_neg one_ne_zero,
      if_pos rfl, hang, add_comm Real.pi, cos_add_pi, sin_add_pi]
    simp [waveplate]
    nlinarith [sin_sq_add_cos_sq (2 * alphaAt Demo.st.hwpAng k)]

end Verif.Props
