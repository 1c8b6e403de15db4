import Verif.Props.Noise
import Verif.Props.ScanInstrument

/-!
# C156: null tests
-/

noncomputable section

namespace Verif.Props

open Verif.Chunks Verif.Timeline Verif.Spinmaps Verif.MapMaking Verif.ScanInstrument Verif.Spec MeasureTheory

variable {E : Type}

namespace Noise

/-- The solved map of observations of a sky. -/
theorem of_sky (q : QExt) (hs : SolveOk q) {nside n : Nat} (obs : Fin n → Obs)
    (hu : ∀ k, (obs k).c ^ 2 + (obs k).s ^ 2 = 1) (sky : Int → Fin 3 → ℝ) (hsky : ∀ k, (obs k).d = (obs k).of sky)
    (fill : ℝ) {p : Nat} (hp : p < 12 * nside ^ 2) (h3 : ThreeAngles (here p ((List.finRange n).map obs))) :
    (projAt ((List.finRange n).map obs) p).det ≠ 0 ∧ ∀ (d : Fin n → ℝ) (m : Maps),
      Holds nside m ((List.finRange n).map fun k => (obs k).reading ((obs k).d + d k)) →
      (solveForMap q m fill)[p]? = some (sky p + fun i =>
        ∑ k, ((projAt ((List.finRange n).map obs) p)⁻¹.mulVec (z p (obs k))) i * d k) := by
  obtain ⟨v, c, v1, c1, hd, hP, hx⟩ := solved q hs obs hu (holds_mapsOf nside _) fill hp h3
  rw [hP] at hd hx
  have hunit : IsUnit (projAt ((List.finRange n).map obs) p).det := isUnit_iff_ne_zero.2 hd
  obtain ⟨v', w1, w2⟩ := BestFit.normal q hs (holds_mapsOf nside ((List.finRange n).map obs)) (by
    intro o ho
    obtain ⟨k, -, rfl⟩ := List.mem_map.1 ho
    exact hu k) fill hp h3
  have : v' = v := Option.some.inj (w1.symm.trans v1)
  subst this
  have e : vecAt ((List.finRange n).map obs) p = ∑ k, (obs k).d • z p (obs k) := vec_sum obs (fun k => (obs k).d) p
  have hv : v' = sky p := by
    have h1 : v' = (projAt ((List.finRange n).map obs) p)⁻¹.mulVec (∑ k, (obs k).d • z p (obs k)) := by
      rw [← e, ← w2, Matrix.mulVec_mulVec, Matrix.nonsing_inv_mul _ hunit, Matrix.one_mulVec]
    funext i
    rw [← recovers hd obs p (proj_sum obs p) i sky, h1, Matrix.mulVec_sum, Finset.sum_apply]
    refine Finset.sum_congr rfl fun k _ => ?_
    rw [Matrix.mulVec_smul, Pi.smul_apply, smul_eq_mul, mul_comm, hsky]
  rw [hv] at hx
  exact ⟨hd, hx⟩

end Noise

open Noise

/-- **C156.** Two maps are made of different samples of the same sky, with white noise.  Where both are solved,
their difference has mean zero, whatever the sky, and its covariance is the sum of those of the two maps. -/
theorem C156_null {Ω : Type} [MeasurableSpace Ω] (μ : Measure Ω) [IsProbabilityMeasure μ] (q : QExt)
    (hs : SolveOk q) {nside n r : Nat} (obs : Fin (n + r) → Obs) (hu : ∀ k, (obs k).c ^ 2 + (obs k).s ^ 2 = 1)
    (sky : Int → Fin 3 → ℝ) (hsky : ∀ k, (obs k).d = (obs k).of sky) (noise : Fin (n + r) → Ω → ℝ) (var : ℝ)
    (hw : White μ noise var) {one two : Ω → Maps}
    (h1 : ∀ ω, Holds nside (one ω) ((List.finRange n).map fun k =>
      (obs (k.castAdd r)).reading ((obs (k.castAdd r)).d + noise (k.castAdd r) ω)))
    (h2 : ∀ ω, Holds nside (two ω) ((List.finRange r).map fun k =>
      (obs (k.natAdd n)).reading ((obs (k.natAdd n)).d + noise (k.natAdd n) ω)))
    (fill : ℝ) {p : Nat} (hp : p < 12 * nside ^ 2)
    (h3 : ThreeAngles (here p ((List.finRange n).map fun k => obs (k.castAdd r))))
    (h3' : ThreeAngles (here p ((List.finRange r).map fun k => obs (k.natAdd n)))) :
    ∃ x y : Ω → Fin 3 → ℝ, (∀ ω, (solveForMap q (one ω) fill)[p]? = some (x ω)) ∧
      (∀ ω, (solveForMap q (two ω) fill)[p]? = some (y ω)) ∧ (∀ i, ∫ ω, (x ω i - y ω i) ∂μ = 0) ∧
      ∀ i j, ∫ ω, (x ω i - y ω i) * (x ω j - y ω j) ∂μ =
        var * ((projAt ((List.finRange n).map fun k => obs (k.castAdd r)) p)⁻¹ i j +
          (projAt ((List.finRange r).map fun k => obs (k.natAdd n)) p)⁻¹ i j) := by
  obtain ⟨d1, e1⟩ := of_sky q hs (fun k => obs (k.castAdd r)) (fun k => hu _) sky (fun k => hsky _) fill hp h3
  obtain ⟨d2, e2⟩ := of_sky q hs (fun k => obs (k.natAdd n)) (fun k => hu _) sky (fun k => hsky _) fill hp h3'
  refine ⟨_, _, fun ω => e1 _ _ (h1 ω), fun ω => e2 _ _ (h2 ω), ?_⟩
  have g1 := gram d1 (fun k => z p (obs (k.castAdd r))) (proj_sum _ p)
  have g2 := gram d2 (fun k => z p (obs (k.natAdd n))) (proj_sum _ p)
  generalize (projAt ((List.finRange n).map fun k => obs (k.castAdd r)) p)⁻¹ = A at g1 ⊢
  generalize (projAt ((List.finRange r).map fun k => obs (k.natAdd n)) p)⁻¹ = B at g2 ⊢
  have e : ∀ i ω, ((sky p + fun i => ∑ k : Fin n, (A.mulVec (z p (obs (k.castAdd r)))) i * noise (k.castAdd r) ω) i -
      (sky p + fun i => ∑ k : Fin r, (B.mulVec (z p (obs (k.natAdd n)))) i * noise (k.natAdd n) ω) i) =
      ∑ k, (Fin.addCases (fun k => (A.mulVec (z p (obs (k.castAdd r)))) i)
        (fun k => -(B.mulVec (z p (obs (k.natAdd n)))) i) k : ℝ) * noise k ω := by
    intro i ω
    rw [Fin.sum_univ_add]
    simp only [Fin.addCases_left, Fin.addCases_right, Pi.add_apply, neg_mul, Finset.sum_neg_distrib]
    ring
  constructor
  · intro i
    simp only [e]
    exact Noise.mean hw _
  · intro i j
    simp only [e]
    rw [Noise.cov hw, Fin.sum_univ_add]
    simp only [Fin.addCases_left, Fin.addCases_right, neg_mul_neg]
    rw [g1, g2]

/-- **C156, scans.** Two scans of the same sky by detectors with the same symmetric beam, which may differ in
mission, chunks, pointing, plate, boresight rotation, detectors, options and number of ranks, give the same map in all
pixels that both solve. -/
theorem C156_scans (Y : Harmonics) (hY : Conjugation Y) (w : World E) (hx : ExtOk w.x)
    (hq : PixOk w.q) (hs : SolveOk w.q) (iau : Bool) (hxq : Agree w.x w.q iau) (hns : 0 < w.nsideOut)
    {Ls L : Nat} {alm : List (List ℂ)} {a b : Nat → Nat → Nat → ℂ} {maxSpin : Int}
    {inputV beamV : Bool} (ha : RealSky Ls a) (hb : RealBeam L b) (err : ℝ) (fill : ℝ)
    (M : Motion) (o : Opts) (hbin : o.binning = true) (hpre : o.preview = false)
    (hgr : o.ground = false) (hre : o.reuseSpinmaps = false) (hint : o.interp = false)
    (hct : o.ctalk = 0) (N : Nat) (chunks : List Chunk) (hmi : Mission N chunks)
    (hang : ∀ c ∈ chunks, c.hwpang = none) (i : Inst E) (hi : Ready w chunks i)
    (hrot : Rotates N chunks i.rot M.rot) (hhwp : Plate w.fsamp N i.hwp M.alpha)
    (hst : Steady w M chunks i.el) (hbore : ∀ t, t < N → IsRot (M.bore t))
    (data : BinBeam → BeamData) (beams : List Pair)
    (hideal : ∀ p ∈ beams, IdealPair w Y Ls L alm a b maxSpin inputV beamV err data p)
    (size : Nat) (hsize : 0 < size)
    (M' : Motion) (o' : Opts) (hbin' : o'.binning = true) (hpre' : o'.preview = false)
    (hgr' : o'.ground = false) (hre' : o'.reuseSpinmaps = false) (hint' : o'.interp = false)
    (hct' : o'.ctalk = 0) (N' : Nat) (chunks' : List Chunk) (hmi' : Mission N' chunks')
    (hang' : ∀ c ∈ chunks', c.hwpang = none) (i' : Inst E) (hi' : Ready w chunks' i')
    (hrot' : Rotates N' chunks' i'.rot M'.rot) (hhwp' : Plate w.fsamp N' i'.hwp M'.alpha)
    (hst' : Steady w M' chunks' i'.el) (hbore' : ∀ t, t < N' → IsRot (M'.bore t))
    (data' : BinBeam → BeamData) (beams' : List Pair)
    (hideal' : ∀ p ∈ beams', IdealPair w Y Ls L alm a b maxSpin inputV beamV err data' p)
    (size' : Nat) (hsize' : 0 < size') :
    ∃ m m', scanAll w o beams true size i = .ok m ∧ scanAll w o' beams' true size' i' = .ok m' ∧
      ∀ p, p < 12 * w.nsideOut ^ 2 → ThreeAngles (here p (seenBy M w N beams)) →
        ThreeAngles (here p (seenBy M' w N' beams')) →
        ∃ v, (solveForMap w.q m fill)[p]? = some v ∧ (solveForMap w.q m' fill)[p]? = some v := by
  obtain ⟨m, h1, h2⟩ := C98_recovery Y hY w hx hq hs iau hxq hns M o hbin hpre hgr hre hint hct N chunks hmi hang i hi
    hrot hhwp hst hbore ha hb err data beams hideal size hsize fill
  obtain ⟨m', h1', h2'⟩ := C98_recovery Y hY w hx hq hs iau hxq hns M' o' hbin' hpre' hgr' hre' hint' hct' N' chunks'
    hmi' hang' i' hi' hrot' hhwp' hst' hbore' ha hb err data' beams' hideal' size' hsize' fill
  exact ⟨m, m', h1, h1', fun p hp h3 h3' => ⟨_, (h2 p hp).1 h3, (h2' p hp).1 h3'⟩⟩

/-- Six observations of pixel 4 with the Stokes parameters 3, 1, 2, in two sets. -/
def skyObs : Fin (3 + 3) → Obs :=
  ![⟨4, 1, 0, 4⟩, ⟨4, 0, 1, 5⟩, ⟨4, -1, 0, 2⟩, ⟨4, 1, 0, 4⟩, ⟨4, 0, -1, 1⟩, ⟨4, -1, 0, 2⟩]

/-- The hypotheses of `C156_null` are met. -/
example (fill : ℝ) : ∃ (μ : Measure (Fin 6 × Bool)) (x y : Fin 6 × Bool → Fin 3 → ℝ), IsProbabilityMeasure μ ∧
    ∀ i, ∫ ω, (x ω i - y ω i) ∂μ = 0 := by
  obtain ⟨μ, noise, hμ, hw⟩ := Noise.white 6
  obtain ⟨x, y, -, -, h, -⟩ := C156_null (n := 3) (r := 3) μ Rec.qp Rec.solve_ok (nside := 1) skyObs (by
      intro k
      fin_cases k <;> simp [skyObs]) (fun _ => ![3, 1, 2]) (by
      intro k
      fin_cases k <;> simp [skyObs, Obs.of] <;> norm_num) noise 1 hw (fun ω => holds_mapsOf 1 _)
    (fun ω => holds_mapsOf 1 _) fill (by norm_num : 4 < 12 * 1 ^ 2) (by
      have : (List.finRange 3).map (fun k => skyObs (k.castAdd 3)) =
          [⟨4, 1, 0, 4⟩, ⟨4, 0, 1, 5⟩, ⟨4, -1, 0, 2⟩] := rfl
      rw [this]
      refine ⟨⟨4, 1, 0, 4⟩, by simp [here], ⟨4, 0, 1, 5⟩, by simp [here], ⟨4, -1, 0, 2⟩, by simp [here], ?_, ?_, ?_⟩ <;>
        norm_num) (by
      have : (List.finRange 3).map (fun k => skyObs (k.natAdd 3)) =
          [⟨4, 1, 0, 4⟩, ⟨4, 0, -1, 1⟩, ⟨4, -1, 0, 2⟩] := rfl
      rw [this]
      refine ⟨⟨4, 1, 0, 4⟩, by simp [here], ⟨4, 0, -1, 1⟩, by simp [here], ⟨4, -1, 0, 2⟩, by simp [here], ?_, ?_, ?_⟩ <;>
        norm_num)
  exact ⟨μ, x, y, hμ, h⟩

open Rec Whole in
/-- The hypotheses of `C156_scans` are met: other pairs on another number of ranks. -/
example (fill : ℝ) : ∃ m m', scanAll w o beams true 2 i = .ok m ∧ scanAll w o (beams.take 1) true 3 i = .ok m' ∧
    ∃ v, (solveForMap qp m fill)[0]? = some v ∧ (solveForMap qp m' fill)[0]? = some v := by
  have hb : seenBy Whole.M Whole.w 3 (beams.take 1) = seenBy Whole.M Whole.w 3 beams := by
    simp only [seenBy, beams, List.take_succ_cons, List.take_zero, List.flatMap_cons, List.flatMap_nil]
    simp [pairObs, live]
  obtain ⟨m, m', h1, h2, h⟩ := C156_scans Conv.Y Conv.Y_conj w ext_ok pix_ok solve_ok false agree one_pos
    (Conv.coef_real 1 5) (Conv.bcoef_real 2 6) 7 fill M o rfl rfl rfl rfl rfl rfl 3 chunks mission_ok (by decide) i
    ready rotates plate repeats.steady (fun _ _ => one_rot) (fun _ => det.data) beams ideal 2 two_pos
    M o rfl rfl rfl rfl rfl rfl 3 chunks mission_ok (by decide) i ready rotates plate repeats.steady
    (fun _ _ => one_rot) (fun _ => det.data) (beams.take 1) (fun p hp => ideal p (List.mem_of_mem_take hp)) 3
    (by norm_num)
  exact ⟨m, m', h1, h2, h 0 (by decide) Whole.three (by rw [hb]; exact Whole.three)⟩

end Verif.Props
