import Verif.Props.FocalScan
import Verif.Props.AlignedPlate

/-!
# C135: maps behind half-wave plates
-/

noncomputable section

namespace Verif.Props

open Verif.Chunks Verif.Timeline Verif.Spinmaps Verif.MapMaking Verif.ScanInstrument Verif.Spec
open Verif.Beam (Heap Ref Val Obj Env Key Dict LimitFree)
open Verif.ScanObjects (ObjPair ObjWorld Prepared Settled Coefs PairOf skyMaker)
open Verif.FocalScan (SharesBeam GaussianOf GridOptions grid gaussI gaussP Plain Lone HalfWave)
open Verif.Spec.AlignedPlate (Uniaxial Aligned waveplate amplitudes)

variable {E : Type}

/-- **C135.** Pairs of detectors with the same symmetric co-polar beam and the Mueller matrix of a half-wave
plate that multiplies I by `t` and makes `k (Q - iU)` of `Q + iU`, at any angles of the plate and any
polarization angles: the map has `t` times the I and `k` times the `Q + iU` of C119. -/
theorem C135_objects (Y : Harmonics) (hY : Conjugation Y) (hV : Vanishing Y) (s : ObjWorld E) (hf : LimitFree s.env)
    (hx : ExtOk s.w.x) (hq : PixOk s.w.q) (hso : SolveOk s.w.q) (iau : Bool) (hxq : Agree s.w.x s.w.q iau)
    (hns : 0 < s.w.nsideOut) (M : Motion) (o : Opts) (hbin : o.binning = true)
    (hpre : o.preview = false) (hgr : o.ground = false) (hre : o.reuseSpinmaps = false)
    (hint : o.interp = false) (hct : o.ctalk = 0) (N : Nat) (chunks : List Chunk)
    (hmi : Mission N chunks) (hang : ∀ c ∈ chunks, c.hwpang = none)
    (hbore : ∀ t, t < N → IsRot (M.bore t)) {Ls : Nat} {alm : List (List ℂ)}
    {sky : Nat → Nat → Nat → ℂ} {beamV : Bool} (blmOf : Nat → List (List ℂ))
    (muOf : Nat → Spin.Mat4) (hs : s.sky = skyMaker Y alm s.w.nsideOut false beamV blmOf muOf)
    (hsky : RealSky Ls sky) (hrows : HasRows Ls (nrows false) alm sky)
    (c : Coefs) (hb : RealBeam c.L c.b) (hax : CoPolar c.b)
    (hrows' : HasRows c.L (nrows beamV) (blmOf c.n) c.b)
    (hlen' : beamV = true → (blmOf c.n).length = 4) (err : ℝ) (h : Heap ℝ) (beams : List ObjPair)
    (qs : List Pair) (n : Nat) {plate : Fin 4 → Fin 4 → ℝ}
    {t : ℝ} {k : ℂ} (hn : muOf n = realMat plate) (hpl : HalfWave plate t k) (hL : 4 ≤ min Ls c.L)
    (hp : List.Forall₂ (SharesBeam s h Ls c (some n) err) beams qs)
    (l : List (Inst E × Bool × Nat))
    (hl : ∀ x ∈ l, Ready s.w chunks x.1 ∧ Rotates N chunks x.1.rot M.rot ∧
      Plate s.w.fsamp N x.1.hwp M.alpha ∧ Steady s.w M chunks x.1.el ∧ 0 < x.2.2 ∧
      (x.2.1 = false → x.2.2 = 1)) (fill : ℝ) :
    ∃ ms h', ScanObjects.scans s o beams l h = .ok (ms, h') ∧ ms.length = l.length ∧ ∀ m ∈ ms,
      ∀ p, p < 12 * s.w.nsideOut ^ 2 →
        (ThreeAngles (here p (seenBy M s.w N qs)) →
          (solveForMap s.w.q m fill)[p]? = some (MapMaking.stokes iau
            (t * smoothI Y s.w.nsideOut (min Ls c.L) (skyOf false sky) (beamOf beamV c.b) p)
            (k * (smoothP Y s.w.nsideOut (min Ls c.L) (skyOf false sky) (beamOf beamV c.b) p *
              Complex.exp (2 * ((err + 2 * s.w.varphi) * Real.pi / 180 : ℝ) * Complex.I))))) ∧
        (here p (seenBy M s.w N qs) = [] →
          (solveForMap s.w.q m fill)[p]? = some fun _ => fill) := by
  have := FocalScan.objects_talk Y hY s hf hx hq hso iau hxq hns M o hbin hpre hgr hre hint N chunks
    hmi hang hbore blmOf muOf hs hsky hrows (by simp) c hb hax.1 hrows' hlen' err h beams qs (some n) t k
    (.inr ⟨n, plate, rfl, hV, hn, hpl, rfl, hax, hL⟩) 1 1 (fun q hq => .inr ⟨.inl hct, rfl, rfl⟩) hp l hl fill
  simp only [one_mul, Complex.ofReal_one, FocalScan.behind_smoothI, FocalScan.behind_smoothP _ _ _ _ _ _ hax.1]
    at this
  simpa only [mul_assoc] using this

/-- **C135.** A user creates a focal plane of Gaussian beams with `create_focal_plane`, with the Mueller
matrix of a half-wave plate as `hwp_mueller`, scans a sky with it, any number of times, with and without MPI
and with any numbers of ranks, and solves for the map: I is `t` times and `Q + iU` is `k` times that of
C119. -/
theorem C135_gaussian (Y : Harmonics) (hY : Conjugation Y) (hV : Vanishing Y) (s : ObjWorld E) (hf : LimitFree s.env)
    (hpi : s.env.pi = Real.pi) (hx : ExtOk s.w.x) (hrot : ∀ az el, IsRot (s.w.x.detOffset az el 0))
    (hq : PixOk s.w.q) (hso : SolveOk s.w.q) (iau : Bool) (hxq : Agree s.w.x s.w.q iau)
    (hns : 0 < s.w.nsideOut) (M : Motion) (o : Opts) (hbin : o.binning = true)
    (hpre : o.preview = false) (hgr : o.ground = false) (hre : o.reuseSpinmaps = false)
    (hint : o.interp = false) (hct : o.ctalk = 0) (N : Nat) (chunks : List Chunk)
    (hmi : Mission N chunks) (hang : ∀ c ∈ chunks, c.hwpang = none)
    (hbore : ∀ t, t < N → IsRot (M.bore t)) {Ls : Nat} {alm : List (List ℂ)}
    {sky : Nat → Nat → Nat → ℂ} (blmOf : Nat → List (List ℂ))
    (muOf : Nat → Spin.Mat4) (hs : s.sky = skyMaker Y alm s.w.nsideOut false false blmOf muOf)
    (hsky : RealSky Ls sky) (hrows : HasRows Ls (nrows false) alm sky)
    -- the focal plane
    (rng : Nat → ℝ) (p : FocalPlane.Plane ℝ)
    (hr : FocalPlane.PReachable s.env rng (fun _ op => FocalPlane.NoCount op) p)
    (nrow ncol : Int) (hrow : 0 ≤ nrow) (hcol : 0 ≤ ncol) (fov : ℝ) (noPairs : Bool)
    (abDiff : Val ℝ) (combine : Bool) (hnew : combine = false ∨ p.beams = [])
    (kw : Dict ℝ) {F A pol diff err : ℝ} {L i : Nat} {mm : Int} {dead sym : Bool}
    (hkw : GridOptions kw abDiff F A pol diff err L mm dead sym (some i))
    (h0 : 0 ≤ min mm s.maxSpin) (h1 : min mm s.maxSpin ≤ (min Ls L : Nat)) (h2 : 4 ≤ min Ls L)
    (h3 : sym = true ∨ 2 ≤ min mm s.maxSpin)
    -- Mueller matrix number `i` is that of a half-wave plate
    {plate : Fin 4 → Fin 4 → ℝ} {t : ℝ} {k : ℂ} (hn : muOf i = realMat plate) (hpl : HalfWave plate t k)
    -- its coefficients are the array number `n`, made by `gen_gaussian_blm`
    (n : Nat) (hload : ∀ a, GaussianOf a F A L → s.env.loadBlm a = .ok (.obj n, none))
    (fs : BeamCoef.Files) (G : BeamCoef.Attrs)
    (hG : G.btype = "Gaussian" ∧ G.lmax = L ∧ G.fwhm = F ∧ G.amplitude = A)
    (hblm : (BeamCoef.blm fs G).map Prod.fst = .ok (blmOf n))
    -- the scans
    (l : List (Inst E × Bool × Nat))
    (hl : ∀ x ∈ l, Ready s.w chunks x.1 ∧ Rotates N chunks x.1.rot M.rot ∧
      Plate s.w.fsamp N x.1.hwp M.alpha ∧ Steady s.w M chunks x.1.el ∧ 0 < x.2.2 ∧
      (x.2.1 = false → x.2.2 = 1)) (fill : ℝ) :
    let r := (FocalPlane.createFocalPlane s.env nrow ncol fov noPairs abDiff combine kw).run p
    let seen := seenBy M s.w N (grid nrow ncol fov pol diff err dead noPairs)
    r.1 = .ok () ∧ ∃ ms h', ScanObjects.scans s o r.2.beams l r.2.heap = .ok (ms, h') ∧
      ms.length = l.length ∧ ∀ m ∈ ms, ∀ j, j < 12 * s.w.nsideOut ^ 2 →
        (ThreeAngles (here j seen) → (solveForMap s.w.q m fill)[j]? = some (MapMaking.stokes iau
            (t * gaussI Y s.w.nsideOut (min Ls L) (skyOf false sky) F A j)
            (k * (gaussP Y s.w.nsideOut (min Ls L) (skyOf false sky) F A j *
              Complex.exp (2 * ((err + 2 * s.w.varphi) * Real.pi / 180 : ℝ) * Complex.I))))) ∧
        (here j seen = [] → (solveForMap s.w.q m fill)[j]? = some fun _ => fill) := by
  intro r seen
  have hok := FocalPlane.C69_succeeds s.env p nrow ncol hrow hcol fov noPairs abDiff combine hnew kw
    (FocalScan.grid_good hkw (by omega)).1 (FocalScan.grid_good hkw (by omega)).2
  refine ⟨hok, ?_⟩
  obtain ⟨g1, g2, rfl, rfl⟩ := hG
  obtain ⟨rows, mG, hrG, hrG'⟩ : ∃ rows mG, BeamCoef.blm fs G = .ok (rows, mG) ∧ rows = blmOf n := by
    rcases e : BeamCoef.blm fs G with er | ⟨rows, mG⟩ <;> rw [e] at hblm
    · cases hblm
    · exact ⟨rows, mG, rfl, Except.ok.inj hblm⟩
  subst hrG'
  have hrows' := FocalScan.gaussRows_has fs G g1 L (by omega) g2 hrG
  have hsh := FocalScan.grid_shares s hpi rng p hr nrow ncol fov noPairs abDiff combine hnew kw hkw hok hrot
    ⟨n, L, FocalScan.gaussRows G.fwhm G.amplitude⟩ rfl hload Ls h0 h1 (by
      cases sym
      · rw [if_neg (by simp)]
        rcases h3 with h | h
        · cases h
        · exact h
      · simp only [if_true]
        omega)
  have := C135_objects Y hY hV s hf hx hq hso iau hxq hns M o hbin hpre hgr hre hint hct N chunks hmi hang
    hbore (beamV := false) blmOf muOf hs hsky hrows
    ⟨n, L, FocalScan.gaussRows G.fwhm G.amplitude⟩ (FocalScan.gaussRows_real _ _ _)
    ⟨FocalScan.gaussRows_axi _ _, fun l => by
      simp only [FocalScan.gaussRows, if_true, if_neg (show (1 : Nat) ≠ 0 by decide)]
      exact Complex.conj_ofReal _⟩ hrows' (by simp) err
    r.2.heap r.2.beams _ i hn hpl h2 hsh l hl fill
  obtain ⟨ms, h', k1, k2, k3⟩ := this
  refine ⟨ms, h', k1, k2, fun m hm j hj => ?_⟩
  have := k3 m hm j hj
  rw [FocalScan.smoothI_gauss, FocalScan.smoothP_gauss] at this
  exact this

/-- **C135, layers.** Aligned layers that let pass opposite amplitudes along and across their axis have the
Mueller matrix of a half-wave plate with transmission `|p|²`. -/
theorem C135_layers (l : List Uniaxial) (hne : l ≠ []) (freq i : ℝ) (hf : 0 ≤ freq) (hi : |i| < Real.pi / 2)
    (h : ∀ x ∈ l, Aligned (Real.sin i) x) (p : ℂ) (hp : amplitudes (1e9 * freq) i l = (p, -p)) :
    ∃ M, Optics.computeMueller (some (stackOf l)) freq i = .ok (Matrix.of M) ∧
      HalfWave M (Complex.normSq p) (Complex.normSq p) := by
  refine ⟨_, C131_matrix l hne freq i hf hi h, ?_⟩
  rw [hp]
  have hz : p * star (-p) = ((-Complex.normSq p : ℝ) : ℂ) := by
    rw [star_neg, mul_neg]
    show -(p * (starRingEnd ℂ) p) = _
    rw [Complex.mul_conj]
    push_cast
    rfl
  refine ⟨⟨?_, ?_, ?_, ?_, ?_⟩, ⟨?_, ?_, ?_, ?_⟩, ?_, ?_, ?_⟩ <;> simp only [waveplate, hz] <;> simp

/-! ## The hypotheses are met -/

namespace Gridded

open Rec Whole

/-- A half-wave plate that lets pass half of I and a quarter of Q and U, with its axis at 22.5 degrees. -/
def slab : Fin 4 → Fin 4 → ℝ :=
  ![![1 / 2, 0, 0, 0], ![0, 0, 1 / 4, 0], ![0, 1 / 4, 0, 0], ![0, 0, 0, -1 / 4]]

theorem slab_half : HalfWave slab (1 / 2) (Complex.I / 4) := by
  have r : (Complex.I / 4).re = 0 := by simp
  have i : (Complex.I / 4).im = 1 / 4 := by simp
  refine ⟨⟨?_, ?_, ?_, ?_, ?_⟩, ⟨?_, ?_, ?_, ?_⟩, ?_, ?_, ?_⟩ <;> simp [slab, r, i]

/-- The world of `C119`, with this plate as array 0. -/
def sp : ObjWorld Unit :=
  ⟨Whole.w, env, skyMaker Conv.Y (Conv.rows 5 3 (Conv.coef 1)) 1 false false (fun _ => gauss)
    (fun _ => realMat slab), fun _ _ _ _ => .error .runtimeError, 4⟩

def kwp : Dict ℝ := [(.lmax, .int 5), (.fwhm, .num (-60)), (.polangError, .num 7), (.hwpMueller, .obj 0)]

theorem optionsp : GridOptions kwp (.num 90) 60 1 0 90 7 5 5 false false (some 0) := by
  refine ⟨?_, ?_, ?_, .inl ⟨?_, rfl⟩, .inr ⟨-60, ?_, by norm_num⟩, ?_, ?_, ?_, ?_, ?_, ?_, ?_⟩ <;>
    simp [kwp, FocalScan.parameters, Dict.get?, List.lookup, Val.toNum, Val.truthy,
      show ∀ a b : Key, (a == b) = decide (a = b) from fun _ _ => rfl]

/-- The hypotheses of `C135_gaussian` are met. -/
example (fill : ℝ) :
    let r := (FocalPlane.createFocalPlane env 1 1 10 true (.num 90) false kwp).run FocalPlane.emptyPlane
    r.1 = .ok () ∧ ∃ ms h', ScanObjects.scans sp o r.2.beams [(i, false, 1), (i, true, 2)] r.2.heap =
        .ok (ms, h') ∧ ms.length = 2 ∧ ∀ m ∈ ms,
      (solveForMap qp m fill)[0]? = some (MapMaking.stokes false
        ((1 / 2 : ℝ) * gaussI Conv.Y 1 5 (skyOf false (Conv.coef 1)) 60 1 0)
        (Complex.I / 4 * (gaussP Conv.Y 1 5 (skyOf false (Conv.coef 1)) 60 1 0 *
          Complex.exp (2 * ((7 + 2 * 0) * Real.pi / 180 : ℝ) * Complex.I)))) := by
  obtain ⟨h1, ms, h', h2, h3, h4⟩ := C135_gaussian Conv.Y Conv.Y_conj Conv.Y_vanishing sp free rfl ext_ok
    (fun _ _ => one_rot) pix_ok solve_ok false agree one_pos M o rfl rfl rfl rfl rfl rfl 3 chunks mission_ok
    (by decide) (fun _ _ => one_rot) (fun _ => gauss) (fun _ => realMat slab) rfl (Conv.coef_real 1 5)
    (Conv.rows_ok _ _ _) (fun _ => 0) FocalPlane.emptyPlane .start 1 1 (by norm_num)
    (by norm_num) 10 true (.num 90) false (.inl rfl) kwp optionsp (by decide) (by decide) (by decide)
    (.inr (by decide)) rfl slab_half 1 (fun a ha => by simp [sp, env, ha]) fs G ⟨rfl, rfl, rfl, rfl⟩ blm_ok
    [(i, false, 1), (i, true, 2)] (by
      intro x hx
      simp only [List.mem_cons, List.not_mem_nil, or_false] at hx
      rcases hx with rfl | rfl
      · exact ⟨ready, rotates, plate, repeats.steady, one_pos, fun _ => rfl⟩
      · exact ⟨ready, rotates, plate, repeats.steady, two_pos, fun h => by cases h⟩) fill
  refine ⟨h1, ms, h', h2, h3, fun m hm => (h4 m hm 0 (by decide)).1 ?_⟩
  have : seenBy M sp.w 3 (grid 1 1 10 0 90 7 false true) = seenBy M Whole.w 3 Whole.beams := by
    rw [grid_eq]
    rfl
  rw [this]
  exact Whole.three

/-- The hypotheses of `C135_layers` are met: a layer that is a half-wave plate at 150 GHz. -/
example : ∃ M, Optics.computeMueller (some (stackOf [waveLayer 2 4])) 150 0 = .ok (Matrix.of M) ∧
    HalfWave M 1 1 := by
  have := C135_layers [waveLayer 2 4] (by simp) 150 0 (by norm_num) (by simpa using Real.pi_div_two_pos) (by
    intro x hx
    rw [List.mem_singleton.1 hx]
    exact waveLayer_aligned (by norm_num) (by norm_num) 0) 1 (by
      have := waveLayer_amplitudes 1 2
      norm_num at this ⊢
      exact this)
  simpa using this

end Gridded

end Verif.Props
