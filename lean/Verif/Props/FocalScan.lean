import Verif.Lemmas.CrossTalk

/-!
# C119: from the focal plane to the map
-/

noncomputable section

namespace Verif.Props

open Verif.Chunks Verif.Timeline Verif.Spinmaps Verif.MapMaking Verif.ScanInstrument Verif.Spec
open Verif.Beam (Heap Ref Val Obj Env Key Dict LimitFree)
open Verif.ScanObjects (ObjPair ObjWorld Prepared Settled Coefs PairOf skyMaker)
open Verif.FocalScan (SharesBeam GaussianOf GridOptions grid gaussI gaussP Plain Lone)

variable {E : Type}

/-- **C119, objects.** Pairs of detector objects that share a beam which is symmetric around its axis
scan a sky, any number of times, with and without MPI and with any numbers of ranks.  In every pixel seen
under three angles the solution of the maps of each scan is the sky seen through the beam, exactly (the
polarization rotated by `2 (err + 2 varphi)`); pixels not seen are filled.  The option `symmetric` does
not matter if the azimuthal limit is at least 2. -/
theorem C119_objects (Y : Harmonics) (hY : Conjugation Y) (s : ObjWorld E) (hf : LimitFree s.env)
    (hx : ExtOk s.w.x) (hq : PixOk s.w.q) (hso : SolveOk s.w.q) (iau : Bool) (hxq : Agree s.w.x s.w.q iau)
    (hns : 0 < s.w.nsideOut) (M : Motion) (o : Opts) (hbin : o.binning = true)
    (hpre : o.preview = false) (hgr : o.ground = false) (hre : o.reuseSpinmaps = false)
    (hint : o.interp = false) (hct : o.ctalk = 0) (N : Nat) (chunks : List Chunk)
    (hmi : Mission N chunks) (hang : ∀ c ∈ chunks, c.hwpang = none)
    (hbore : ∀ t, t < N → IsRot (M.bore t)) {Ls : Nat} {alm : List (List ℂ)}
    {sky : Nat → Nat → Nat → ℂ} {inputV beamV : Bool} (blmOf : Nat → List (List ℂ))
    (muOf : Nat → Spin.Mat4) (hs : s.sky = skyMaker Y alm s.w.nsideOut inputV beamV blmOf muOf)
    (hsky : RealSky Ls sky) (hrows : HasRows Ls (nrows inputV) alm sky)
    (hlen : inputV = true → alm.length = 4) (c : Coefs) (hb : RealBeam c.L c.b) (hax : AxiSym c.b)
    (hrows' : HasRows c.L (nrows beamV) (blmOf c.n) c.b)
    (hlen' : beamV = true → (blmOf c.n).length = 4) (err : ℝ) (h : Heap ℝ) (beams : List ObjPair)
    (qs : List Pair) (hp : List.Forall₂ (SharesBeam s h Ls c none err) beams qs)
    (l : List (Inst E × Bool × Nat))
    (hl : ∀ x ∈ l, Ready s.w chunks x.1 ∧ Rotates N chunks x.1.rot M.rot ∧
      Plate s.w.fsamp N x.1.hwp M.alpha ∧ Steady s.w M chunks x.1.el ∧ 0 < x.2.2 ∧
      (x.2.1 = false → x.2.2 = 1)) (fill : ℝ) :
    ∃ ms h', ScanObjects.scans s o beams l h = .ok (ms, h') ∧ ms.length = l.length ∧ ∀ m ∈ ms,
      ∀ p, p < 12 * s.w.nsideOut ^ 2 →
        (ThreeAngles (here p (seenBy M s.w N qs)) →
          (solveForMap s.w.q m fill)[p]? = some (stokes iau
            (smoothI Y s.w.nsideOut (min Ls c.L) (skyOf inputV sky) (beamOf beamV c.b) p)
            (smoothP Y s.w.nsideOut (min Ls c.L) (skyOf inputV sky) (beamOf beamV c.b) p *
              Complex.exp (2 * ((err + 2 * s.w.varphi) * Real.pi / 180 : ℝ) * Complex.I)))) ∧
        (here p (seenBy M s.w N qs) = [] →
          (solveForMap s.w.q m fill)[p]? = some fun _ => fill) := by
  have := FocalScan.objects_talk Y hY s hf hx hq hso iau hxq hns M o hbin hpre hgr hre hint N chunks
    hmi hang hbore blmOf muOf hs hsky hrows hlen c hb hax hrows' hlen' err h beams qs none 1 1
    (.inl ⟨rfl, rfl, rfl⟩) 1 1 (fun q hq => .inr ⟨.inl hct, rfl, rfl⟩) hp l hl fill
  simpa only [one_mul, Complex.ofReal_one, FocalScan.behind_one] using this

/-- **C119.** A user creates a focal plane of Gaussian beams with `create_focal_plane`, scans a sky with
it, any number of times, with and without MPI and with any numbers of ranks, and solves for the map.
In every pixel seen under three angles by the detectors of the grid the result is the sky smoothed with
the Gaussian the user asked for, exactly (the polarization rotated by `2 (err + 2 varphi)` for
detector angles wrong by `err` and an HWP phase `varphi`); pixels not seen are filled. -/
theorem C119_gaussian (Y : Harmonics) (hY : Conjugation Y) (s : ObjWorld E) (hf : LimitFree s.env)
    (hpi : s.env.pi = Real.pi) (hx : ExtOk s.w.x) (hrot : ∀ az el, IsRot (s.w.x.detOffset az el 0))
    (hq : PixOk s.w.q) (hso : SolveOk s.w.q) (iau : Bool) (hxq : Agree s.w.x s.w.q iau)
    (hns : 0 < s.w.nsideOut) (M : Motion) (o : Opts) (hbin : o.binning = true)
    (hpre : o.preview = false) (hgr : o.ground = false) (hre : o.reuseSpinmaps = false)
    (hint : o.interp = false) (hct : o.ctalk = 0) (N : Nat) (chunks : List Chunk)
    (hmi : Mission N chunks) (hang : ∀ c ∈ chunks, c.hwpang = none)
    (hbore : ∀ t, t < N → IsRot (M.bore t)) {Ls : Nat} {alm : List (List ℂ)}
    {sky : Nat → Nat → Nat → ℂ} {inputV : Bool} (blmOf : Nat → List (List ℂ))
    (muOf : Nat → Spin.Mat4) (hs : s.sky = skyMaker Y alm s.w.nsideOut inputV false blmOf muOf)
    (hsky : RealSky Ls sky) (hrows : HasRows Ls (nrows inputV) alm sky)
    (hlen : inputV = true → alm.length = 4)
    -- the focal plane
    (rng : Nat → ℝ) (p : FocalPlane.Plane ℝ)
    (hr : FocalPlane.PReachable s.env rng (fun _ op => FocalPlane.NoCount op) p)
    (nrow ncol : Int) (hrow : 0 ≤ nrow) (hcol : 0 ≤ ncol) (fov : ℝ) (noPairs : Bool)
    (abDiff : Val ℝ) (combine : Bool) (hnew : combine = false ∨ p.beams = [])
    (kw : Dict ℝ) {F A pol diff err : ℝ} {L : Nat} {mm : Int} {dead sym : Bool}
    (hkw : GridOptions kw abDiff F A pol diff err L mm dead sym none)
    (h0 : 0 ≤ min mm s.maxSpin) (h1 : min mm s.maxSpin ≤ (min Ls L : Nat)) (h2 : 2 ≤ min Ls L)
    (h3 : sym = true ∨ 2 ≤ min mm s.maxSpin)
    -- its coefficients are the array number `n`, made by `gen_gaussian_blm`
    (n : Nat) (hload : ∀ a, GaussianOf a F A L → s.env.loadBlm a = .ok (.obj n, none))
    (fs : BeamCoef.Files) (G : BeamCoef.Attrs)
    (hG : G.btype = "Gaussian" ∧ G.lmax = L ∧ G.fwhm = F ∧ G.amplitude = A)
    (hblm : (BeamCoef.blm fs G).map Prod.fst = .ok (blmOf n))
    -- the scans
    (l : List (Inst E × Bool × Nat))
    (hl : ∀ x ∈ l, Ready s.w chunks x.1 ∧ Rotates N chunks x.1.rot M.rot ∧
      Plate s.w.fsamp N x.1.hwp M.alpha ∧ Steady s.w M chunks x.1.el ∧ 0 < x.2.2 ∧
      (x.2.1 = false → x.2.2 = 1)) (fill : ℝ) :
    let r := (FocalPlane.createFocalPlane s.env nrow ncol fov noPairs abDiff combine kw).run p
    let seen := seenBy M s.w N (grid nrow ncol fov pol diff err dead noPairs)
    r.1 = .ok () ∧ ∃ ms h', ScanObjects.scans s o r.2.beams l r.2.heap = .ok (ms, h') ∧
      ms.length = l.length ∧ ∀ m ∈ ms, ∀ k, k < 12 * s.w.nsideOut ^ 2 →
        (ThreeAngles (here k seen) → (solveForMap s.w.q m fill)[k]? = some (stokes iau
            (gaussI Y s.w.nsideOut (min Ls L) (skyOf inputV sky) F A k)
            (gaussP Y s.w.nsideOut (min Ls L) (skyOf inputV sky) F A k *
              Complex.exp (2 * ((err + 2 * s.w.varphi) * Real.pi / 180 : ℝ) * Complex.I)))) ∧
        (here k seen = [] → (solveForMap s.w.q m fill)[k]? = some fun _ => fill) := by
  intro r seen
  have hok := FocalPlane.C69_succeeds s.env p nrow ncol hrow hcol fov noPairs abDiff combine hnew kw
    (FocalScan.grid_good hkw (by omega)).1 (FocalScan.grid_good hkw (by omega)).2
  refine ⟨hok, ?_⟩
  obtain ⟨g1, g2, rfl, rfl⟩ := hG
  obtain ⟨rows, mG, hrG, hrG'⟩ : ∃ rows mG, BeamCoef.blm fs G = .ok (rows, mG) ∧ rows = blmOf n := by
    rcases e : BeamCoef.blm fs G with er | ⟨rows, mG⟩ <;> rw [e] at hblm
    · cases hblm
    · exact ⟨rows, mG, rfl, Except.ok.inj hblm⟩
  subst hrG'
  have hrows' := FocalScan.gaussRows_has fs G g1 L (by omega) g2 hrG
  have hsh := FocalScan.grid_shares s hpi rng p hr nrow ncol fov noPairs abDiff combine hnew kw hkw hok hrot
    ⟨n, L, FocalScan.gaussRows G.fwhm G.amplitude⟩ rfl hload Ls h0 h1 (by
      cases sym
      · rw [if_neg (by simp)]
        rcases h3 with h | h
        · cases h
        · exact h
      · simpa using h2)
  have := C119_objects Y hY s hf hx hq hso iau hxq hns M o hbin hpre hgr hre hint hct N chunks hmi hang
    hbore (beamV := false) blmOf muOf hs hsky hrows hlen
    ⟨n, L, FocalScan.gaussRows G.fwhm G.amplitude⟩ (FocalScan.gaussRows_real _ _ _)
    (FocalScan.gaussRows_axi _ _) hrows' (by simp) err r.2.heap r.2.beams _ hsh l hl fill
  obtain ⟨ms, h', k1, k2, k3⟩ := this
  refine ⟨ms, h', k1, k2, fun m hm k hk => ?_⟩
  have := k3 m hm k hk
  rw [FocalScan.smoothI_gauss, FocalScan.smoothP_gauss] at this
  exact this

/-! ## The hypotheses are met -/

namespace Gridded

open Rec Whole

/-- The beams of the user: Gaussian, 1 degree wide, with the band limit 5. -/
def G : BeamCoef.Attrs := ⟨"Gaussian", 60, 5, 5, 1, none, none, true, true, false⟩

def fs : BeamCoef.Files := fun _ => none

/-- Their coefficients. -/
def gauss : List (List ℂ) := ((BeamCoef.blm fs G).toOption.map Prod.fst).getD []

open Classical in
/-- Array 1 holds the coefficients of such beams. -/
def env : Env ℝ where
  pi := Real.pi
  loadBlm := fun a => if GaussianOf a 60 1 5 then .ok (.obj 1, none) else .error .runtimeError

theorem free : LimitFree env := by
  intro a a' h
  have : GaussianOf a 60 1 5 ↔ GaussianOf a' 60 1 5 := by
    constructor <;> rintro ⟨h1, h2, h3, h4⟩
    · exact ⟨by rw [← h .btype (by simp) (by simp)]; exact h1, by rw [← h .fwhm (by simp) (by simp)]; exact h2,
        by rw [← h .lmax (by simp) (by simp)]; exact h3, by rw [← h .amplitude (by simp) (by simp)]; exact h4⟩
    · exact ⟨by rw [h .btype (by simp) (by simp)]; exact h1, by rw [h .fwhm (by simp) (by simp)]; exact h2,
        by rw [h .lmax (by simp) (by simp)]; exact h3, by rw [h .amplitude (by simp) (by simp)]; exact h4⟩
  classical
  exact if_congr this rfl rfl

/-- The sky of `Whole`. -/
def s : ObjWorld Unit :=
  ⟨Whole.w, env, skyMaker Conv.Y (Conv.rows 5 3 (Conv.coef 1)) 1 false false (fun _ => gauss) (fun _ => 0),
    fun _ _ _ _ => .error .runtimeError, 4⟩

/-- The arguments of `create_focal_plane`. -/
def kw : Dict ℝ := [(.lmax, .int 5), (.fwhm, .num (-60)), (.polangError, .num 7)]

theorem options : GridOptions kw (.num 90) 60 1 0 90 7 5 5 false false none := by
  refine ⟨?_, ?_, ?_, .inl ⟨?_, rfl⟩, .inr ⟨-60, ?_, by norm_num⟩, ?_, ?_, ?_, ?_, ?_, ?_, ?_⟩ <;>
    simp [kw, FocalScan.parameters, Dict.get?, List.lookup, Val.toNum, Val.truthy,
      show ∀ a b : Key, (a == b) = decide (a = b) from fun _ _ => rfl]

theorem blm_ok : (BeamCoef.blm fs G).map Prod.fst = .ok gauss := by
  obtain ⟨b, m2, p2, h, -⟩ := C76_gaussian fs G rfl 5 (by norm_num) rfl
  unfold gauss
  rw [h]
  rfl

theorem grid_eq : grid 1 1 10 0 90 7 false true =
    [(some ⟨⟨false, false, 0, -5, -5, 7⟩, [], 0⟩, some ⟨⟨true, false, 0, -5, -5, 97⟩, [], 90⟩)] := by
  simp [grid, FocalScan.det, FocalScan.position]
  norm_num

/-- What the grid sees is what the detector of `Whole` sees. -/
theorem seen_same : seenBy M s.w 3 (grid 1 1 10 0 90 7 false true) = seenBy M Whole.w 3 Whole.beams := by
  rw [grid_eq]
  rfl

/-- The hypotheses of `C119_gaussian` are met: a grid of one pair, of which only A is used, with wrong
angles, is scanned twice. -/
example (fill : ℝ) :
    let r := (FocalPlane.createFocalPlane env 1 1 10 true (.num 90) false kw).run FocalPlane.emptyPlane
    r.1 = .ok () ∧ ∃ ms h', ScanObjects.scans s o r.2.beams [(i, false, 1), (i, true, 2)] r.2.heap =
        .ok (ms, h') ∧ ms.length = 2 ∧ ∀ m ∈ ms,
      (solveForMap qp m fill)[0]? = some (stokes false
        (gaussI Conv.Y 1 5 (skyOf false (Conv.coef 1)) 60 1 0)
        (gaussP Conv.Y 1 5 (skyOf false (Conv.coef 1)) 60 1 0 *
          Complex.exp (2 * ((7 + 2 * 0) * Real.pi / 180 : ℝ) * Complex.I))) ∧
      (solveForMap qp m fill)[5]? = some fun _ => fill := by
  obtain ⟨h1, ms, h', h2, h3, h4⟩ := C119_gaussian Conv.Y Conv.Y_conj s free rfl ext_ok
    (fun _ _ => one_rot) pix_ok solve_ok false agree one_pos M o rfl rfl rfl rfl rfl rfl 3 chunks mission_ok
    (by decide) (fun _ _ => one_rot) (fun _ => gauss) (fun _ => 0) rfl (Conv.coef_real 1 5)
    (Conv.rows_ok _ _ _) (by simp) (fun _ => 0) FocalPlane.emptyPlane .start 1 1 (by norm_num)
    (by norm_num) 10 true (.num 90) false (.inl rfl) kw options (by decide) (by decide) (by decide)
    (.inr (by decide)) 1 (fun a ha => by simp [s, env, ha]) fs G ⟨rfl, rfl, rfl, rfl⟩ blm_ok
    [(i, false, 1), (i, true, 2)] (by
      intro x hx
      simp only [List.mem_cons, List.not_mem_nil, or_false] at hx
      rcases hx with rfl | rfl
      · exact ⟨ready, rotates, plate, repeats.steady, one_pos, fun _ => rfl⟩
      · exact ⟨ready, rotates, plate, repeats.steady, two_pos, fun h => by cases h⟩) fill
  refine ⟨h1, ms, h', h2, h3, fun m hm => ⟨(h4 m hm 0 (by decide)).1 ?_, (h4 m hm 5 (by decide)).2 ?_⟩⟩
  · rw [seen_same]
    exact Whole.three
  · rw [seen_same]
    exact nowhere

end Gridded

end Verif.Props
