import Verif.Lemmas.Tables
import Verif.Props.CrossTalk
import Verif.Props.MapPlate

/-!
# C144: from tables of detectors to the map
-/

noncomputable section

namespace Verif.Props

open Verif.Chunks Verif.Timeline Verif.Spinmaps Verif.MapMaking Verif.ScanInstrument Verif.Spec
open Verif.Beam (Heap Ref Val Obj Env Key Dict LimitFree)
open Verif.ScanObjects (ObjPair ObjWorld Coefs skyMaker)
open Verif.FocalScan (SharesBeam GaussianOf gaussI gaussP)
open Verif.Tables (TableRow column DeadTable tabled TableOptions)
open Verif.CrossTalk (Twins)
open Verif.FocalScan (HalfWave)

variable {E : Type}

/-- **C144.** A user gives `input_focal_plane` tables of the positions, angles and dead detectors, and options of
Gaussian beams, scans a sky, any number of times, with and without MPI and with any numbers of ranks, and
solves for the map.  In every pixel seen under three angles by the live detectors of the tables the result is the sky
smoothed with the Gaussian, exactly (the polarization rotated by `2 (err + 2 varphi)` for detector angles
wrong by `err` and an HWP phase `varphi`); pixels not seen are filled. -/
theorem C144_gaussian (Y : Harmonics) (hY : Conjugation Y) (s : ObjWorld E) (hf : LimitFree s.env)
    (hpi : s.env.pi = Real.pi) (hx : ExtOk s.w.x) (hrot : ∀ az el, IsRot (s.w.x.detOffset az el 0))
    (hq : PixOk s.w.q) (hso : SolveOk s.w.q) (iau : Bool) (hxq : Agree s.w.x s.w.q iau)
    (hns : 0 < s.w.nsideOut) (M : Motion) (o : Opts) (hbin : o.binning = true)
    (hpre : o.preview = false) (hgr : o.ground = false) (hre : o.reuseSpinmaps = false)
    (hint : o.interp = false) (hct : o.ctalk = 0) (N : Nat) (chunks : List Chunk)
    (hmi : Mission N chunks) (hang : ∀ c ∈ chunks, c.hwpang = none)
    (hbore : ∀ t, t < N → IsRot (M.bore t)) {Ls : Nat} {alm : List (List ℂ)}
    {sky : Nat → Nat → Nat → ℂ} {inputV : Bool} (blmOf : Nat → List (List ℂ))
    (muOf : Nat → Spin.Mat4) (hs : s.sky = skyMaker Y alm s.w.nsideOut inputV false blmOf muOf)
    (hsky : RealSky Ls sky) (hrows : HasRows Ls (nrows inputV) alm sky)
    (hlen : inputV = true → alm.length = 4)
    -- the focal plane
    (rng : Nat → ℝ) (p : FocalPlane.Plane ℝ)
    (hr : FocalPlane.PReachable s.env rng (fun _ op => FocalPlane.NoCount op) p) (hnew : p.beams = [])
    (rows : List TableRow) (deads : Option (List (Val ℝ × Val ℝ))) (hdead : DeadTable rows deads)
    (kw : Dict ℝ) {F A err : ℝ} {L : Nat} {mm : Int} {sym : Bool}
    (hkw : TableOptions kw F A err L mm sym none)
    (h0 : 0 ≤ min mm s.maxSpin) (h1 : min mm s.maxSpin ≤ (min Ls L : Nat)) (h2 : 2 ≤ min Ls L)
    (h3 : sym = true ∨ 2 ≤ min mm s.maxSpin)
    -- its coefficients are the array number `n`, made by `gen_gaussian_blm`
    (n : Nat) (hload : ∀ a, GaussianOf a F A L → s.env.loadBlm a = .ok (.obj n, none))
    (fs : BeamCoef.Files) (G : BeamCoef.Attrs)
    (hG : G.btype = "Gaussian" ∧ G.lmax = L ∧ G.fwhm = F ∧ G.amplitude = A)
    (hblm : (BeamCoef.blm fs G).map Prod.fst = .ok (blmOf n))
    -- the scans
    (l : List (Inst E × Bool × Nat))
    (hl : ∀ x ∈ l, Ready s.w chunks x.1 ∧ Rotates N chunks x.1.rot M.rot ∧
      Plate s.w.fsamp N x.1.hwp M.alpha ∧ Steady s.w M chunks x.1.el ∧ 0 < x.2.2 ∧
      (x.2.1 = false → x.2.2 = 1)) (fill : ℝ) :
    let r := (FocalPlane.inputFocalPlane s.env (column TableRow.az rows) (column TableRow.el rows)
      (column TableRow.polang rows) deads true kw).run p
    let seen := seenBy M s.w N (tabled rows err)
    r.1 = .ok () ∧ ∃ ms h', ScanObjects.scans s o r.2.beams l r.2.heap = .ok (ms, h') ∧
      ms.length = l.length ∧ ∀ m ∈ ms, ∀ j, j < 12 * s.w.nsideOut ^ 2 →
        (ThreeAngles (here j seen) → (solveForMap s.w.q m fill)[j]? = some (MapMaking.stokes iau
            (gaussI Y s.w.nsideOut (min Ls L) (skyOf inputV sky) F A j)
            (gaussP Y s.w.nsideOut (min Ls L) (skyOf inputV sky) F A j *
              Complex.exp (2 * ((err + 2 * s.w.varphi) * Real.pi / 180 : ℝ) * Complex.I)))) ∧
        (here j seen = [] → (solveForMap s.w.q m fill)[j]? = some fun _ => fill) := by
  intro r seen
  obtain ⟨g1, g2, rfl, rfl⟩ := hG
  obtain ⟨rowsG, mG, hrG, hrG'⟩ : ∃ rows mG, BeamCoef.blm fs G = .ok (rows, mG) ∧ rows = blmOf n := by
    rcases e : BeamCoef.blm fs G with er | ⟨rows, mG⟩ <;> rw [e] at hblm
    · cases hblm
    · exact ⟨rows, mG, rfl, Except.ok.inj hblm⟩
  subst hrG'
  have hrows' := FocalScan.gaussRows_has fs G g1 L (by omega) g2 hrG
  obtain ⟨hok, hsh⟩ := Tables.table_shares s hpi rng p hr hnew rows deads hdead kw hkw (by omega) hrot
    ⟨n, L, FocalScan.gaussRows G.fwhm G.amplitude⟩ rfl hload Ls h0 h1 (by
      cases sym
      · rw [if_neg (by simp)]
        rcases h3 with h | h
        · cases h
        · exact h
      · simp only [if_true]
        omega)
  refine ⟨hok, ?_⟩
  obtain ⟨ms, h', k1, k2, k3⟩ := C119_objects Y hY s hf hx hq hso iau hxq hns M o hbin hpre hgr hre hint hct N chunks hmi
    hang hbore (beamV := false) blmOf muOf hs hsky hrows hlen
    ⟨n, L, FocalScan.gaussRows G.fwhm G.amplitude⟩ (FocalScan.gaussRows_real _ _ _)
    (FocalScan.gaussRows_axi _ _) hrows' (by simp) err r.2.heap r.2.beams _ hsh l hl fill
  refine ⟨ms, h', k1, k2, fun m hm j hj => ?_⟩
  have := k3 m hm j hj
  rw [FocalScan.smoothI_gauss, FocalScan.smoothP_gauss] at this
  exact this

/-- **C144, cross-talk.** If the tables let A and B of each pair look in the same direction with orthogonal
angles, the map of a scan with cross-talk `c` has `1 + c` times the I and `1 - c` times the Q and U. -/
theorem C144_cross_talk (Y : Harmonics) (hY : Conjugation Y) (s : ObjWorld E) (hf : LimitFree s.env)
    (hpi : s.env.pi = Real.pi) (hx : ExtOk s.w.x) (hrot : ∀ az el, IsRot (s.w.x.detOffset az el 0))
    (hq : PixOk s.w.q) (hso : SolveOk s.w.q) (iau : Bool) (hxq : Agree s.w.x s.w.q iau)
    (hns : 0 < s.w.nsideOut) (M : Motion) (o : Opts) (hbin : o.binning = true)
    (hpre : o.preview = false) (hgr : o.ground = false) (hre : o.reuseSpinmaps = false)
    (hint : o.interp = false) (N : Nat) (chunks : List Chunk)
    (hmi : Mission N chunks) (hang : ∀ c ∈ chunks, c.hwpang = none)
    (hbore : ∀ t, t < N → IsRot (M.bore t)) {Ls : Nat} {alm : List (List ℂ)}
    {sky : Nat → Nat → Nat → ℂ} {inputV : Bool} (blmOf : Nat → List (List ℂ))
    (muOf : Nat → Spin.Mat4) (hs : s.sky = skyMaker Y alm s.w.nsideOut inputV false blmOf muOf)
    (hsky : RealSky Ls sky) (hrows : HasRows Ls (nrows inputV) alm sky)
    (hlen : inputV = true → alm.length = 4)
    -- the focal plane
    (rng : Nat → ℝ) (p : FocalPlane.Plane ℝ)
    (hr : FocalPlane.PReachable s.env rng (fun _ op => FocalPlane.NoCount op) p) (hnew : p.beams = [])
    (rows : List TableRow) (htw : ∀ r ∈ rows, r.dead = (true, true) ∨ (r.dead = (false, false) ∧
      r.az.2 = r.az.1 ∧ r.el.2 = r.el.1 ∧ ∃ k : ℤ, r.polang.2 = r.polang.1 + 90 + 180 * k))
    (deads : Option (List (Val ℝ × Val ℝ))) (hdead : DeadTable rows deads)
    (kw : Dict ℝ) {F A err : ℝ} {L : Nat} {mm : Int} {sym : Bool}
    (hkw : TableOptions kw F A err L mm sym none)
    (h0 : 0 ≤ min mm s.maxSpin) (h1 : min mm s.maxSpin ≤ (min Ls L : Nat)) (h2 : 2 ≤ min Ls L)
    (h3 : sym = true ∨ 2 ≤ min mm s.maxSpin)
    -- its coefficients are the array number `n`, made by `gen_gaussian_blm`
    (n : Nat) (hload : ∀ a, GaussianOf a F A L → s.env.loadBlm a = .ok (.obj n, none))
    (fs : BeamCoef.Files) (G : BeamCoef.Attrs)
    (hG : G.btype = "Gaussian" ∧ G.lmax = L ∧ G.fwhm = F ∧ G.amplitude = A)
    (hblm : (BeamCoef.blm fs G).map Prod.fst = .ok (blmOf n))
    -- the scans
    (l : List (Inst E × Bool × Nat))
    (hl : ∀ x ∈ l, Ready s.w chunks x.1 ∧ Rotates N chunks x.1.rot M.rot ∧
      Plate s.w.fsamp N x.1.hwp M.alpha ∧ Steady s.w M chunks x.1.el ∧ 0 < x.2.2 ∧
      (x.2.1 = false → x.2.2 = 1)) (fill : ℝ) :
    let r := (FocalPlane.inputFocalPlane s.env (column TableRow.az rows) (column TableRow.el rows)
      (column TableRow.polang rows) deads true kw).run p
    let seen := seenBy M s.w N (tabled rows err)
    r.1 = .ok () ∧ ∃ ms h', ScanObjects.scans s o r.2.beams l r.2.heap = .ok (ms, h') ∧
      ms.length = l.length ∧ ∀ m ∈ ms, ∀ j, j < 12 * s.w.nsideOut ^ 2 →
        (ThreeAngles (here j seen) → (solveForMap s.w.q m fill)[j]? = some (MapMaking.stokes iau
            ((1 + o.ctalk) * gaussI Y s.w.nsideOut (min Ls L) (skyOf inputV sky) F A j)
            ((1 - o.ctalk : ℝ) * (gaussP Y s.w.nsideOut (min Ls L) (skyOf inputV sky) F A j *
              Complex.exp (2 * ((err + 2 * s.w.varphi) * Real.pi / 180 : ℝ) * Complex.I))))) ∧
        (here j seen = [] → (solveForMap s.w.q m fill)[j]? = some fun _ => fill) := by
  intro r seen
  obtain ⟨g1, g2, rfl, rfl⟩ := hG
  obtain ⟨rowsG, mG, hrG, hrG'⟩ : ∃ rows mG, BeamCoef.blm fs G = .ok (rows, mG) ∧ rows = blmOf n := by
    rcases e : BeamCoef.blm fs G with er | ⟨rows, mG⟩ <;> rw [e] at hblm
    · cases hblm
    · exact ⟨rows, mG, rfl, Except.ok.inj hblm⟩
  subst hrG'
  have hrows' := FocalScan.gaussRows_has fs G g1 L (by omega) g2 hrG
  obtain ⟨hok, hsh⟩ := Tables.table_shares s hpi rng p hr hnew rows deads hdead kw hkw (by omega) hrot
    ⟨n, L, FocalScan.gaussRows G.fwhm G.amplitude⟩ rfl hload Ls h0 h1 (by
      cases sym
      · rw [if_neg (by simp)]
        rcases h3 with h | h
        · cases h
        · exact h
      · simp only [if_true]
        omega)
  refine ⟨hok, ?_⟩
  obtain ⟨ms, h', k1, k2, k3⟩ := C134_twins Y hY s hf hx hq hso iau hxq hns M o hbin hpre hgr hre hint N chunks hmi
    hang hbore (beamV := false) blmOf muOf hs hsky hrows hlen
    ⟨n, L, FocalScan.gaussRows G.fwhm G.amplitude⟩ (FocalScan.gaussRows_real _ _ _)
    (FocalScan.gaussRows_axi _ _) hrows' (by simp) err r.2.heap r.2.beams _ (by
      intro q hq
      obtain ⟨row, hrow, rfl⟩ := List.mem_map.1 hq
      rcases htw row hrow with h | ⟨h, e1, e2, k, e3⟩
      · exact .inl ⟨by simp [live, FocalScan.det, h], by simp [live, FocalScan.det, h]⟩
      · exact .inr ⟨_, _, by simp [live, FocalScan.det, h]; rfl, by simp [live, FocalScan.det, h]; rfl, e1, e2,
          k, e3⟩) hsh l hl fill
  refine ⟨ms, h', k1, k2, fun m hm j hj => ?_⟩
  have := k3 m hm j hj
  rw [FocalScan.smoothI_gauss, FocalScan.smoothP_gauss] at this
  exact this

/-- **C144, plates.** With the Mueller matrix of a half-wave plate as `hwp_mueller`, which multiplies I by `t` and
makes `k (Q - iU)` of `Q + iU`, the map has `t` times the I and `k` times the `Q + iU`. -/
theorem C144_plate (Y : Harmonics) (hY : Conjugation Y) (hV : Vanishing Y) (s : ObjWorld E) (hf : LimitFree s.env)
    (hpi : s.env.pi = Real.pi) (hx : ExtOk s.w.x) (hrot : ∀ az el, IsRot (s.w.x.detOffset az el 0))
    (hq : PixOk s.w.q) (hso : SolveOk s.w.q) (iau : Bool) (hxq : Agree s.w.x s.w.q iau)
    (hns : 0 < s.w.nsideOut) (M : Motion) (o : Opts) (hbin : o.binning = true)
    (hpre : o.preview = false) (hgr : o.ground = false) (hre : o.reuseSpinmaps = false)
    (hint : o.interp = false) (hct : o.ctalk = 0) (N : Nat) (chunks : List Chunk)
    (hmi : Mission N chunks) (hang : ∀ c ∈ chunks, c.hwpang = none)
    (hbore : ∀ t, t < N → IsRot (M.bore t)) {Ls : Nat} {alm : List (List ℂ)}
    {sky : Nat → Nat → Nat → ℂ} (blmOf : Nat → List (List ℂ))
    (muOf : Nat → Spin.Mat4) (hs : s.sky = skyMaker Y alm s.w.nsideOut false false blmOf muOf)
    (hsky : RealSky Ls sky) (hrows : HasRows Ls (nrows false) alm sky)
    -- the focal plane
    (rng : Nat → ℝ) (p : FocalPlane.Plane ℝ)
    (hr : FocalPlane.PReachable s.env rng (fun _ op => FocalPlane.NoCount op) p) (hnew : p.beams = [])
    (rows : List TableRow) (deads : Option (List (Val ℝ × Val ℝ))) (hdead : DeadTable rows deads)
    (kw : Dict ℝ) {F A err : ℝ} {L i : Nat} {mm : Int} {sym : Bool}
    (hkw : TableOptions kw F A err L mm sym (some i))
    (h0 : 0 ≤ min mm s.maxSpin) (h1 : min mm s.maxSpin ≤ (min Ls L : Nat)) (h2 : 4 ≤ min Ls L)
    (h3 : sym = true ∨ 2 ≤ min mm s.maxSpin)
    -- Mueller matrix number `i` is that of a half-wave plate
    {plate : Fin 4 → Fin 4 → ℝ} {t : ℝ} {k : ℂ} (hn : muOf i = realMat plate) (hpl : HalfWave plate t k)
    -- its coefficients are the array number `n`, made by `gen_gaussian_blm`
    (n : Nat) (hload : ∀ a, GaussianOf a F A L → s.env.loadBlm a = .ok (.obj n, none))
    (fs : BeamCoef.Files) (G : BeamCoef.Attrs)
    (hG : G.btype = "Gaussian" ∧ G.lmax = L ∧ G.fwhm = F ∧ G.amplitude = A)
    (hblm : (BeamCoef.blm fs G).map Prod.fst = .ok (blmOf n))
    -- the scans
    (l : List (Inst E × Bool × Nat))
    (hl : ∀ x ∈ l, Ready s.w chunks x.1 ∧ Rotates N chunks x.1.rot M.rot ∧
      Plate s.w.fsamp N x.1.hwp M.alpha ∧ Steady s.w M chunks x.1.el ∧ 0 < x.2.2 ∧
      (x.2.1 = false → x.2.2 = 1)) (fill : ℝ) :
    let r := (FocalPlane.inputFocalPlane s.env (column TableRow.az rows) (column TableRow.el rows)
      (column TableRow.polang rows) deads true kw).run p
    let seen := seenBy M s.w N (tabled rows err)
    r.1 = .ok () ∧ ∃ ms h', ScanObjects.scans s o r.2.beams l r.2.heap = .ok (ms, h') ∧
      ms.length = l.length ∧ ∀ m ∈ ms, ∀ j, j < 12 * s.w.nsideOut ^ 2 →
        (ThreeAngles (here j seen) → (solveForMap s.w.q m fill)[j]? = some (MapMaking.stokes iau
            (t * gaussI Y s.w.nsideOut (min Ls L) (skyOf false sky) F A j)
            (k * (gaussP Y s.w.nsideOut (min Ls L) (skyOf false sky) F A j *
              Complex.exp (2 * ((err + 2 * s.w.varphi) * Real.pi / 180 : ℝ) * Complex.I))))) ∧
        (here j seen = [] → (solveForMap s.w.q m fill)[j]? = some fun _ => fill) := by
  intro r seen
  obtain ⟨g1, g2, rfl, rfl⟩ := hG
  obtain ⟨rowsG, mG, hrG, hrG'⟩ : ∃ rows mG, BeamCoef.blm fs G = .ok (rows, mG) ∧ rows = blmOf n := by
    rcases e : BeamCoef.blm fs G with er | ⟨rows, mG⟩ <;> rw [e] at hblm
    · cases hblm
    · exact ⟨rows, mG, rfl, Except.ok.inj hblm⟩
  subst hrG'
  have hrows' := FocalScan.gaussRows_has fs G g1 L (by omega) g2 hrG
  obtain ⟨hok, hsh⟩ := Tables.table_shares s hpi rng p hr hnew rows deads hdead kw hkw (by omega) hrot
    ⟨n, L, FocalScan.gaussRows G.fwhm G.amplitude⟩ rfl hload Ls h0 h1 (by
      cases sym
      · rw [if_neg (by simp)]
        rcases h3 with h | h
        · cases h
        · exact h
      · simp only [if_true]
        omega)
  refine ⟨hok, ?_⟩
  obtain ⟨ms, h', k1, k2, k3⟩ := C135_objects Y hY hV s hf hx hq hso iau hxq hns M o hbin hpre hgr hre hint hct N chunks hmi
    hang hbore (beamV := false) blmOf muOf hs hsky hrows
    ⟨n, L, FocalScan.gaussRows G.fwhm G.amplitude⟩ (FocalScan.gaussRows_real _ _ _)
    ⟨FocalScan.gaussRows_axi _ _, fun l => by
      simp only [FocalScan.gaussRows, if_true, if_neg (show (1 : Nat) ≠ 0 by decide)]
      exact Complex.conj_ofReal _⟩ hrows' (by simp) err
    r.2.heap r.2.beams _ i hn hpl h2 hsh l hl fill
  refine ⟨ms, h', k1, k2, fun m hm j hj => ?_⟩
  have := k3 m hm j hj
  rw [FocalScan.smoothI_gauss, FocalScan.smoothP_gauss] at this
  exact this

/-! ## The hypotheses are met -/

namespace Gridded

open Rec Whole

/-- The tables of a pair of which only A is used, and which looks where the detector of `Whole` looks. -/
def rows : List TableRow := [⟨(-5, -5), (-5, -5), (0, 90), (false, true)⟩]

theorem topt : TableOptions kw 60 1 7 5 5 false none := by
  refine ⟨?_, ?_, ?_, ?_, ?_, .inl ⟨?_, rfl⟩, .inr ⟨-60, ?_, by norm_num⟩, ?_, ?_, ?_, ?_⟩ <;>
    simp [kw, FocalScan.parameters, Dict.get?, List.lookup, Val.toNum, Val.truthy,
      show ∀ a b : Key, (a == b) = decide (a = b) from fun _ _ => rfl]

theorem table_eq : tabled rows 7 = Verif.FocalScan.grid 1 1 10 0 90 7 false true := by
  simp [tabled, rows, Verif.FocalScan.grid, FocalScan.det, FocalScan.position]
  norm_num

theorem go : ∀ x ∈ [(i, false, 1), (i, true, 2)], Ready s.w chunks x.1 ∧ Rotates 3 chunks x.1.rot M.rot ∧
    Plate s.w.fsamp 3 x.1.hwp M.alpha ∧ Steady s.w M chunks x.1.el ∧ 0 < x.2.2 ∧
    (x.2.1 = false → x.2.2 = 1) := by
  intro x hx
  simp only [List.mem_cons, List.not_mem_nil, or_false] at hx
  rcases hx with rfl | rfl
  · exact ⟨ready, rotates, plate, repeats.steady, one_pos, fun _ => rfl⟩
  · exact ⟨ready, rotates, plate, repeats.steady, two_pos, fun h => by cases h⟩

/-- The hypotheses of `C144_gaussian` are met. -/
example (fill : ℝ) :
    let r := (FocalPlane.inputFocalPlane env (column TableRow.az rows) (column TableRow.el rows)
      (column TableRow.polang rows) (some [(.bool false, .bool true)]) true kw).run FocalPlane.emptyPlane
    r.1 = .ok () ∧ ∃ ms h', ScanObjects.scans s o r.2.beams [(i, false, 1), (i, true, 2)] r.2.heap =
        .ok (ms, h') ∧ ms.length = 2 ∧ ∀ m ∈ ms,
      (solveForMap qp m fill)[0]? = some (MapMaking.stokes false
        (gaussI Conv.Y 1 5 (skyOf false (Conv.coef 1)) 60 1 0)
        (gaussP Conv.Y 1 5 (skyOf false (Conv.coef 1)) 60 1 0 *
          Complex.exp (2 * ((7 + 2 * 0) * Real.pi / 180 : ℝ) * Complex.I))) ∧
      (solveForMap qp m fill)[5]? = some fun _ => fill := by
  obtain ⟨h1, ms, h', h2, h3, h4⟩ := C144_gaussian Conv.Y Conv.Y_conj s free rfl ext_ok
    (fun _ _ => one_rot) pix_ok solve_ok false agree one_pos M o rfl rfl rfl rfl rfl rfl 3 chunks mission_ok
    (by decide) (fun _ _ => one_rot) (fun _ => gauss) (fun _ => 0) rfl (Conv.coef_real 1 5)
    (Conv.rows_ok _ _ _) (by simp) (fun _ => 0) FocalPlane.emptyPlane .start rfl rows _ .given kw topt
    (by decide) (by decide) (by decide)
    (.inr (by decide)) 1 (fun a ha => by simp [s, env, ha]) fs G ⟨rfl, rfl, rfl, rfl⟩ blm_ok
    [(i, false, 1), (i, true, 2)] go fill
  refine ⟨h1, ms, h', h2, h3, fun m hm => ⟨(h4 m hm 0 (by decide)).1 ?_, (h4 m hm 5 (by decide)).2 ?_⟩⟩
  · rw [table_eq, seen_same]
    exact Whole.three
  · rw [table_eq, seen_same]
    exact nowhere

/-- The same pair, with both detectors alive and orthogonal. -/
def twinRows : List TableRow := [{ az := (-5, -5), el := (-5, -5), polang := (0, 90) }]

theorem twin_eq : tabled twinRows 7 = Verif.FocalScan.grid 1 1 10 0 90 7 false false := by
  simp [tabled, twinRows, Verif.FocalScan.grid, FocalScan.det, FocalScan.position]
  norm_num

/-- The hypotheses of `C144_cross_talk` are met; the table of dead detectors is left out. -/
example (fill : ℝ) :
    let r := (FocalPlane.inputFocalPlane env (column TableRow.az twinRows) (column TableRow.el twinRows)
      (column TableRow.polang twinRows) none true kw).run FocalPlane.emptyPlane
    r.1 = .ok () ∧ ∃ ms h', ScanObjects.scans s { o with ctalk := 1 / 10 } r.2.beams
        [(i, false, 1), (i, true, 2)] r.2.heap = .ok (ms, h') ∧ ms.length = 2 ∧ ∀ m ∈ ms,
      (solveForMap qp m fill)[0]? = some (MapMaking.stokes false
        ((1 + 1 / 10) * gaussI Conv.Y 1 5 (skyOf false (Conv.coef 1)) 60 1 0)
        ((1 - 1 / 10 : ℝ) * (gaussP Conv.Y 1 5 (skyOf false (Conv.coef 1)) 60 1 0 *
          Complex.exp (2 * ((7 + 2 * 0) * Real.pi / 180 : ℝ) * Complex.I)))) := by
  obtain ⟨h1, ms, h', h2, h3, h4⟩ := C144_cross_talk Conv.Y Conv.Y_conj s free rfl ext_ok
    (fun _ _ => one_rot) pix_ok solve_ok false agree one_pos M { o with ctalk := 1 / 10 } rfl rfl rfl rfl rfl
    3 chunks mission_ok
    (by decide) (fun _ _ => one_rot) (fun _ => gauss) (fun _ => 0) rfl (Conv.coef_real 1 5)
    (Conv.rows_ok _ _ _) (by simp) (fun _ => 0) FocalPlane.emptyPlane .start rfl twinRows
    (by
      intro r hr
      simp only [twinRows, List.mem_cons, List.not_mem_nil, or_false] at hr
      subst hr
      exact .inr ⟨rfl, rfl, rfl, 0, by norm_num⟩) none
    (.none (by simp [twinRows])) kw topt (by decide) (by decide) (by decide)
    (.inr (by decide)) 1 (fun a ha => by simp [s, env, ha]) fs G ⟨rfl, rfl, rfl, rfl⟩ blm_ok
    [(i, false, 1), (i, true, 2)] go fill
  refine ⟨h1, ms, h', h2, h3, fun m hm => (h4 m hm 0 (by decide)).1 ?_⟩
  rw [twin_eq]
  refine options_sub seen_more 0 ?_
  rw [seen_same]
  exact Whole.three

theorem toptp : TableOptions kwp 60 1 7 5 5 false (some 0) := by
  refine ⟨?_, ?_, ?_, ?_, ?_, .inl ⟨?_, rfl⟩, .inr ⟨-60, ?_, by norm_num⟩, ?_, ?_, ?_, ?_⟩ <;>
    simp [kwp, FocalScan.parameters, Dict.get?, List.lookup, Val.toNum, Val.truthy,
      show ∀ a b : Key, (a == b) = decide (a = b) from fun _ _ => rfl]

/-- The hypotheses of `C144_plate` are met. -/
example (fill : ℝ) :
    let r := (FocalPlane.inputFocalPlane env (column TableRow.az rows) (column TableRow.el rows)
      (column TableRow.polang rows) (some [(.bool false, .bool true)]) true kwp).run FocalPlane.emptyPlane
    r.1 = .ok () ∧ ∃ ms h', ScanObjects.scans sp o r.2.beams [(i, false, 1), (i, true, 2)] r.2.heap =
        .ok (ms, h') ∧ ms.length = 2 ∧ ∀ m ∈ ms,
      (solveForMap qp m fill)[0]? = some (MapMaking.stokes false
        ((1 / 2 : ℝ) * gaussI Conv.Y 1 5 (skyOf false (Conv.coef 1)) 60 1 0)
        (Complex.I / 4 * (gaussP Conv.Y 1 5 (skyOf false (Conv.coef 1)) 60 1 0 *
          Complex.exp (2 * ((7 + 2 * 0) * Real.pi / 180 : ℝ) * Complex.I)))) := by
  obtain ⟨h1, ms, h', h2, h3, h4⟩ := C144_plate Conv.Y Conv.Y_conj Conv.Y_vanishing sp free rfl ext_ok
    (fun _ _ => one_rot) pix_ok solve_ok false agree one_pos M o rfl rfl rfl rfl rfl rfl 3 chunks mission_ok
    (by decide) (fun _ _ => one_rot) (fun _ => gauss) (fun _ => realMat slab) rfl (Conv.coef_real 1 5)
    (Conv.rows_ok _ _ _) (fun _ => 0) FocalPlane.emptyPlane .start rfl rows _ .given kwp toptp
    (by decide) (by decide) (by decide)
    (.inr (by decide)) rfl slab_half 1 (fun a ha => by simp [sp, env, ha]) fs G ⟨rfl, rfl, rfl, rfl⟩ blm_ok
    [(i, false, 1), (i, true, 2)] go fill
  refine ⟨h1, ms, h', h2, h3, fun m hm => (h4 m hm 0 (by decide)).1 ?_⟩
  rw [show seenBy M sp.w 3 (tabled rows 7) = seenBy M s.w 3 (tabled rows 7) from rfl, table_eq, seen_same]
  exact Whole.three

end Gridded

end Verif.Props
