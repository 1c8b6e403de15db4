import Verif.Lemmas.Files
import Verif.Props.Tables

/-!
# C146: from files of detectors to the map
-/

noncomputable section

namespace Verif.Props

open Verif.Chunks Verif.Timeline Verif.Spinmaps Verif.MapMaking Verif.ScanInstrument Verif.Spec
open Verif.Beam (Heap Ref Val Obj Env Key Dict LimitFree)
open Verif.ScanObjects (ObjPair ObjWorld Coefs skyMaker)
open Verif.FocalScan (SharesBeam GaussianOf gaussI gaussP)
open Verif.Tables (TableRow tabled)
open Verif.Files (FileOptions Describes shifted BeamOf)
open Verif.FocalScan (HalfWave)

variable {E : Type}

/-- **C146.** A user loads a focal plane from files with `load_focal_plane`: the files that were asked for
(C125) describe pairs of detectors with beams that have the same coefficients, of whatever type, symmetric
around the axis; options of the call replace those of the files, and `polang_A` and `polang_B` are added to
the angles.  The user scans a sky, any number of times, with and without MPI and with any numbers of ranks,
and solves for the map.  In every pixel seen under three angles by the live detectors of the files the
result is the sky seen through the beam, exactly (the polarization rotated by `2 (err + 2 varphi)` for
detector angles wrong by `err` and an HWP phase `varphi`); pixels not seen are filled. -/
theorem C146_beams (Y : Harmonics) (hY : Conjugation Y) (s : ObjWorld E) (hf : LimitFree s.env)
    (hpi : s.env.pi = Real.pi) (hx : ExtOk s.w.x) (hrot : ∀ az el, IsRot (s.w.x.detOffset az el 0))
    (hq : PixOk s.w.q) (hso : SolveOk s.w.q) (iau : Bool) (hxq : Agree s.w.x s.w.q iau)
    (hns : 0 < s.w.nsideOut) (M : Motion) (o : Opts) (hbin : o.binning = true)
    (hpre : o.preview = false) (hgr : o.ground = false) (hre : o.reuseSpinmaps = false)
    (hint : o.interp = false) (hct : o.ctalk = 0) (N : Nat) (chunks : List Chunk)
    (hmi : Mission N chunks) (hang : ∀ c ∈ chunks, c.hwpang = none)
    (hbore : ∀ t, t < N → IsRot (M.bore t)) {Ls : Nat} {alm : List (List ℂ)}
    {sky : Nat → Nat → Nat → ℂ} {inputV beamV : Bool} (blmOf : Nat → List (List ℂ))
    (muOf : Nat → Spin.Mat4) (hs : s.sky = skyMaker Y alm s.w.nsideOut inputV beamV blmOf muOf)
    (hsky : RealSky Ls sky) (hrows : HasRows Ls (nrows inputV) alm sky)
    (hlen : inputV = true → alm.length = 4)
    -- the focal plane
    (rng : Nat → ℝ) (p : FocalPlane.Plane ℝ)
    (hr : FocalPlane.PReachable s.env rng (fun _ op => FocalPlane.NoCount op) p) (combine : Bool)
    (hnew : combine = false ∨ p.beams = [])
    -- the files, and what they say
    (dir : LoadPlane.Dir ℝ) (tag : Option String) (names : Option (List String)) (files : List String)
    (hfiles : LoadPlane.select dir tag names = .ok files) (rows : List TableRow)
    (kw : Dict ℝ) (bt file : Val ℝ) {F A err : ℝ} {L : Nat} {mm : Int} {sym : Bool}
    (hd : List.Forall₂ (Describes dir kw bt file F A err L mm sym none) files rows)
    (noPairs : Bool) {polA polB : Val ℝ} {dA dB : ℝ} (hA : polA.toNum = some dA) (hB : polB.toNum = some dB)
    (h0 : 0 ≤ min mm s.maxSpin) (h1 : min mm s.maxSpin ≤ (min Ls L : Nat)) (h2 : 2 ≤ min Ls L)
    (h3 : sym = true ∨ 2 ≤ min mm s.maxSpin)
    -- the coefficients of the beams are the array number `n`
    (n : Nat) (hload : ∀ a, BeamOf a bt file F A L → s.env.loadBlm a = .ok (.obj n, none))
    {b : Nat → Nat → Nat → ℂ} (hb : RealBeam L b) (hax : AxiSym b)
    (hrows' : HasRows L (nrows beamV) (blmOf n) b) (hlen' : beamV = true → (blmOf n).length = 4)
    -- the scans
    (l : List (Inst E × Bool × Nat))
    (hl : ∀ x ∈ l, Ready s.w chunks x.1 ∧ Rotates N chunks x.1.rot M.rot ∧
      Plate s.w.fsamp N x.1.hwp M.alpha ∧ Steady s.w M chunks x.1.el ∧ 0 < x.2.2 ∧
      (x.2.1 = false → x.2.2 = 1)) (fill : ℝ) :
    let r := (LoadPlane.load s.env dir tag names noPairs combine polA polB kw).run p
    let seen := seenBy M s.w N (tabled (rows.map (shifted noPairs dA dB)) err)
    r.1 = .ok () ∧ ∃ ms h', ScanObjects.scans s o r.2.beams l r.2.heap = .ok (ms, h') ∧
      ms.length = l.length ∧ ∀ m ∈ ms, ∀ j, j < 12 * s.w.nsideOut ^ 2 →
        (ThreeAngles (here j seen) → (solveForMap s.w.q m fill)[j]? = some (MapMaking.stokes iau
            (smoothI Y s.w.nsideOut (min Ls L) (skyOf inputV sky) (beamOf beamV b) j)
            (smoothP Y s.w.nsideOut (min Ls L) (skyOf inputV sky) (beamOf beamV b) j *
              Complex.exp (2 * ((err + 2 * s.w.varphi) * Real.pi / 180 : ℝ) * Complex.I)))) ∧
        (here j seen = [] → (solveForMap s.w.q m fill)[j]? = some fun _ => fill) := by
  intro r seen
  obtain ⟨hok, hsh⟩ := Files.file_shares s hpi rng p hr combine hnew dir tag names files hfiles rows hd noPairs hA hB
    (by omega) hrot ⟨n, L, b⟩ rfl hload Ls h0 h1 (by
      cases sym
      · rw [if_neg (by simp)]
        rcases h3 with h | h
        · cases h
        · exact h
      · simp only [if_true]
        omega)
  exact ⟨hok, C119_objects Y hY s hf hx hq hso iau hxq hns M o hbin hpre hgr hre hint hct N chunks hmi
    hang hbore blmOf muOf hs hsky hrows hlen ⟨n, L, b⟩ hb hax hrows' hlen' err r.2.heap r.2.beams _ hsh l hl fill⟩

/-- **C146, cross-talk.** If the files let A and B of each pair look in the same direction, and their angles,
with `polang_A` and `polang_B` added, are orthogonal, the map of a scan with cross-talk `c` has `1 + c` times
the I and `1 - c` times the Q and U. -/
theorem C146_cross_talk (Y : Harmonics) (hY : Conjugation Y) (s : ObjWorld E) (hf : LimitFree s.env)
    (hpi : s.env.pi = Real.pi) (hx : ExtOk s.w.x) (hrot : ∀ az el, IsRot (s.w.x.detOffset az el 0))
    (hq : PixOk s.w.q) (hso : SolveOk s.w.q) (iau : Bool) (hxq : Agree s.w.x s.w.q iau)
    (hns : 0 < s.w.nsideOut) (M : Motion) (o : Opts) (hbin : o.binning = true)
    (hpre : o.preview = false) (hgr : o.ground = false) (hre : o.reuseSpinmaps = false)
    (hint : o.interp = false) (N : Nat) (chunks : List Chunk)
    (hmi : Mission N chunks) (hang : ∀ c ∈ chunks, c.hwpang = none)
    (hbore : ∀ t, t < N → IsRot (M.bore t)) {Ls : Nat} {alm : List (List ℂ)}
    {sky : Nat → Nat → Nat → ℂ} {inputV beamV : Bool} (blmOf : Nat → List (List ℂ))
    (muOf : Nat → Spin.Mat4) (hs : s.sky = skyMaker Y alm s.w.nsideOut inputV beamV blmOf muOf)
    (hsky : RealSky Ls sky) (hrows : HasRows Ls (nrows inputV) alm sky)
    (hlen : inputV = true → alm.length = 4)
    -- the focal plane
    (rng : Nat → ℝ) (p : FocalPlane.Plane ℝ)
    (hr : FocalPlane.PReachable s.env rng (fun _ op => FocalPlane.NoCount op) p) (combine : Bool)
    (hnew : combine = false ∨ p.beams = [])
    -- the files, and what they say
    (dir : LoadPlane.Dir ℝ) (tag : Option String) (names : Option (List String)) (files : List String)
    (hfiles : LoadPlane.select dir tag names = .ok files) (rows : List TableRow)
    (kw : Dict ℝ) (bt file : Val ℝ) {F A err : ℝ} {L : Nat} {mm : Int} {sym : Bool}
    (hd : List.Forall₂ (Describes dir kw bt file F A err L mm sym none) files rows)
    (noPairs : Bool) {polA polB : Val ℝ} {dA dB : ℝ} (hA : polA.toNum = some dA) (hB : polB.toNum = some dB)
    (htw : ∀ r ∈ rows.map (shifted noPairs dA dB), r.dead = (true, true) ∨ (r.dead = (false, false) ∧
      r.az.2 = r.az.1 ∧ r.el.2 = r.el.1 ∧ ∃ k : ℤ, r.polang.2 = r.polang.1 + 90 + 180 * k))
    (h0 : 0 ≤ min mm s.maxSpin) (h1 : min mm s.maxSpin ≤ (min Ls L : Nat)) (h2 : 2 ≤ min Ls L)
    (h3 : sym = true ∨ 2 ≤ min mm s.maxSpin)
    -- the coefficients of the beams are the array number `n`
    (n : Nat) (hload : ∀ a, BeamOf a bt file F A L → s.env.loadBlm a = .ok (.obj n, none))
    {b : Nat → Nat → Nat → ℂ} (hb : RealBeam L b) (hax : AxiSym b)
    (hrows' : HasRows L (nrows beamV) (blmOf n) b) (hlen' : beamV = true → (blmOf n).length = 4)
    -- the scans
    (l : List (Inst E × Bool × Nat))
    (hl : ∀ x ∈ l, Ready s.w chunks x.1 ∧ Rotates N chunks x.1.rot M.rot ∧
      Plate s.w.fsamp N x.1.hwp M.alpha ∧ Steady s.w M chunks x.1.el ∧ 0 < x.2.2 ∧
      (x.2.1 = false → x.2.2 = 1)) (fill : ℝ) :
    let r := (LoadPlane.load s.env dir tag names noPairs combine polA polB kw).run p
    let seen := seenBy M s.w N (tabled (rows.map (shifted noPairs dA dB)) err)
    r.1 = .ok () ∧ ∃ ms h', ScanObjects.scans s o r.2.beams l r.2.heap = .ok (ms, h') ∧
      ms.length = l.length ∧ ∀ m ∈ ms, ∀ j, j < 12 * s.w.nsideOut ^ 2 →
        (ThreeAngles (here j seen) → (solveForMap s.w.q m fill)[j]? = some (MapMaking.stokes iau
            ((1 + o.ctalk) * smoothI Y s.w.nsideOut (min Ls L) (skyOf inputV sky) (beamOf beamV b) j)
            ((1 - o.ctalk : ℝ) * (smoothP Y s.w.nsideOut (min Ls L) (skyOf inputV sky) (beamOf beamV b) j *
              Complex.exp (2 * ((err + 2 * s.w.varphi) * Real.pi / 180 : ℝ) * Complex.I))))) ∧
        (here j seen = [] → (solveForMap s.w.q m fill)[j]? = some fun _ => fill) := by
  intro r seen
  obtain ⟨hok, hsh⟩ := Files.file_shares s hpi rng p hr combine hnew dir tag names files hfiles rows hd noPairs hA hB
    (by omega) hrot ⟨n, L, b⟩ rfl hload Ls h0 h1 (by
      cases sym
      · rw [if_neg (by simp)]
        rcases h3 with h | h
        · cases h
        · exact h
      · simp only [if_true]
        omega)
  exact ⟨hok, C134_twins Y hY s hf hx hq hso iau hxq hns M o hbin hpre hgr hre hint N chunks hmi
    hang hbore blmOf muOf hs hsky hrows hlen ⟨n, L, b⟩ hb hax hrows' hlen' err r.2.heap r.2.beams _ (by
      intro q hq
      obtain ⟨row, hrow, rfl⟩ := List.mem_map.1 hq
      rcases htw row hrow with h | ⟨h, e1, e2, k, e3⟩
      · exact .inl ⟨by simp [live, FocalScan.det, h], by simp [live, FocalScan.det, h]⟩
      · exact .inr ⟨_, _, by simp [live, FocalScan.det, h]; rfl, by simp [live, FocalScan.det, h]; rfl, e1, e2,
          k, e3⟩) hsh l hl fill⟩

/-- **C146, Gaussian beams.** If the files describe Gaussian beams, the map is the sky smoothed with the
Gaussian. -/
theorem C146_gaussian (Y : Harmonics) (hY : Conjugation Y) (s : ObjWorld E) (hf : LimitFree s.env)
    (hpi : s.env.pi = Real.pi) (hx : ExtOk s.w.x) (hrot : ∀ az el, IsRot (s.w.x.detOffset az el 0))
    (hq : PixOk s.w.q) (hso : SolveOk s.w.q) (iau : Bool) (hxq : Agree s.w.x s.w.q iau)
    (hns : 0 < s.w.nsideOut) (M : Motion) (o : Opts) (hbin : o.binning = true)
    (hpre : o.preview = false) (hgr : o.ground = false) (hre : o.reuseSpinmaps = false)
    (hint : o.interp = false) (hct : o.ctalk = 0) (N : Nat) (chunks : List Chunk)
    (hmi : Mission N chunks) (hang : ∀ c ∈ chunks, c.hwpang = none)
    (hbore : ∀ t, t < N → IsRot (M.bore t)) {Ls : Nat} {alm : List (List ℂ)}
    {sky : Nat → Nat → Nat → ℂ} {inputV : Bool} (blmOf : Nat → List (List ℂ))
    (muOf : Nat → Spin.Mat4) (hs : s.sky = skyMaker Y alm s.w.nsideOut inputV false blmOf muOf)
    (hsky : RealSky Ls sky) (hrows : HasRows Ls (nrows inputV) alm sky)
    (hlen : inputV = true → alm.length = 4)
    -- the focal plane
    (rng : Nat → ℝ) (p : FocalPlane.Plane ℝ)
    (hr : FocalPlane.PReachable s.env rng (fun _ op => FocalPlane.NoCount op) p) (combine : Bool)
    (hnew : combine = false ∨ p.beams = [])
    -- the files, and what they say
    (dir : LoadPlane.Dir ℝ) (tag : Option String) (names : Option (List String)) (files : List String)
    (hfiles : LoadPlane.select dir tag names = .ok files) (rows : List TableRow)
    (kw : Dict ℝ) (file : Val ℝ) {F A err : ℝ} {L : Nat} {mm : Int} {sym : Bool}
    (hd : List.Forall₂ (Describes dir kw (.str "Gaussian") file F A err L mm sym none) files rows)
    (noPairs : Bool) {polA polB : Val ℝ} {dA dB : ℝ} (hA : polA.toNum = some dA) (hB : polB.toNum = some dB)
    (h0 : 0 ≤ min mm s.maxSpin) (h1 : min mm s.maxSpin ≤ (min Ls L : Nat)) (h2 : 2 ≤ min Ls L)
    (h3 : sym = true ∨ 2 ≤ min mm s.maxSpin)
    -- its coefficients are the array number `n`, made by `gen_gaussian_blm`
    (n : Nat) (hload : ∀ a, GaussianOf a F A L → s.env.loadBlm a = .ok (.obj n, none))
    (fs : BeamCoef.Files) (G : BeamCoef.Attrs)
    (hG : G.btype = "Gaussian" ∧ G.lmax = L ∧ G.fwhm = F ∧ G.amplitude = A)
    (hblm : (BeamCoef.blm fs G).map Prod.fst = .ok (blmOf n))
    -- the scans
    (l : List (Inst E × Bool × Nat))
    (hl : ∀ x ∈ l, Ready s.w chunks x.1 ∧ Rotates N chunks x.1.rot M.rot ∧
      Plate s.w.fsamp N x.1.hwp M.alpha ∧ Steady s.w M chunks x.1.el ∧ 0 < x.2.2 ∧
      (x.2.1 = false → x.2.2 = 1)) (fill : ℝ) :
    let r := (LoadPlane.load s.env dir tag names noPairs combine polA polB kw).run p
    let seen := seenBy M s.w N (tabled (rows.map (shifted noPairs dA dB)) err)
    r.1 = .ok () ∧ ∃ ms h', ScanObjects.scans s o r.2.beams l r.2.heap = .ok (ms, h') ∧
      ms.length = l.length ∧ ∀ m ∈ ms, ∀ j, j < 12 * s.w.nsideOut ^ 2 →
        (ThreeAngles (here j seen) → (solveForMap s.w.q m fill)[j]? = some (MapMaking.stokes iau
            (gaussI Y s.w.nsideOut (min Ls L) (skyOf inputV sky) F A j)
            (gaussP Y s.w.nsideOut (min Ls L) (skyOf inputV sky) F A j *
              Complex.exp (2 * ((err + 2 * s.w.varphi) * Real.pi / 180 : ℝ) * Complex.I)))) ∧
        (here j seen = [] → (solveForMap s.w.q m fill)[j]? = some fun _ => fill) := by
  intro r seen
  obtain ⟨g1, g2, rfl, rfl⟩ := hG
  obtain ⟨rowsG, mG, hrG, hrG'⟩ : ∃ rows mG, BeamCoef.blm fs G = .ok (rows, mG) ∧ rows = blmOf n := by
    rcases e : BeamCoef.blm fs G with er | ⟨rows, mG⟩ <;> rw [e] at hblm
    · cases hblm
    · exact ⟨rows, mG, rfl, Except.ok.inj hblm⟩
  subst hrG'
  have hrows' := FocalScan.gaussRows_has fs G g1 L (by omega) g2 hrG
  obtain ⟨hok, ms, h', k1, k2, k3⟩ := C146_beams Y hY s hf hpi hx hrot hq hso iau hxq hns M o hbin hpre hgr hre
    hint hct N chunks hmi hang hbore (beamV := false) blmOf muOf hs hsky hrows hlen rng p hr combine hnew dir tag
    names files hfiles rows kw _ file hd noPairs hA hB h0 h1 h2 h3 n
    (fun a h => hload a ⟨h.btype, h.fwhm, h.lmax, h.amplitude⟩)
    (FocalScan.gaussRows_real G.fwhm G.amplitude L) (FocalScan.gaussRows_axi _ _) hrows' (by simp) l hl fill
  refine ⟨hok, ms, h', k1, k2, fun m hm j hj => ?_⟩
  have := k3 m hm j hj
  rw [FocalScan.smoothI_gauss, FocalScan.smoothP_gauss] at this
  exact this

/-- **C146, half-wave plates.** If the files, or the call, give all beams the Mueller matrix of a half-wave
plate, I is `t` times and `Q + iU` is `k` times that of the map without. -/
theorem C146_plate (Y : Harmonics) (hY : Conjugation Y) (hV : Vanishing Y) (s : ObjWorld E) (hf : LimitFree s.env)
    (hpi : s.env.pi = Real.pi) (hx : ExtOk s.w.x) (hrot : ∀ az el, IsRot (s.w.x.detOffset az el 0))
    (hq : PixOk s.w.q) (hso : SolveOk s.w.q) (iau : Bool) (hxq : Agree s.w.x s.w.q iau)
    (hns : 0 < s.w.nsideOut) (M : Motion) (o : Opts) (hbin : o.binning = true)
    (hpre : o.preview = false) (hgr : o.ground = false) (hre : o.reuseSpinmaps = false)
    (hint : o.interp = false) (hct : o.ctalk = 0) (N : Nat) (chunks : List Chunk)
    (hmi : Mission N chunks) (hang : ∀ c ∈ chunks, c.hwpang = none)
    (hbore : ∀ t, t < N → IsRot (M.bore t)) {Ls : Nat} {alm : List (List ℂ)}
    {sky : Nat → Nat → Nat → ℂ} {beamV : Bool} (blmOf : Nat → List (List ℂ))
    (muOf : Nat → Spin.Mat4) (hs : s.sky = skyMaker Y alm s.w.nsideOut false beamV blmOf muOf)
    (hsky : RealSky Ls sky) (hrows : HasRows Ls (nrows false) alm sky)
    -- the focal plane
    (rng : Nat → ℝ) (p : FocalPlane.Plane ℝ)
    (hr : FocalPlane.PReachable s.env rng (fun _ op => FocalPlane.NoCount op) p) (combine : Bool)
    (hnew : combine = false ∨ p.beams = [])
    -- the files, and what they say
    (dir : LoadPlane.Dir ℝ) (tag : Option String) (names : Option (List String)) (files : List String)
    (hfiles : LoadPlane.select dir tag names = .ok files) (rows : List TableRow)
    (kw : Dict ℝ) (bt file : Val ℝ) {F A err : ℝ} {L : Nat} {mm : Int} {sym : Bool}
    {i : Nat}
    (hd : List.Forall₂ (Describes dir kw bt file F A err L mm sym (some i)) files rows)
    (noPairs : Bool) {polA polB : Val ℝ} {dA dB : ℝ} (hA : polA.toNum = some dA) (hB : polB.toNum = some dB)
    (h0 : 0 ≤ min mm s.maxSpin) (h1 : min mm s.maxSpin ≤ (min Ls L : Nat)) (h2 : 4 ≤ min Ls L)
    (h3 : sym = true ∨ 2 ≤ min mm s.maxSpin)
    -- the coefficients of the beams are the array number `n`, the plate is array number `i`
    (n : Nat) (hload : ∀ a, BeamOf a bt file F A L → s.env.loadBlm a = .ok (.obj n, none))
    {b : Nat → Nat → Nat → ℂ} (hb : RealBeam L b) (hax : CoPolar b)
    (hrows' : HasRows L (nrows beamV) (blmOf n) b) (hlen' : beamV = true → (blmOf n).length = 4)
    {plate : Fin 4 → Fin 4 → ℝ} {t : ℝ} {k : ℂ} (hn : muOf i = realMat plate) (hpl : HalfWave plate t k)
    -- the scans
    (l : List (Inst E × Bool × Nat))
    (hl : ∀ x ∈ l, Ready s.w chunks x.1 ∧ Rotates N chunks x.1.rot M.rot ∧
      Plate s.w.fsamp N x.1.hwp M.alpha ∧ Steady s.w M chunks x.1.el ∧ 0 < x.2.2 ∧
      (x.2.1 = false → x.2.2 = 1)) (fill : ℝ) :
    let r := (LoadPlane.load s.env dir tag names noPairs combine polA polB kw).run p
    let seen := seenBy M s.w N (tabled (rows.map (shifted noPairs dA dB)) err)
    r.1 = .ok () ∧ ∃ ms h', ScanObjects.scans s o r.2.beams l r.2.heap = .ok (ms, h') ∧
      ms.length = l.length ∧ ∀ m ∈ ms, ∀ j, j < 12 * s.w.nsideOut ^ 2 →
        (ThreeAngles (here j seen) → (solveForMap s.w.q m fill)[j]? = some (MapMaking.stokes iau
            (t * smoothI Y s.w.nsideOut (min Ls L) (skyOf false sky) (beamOf beamV b) j)
            (k * (smoothP Y s.w.nsideOut (min Ls L) (skyOf false sky) (beamOf beamV b) j *
              Complex.exp (2 * ((err + 2 * s.w.varphi) * Real.pi / 180 : ℝ) * Complex.I))))) ∧
        (here j seen = [] → (solveForMap s.w.q m fill)[j]? = some fun _ => fill) := by
  intro r seen
  obtain ⟨hok, hsh⟩ := Files.file_shares s hpi rng p hr combine hnew dir tag names files hfiles rows hd noPairs hA hB
    (by omega) hrot ⟨n, L, b⟩ rfl hload Ls h0 h1 (by
      cases sym
      · rw [if_neg (by simp)]
        rcases h3 with h | h
        · cases h
        · exact h
      · simp only [if_true]
        omega)
  exact ⟨hok, C135_objects Y hY hV s hf hx hq hso iau hxq hns M o hbin hpre hgr hre hint hct N chunks hmi
    hang hbore blmOf muOf hs hsky hrows ⟨n, L, b⟩ hb hax hrows' hlen' err r.2.heap r.2.beams _ i hn hpl h2 hsh l hl
    fill⟩

/-! ## The hypotheses are met -/

namespace Gridded

open Rec Whole

/-- A directory with two files; one is asked for. -/
def pickles : LoadPlane.Dir ℝ :=
  [("other.pkl", .other), ("det.pkl", .dict [(.name, .str "d"), (.az, .num (-5)), (.el, .int (-5)),
    (.polang, .num (-30)), (.lmax, .int 9), (.polangError, .num 7)])]

/-- The options of the call. -/
def call : Dict ℝ := [(.lmax, .int 5), (.fwhm, .num (-60))]

theorem selected : LoadPlane.select pickles none (some ["det"]) = .ok ["det.pkl"] := by
  rfl

/-- What the file says, without `polang_A = 30` and `polang_B = 120`. -/
def fileRow : TableRow := ⟨(-5, -5), (-5, -5), (-30, -30), (false, false)⟩

theorem described : List.Forall₂ (Describes pickles call (.str "Gaussian") .none 60 1 7 5 5 false none)
    ["det.pkl"] [fileRow] := by
  refine .cons ⟨_, _, _, rfl, .one _, ?_, ?_, ?_⟩ .nil
  · intro _ v hv
    simp [Dict.get?, List.lookup, show ∀ a b : Key, (a == b) = decide (a = b) from fun _ _ => rfl] at hv
    exact ⟨_, hv.symm⟩
  all_goals
    refine ⟨?_, ?_, ?_, ?_, ?_, ?_, ?_, ?_, ?_, .inl ⟨?_, rfl⟩, .inr ⟨-60, ?_, by norm_num⟩, ?_, ?_, ?_, ?_⟩ <;>
    simp [call, fileRow, Spec.LoadPlane.given, FocalScan.parameters, Dict.get?, List.lookup, Val.toNum, Val.truthy,
      show ∀ a b : Key, (a == b) = decide (a = b) from fun _ _ => rfl]

theorem shifted_eq : tabled ([fileRow].map (shifted true 30 120)) 7 = Verif.FocalScan.grid 1 1 10 0 90 7 false true := by
  simp [tabled, fileRow, shifted, Verif.FocalScan.grid, FocalScan.det, FocalScan.position]
  norm_num

/-- The hypotheses of `C146_gaussian`, and with them those of `C146_beams`, are met. -/
example (fill : ℝ) :
    let r := (LoadPlane.load env pickles none (some ["det"]) true false (.num 30) (.int 120) call).run
      FocalPlane.emptyPlane
    r.1 = .ok () ∧ ∃ ms h', ScanObjects.scans s o r.2.beams [(i, false, 1), (i, true, 2)] r.2.heap =
        .ok (ms, h') ∧ ms.length = 2 ∧ ∀ m ∈ ms,
      (solveForMap qp m fill)[0]? = some (MapMaking.stokes false
        (gaussI Conv.Y 1 5 (skyOf false (Conv.coef 1)) 60 1 0)
        (gaussP Conv.Y 1 5 (skyOf false (Conv.coef 1)) 60 1 0 *
          Complex.exp (2 * ((7 + 2 * 0) * Real.pi / 180 : ℝ) * Complex.I))) ∧
      (solveForMap qp m fill)[5]? = some fun _ => fill := by
  obtain ⟨h1, ms, h', h2, h3, h4⟩ := C146_gaussian Conv.Y Conv.Y_conj s free rfl ext_ok
    (fun _ _ => one_rot) pix_ok solve_ok false agree one_pos M o rfl rfl rfl rfl rfl rfl 3 chunks mission_ok
    (by decide) (fun _ _ => one_rot) (fun _ => gauss) (fun _ => 0) rfl (Conv.coef_real 1 5)
    (Conv.rows_ok _ _ _) (by simp) (fun _ => 0) FocalPlane.emptyPlane .start false (.inl rfl) pickles none
    (some ["det"]) _ selected [fileRow] call .none described true (polA := .num 30) (polB := .int 120) (dA := 30)
    (dB := 120) rfl (by simp [Val.toNum]) (by decide) (by decide) (by decide)
    (.inr (by decide)) 1 (fun a ha => by simp [s, env, ha]) fs G ⟨rfl, rfl, rfl, rfl⟩ blm_ok
    [(i, false, 1), (i, true, 2)] go fill
  refine ⟨h1, ms, h', h2, h3, fun m hm => ⟨(h4 m hm 0 (by decide)).1 ?_, (h4 m hm 5 (by decide)).2 ?_⟩⟩
  · rw [shifted_eq, seen_same]
    exact Whole.three
  · rw [shifted_eq, seen_same]
    exact nowhere

/-- The same pair with both detectors alive. -/
theorem paired_eq : tabled ([fileRow].map (shifted false 30 120)) 7 =
    Verif.FocalScan.grid 1 1 10 0 90 7 false false := by
  simp [tabled, fileRow, shifted, Verif.FocalScan.grid, FocalScan.det, FocalScan.position]
  norm_num

/-- The hypotheses of `C146_cross_talk` are met. -/
example (fill : ℝ) :
    let r := (LoadPlane.load env pickles none (some ["det"]) false false (.num 30) (.int 120) call).run
      FocalPlane.emptyPlane
    r.1 = .ok () ∧ ∃ ms h', ScanObjects.scans s { o with ctalk := 1 / 10 } r.2.beams
        [(i, false, 1), (i, true, 2)] r.2.heap = .ok (ms, h') ∧ ms.length = 2 ∧ ∀ m ∈ ms,
      (solveForMap qp m fill)[0]? = some (MapMaking.stokes false
        ((1 + 1 / 10) * gaussI Conv.Y 1 5 (skyOf false (Conv.coef 1)) 60 1 0)
        ((1 - 1 / 10 : ℝ) * (gaussP Conv.Y 1 5 (skyOf false (Conv.coef 1)) 60 1 0 *
          Complex.exp (2 * ((7 + 2 * 0) * Real.pi / 180 : ℝ) * Complex.I)))) := by
  obtain ⟨rows, mG, hrG, hrG'⟩ : ∃ rows mG, BeamCoef.blm fs G = .ok (rows, mG) ∧ rows = gauss := by
    have hblm := blm_ok
    rcases e : BeamCoef.blm fs G with er | ⟨rows, mG⟩ <;> rw [e] at hblm
    · cases hblm
    · exact ⟨rows, mG, rfl, Except.ok.inj hblm⟩
  subst hrG'
  have hrows' := FocalScan.gaussRows_has fs G rfl 5 (by norm_num) rfl hrG
  obtain ⟨h1, ms, h', h2, h3, h4⟩ := C146_cross_talk Conv.Y Conv.Y_conj s free rfl ext_ok
    (fun _ _ => one_rot) pix_ok solve_ok false agree one_pos M { o with ctalk := 1 / 10 } rfl rfl rfl rfl rfl
    3 chunks mission_ok
    (by decide) (fun _ _ => one_rot) (beamV := false) (fun _ => gauss) (fun _ => 0) rfl (Conv.coef_real 1 5)
    (Conv.rows_ok _ _ _) (by simp) (fun _ => 0) FocalPlane.emptyPlane .start false (.inl rfl) pickles none
    (some ["det"]) _ selected [fileRow] call _ .none described false (polA := .num 30) (polB := .int 120) (dA := 30)
    (dB := 120) rfl (by simp [Val.toNum])
    (by
      intro r hr
      simp only [List.map_cons, List.map_nil, List.mem_cons, List.not_mem_nil, or_false] at hr
      subst hr
      exact .inr ⟨rfl, rfl, rfl, 0, by simp [fileRow, shifted]; norm_num⟩)
    (by decide) (by decide) (by decide)
    (.inr (by decide)) 1 (fun a ha => by
      have : GaussianOf a 60 1 5 := ⟨ha.btype, ha.fwhm, ha.lmax, ha.amplitude⟩
      simp [s, env, this])
    (FocalScan.gaussRows_real G.fwhm G.amplitude 5) (FocalScan.gaussRows_axi _ _) hrows' (by simp)
    [(i, false, 1), (i, true, 2)] go fill
  refine ⟨h1, ms, h', h2, h3, fun m hm => ?_⟩
  have := (h4 m hm 0 (by decide)).1 ?_
  · rw [FocalScan.smoothI_gauss, FocalScan.smoothP_gauss] at this
    exact this
  rw [paired_eq]
  refine options_sub seen_more 0 ?_
  rw [seen_same]
  exact Whole.three

/-- The call adds a plate. -/
def callp : Dict ℝ := [(.lmax, .int 5), (.fwhm, .num (-60)), (.hwpMueller, .obj 0)]

theorem describedp : List.Forall₂ (Describes pickles callp (.str "Gaussian") .none 60 1 7 5 5 false (some 0))
    ["det.pkl"] [fileRow] := by
  refine .cons ⟨_, _, _, rfl, .one _, ?_, ?_, ?_⟩ .nil
  · intro _ v hv
    simp [Dict.get?, List.lookup, show ∀ a b : Key, (a == b) = decide (a = b) from fun _ _ => rfl] at hv
    exact ⟨_, hv.symm⟩
  all_goals
    refine ⟨?_, ?_, ?_, ?_, ?_, ?_, ?_, ?_, ?_, .inl ⟨?_, rfl⟩, .inr ⟨-60, ?_, by norm_num⟩, ?_, ?_, ?_, ?_⟩ <;>
    simp [callp, fileRow, Spec.LoadPlane.given, FocalScan.parameters, Dict.get?, List.lookup, Val.toNum, Val.truthy,
      show ∀ a b : Key, (a == b) = decide (a = b) from fun _ _ => rfl]

/-- The hypotheses of `C146_plate` are met. -/
example (fill : ℝ) :
    let r := (LoadPlane.load env pickles none (some ["det"]) true false (.num 30) (.int 120) callp).run
      FocalPlane.emptyPlane
    r.1 = .ok () ∧ ∃ ms h', ScanObjects.scans sp o r.2.beams [(i, false, 1), (i, true, 2)] r.2.heap =
        .ok (ms, h') ∧ ms.length = 2 ∧ ∀ m ∈ ms,
      (solveForMap qp m fill)[0]? = some (MapMaking.stokes false
        ((1 / 2 : ℝ) * gaussI Conv.Y 1 5 (skyOf false (Conv.coef 1)) 60 1 0)
        (Complex.I / 4 * (gaussP Conv.Y 1 5 (skyOf false (Conv.coef 1)) 60 1 0 *
          Complex.exp (2 * ((7 + 2 * 0) * Real.pi / 180 : ℝ) * Complex.I)))) := by
  obtain ⟨rows, mG, hrG, hrG'⟩ : ∃ rows mG, BeamCoef.blm fs G = .ok (rows, mG) ∧ rows = gauss := by
    have hblm := blm_ok
    rcases e : BeamCoef.blm fs G with er | ⟨rows, mG⟩ <;> rw [e] at hblm
    · cases hblm
    · exact ⟨rows, mG, rfl, Except.ok.inj hblm⟩
  subst hrG'
  have hrows' := FocalScan.gaussRows_has fs G rfl 5 (by norm_num) rfl hrG
  obtain ⟨h1, ms, h', h2, h3, h4⟩ := C146_plate Conv.Y Conv.Y_conj Conv.Y_vanishing sp free rfl ext_ok
    (fun _ _ => one_rot) pix_ok solve_ok false agree one_pos M o rfl rfl rfl rfl rfl rfl 3 chunks mission_ok
    (by decide) (fun _ _ => one_rot) (beamV := false) (fun _ => gauss) (fun _ => realMat slab) rfl
    (Conv.coef_real 1 5) (Conv.rows_ok _ _ _) (fun _ => 0) FocalPlane.emptyPlane .start false (.inl rfl) pickles none
    (some ["det"]) _ selected [fileRow] callp _ .none describedp true (polA := .num 30) (polB := .int 120) (dA := 30)
    (dB := 120) rfl (by simp [Val.toNum]) (by decide) (by decide) (by decide)
    (.inr (by decide)) 1
    (fun a ha => by simp [sp, env, show GaussianOf a 60 1 5 from ⟨ha.btype, ha.fwhm, ha.lmax, ha.amplitude⟩])
    (FocalScan.gaussRows_real 60 1 5) ⟨FocalScan.gaussRows_axi _ _, fun l => by
      simp only [FocalScan.gaussRows, if_true, if_neg (show (1 : Nat) ≠ 0 by decide)]
      exact Complex.conj_ofReal _⟩ hrows' (by simp) rfl slab_half
    [(i, false, 1), (i, true, 2)] go fill
  refine ⟨h1, ms, h', h2, h3, fun m hm => ?_⟩
  have := (h4 m hm 0 (by decide)).1 (by
    rw [show seenBy M sp.w 3 (tabled ([fileRow].map (shifted true 30 120)) 7) =
      seenBy M s.w 3 (tabled ([fileRow].map (shifted true 30 120)) 7) from rfl, shifted_eq, seen_same]
    exact Whole.three)
  rw [FocalScan.smoothI_gauss, FocalScan.smoothP_gauss] at this
  exact this

end Gridded

end Verif.Props
