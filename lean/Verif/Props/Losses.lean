import Verif.Lemmas.Losses
import Verif.Props.FocalScan

/-!
# C145: focal planes that lost detectors
-/

noncomputable section

namespace Verif.Props

open Verif.Chunks Verif.Timeline Verif.Spinmaps Verif.MapMaking Verif.ScanInstrument Verif.Spec
open Verif.Beam (Heap Ref Val Obj Env Key Dict LimitFree)
open Verif.ScanObjects (ObjPair ObjWorld Coefs skyMaker)
open Verif.FocalScan (SharesBeam GaussianOf GridOptions grid gaussI gaussP)
open Verif.FocalPlane (PReachable NoCount Counts Plane slots Full IsChoice killChannels removeFromFocalPlane
  createFocalPlane Arg)
open Verif.Losses (DeadFree lose without Died)

variable {E : Type}

/-- Killing channels of pairs that share a beam: exactly the objects of some `D` die. -/
theorem kill_died (env : Env ℝ) (rng : Nat → ℝ) (p : Plane ℝ)
    (hr : PReachable env rng (fun p op => NoCount op ∧ Counts env rng p op) p)
    (hf : Full p.beams) (hn : (slots p.beams).Nodup) (choice : Int → Int → PyM (List Nat))
    (hc : IsChoice choice) (f : ℝ) (h0 : 0 ≤ f) (h1 : f ≤ 1) (pairs : Bool)
    (hl : ∀ r ∈ slots p.beams, FocalScan.Lone (p.heap.cell r)) :
    let r := (killChannels choice f pairs).run p
    ∃ D : List Ref, D.Nodup ∧ (∀ x ∈ D, x ∈ slots p.beams) ∧
      (pairs = false → (D.length : Int) = ⌊(p.ndet : ℝ) * f⌋) ∧
      (pairs = true → (D.length : Int) = 2 * ⌊((p.ndet / 2 : Int) : ℝ) * f⌋ ∧
        ∀ q ∈ p.beams, ∀ a b, q = (some a, some b) → (a ∈ D ↔ b ∈ D)) ∧
      r.1 = .ok () ∧ r.2.beams = p.beams ∧ Died D p.heap r.2.heap := by
  obtain ⟨D, d1, d2, d3, d4, d5, d6, -, d8, d9⟩ := FocalPlane.C44_kill_partial env rng p hr hf hn choice hc f h0
    h1 pairs
  refine ⟨D, d1, d2, d3, d4, d5, d6, d8, fun x => ?_⟩
  have hg : (x ∈ D ∨ ∃ r ∈ D, FocalPlane.GhostOf p.heap r x) ↔ x ∈ D := by
    constructor
    · rintro (h | ⟨r, h, gs, e, hx⟩)
      · exact h
      · rw [(hl r (d2 r h)).ghosts] at e
        cases e
        cases hx
    · exact .inl
  obtain ⟨a, b⟩ := d9 x
  rw [hg] at a b
  split
  · exact a ‹_›
  · exact b ‹_›

/-- **C145.** A fraction of the detectors, or of the pairs, of a focal plane is killed with `kill_channels`,
whatever the draw.  The scans of the focal plane, any number of them, with and without MPI and with any
numbers of ranks, end normally, and in every pixel that the remaining detectors see under three angles the
map is the sky seen through the beam, exactly; pixels they do not see are filled.  As in C119, the
detectors share a beam that is symmetric around its axis; as in C44, no slot is empty. -/
theorem C145_killed (Y : Harmonics) (hY : Conjugation Y) (s : ObjWorld E) (hf : LimitFree s.env)
    (hdf : DeadFree s.env)
    (hx : ExtOk s.w.x) (hq : PixOk s.w.q) (hso : SolveOk s.w.q) (iau : Bool) (hxq : Agree s.w.x s.w.q iau)
    (hns : 0 < s.w.nsideOut) (M : Motion) (o : Opts) (hbin : o.binning = true)
    (hpre : o.preview = false) (hgr : o.ground = false) (hre : o.reuseSpinmaps = false)
    (hint : o.interp = false) (hct : o.ctalk = 0) (N : Nat) (chunks : List Chunk)
    (hmi : Mission N chunks) (hang : ∀ c ∈ chunks, c.hwpang = none)
    (hbore : ∀ t, t < N → IsRot (M.bore t)) {Ls : Nat} {alm : List (List ℂ)}
    {sky : Nat → Nat → Nat → ℂ} {inputV beamV : Bool} (blmOf : Nat → List (List ℂ))
    (muOf : Nat → Spin.Mat4) (hs : s.sky = skyMaker Y alm s.w.nsideOut inputV beamV blmOf muOf)
    (hsky : RealSky Ls sky) (hrows : HasRows Ls (nrows inputV) alm sky)
    (hlen : inputV = true → alm.length = 4) (c : Coefs) (hb : RealBeam c.L c.b) (hax : AxiSym c.b)
    (hrows' : HasRows c.L (nrows beamV) (blmOf c.n) c.b)
    (hlen' : beamV = true → (blmOf c.n).length = 4) (err : ℝ)
    -- the focal plane
    (rng : Nat → ℝ) (p : Plane ℝ)
    (hr : PReachable s.env rng (fun p op => NoCount op ∧ Counts s.env rng p op) p)
    (hfull : Full p.beams) (hnd : (slots p.beams).Nodup)
    (qs : List Pair) (hp : List.Forall₂ (SharesBeam s p.heap Ls c none err) p.beams qs)
    -- the losses
    (choice : Int → Int → PyM (List Nat)) (hc : IsChoice choice) (f : ℝ) (h0 : 0 ≤ f) (h1 : f ≤ 1)
    (pairs : Bool)
    -- the scans
    (l : List (Inst E × Bool × Nat))
    (hl : ∀ x ∈ l, Ready s.w chunks x.1 ∧ Rotates N chunks x.1.rot M.rot ∧
      Plate s.w.fsamp N x.1.hwp M.alpha ∧ Steady s.w M chunks x.1.el ∧ 0 < x.2.2 ∧
      (x.2.1 = false → x.2.2 = 1)) (fill : ℝ) :
    let r := (killChannels choice f pairs).run p
    r.1 = .ok () ∧ ∃ D : List Ref, D.Nodup ∧ (∀ x ∈ D, x ∈ slots p.beams) ∧
      (pairs = false → (D.length : Int) = ⌊(p.ndet : ℝ) * f⌋) ∧
      (pairs = true → (D.length : Int) = 2 * ⌊((p.ndet / 2 : Int) : ℝ) * f⌋ ∧
        ∀ q ∈ p.beams, ∀ a b, q = (some a, some b) → (a ∈ D ↔ b ∈ D)) ∧
      let seen := seenBy M s.w N (List.zipWith (lose D) p.beams qs)
      ∃ ms h', ScanObjects.scans s o r.2.beams l r.2.heap = .ok (ms, h') ∧ ms.length = l.length ∧
        ∀ m ∈ ms, ∀ k, k < 12 * s.w.nsideOut ^ 2 →
          (ThreeAngles (here k seen) →
            (solveForMap s.w.q m fill)[k]? = some (stokes iau
              (smoothI Y s.w.nsideOut (min Ls c.L) (skyOf inputV sky) (beamOf beamV c.b) k)
              (smoothP Y s.w.nsideOut (min Ls c.L) (skyOf inputV sky) (beamOf beamV c.b) k *
                Complex.exp (2 * ((err + 2 * s.w.varphi) * Real.pi / 180 : ℝ) * Complex.I)))) ∧
          (here k seen = [] → (solveForMap s.w.q m fill)[k]? = some fun _ => fill) := by
  intro r
  obtain ⟨D, d1, d2, d3, d4, d5, d6, d7⟩ := kill_died s.env rng p hr hfull hnd choice hc f h0 h1 pairs
    fun x hx => Losses.shares_lone hp hx
  refine ⟨d5, D, d1, d2, d3, d4, ?_⟩
  have hsh := Losses.zip_shares d7 hdf hp
  have := C119_objects Y hY s hf hx hq hso iau hxq hns M o hbin hpre hgr hre hint hct N chunks hmi hang
    hbore blmOf muOf hs hsky hrows hlen c hb hax hrows' hlen' err r.2.heap p.beams _ hsh l hl fill
  rw [show r.2.beams = p.beams from d6]
  exact this

/-- The pairs of a grid are objects of their own, one after another. -/
theorem grid_beams (env : Env ℝ) (rng : Nat → ℝ) (p : Plane ℝ)
    (hr : PReachable env rng (fun _ op => NoCount op) p) (nrow ncol : Int) (fov : ℝ) (noPairs : Bool)
    (abDiff : Val ℝ) (combine : Bool) (hnew : combine = false ∨ p.beams = []) (kw : Dict ℝ)
    (hok : ((createFocalPlane env nrow ncol fov noPairs abDiff combine kw).run p).1 = .ok ()) :
    let p' := ((createFocalPlane env nrow ncol fov noPairs abDiff combine kw).run p).2
    (p'.beams.length : Int) = nrow * ncol ∧ p'.beams = (List.range p'.beams.length).map fun i =>
      (some (p.heap.size + 2 * i), some (p.heap.size + 2 * i + 1)) := by
  intro p'
  obtain ⟨n1, n2, ⟨l, b1, b2, b3⟩, -⟩ := FocalPlane.C69_grid env rng p hr nrow ncol fov noPairs
    abDiff combine kw hok
  have hb : p'.beams = l := by
    rcases hnew with rfl | e
    · exact b1
    · rw [b1, e]
      cases combine <;> rfl
  have hlen : l.length = ncol.toNat * nrow.toNat := by
    zify
    rw [b2, Int.toNat_of_nonneg n1, Int.toNat_of_nonneg n2]
    ring
  have hl : l = (List.range l.length).map fun i => (some (p.heap.size + 2 * i), some (p.heap.size + 2 * i + 1)) := by
    apply List.ext_getElem?
    intro i
    by_cases hi : i < l.length
    · have hi0 : i < ncol.toNat * nrow.toNat := by rwa [hlen] at hi
      have hpos : 0 < nrow.toNat := by
        rcases Nat.eq_zero_or_pos nrow.toNat with e | e
        · rw [e] at hi0
          omega
        · exact e
      have hdiv : i / nrow.toNat * nrow.toNat + i % nrow.toNat = i := by
        rw [Nat.mul_comm]
        exact Nat.div_add_mod i nrow.toNat
      have hc : i / nrow.toNat < ncol.toNat := Nat.div_lt_of_lt_mul (by rwa [Nat.mul_comm])
      have he : i % nrow.toNat < nrow.toNat := Nat.mod_lt _ hpos
      have := b3 (i / nrow.toNat) (i % nrow.toNat) (by omega) (by omega)
      dsimp only at this
      rw [hdiv] at this
      rw [this, List.getElem?_map, List.getElem?_range hi]
      rfl
    · rw [List.getElem?_eq_none (by omega), List.getElem?_eq_none (by simp; omega)]
  rw [hb]
  exact ⟨b2, hl⟩

/-- The grid occupies slots of its own, all of them. -/
theorem grid_slots (env : Env ℝ) (rng : Nat → ℝ) (p : Plane ℝ)
    (hr : PReachable env rng (fun _ op => NoCount op) p) (nrow ncol : Int) (fov : ℝ) (noPairs : Bool)
    (abDiff : Val ℝ) (combine : Bool) (hnew : combine = false ∨ p.beams = []) (kw : Dict ℝ)
    (hok : ((createFocalPlane env nrow ncol fov noPairs abDiff combine kw).run p).1 = .ok ()) :
    let p' := ((createFocalPlane env nrow ncol fov noPairs abDiff combine kw).run p).2
    Full p'.beams ∧ (slots p'.beams).Nodup ∧ ((slots p'.beams).length : Int) = 2 * (nrow * ncol) := by
  intro p'
  obtain ⟨b2, hl⟩ := grid_beams env rng p hr nrow ncol fov noPairs abDiff combine hnew kw hok
  change (p'.beams.length : Int) = _ at b2
  change p'.beams = _ at hl
  have hsl : ∀ n, slots ((List.range n).map fun i => (some (p.heap.size + 2 * i), some (p.heap.size + 2 * i + 1))) =
      (List.range (2 * n)).map (p.heap.size + ·) := by
    intro n
    induction n with
    | zero => rfl
    | succ n ih =>
      unfold slots at ih ⊢
      rw [List.range_succ, List.map_append, List.flatMap_append, ih, show 2 * (n + 1) = 2 * n + 1 + 1 by omega,
        List.range_succ, List.range_succ, List.map_append, List.map_append]
      simp
      rfl
  refine ⟨?_, ?_, ?_⟩
  · rw [hl]
    intro q hq
    obtain ⟨i, -, rfl⟩ := List.mem_map.1 hq
    exact ⟨rfl, rfl⟩
  · rw [hl, hsl]
    exact List.nodup_range.map fun a b h => by simpa using h
  · rw [hl, hsl]
    simp only [List.length_map, List.length_range]
    push_cast
    rw [b2]

/-- **C145.** A user makes a grid of Gaussian beams with `create_focal_plane`, kills a fraction of the
detectors or pairs with `kill_channels`, and scans a sky: in every pixel that the remaining detectors see
under three angles the map is the sky smoothed with the Gaussian, exactly. -/
theorem C145_gaussian (Y : Harmonics) (hY : Conjugation Y) (s : ObjWorld E) (hf : LimitFree s.env)
    (hdf : DeadFree s.env)
    (hpi : s.env.pi = Real.pi) (hx : ExtOk s.w.x) (hrot : ∀ az el, IsRot (s.w.x.detOffset az el 0))
    (hq : PixOk s.w.q) (hso : SolveOk s.w.q) (iau : Bool) (hxq : Agree s.w.x s.w.q iau)
    (hns : 0 < s.w.nsideOut) (M : Motion) (o : Opts) (hbin : o.binning = true)
    (hpre : o.preview = false) (hgr : o.ground = false) (hre : o.reuseSpinmaps = false)
    (hint : o.interp = false) (hct : o.ctalk = 0) (N : Nat) (chunks : List Chunk)
    (hmi : Mission N chunks) (hang : ∀ c ∈ chunks, c.hwpang = none)
    (hbore : ∀ t, t < N → IsRot (M.bore t)) {Ls : Nat} {alm : List (List ℂ)}
    {sky : Nat → Nat → Nat → ℂ} {inputV : Bool} (blmOf : Nat → List (List ℂ))
    (muOf : Nat → Spin.Mat4) (hs : s.sky = skyMaker Y alm s.w.nsideOut inputV false blmOf muOf)
    (hsky : RealSky Ls sky) (hrows : HasRows Ls (nrows inputV) alm sky)
    (hlen : inputV = true → alm.length = 4)
    -- the focal plane
    (rng : Nat → ℝ) (p : Plane ℝ)
    (hr : PReachable s.env rng (fun p op => NoCount op ∧ Counts s.env rng p op) p)
    (nrow ncol : Int) (hrow : 0 ≤ nrow) (hcol : 0 ≤ ncol) (fov : ℝ) (noPairs : Bool)
    (abDiff : Val ℝ) (combine : Bool) (hnew : combine = false ∨ p.beams = [])
    (kw : Dict ℝ) {F A pol diff err : ℝ} {L : Nat} {mm : Int} {dead sym : Bool}
    (hkw : GridOptions kw abDiff F A pol diff err L mm dead sym none)
    (h0 : 0 ≤ min mm s.maxSpin) (h1 : min mm s.maxSpin ≤ (min Ls L : Nat)) (h2 : 2 ≤ min Ls L)
    (h3 : sym = true ∨ 2 ≤ min mm s.maxSpin)
    -- its coefficients are the array number `n`, made by `gen_gaussian_blm`
    (n : Nat) (hload : ∀ a, GaussianOf a F A L → s.env.loadBlm a = .ok (.obj n, none))
    (fs : BeamCoef.Files) (G : BeamCoef.Attrs)
    (hG : G.btype = "Gaussian" ∧ G.lmax = L ∧ G.fwhm = F ∧ G.amplitude = A)
    (hblm : (BeamCoef.blm fs G).map Prod.fst = .ok (blmOf n))
    -- the losses
    (choice : Int → Int → PyM (List Nat)) (hc : IsChoice choice) (f : ℝ) (hf0 : 0 ≤ f) (hf1 : f ≤ 1)
    (pairs : Bool)
    -- the scans
    (l : List (Inst E × Bool × Nat))
    (hl : ∀ x ∈ l, Ready s.w chunks x.1 ∧ Rotates N chunks x.1.rot M.rot ∧
      Plate s.w.fsamp N x.1.hwp M.alpha ∧ Steady s.w M chunks x.1.el ∧ 0 < x.2.2 ∧
      (x.2.1 = false → x.2.2 = 1)) (fill : ℝ) :
    let r := (createFocalPlane s.env nrow ncol fov noPairs abDiff combine kw).run p
    let r' := (killChannels choice f pairs).run r.2
    r.1 = .ok () ∧ r'.1 = .ok () ∧ ∃ D : List Ref, D.Nodup ∧ (∀ x ∈ D, x ∈ slots r.2.beams) ∧
      (pairs = false → (D.length : Int) = ⌊((2 * (nrow * ncol) : Int) : ℝ) * f⌋) ∧
      (pairs = true → (D.length : Int) = 2 * ⌊((nrow * ncol : Int) : ℝ) * f⌋ ∧
        ∀ q ∈ r.2.beams, ∀ a b, q = (some a, some b) → (a ∈ D ↔ b ∈ D)) ∧
      let seen := seenBy M s.w N (List.zipWith (lose D) r.2.beams (grid nrow ncol fov pol diff err dead noPairs))
      ∃ ms h', ScanObjects.scans s o r'.2.beams l r'.2.heap = .ok (ms, h') ∧
        ms.length = l.length ∧ ∀ m ∈ ms, ∀ k, k < 12 * s.w.nsideOut ^ 2 →
          (ThreeAngles (here k seen) → (solveForMap s.w.q m fill)[k]? = some (stokes iau
              (gaussI Y s.w.nsideOut (min Ls L) (skyOf inputV sky) F A k)
              (gaussP Y s.w.nsideOut (min Ls L) (skyOf inputV sky) F A k *
                Complex.exp (2 * ((err + 2 * s.w.varphi) * Real.pi / 180 : ℝ) * Complex.I)))) ∧
          (here k seen = [] → (solveForMap s.w.q m fill)[k]? = some fun _ => fill) := by
  intro r r'
  have hr0 : PReachable s.env rng (fun _ op => NoCount op) p := by
    clear hnew
    induction hr with
    | start => exact .start
    | step op _ hp hrf ih => exact .step op ih hp.1 hrf
  have hok := FocalPlane.C69_succeeds s.env p nrow ncol hrow hcol fov noPairs abDiff combine hnew kw
    (FocalScan.grid_good hkw (by omega)).1 (FocalScan.grid_good hkw (by omega)).2
  refine ⟨hok, ?_⟩
  obtain ⟨g1, g2, rfl, rfl⟩ := hG
  obtain ⟨rows, mG, hrG, hrG'⟩ : ∃ rows mG, BeamCoef.blm fs G = .ok (rows, mG) ∧ rows = blmOf n := by
    rcases e : BeamCoef.blm fs G with er | ⟨rows, mG⟩ <;> rw [e] at hblm
    · cases hblm
    · exact ⟨rows, mG, rfl, Except.ok.inj hblm⟩
  subst hrG'
  have hrows' := FocalScan.gaussRows_has fs G g1 L (by omega) g2 hrG
  have hsh := FocalScan.grid_shares s hpi rng p hr0 nrow ncol fov noPairs abDiff combine hnew kw hkw hok hrot
    ⟨n, L, FocalScan.gaussRows G.fwhm G.amplitude⟩ rfl hload Ls h0 h1 (by
      cases sym
      · rw [if_neg (by simp)]
        rcases h3 with h | h
        · cases h
        · exact h
      · simpa using h2)
  have hr1 : PReachable s.env rng (fun p op => NoCount op ∧ Counts s.env rng p op) r.2 :=
    .step (.create nrow ncol fov noPairs abDiff combine kw) hr ⟨trivial, hok⟩ (by simp [FocalPlane.FOp.refs])
  obtain ⟨s1, s2, s3⟩ := grid_slots s.env rng p hr0 nrow ncol fov noPairs abDiff combine hnew kw hok
  have hnd : r.2.ndet = 2 * (nrow * ncol) := by
    rw [(FocalPlane.C43_count_partial s.env rng r.2 hr1).1]
    exact s3
  obtain ⟨k0, D, d1, d2, d3, d4, ms, h', k1, k2, k3⟩ := C145_killed Y hY s hf hdf hx hq hso iau hxq hns M o hbin
    hpre hgr hre hint hct N chunks hmi hang hbore (beamV := false) blmOf muOf hs hsky hrows hlen
    ⟨n, L, FocalScan.gaussRows G.fwhm G.amplitude⟩ (FocalScan.gaussRows_real _ _ _)
    (FocalScan.gaussRows_axi _ _) hrows' (by simp) err rng r.2 hr1 s1 s2 _ hsh choice hc f hf0 hf1 pairs l hl fill
  rw [hnd] at d3 d4
  rw [show 2 * (nrow * ncol) / 2 = nrow * ncol by omega] at d4
  refine ⟨k0, D, d1, d2, d3, d4, ms, h', k1, k2, fun m hm k hk => ?_⟩
  have := k3 m hm k hk
  rw [FocalScan.smoothI_gauss, FocalScan.smoothP_gauss] at this
  exact this

/-- **C145 (partial).** Detectors are taken away with `remove_from_focal_plane`: the same.  Missing: taking
away an A detector whose B detector stays, see the violation. -/
theorem C145_removed_partial (Y : Harmonics) (hY : Conjugation Y) (s : ObjWorld E) (hf : LimitFree s.env)
    (hx : ExtOk s.w.x) (hq : PixOk s.w.q) (hso : SolveOk s.w.q) (iau : Bool) (hxq : Agree s.w.x s.w.q iau)
    (hns : 0 < s.w.nsideOut) (M : Motion) (o : Opts) (hbin : o.binning = true)
    (hpre : o.preview = false) (hgr : o.ground = false) (hre : o.reuseSpinmaps = false)
    (hint : o.interp = false) (hct : o.ctalk = 0) (N : Nat) (chunks : List Chunk)
    (hmi : Mission N chunks) (hang : ∀ c ∈ chunks, c.hwpang = none)
    (hbore : ∀ t, t < N → IsRot (M.bore t)) {Ls : Nat} {alm : List (List ℂ)}
    {sky : Nat → Nat → Nat → ℂ} {inputV beamV : Bool} (blmOf : Nat → List (List ℂ))
    (muOf : Nat → Spin.Mat4) (hs : s.sky = skyMaker Y alm s.w.nsideOut inputV beamV blmOf muOf)
    (hsky : RealSky Ls sky) (hrows : HasRows Ls (nrows inputV) alm sky)
    (hlen : inputV = true → alm.length = 4) (c : Coefs) (hb : RealBeam c.L c.b) (hax : AxiSym c.b)
    (hrows' : HasRows c.L (nrows beamV) (blmOf c.n) c.b)
    (hlen' : beamV = true → (blmOf c.n).length = 4) (err : ℝ)
    -- the focal plane
    (p : Plane ℝ) (qs : List Pair) (hp : List.Forall₂ (SharesBeam s p.heap Ls c none err) p.beams qs)
    -- the losses
    (a : Arg) (ha : a ≠ .flat [] ∧ a ≠ .nested [])
    (hab : ∀ q ∈ p.beams, ∀ x y, q = (some x, some y) → x ∈ a.refs → y ∈ a.refs)
    -- the scans
    (l : List (Inst E × Bool × Nat))
    (hl : ∀ x ∈ l, Ready s.w chunks x.1 ∧ Rotates N chunks x.1.rot M.rot ∧
      Plate s.w.fsamp N x.1.hwp M.alpha ∧ Steady s.w M chunks x.1.el ∧ 0 < x.2.2 ∧
      (x.2.1 = false → x.2.2 = 1)) (fill : ℝ) :
    let r := (removeFromFocalPlane a).run p
    let seen := seenBy M s.w N (List.zipWith (without a.refs) p.beams qs)
    r.1 = .ok () ∧ ∃ ms h', ScanObjects.scans s o r.2.beams l r.2.heap = .ok (ms, h') ∧
      ms.length = l.length ∧ ∀ m ∈ ms, ∀ k, k < 12 * s.w.nsideOut ^ 2 →
        (ThreeAngles (here k seen) →
          (solveForMap s.w.q m fill)[k]? = some (stokes iau
            (smoothI Y s.w.nsideOut (min Ls c.L) (skyOf inputV sky) (beamOf beamV c.b) k)
            (smoothP Y s.w.nsideOut (min Ls c.L) (skyOf inputV sky) (beamOf beamV c.b) k *
              Complex.exp (2 * ((err + 2 * s.w.varphi) * Real.pi / 180 : ℝ) * Complex.I)))) ∧
        (here k seen = [] → (solveForMap s.w.q m fill)[k]? = some fun _ => fill) := by
  intro r seen
  obtain ⟨e1, e2, e3, -⟩ := FocalPlane.C43_remove p a ha
  refine ⟨by rw [show r = _ from e1], ?_⟩
  obtain ⟨qs', h1, h2⟩ := Losses.without_shares M N a.refs hp hab
  have := C119_objects Y hY s hf hx hq hso iau hxq hns M o hbin hpre hgr hre hint hct N chunks hmi hang
    hbore blmOf muOf hs hsky hrows hlen c hb hax hrows' hlen' err p.heap _ _ h1 l hl fill
  rw [h2] at this
  rw [show r.2.beams = _ from e2, show r.2.heap = _ from e3]
  exact this

theorem passes_head {α : Type} (x : α) (l : List α) (scatter : Bool) :
    ∃ ps, Mpi.scanPasses (x :: l) scatter 1 0 = .ok (some x :: ps) := by
  have hloc : Mpi.localBeams (x :: l) scatter 1 0 = .ok (x :: l) := by
    cases scatter
    · rfl
    · simp [Mpi.localBeams, Mpi.scatterList, Mpi.arraySplit, Mpi.arraySplit.go, Nat.mod_one]
  have hn : Mpi.nmax (x :: l).length 1 = l.length + 1 := by
    unfold Mpi.nmax ceilDiv
    simp
  refine ⟨Mpi.passes l l.length, ?_⟩
  unfold Mpi.scanPasses
  rw [hloc, hn]
  show Except.ok _ = _
  unfold Mpi.passes
  rw [List.range_succ_eq_map, List.map_cons, List.map_map]
  rfl

/-- A pair without A at the head of the list. -/
theorem scan_headless (s : ObjWorld E) (o : Opts) (hpre : o.preview = false) (hre : o.reuseSpinmaps = false)
    (b : Ref) (l : List ObjPair) (mpi scatter : Bool) (i : Inst E) (h : Heap ℝ) :
    ScanObjects.scanAll s o ((none, some b) :: l) mpi scatter 1 (i, h) = .error .attributeError := by
  obtain ⟨ps, hps⟩ := passes_head ((none, some b) : ObjPair) l scatter
  have hscan : ScanObjects.scanInstrument s o ((none, some b) :: l) mpi scatter 1 0 (i, h) =
      .error .attributeError := by
    unfold ScanObjects.scanInstrument
    rw [hps]
    show (ScanObjects.scanLoop s o true (some (none, some b) :: ps) (i, h)).bind _ = _
    unfold ScanObjects.scanLoop
    have : ScanObjects.scanPass s o true (none, some b) (i, h) = .error .attributeError := by
      unfold ScanObjects.scanPass ScanObjects.initPair
      simp [hpre, hre, bind, Except.bind]
    show Except.bind (Except.bind (ScanObjects.scanPass s o true (none, some b) (i, h)) _) _ = _
    rw [this]
    rfl
  unfold ScanObjects.scanAll
  rw [show List.range 1 = [0] from rfl, List.mapM_cons, hscan]
  rfl

/-- **C145 (violation).** If the A detector of the first pair is taken away and its B detector stays, no scan
is possible: `scan_instrument_mpi` ends with an AttributeError. -/
theorem C145_violation_removed (s : ObjWorld E) (o : Opts) (hpre : o.preview = false)
    (hre : o.reuseSpinmaps = false) (p : Plane ℝ) (a b : Ref) (hab : a ≠ b) (rest : List ObjPair)
    (hp : p.beams = (some a, some b) :: rest) (mpi scatter : Bool) (i : Inst E) :
    let r := (removeFromFocalPlane (.single (some a))).run p
    r.1 = .ok () ∧ ScanObjects.scanAll s o r.2.beams mpi scatter 1 (i, r.2.heap) = .error .attributeError := by
  intro r
  obtain ⟨e1, e2, e3, -⟩ := FocalPlane.C43_remove p (.single (some a)) ⟨by simp, by simp⟩
  refine ⟨by rw [show r = _ from e1], ?_⟩
  rw [show r.2.beams = _ from e2, hp, List.filterMap_cons]
  have h1 : Option.filter (fun x => decide (x ∉ (Arg.single (some a)).refs)) (some a) = none := by
    simp [Arg.refs, Option.filter]
  have h2 : Option.filter (fun x => decide (x ∉ (Arg.single (some a)).refs)) (some b) = some b := by
    simp [Arg.refs, Option.filter, Ne.symm hab]
  dsimp only
  rw [h1, h2, if_neg (by simp)]
  exact scan_headless s o hpre hre b _ mpi scatter i _

/-! ## The hypotheses are met -/

namespace Gridded

open Rec Whole

theorem dead_free : DeadFree env := by
  intro a a' h
  have : GaussianOf a 60 1 5 ↔ GaussianOf a' 60 1 5 := by
    constructor <;> rintro ⟨h1, h2, h3, h4⟩
    · exact ⟨by rw [← h .btype (by simp)]; exact h1, by rw [← h .fwhm (by simp)]; exact h2,
        by rw [← h .lmax (by simp)]; exact h3, by rw [← h .amplitude (by simp)]; exact h4⟩
    · exact ⟨by rw [h .btype (by simp)]; exact h1, by rw [h .fwhm (by simp)]; exact h2,
        by rw [h .lmax (by simp)]; exact h3, by rw [h .amplitude (by simp)]; exact h4⟩
  classical
  exact if_congr this rfl rfl

/-- A column of two pairs, of which only A is used. -/
theorem column_eq : grid 2 1 10 0 90 7 false true =
    [(some ⟨⟨false, false, 0, -5, -5, 7⟩, [], 0⟩, some ⟨⟨true, false, 0, -5, -5, 97⟩, [], 90⟩),
     (some ⟨⟨false, false, 0, -5, 5, 7⟩, [], 0⟩, some ⟨⟨true, false, 0, -5, 5, 97⟩, [], 90⟩)] := by
  simp [grid, FocalScan.det, FocalScan.position, List.range_succ]
  norm_num

theorem column_ok : ((createFocalPlane env 2 1 10 true (.num 90) false kw).run FocalPlane.emptyPlane).1 = .ok () :=
  FocalPlane.C69_succeeds env FocalPlane.emptyPlane 2 1 (by norm_num) (by norm_num) 10 true (.num 90) false
    (.inl rfl) kw (FocalScan.grid_good options (by norm_num)).1 (FocalScan.grid_good options (by norm_num)).2

theorem column_beams : ((createFocalPlane env 2 1 10 true (.num 90) false kw).run FocalPlane.emptyPlane).2.beams =
    [(some 0, some 1), (some 2, some 3)] := by
  obtain ⟨h1, h2⟩ := grid_beams env (fun _ => 0) FocalPlane.emptyPlane .start 2 1 10 true (.num 90) false
    (.inl rfl) kw column_ok
  have h3 : ((createFocalPlane env 2 1 10 true (.num 90) false kw).run FocalPlane.emptyPlane).2.beams.length = 2 := by
    exact_mod_cast h1
  rw [h3] at h2
  rw [h2]
  rfl

/-- One of the two pairs is lost. -/
theorem one_lost {D : List Ref} (hn : D.Nodup) (hd : ∀ x ∈ D, x ∈ ([0, 1, 2, 3] : List Ref)) (hl : D.length = 2)
    (h0 : 0 ∈ D ↔ 1 ∈ D) (h2 : 2 ∈ D ↔ 3 ∈ D) :
    (0 ∈ D ∧ 1 ∈ D ∧ 2 ∉ D ∧ 3 ∉ D) ∨ (0 ∉ D ∧ 1 ∉ D ∧ 2 ∈ D ∧ 3 ∈ D) := by
  by_cases a : 0 ∈ D <;> by_cases b : 2 ∈ D
  · have : ([0, 1, 2, 3] : List Ref).length ≤ D.length := by
      refine List.Subperm.length_le (List.subperm_of_subset (by decide) ?_)
      intro x hx
      simp only [List.mem_cons, List.not_mem_nil, or_false] at hx
      rcases hx with rfl | rfl | rfl | rfl
      · exact a
      · exact h0.1 a
      · exact b
      · exact h2.1 b
    simp [hl] at this
  · exact .inl ⟨a, h0.1 a, b, fun h => b (h2.2 h)⟩
  · exact .inr ⟨a, fun h => a (h0.2 h), b, h2.1 b⟩
  · exfalso
    rcases D with _ | ⟨x, D⟩
    · cases hl
    · have hx := hd x List.mem_cons_self
      simp only [List.mem_cons, List.not_mem_nil, or_false] at hx
      rcases hx with rfl | rfl | rfl | rfl
      · exact a List.mem_cons_self
      · exact a (h0.2 List.mem_cons_self)
      · exact b List.mem_cons_self
      · exact b (h2.2 List.mem_cons_self)

/-- The pair that remains sees what the detector of `Whole` sees. -/
theorem seen_rest {D : List Ref}
    (h : (0 ∈ D ∧ 1 ∈ D ∧ 2 ∉ D ∧ 3 ∉ D) ∨ (0 ∉ D ∧ 1 ∉ D ∧ 2 ∈ D ∧ 3 ∈ D)) :
    seenBy M s.w 3 (List.zipWith (lose D) [(some 0, some 1), (some 2, some 3)] (grid 2 1 10 0 90 7 false true)) =
      seenBy M Whole.w 3 Whole.beams := by
  rw [column_eq]
  rcases h with ⟨a, b, c, d⟩ | ⟨a, b, c, d⟩
  · have : List.zipWith (lose D) [(some 0, some 1), (some 2, some 3)]
      [(some ⟨⟨false, false, 0, -5, -5, 7⟩, [], 0⟩, some ⟨⟨true, false, 0, -5, -5, 97⟩, [], 90⟩),
       (some ⟨⟨false, false, 0, -5, 5, 7⟩, [], 0⟩, some ⟨⟨true, false, 0, -5, 5, 97⟩, [], 90⟩)] =
      [(some ⟨⟨true, false, 0, -5, -5, 7⟩, [], 0⟩, some ⟨⟨true, false, 0, -5, -5, 97⟩, [], 90⟩),
       (some ⟨⟨false, false, 0, -5, 5, 7⟩, [], 0⟩, some ⟨⟨true, false, 0, -5, 5, 97⟩, [], 90⟩)] := by
      simp [lose, Losses.deadIn, a, b, c, d, ScanInstrument.dead]
    rw [this]
    rfl
  · have : List.zipWith (lose D) [(some 0, some 1), (some 2, some 3)]
      [(some ⟨⟨false, false, 0, -5, -5, 7⟩, [], 0⟩, some ⟨⟨true, false, 0, -5, -5, 97⟩, [], 90⟩),
       (some ⟨⟨false, false, 0, -5, 5, 7⟩, [], 0⟩, some ⟨⟨true, false, 0, -5, 5, 97⟩, [], 90⟩)] =
      [(some ⟨⟨false, false, 0, -5, -5, 7⟩, [], 0⟩, some ⟨⟨true, false, 0, -5, -5, 97⟩, [], 90⟩),
       (some ⟨⟨true, false, 0, -5, 5, 7⟩, [], 0⟩, some ⟨⟨true, false, 0, -5, 5, 97⟩, [], 90⟩)] := by
      simp [lose, Losses.deadIn, a, b, c, d, ScanInstrument.dead]
    rw [this]
    rfl

theorem goes : ∀ x ∈ [(i, false, 1), (i, true, 2)], Ready s.w chunks x.1 ∧ Rotates 3 chunks x.1.rot M.rot ∧
    Plate s.w.fsamp 3 x.1.hwp M.alpha ∧ Steady s.w M chunks x.1.el ∧ 0 < x.2.2 ∧
    (x.2.1 = false → x.2.2 = 1) := by
  intro x hx
  simp only [List.mem_cons, List.not_mem_nil, or_false] at hx
  rcases hx with rfl | rfl
  · exact ⟨ready, rotates, plate, repeats.steady, one_pos, fun _ => rfl⟩
  · exact ⟨ready, rotates, plate, repeats.steady, two_pos, fun h => by cases h⟩

/-- The hypotheses of `C145_gaussian` are met: two pairs, of which half are killed; the map of the other
pair is exact whichever it is. -/
example (fill : ℝ) (choice : Int → Int → PyM (List Nat)) (hc : IsChoice choice) :
    let r := (createFocalPlane env 2 1 10 true (.num 90) false kw).run FocalPlane.emptyPlane
    let r' := (killChannels choice (1 / 2) true).run r.2
    r.1 = .ok () ∧ r'.1 = .ok () ∧ ∃ ms h', ScanObjects.scans s o r'.2.beams [(i, false, 1), (i, true, 2)]
        r'.2.heap = .ok (ms, h') ∧ ms.length = 2 ∧ ∀ m ∈ ms,
      (solveForMap qp m fill)[0]? = some (stokes false
        (gaussI Conv.Y 1 5 (skyOf false (Conv.coef 1)) 60 1 0)
        (gaussP Conv.Y 1 5 (skyOf false (Conv.coef 1)) 60 1 0 *
          Complex.exp (2 * ((7 + 2 * 0) * Real.pi / 180 : ℝ) * Complex.I))) ∧
      (solveForMap qp m fill)[5]? = some fun _ => fill := by
  obtain ⟨h1, h1', D, d1, d2, -, d4, ms, h', h2, h3, h4⟩ := C145_gaussian Conv.Y Conv.Y_conj s free dead_free rfl
    ext_ok (fun _ _ => one_rot) pix_ok solve_ok false agree one_pos M o rfl rfl rfl rfl rfl rfl 3 chunks mission_ok
    (by decide) (fun _ _ => one_rot) (fun _ => gauss) (fun _ => 0) rfl (Conv.coef_real 1 5)
    (Conv.rows_ok _ _ _) (by simp) (fun _ => 0) FocalPlane.emptyPlane .start 2 1 (by norm_num)
    (by norm_num) 10 true (.num 90) false (.inl rfl) kw options (by decide) (by decide) (by decide)
    (.inr (by decide)) 1 (fun a ha => by simp [s, env, ha]) fs G ⟨rfl, rfl, rfl, rfl⟩ blm_ok
    choice hc (1 / 2) (by norm_num) (by norm_num) true [(i, false, 1), (i, true, 2)] goes fill
  have hb := column_beams
  change ((createFocalPlane s.env 2 1 10 true (.num 90) false kw).run FocalPlane.emptyPlane).2.beams = _ at hb
  rw [hb] at d2 d4 h4
  have hlost := one_lost d1 d2 (by
      have := (d4 rfl).1
      norm_num at this
      omega) ((d4 rfl).2 _ (by simp) 0 1 rfl) ((d4 rfl).2 _ (by simp) 2 3 rfl)
  have hseen := seen_rest hlost
  refine ⟨h1, h1', ms, h', h2, h3, fun m hm => ⟨(h4 m hm 0 (by decide)).1 ?_, (h4 m hm 5 (by decide)).2 ?_⟩⟩
  · rw [hseen]
    exact Whole.three
  · rw [hseen]
    exact nowhere

/-- A pair of detectors that both work. -/
theorem pair_ok : ((createFocalPlane env 1 1 10 false (.num 90) false kw).run FocalPlane.emptyPlane).1 = .ok () :=
  FocalPlane.C69_succeeds env FocalPlane.emptyPlane 1 1 (by norm_num) (by norm_num) 10 false (.num 90) false
    (.inl rfl) kw (FocalScan.grid_good options (by norm_num)).1 (FocalScan.grid_good options (by norm_num)).2

theorem pair_beams : ((createFocalPlane env 1 1 10 false (.num 90) false kw).run FocalPlane.emptyPlane).2.beams =
    [(some 0, some 1)] := by
  obtain ⟨h1, h2⟩ := grid_beams env (fun _ => 0) FocalPlane.emptyPlane .start 1 1 10 false (.num 90) false
    (.inl rfl) kw pair_ok
  have h3 : ((createFocalPlane env 1 1 10 false (.num 90) false kw).run FocalPlane.emptyPlane).2.beams.length = 1 := by
    exact_mod_cast h1
  rw [h3] at h2
  rw [h2]
  rfl

/-- A alone sees what the detector of `Whole` sees. -/
theorem seen_A : seenBy M s.w 3 (List.zipWith (without [1]) [(some 0, some 1)] (grid 1 1 10 0 90 7 false false)) =
    seenBy M Whole.w 3 Whole.beams := by
  have e : grid 1 1 10 0 90 7 false false =
      [(some ⟨⟨false, false, 0, -5, -5, 7⟩, [], 0⟩, some ⟨⟨false, false, 0, -5, -5, 97⟩, [], 90⟩)] := by
    simp [grid, FocalScan.det, FocalScan.position]
    norm_num
  have : List.zipWith (without [1]) [(some 0, some 1)]
      [(some ⟨⟨false, false, 0, -5, -5, 7⟩, [], 0⟩, some ⟨⟨false, false, 0, -5, -5, 97⟩, [], 90⟩)] =
      [(some ⟨⟨false, false, 0, -5, -5, 7⟩, [], 0⟩, none)] := by
    simp [without]
  rw [e, this]
  rfl

/-- The hypotheses of `C145_removed_partial` are met: B of a pair is taken away. -/
example (fill : ℝ) :
    let p := ((createFocalPlane env 1 1 10 false (.num 90) false kw).run FocalPlane.emptyPlane).2
    let r := (removeFromFocalPlane (.single (some 1))).run p
    r.1 = .ok () ∧ ∃ ms h', ScanObjects.scans s o r.2.beams [(i, false, 1), (i, true, 2)] r.2.heap =
        .ok (ms, h') ∧ ms.length = 2 ∧ ∀ m ∈ ms,
      (solveForMap qp m fill)[0]? = some (stokes false
        (gaussI Conv.Y 1 5 (skyOf false (Conv.coef 1)) 60 1 0)
        (gaussP Conv.Y 1 5 (skyOf false (Conv.coef 1)) 60 1 0 *
          Complex.exp (2 * ((7 + 2 * 0) * Real.pi / 180 : ℝ) * Complex.I))) ∧
      (solveForMap qp m fill)[5]? = some fun _ => fill := by
  intro p r
  have hb : p.beams = [(some 0, some 1)] := pair_beams
  obtain ⟨rows, mG, hrG, hrG'⟩ : ∃ rows mG, BeamCoef.blm fs G = .ok (rows, mG) ∧ rows = gauss := by
    have hblm := blm_ok
    rcases e : BeamCoef.blm fs G with er | ⟨rows, mG⟩ <;> rw [e] at hblm
    · cases hblm
    · exact ⟨rows, mG, rfl, Except.ok.inj hblm⟩
  subst hrG'
  have hrows' := FocalScan.gaussRows_has fs G rfl 5 (by norm_num) rfl hrG
  have hsh := FocalScan.grid_shares s rfl (fun _ => 0) FocalPlane.emptyPlane .start 1 1 10 false (.num 90) false
    (.inl rfl) kw options pair_ok (fun _ _ => one_rot) ⟨1, 5, FocalScan.gaussRows 60 1⟩ rfl
    (fun a ha => by simp [s, env, ha]) 5 (by decide) (by decide) (by decide)
  obtain ⟨h1, ms, h', h2, h3, h4⟩ := C145_removed_partial Conv.Y Conv.Y_conj s free
    ext_ok pix_ok solve_ok false agree one_pos M o rfl rfl rfl rfl rfl rfl 3 chunks mission_ok
    (by decide) (fun _ _ => one_rot) (beamV := false) (fun _ => gauss) (fun _ => 0) rfl (Conv.coef_real 1 5)
    (Conv.rows_ok _ _ _) (by simp) ⟨1, 5, FocalScan.gaussRows 60 1⟩ (FocalScan.gaussRows_real _ _ _)
    (FocalScan.gaussRows_axi _ _) hrows' (by simp) 7 p _ hsh (.single (some 1)) ⟨by simp, by simp⟩ (by
      rw [hb]
      intro q hq x y e hx
      rw [List.mem_singleton] at hq
      rw [hq] at e
      cases e
      simp [Arg.refs] at hx) [(i, false, 1), (i, true, 2)] goes fill
  rw [hb] at h4
  have hseen := seen_A
  change seenBy M s.w 3 (List.zipWith (without (Arg.single (some 1)).refs) _ _) = _ at hseen
  have hm : min 5 5 = 5 := rfl
  refine ⟨h1, ms, h', h2, h3, fun m hm => ⟨?_, (h4 m hm 5 (by decide)).2 ?_⟩⟩
  · have := (h4 m hm 0 (by decide)).1 (by
      rw [hseen]
      exact Whole.three)
    rw [FocalScan.smoothI_gauss, FocalScan.smoothP_gauss] at this
    exact this
  · rw [hseen]
    exact nowhere

/-- The hypotheses of `C145_violation_removed` are met: A of the same pair is taken away. -/
example : let p := ((createFocalPlane env 1 1 10 false (.num 90) false kw).run FocalPlane.emptyPlane).2
    let r := (removeFromFocalPlane (.single (some 0))).run p
    r.1 = .ok () ∧ ScanObjects.scanAll s o r.2.beams true true 1 (i, r.2.heap) = .error .attributeError :=
  C145_violation_removed s o rfl rfl _ 0 1 (by decide) [] pair_beams true true i

end Gridded

end Verif.Props
