import Verif.Lemmas.CrossTalk
import Verif.Props.FocalScan

/-!
# C134: cross-talk in the map
-/

noncomputable section

namespace Verif.Props

open Verif.Chunks Verif.Timeline Verif.Spinmaps Verif.MapMaking Verif.ScanInstrument Verif.Spec
open Verif.Beam (Heap Ref Val Obj Env Key Dict LimitFree)
open Verif.ScanObjects (ObjPair ObjWorld Prepared Settled Coefs PairOf skyMaker)
open Verif.FocalScan (SharesBeam GaussianOf GridOptions grid gaussI gaussP Plain Lone)
open Verif.CrossTalk (Twins Single)

variable {E : Type}

/-- **C134.** With cross-talk `c` between the two detectors of every pair, which look in the same
direction, are orthogonal and share a beam that is symmetric around its axis, the map has `1 + c` times
the I and `1 - c` times the Q and U of C119, in every pixel seen under three angles. -/
theorem C134_twins (Y : Harmonics) (hY : Conjugation Y) (s : ObjWorld E) (hf : LimitFree s.env)
    (hx : ExtOk s.w.x) (hq : PixOk s.w.q) (hso : SolveOk s.w.q) (iau : Bool) (hxq : Agree s.w.x s.w.q iau)
    (hns : 0 < s.w.nsideOut) (M : Motion) (o : Opts) (hbin : o.binning = true)
    (hpre : o.preview = false) (hgr : o.ground = false) (hre : o.reuseSpinmaps = false)
    (hint : o.interp = false) (N : Nat) (chunks : List Chunk)
    (hmi : Mission N chunks) (hang : ∀ c ∈ chunks, c.hwpang = none)
    (hbore : ∀ t, t < N → IsRot (M.bore t)) {Ls : Nat} {alm : List (List ℂ)}
    {sky : Nat → Nat → Nat → ℂ} {inputV beamV : Bool} (blmOf : Nat → List (List ℂ))
    (muOf : Nat → Spin.Mat4) (hs : s.sky = skyMaker Y alm s.w.nsideOut inputV beamV blmOf muOf)
    (hsky : RealSky Ls sky) (hrows : HasRows Ls (nrows inputV) alm sky)
    (hlen : inputV = true → alm.length = 4) (c : Coefs) (hb : RealBeam c.L c.b) (hax : AxiSym c.b)
    (hrows' : HasRows c.L (nrows beamV) (blmOf c.n) c.b)
    (hlen' : beamV = true → (blmOf c.n).length = 4) (err : ℝ) (h : Heap ℝ) (beams : List ObjPair)
    (qs : List Pair) (htw : ∀ q ∈ qs, Twins q)
    (hp : List.Forall₂ (SharesBeam s h Ls c none err) beams qs)
    (l : List (Inst E × Bool × Nat))
    (hl : ∀ x ∈ l, Ready s.w chunks x.1 ∧ Rotates N chunks x.1.rot M.rot ∧
      Plate s.w.fsamp N x.1.hwp M.alpha ∧ Steady s.w M chunks x.1.el ∧ 0 < x.2.2 ∧
      (x.2.1 = false → x.2.2 = 1)) (fill : ℝ) :
    ∃ ms h', ScanObjects.scans s o beams l h = .ok (ms, h') ∧ ms.length = l.length ∧ ∀ m ∈ ms,
      ∀ p, p < 12 * s.w.nsideOut ^ 2 →
        (ThreeAngles (here p (seenBy M s.w N qs)) →
          (solveForMap s.w.q m fill)[p]? = some (stokes iau
            ((1 + o.ctalk) * smoothI Y s.w.nsideOut (min Ls c.L) (skyOf inputV sky) (beamOf beamV c.b) p)
            ((1 - o.ctalk : ℝ) * (smoothP Y s.w.nsideOut (min Ls c.L) (skyOf inputV sky) (beamOf beamV c.b) p *
              Complex.exp (2 * ((err + 2 * s.w.varphi) * Real.pi / 180 : ℝ) * Complex.I))))) ∧
        (here p (seenBy M s.w N qs) = [] →
          (solveForMap s.w.q m fill)[p]? = some fun _ => fill) := by
  have := FocalScan.objects_talk Y hY s hf hx hq hso iau hxq hns M o hbin hpre hgr hre hint N chunks
    hmi hang hbore blmOf muOf hs hsky hrows hlen c hb hax hrows' hlen' err h beams qs none 1 1
    (.inl ⟨rfl, rfl, rfl⟩) (1 + o.ctalk) (1 - o.ctalk) (fun q hq => .inl ⟨htw q hq, rfl, rfl⟩) hp l hl fill
  simpa only [FocalScan.behind_one] using this

/-- **C134.** If at most one detector of each pair is alive, cross-talk does nothing: the map is that of
C119. -/
theorem C134_single (Y : Harmonics) (hY : Conjugation Y) (s : ObjWorld E) (hf : LimitFree s.env)
    (hx : ExtOk s.w.x) (hq : PixOk s.w.q) (hso : SolveOk s.w.q) (iau : Bool) (hxq : Agree s.w.x s.w.q iau)
    (hns : 0 < s.w.nsideOut) (M : Motion) (o : Opts) (hbin : o.binning = true)
    (hpre : o.preview = false) (hgr : o.ground = false) (hre : o.reuseSpinmaps = false)
    (hint : o.interp = false) (N : Nat) (chunks : List Chunk)
    (hmi : Mission N chunks) (hang : ∀ c ∈ chunks, c.hwpang = none)
    (hbore : ∀ t, t < N → IsRot (M.bore t)) {Ls : Nat} {alm : List (List ℂ)}
    {sky : Nat → Nat → Nat → ℂ} {inputV beamV : Bool} (blmOf : Nat → List (List ℂ))
    (muOf : Nat → Spin.Mat4) (hs : s.sky = skyMaker Y alm s.w.nsideOut inputV beamV blmOf muOf)
    (hsky : RealSky Ls sky) (hrows : HasRows Ls (nrows inputV) alm sky)
    (hlen : inputV = true → alm.length = 4) (c : Coefs) (hb : RealBeam c.L c.b) (hax : AxiSym c.b)
    (hrows' : HasRows c.L (nrows beamV) (blmOf c.n) c.b)
    (hlen' : beamV = true → (blmOf c.n).length = 4) (err : ℝ) (h : Heap ℝ) (beams : List ObjPair)
    (qs : List Pair) (hsi : ∀ q ∈ qs, Single q)
    (hp : List.Forall₂ (SharesBeam s h Ls c none err) beams qs)
    (l : List (Inst E × Bool × Nat))
    (hl : ∀ x ∈ l, Ready s.w chunks x.1 ∧ Rotates N chunks x.1.rot M.rot ∧
      Plate s.w.fsamp N x.1.hwp M.alpha ∧ Steady s.w M chunks x.1.el ∧ 0 < x.2.2 ∧
      (x.2.1 = false → x.2.2 = 1)) (fill : ℝ) :
    ∃ ms h', ScanObjects.scans s o beams l h = .ok (ms, h') ∧ ms.length = l.length ∧ ∀ m ∈ ms,
      ∀ p, p < 12 * s.w.nsideOut ^ 2 →
        (ThreeAngles (here p (seenBy M s.w N qs)) →
          (solveForMap s.w.q m fill)[p]? = some (stokes iau
            (smoothI Y s.w.nsideOut (min Ls c.L) (skyOf inputV sky) (beamOf beamV c.b) p)
            (smoothP Y s.w.nsideOut (min Ls c.L) (skyOf inputV sky) (beamOf beamV c.b) p *
              Complex.exp (2 * ((err + 2 * s.w.varphi) * Real.pi / 180 : ℝ) * Complex.I)))) ∧
        (here p (seenBy M s.w N qs) = [] →
          (solveForMap s.w.q m fill)[p]? = some fun _ => fill) := by
  have := FocalScan.objects_talk Y hY s hf hx hq hso iau hxq hns M o hbin hpre hgr hre hint N chunks
    hmi hang hbore blmOf muOf hs hsky hrows hlen c hb hax hrows' hlen' err h beams qs none 1 1
    (.inl ⟨rfl, rfl, rfl⟩) 1 1 (fun q hq => .inr ⟨.inr (hsi q hq), rfl, rfl⟩) hp l hl fill
  simpa only [one_mul, Complex.ofReal_one, FocalScan.behind_one] using this

/-- **C134.** A user creates a focal plane with `create_focal_plane`, with both detectors of each pair and
`ab_diff=90`, scans a sky with cross-talk `c`, any number of times, with and without MPI and with any
numbers of ranks, and solves for the map: I is `1 + c` times and Q, U are `1 - c` times those of C119. -/
theorem C134_gaussian (Y : Harmonics) (hY : Conjugation Y) (s : ObjWorld E) (hf : LimitFree s.env)
    (hpi : s.env.pi = Real.pi) (hx : ExtOk s.w.x) (hrot : ∀ az el, IsRot (s.w.x.detOffset az el 0))
    (hq : PixOk s.w.q) (hso : SolveOk s.w.q) (iau : Bool) (hxq : Agree s.w.x s.w.q iau)
    (hns : 0 < s.w.nsideOut) (M : Motion) (o : Opts) (hbin : o.binning = true)
    (hpre : o.preview = false) (hgr : o.ground = false) (hre : o.reuseSpinmaps = false)
    (hint : o.interp = false) (N : Nat) (chunks : List Chunk)
    (hmi : Mission N chunks) (hang : ∀ c ∈ chunks, c.hwpang = none)
    (hbore : ∀ t, t < N → IsRot (M.bore t)) {Ls : Nat} {alm : List (List ℂ)}
    {sky : Nat → Nat → Nat → ℂ} {inputV : Bool} (blmOf : Nat → List (List ℂ))
    (muOf : Nat → Spin.Mat4) (hs : s.sky = skyMaker Y alm s.w.nsideOut inputV false blmOf muOf)
    (hsky : RealSky Ls sky) (hrows : HasRows Ls (nrows inputV) alm sky)
    (hlen : inputV = true → alm.length = 4)
    -- the focal plane
    (rng : Nat → ℝ) (p : FocalPlane.Plane ℝ)
    (hr : FocalPlane.PReachable s.env rng (fun _ op => FocalPlane.NoCount op) p)
    (nrow ncol : Int) (hrow : 0 ≤ nrow) (hcol : 0 ≤ ncol) (fov : ℝ)
    (abDiff : Val ℝ) (combine : Bool) (hnew : combine = false ∨ p.beams = [])
    (kw : Dict ℝ) {F A pol err : ℝ} {L : Nat} {mm : Int} {sym : Bool}
    (hkw : GridOptions kw abDiff F A pol 90 err L mm false sym none)
    (h0 : 0 ≤ min mm s.maxSpin) (h1 : min mm s.maxSpin ≤ (min Ls L : Nat)) (h2 : 2 ≤ min Ls L)
    (h3 : sym = true ∨ 2 ≤ min mm s.maxSpin)
    -- its coefficients are the array number `n`, made by `gen_gaussian_blm`
    (n : Nat) (hload : ∀ a, GaussianOf a F A L → s.env.loadBlm a = .ok (.obj n, none))
    (fs : BeamCoef.Files) (G : BeamCoef.Attrs)
    (hG : G.btype = "Gaussian" ∧ G.lmax = L ∧ G.fwhm = F ∧ G.amplitude = A)
    (hblm : (BeamCoef.blm fs G).map Prod.fst = .ok (blmOf n))
    -- the scans
    (l : List (Inst E × Bool × Nat))
    (hl : ∀ x ∈ l, Ready s.w chunks x.1 ∧ Rotates N chunks x.1.rot M.rot ∧
      Plate s.w.fsamp N x.1.hwp M.alpha ∧ Steady s.w M chunks x.1.el ∧ 0 < x.2.2 ∧
      (x.2.1 = false → x.2.2 = 1)) (fill : ℝ) :
    let r := (FocalPlane.createFocalPlane s.env nrow ncol fov false abDiff combine kw).run p
    let seen := seenBy M s.w N (grid nrow ncol fov pol 90 err false false)
    r.1 = .ok () ∧ ∃ ms h', ScanObjects.scans s o r.2.beams l r.2.heap = .ok (ms, h') ∧
      ms.length = l.length ∧ ∀ m ∈ ms, ∀ k, k < 12 * s.w.nsideOut ^ 2 →
        (ThreeAngles (here k seen) → (solveForMap s.w.q m fill)[k]? = some (stokes iau
            ((1 + o.ctalk) * gaussI Y s.w.nsideOut (min Ls L) (skyOf inputV sky) F A k)
            ((1 - o.ctalk : ℝ) * (gaussP Y s.w.nsideOut (min Ls L) (skyOf inputV sky) F A k *
              Complex.exp (2 * ((err + 2 * s.w.varphi) * Real.pi / 180 : ℝ) * Complex.I))))) ∧
        (here k seen = [] → (solveForMap s.w.q m fill)[k]? = some fun _ => fill) := by
  intro r seen
  have hok := FocalPlane.C69_succeeds s.env p nrow ncol hrow hcol fov false abDiff combine hnew kw
    (FocalScan.grid_good hkw (by omega)).1 (FocalScan.grid_good hkw (by omega)).2
  refine ⟨hok, ?_⟩
  obtain ⟨g1, g2, rfl, rfl⟩ := hG
  obtain ⟨rows, mG, hrG, hrG'⟩ : ∃ rows mG, BeamCoef.blm fs G = .ok (rows, mG) ∧ rows = blmOf n := by
    rcases e : BeamCoef.blm fs G with er | ⟨rows, mG⟩ <;> rw [e] at hblm
    · cases hblm
    · exact ⟨rows, mG, rfl, Except.ok.inj hblm⟩
  subst hrG'
  have hrows' := FocalScan.gaussRows_has fs G g1 L (by omega) g2 hrG
  have hsh := FocalScan.grid_shares s hpi rng p hr nrow ncol fov false abDiff combine hnew kw hkw hok hrot
    ⟨n, L, FocalScan.gaussRows G.fwhm G.amplitude⟩ rfl hload Ls h0 h1 (by
      cases sym
      · rw [if_neg (by simp)]
        rcases h3 with h | h
        · cases h
        · exact h
      · simpa using h2)
  have twins : ∀ q ∈ grid nrow ncol fov pol 90 err false false, Twins q := by
    intro q hq
    obtain ⟨c, -, hq⟩ := List.mem_flatMap.1 hq
    obtain ⟨e, -, rfl⟩ := List.mem_map.1 hq
    exact .inr ⟨_, _, rfl, rfl, rfl, rfl, 0, by simp [FocalScan.det]⟩
  have := C134_twins Y hY s hf hx hq hso iau hxq hns M o hbin hpre hgr hre hint N chunks hmi hang
    hbore (beamV := false) blmOf muOf hs hsky hrows hlen
    ⟨n, L, FocalScan.gaussRows G.fwhm G.amplitude⟩ (FocalScan.gaussRows_real _ _ _)
    (FocalScan.gaussRows_axi _ _) hrows' (by simp) err r.2.heap r.2.beams _ twins hsh l hl fill
  obtain ⟨ms, h', k1, k2, k3⟩ := this
  refine ⟨ms, h', k1, k2, fun m hm k hk => ?_⟩
  have := k3 m hm k hk
  rw [FocalScan.smoothI_gauss, FocalScan.smoothP_gauss] at this
  exact this

/-! ## The hypotheses are met -/

namespace Gridded

open Rec Whole

theorem options_sub {l l' : List Obs} (h : l ⊆ l') (p : Nat) (h3 : ThreeAngles (here p l)) :
    ThreeAngles (here p l') := by
  have hs : here p l ⊆ here p l' := by
    intro o ho
    unfold here at *
    rw [List.mem_filter] at *
    exact ⟨h ho.1, ho.2⟩
  obtain ⟨o1, h1, o2, h2, o3, h3, h⟩ := h3
  exact ⟨o1, hs h1, o2, hs h2, o3, hs h3, h⟩

theorem seen_more : seenBy M s.w 3 (grid 1 1 10 0 90 7 false true) ⊆
    seenBy M s.w 3 (grid 1 1 10 0 90 7 false false) := by
  intro o ho
  rw [grid_eq] at ho
  have e : grid 1 1 10 0 90 7 false false =
      [(some ⟨⟨false, false, 0, -5, -5, 7⟩, [], 0⟩, some ⟨⟨false, false, 0, -5, -5, 97⟩, [], 90⟩)] := by
    simp [grid, FocalScan.det, FocalScan.position]
    norm_num
  rw [e]
  unfold seenBy at *
  obtain ⟨p, hp, ho⟩ := List.mem_flatMap.1 ho
  obtain ⟨t, ht, ho⟩ := List.mem_flatMap.1 ho
  refine List.mem_flatMap.2 ⟨_, List.mem_cons_self, List.mem_flatMap.2 ⟨t, ht, ?_⟩⟩
  rw [List.mem_singleton] at hp
  subst hp
  unfold pairObs at *
  by_cases hf : M.flag t = true
  · rw [if_pos hf] at ho
    cases ho
  · rw [if_neg hf] at ho ⊢
    simp only [live, if_true, Bool.false_eq_true, if_false, List.mem_singleton] at ho
    rw [ho]
    simp [live]

/-- The hypotheses of `C134_gaussian` are met: with 10 percent cross-talk pixel 0 has 110 percent of the I
and 90 percent of the Q and U. -/
example (fill : ℝ) :
    let r := (FocalPlane.createFocalPlane env 1 1 10 false (.num 90) false kw).run FocalPlane.emptyPlane
    r.1 = .ok () ∧ ∃ ms h', ScanObjects.scans s { o with ctalk := 1 / 10 } r.2.beams
        [(i, false, 1), (i, true, 2)] r.2.heap = .ok (ms, h') ∧ ms.length = 2 ∧ ∀ m ∈ ms,
      (solveForMap qp m fill)[0]? = some (stokes false
        ((1 + 1 / 10) * gaussI Conv.Y 1 5 (skyOf false (Conv.coef 1)) 60 1 0)
        ((1 - 1 / 10 : ℝ) * (gaussP Conv.Y 1 5 (skyOf false (Conv.coef 1)) 60 1 0 *
          Complex.exp (2 * ((7 + 2 * 0) * Real.pi / 180 : ℝ) * Complex.I)))) := by
  obtain ⟨h1, ms, h', h2, h3, h4⟩ := C134_gaussian Conv.Y Conv.Y_conj s free rfl ext_ok
    (fun _ _ => one_rot) pix_ok solve_ok false agree one_pos M { o with ctalk := 1 / 10 } rfl rfl rfl rfl rfl
    3 chunks mission_ok
    (by decide) (fun _ _ => one_rot) (fun _ => gauss) (fun _ => 0) rfl (Conv.coef_real 1 5)
    (Conv.rows_ok _ _ _) (by simp) (fun _ => 0) FocalPlane.emptyPlane .start 1 1 (by norm_num)
    (by norm_num) 10 (.num 90) false (.inl rfl) kw options (by decide) (by decide) (by decide)
    (.inr (by decide)) 1 (fun a ha => by simp [s, env, ha]) fs G ⟨rfl, rfl, rfl, rfl⟩ blm_ok
    [(i, false, 1), (i, true, 2)] (by
      intro x hx
      simp only [List.mem_cons, List.not_mem_nil, or_false] at hx
      rcases hx with rfl | rfl
      · exact ⟨ready, rotates, plate, repeats.steady, one_pos, fun _ => rfl⟩
      · exact ⟨ready, rotates, plate, repeats.steady, two_pos, fun h => by cases h⟩) fill
  refine ⟨h1, ms, h', h2, h3, fun m hm => (h4 m hm 0 (by decide)).1 ?_⟩
  refine options_sub seen_more 0 ?_
  rw [seen_same]
  exact Whole.three

/-- The hypothesis of `C134_single` about the pairs is met by grids without B detectors. -/
example (nrow ncol : Int) (fov pol diff err : ℝ) :
    ∀ q ∈ grid nrow ncol fov pol diff err false true, Single q := by
  intro q hq
  obtain ⟨c, -, hq⟩ := List.mem_flatMap.1 hq
  obtain ⟨e, -, rfl⟩ := List.mem_map.1 hq
  exact .inr rfl

end Gridded

end Verif.Props
