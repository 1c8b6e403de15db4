import Verif.Props.FilteredLinear
import Verif.Props.BestFit

/-!
# Property C153: focal planes with filtered timelines

`FiltersReturn`: see `Verif.Spec.FilteredLinear`; `plusMaps`: C100; `BestFit`: C150.
-/

noncomputable section

namespace Verif.Props

open Verif.Chunks Verif.Timeline Verif.Spinmaps Verif.MapMaking Verif.ScanInstrument Verif.Spec
  Verif.Filters

open ScanFiltered (Wanted optsOf stretch part Tame)

variable {E : Type}

/-- What a filtered scan bins. -/
theorem filtered_maps (w : World E) (hx : ExtOk w.x) (hq : PixOk w.q) (hno : 0 < w.nsideOut)
    (M : Motion) (o : Opts) (hbin : o.binning = true) (hpre : o.preview = false)
    (hgr : o.ground = false) (hre : o.reuseSpinmaps = false) (N : Nat) (chunks : List Chunk)
    (hmi : Mission N chunks) (i : Inst E)
    (hi : Ready w chunks i) (hmv : Moves w.fsamp M i.rot i.hwp chunks)
    (hst : Steady w M chunks i.el) (hfs : 0 < w.fsamp)
    (f : Wanted) (hf : FiltersReturn w f i chunks N)
    (beams : List Pair) (nside : Nat) (sm : Pair → Spinmaps SpinDict)
    (hm : ∀ p ∈ beams, MapsOk w nside (sm p) p) (size : Nat) (hsize : 0 < size) :
    ScanFiltered.scanAll w o f beams true size i = .ok ⟨mapsOf (12 * w.nsideOut ^ 2)
      (beams.flatMap fun p => missionObs w M o N
        (fun b => ScanFiltered.after (optsOf w f i.hwp) (stretch i.rot chunks)
          (detects M w.x o.interp nside (sm p) b)) p), false⟩ :=
  ScanFiltered.all_tame w hq hno M o hbin hgr (fun p => detects M w.x o.interp nside (sm p)) N
    chunks hmi i hi hmv hst beams size hsize f (tame_return hmi hi hfs hf)
    fun p hp => pairGood_scan w hx M chunks o hpre hre nside (sm p) p (hm p hp)

/-- **C153.** The maps of a focal plane are the sum of those of its parts, each scanned on its own with
the same filters and any numbers of ranks. -/
theorem C153_sum (w : World E) (hx : ExtOk w.x) (hq : PixOk w.q) (hno : 0 < w.nsideOut)
    (M : Motion) (o : Opts) (hbin : o.binning = true) (hpre : o.preview = false)
    (hgr : o.ground = false) (hre : o.reuseSpinmaps = false) (N : Nat) (chunks : List Chunk)
    (hmi : Mission N chunks) (i : Inst E)
    (hi : Ready w chunks i) (hmv : Moves w.fsamp M i.rot i.hwp chunks)
    (hst : Steady w M chunks i.el) (hfs : 0 < w.fsamp)
    (f : Wanted) (hf : FiltersReturn w f i chunks N)
    (beams beams' : List Pair) (nside : Nat) (sm : Pair → Spinmaps SpinDict)
    (hm : ∀ p ∈ beams ++ beams', MapsOk w nside (sm p) p) (size size1 size2 : Nat) (h : 0 < size)
    (h1 : 0 < size1) (h2 : 0 < size2) :
    ∃ m m', ScanFiltered.scanAll w o f beams true size1 i = .ok ⟨m, false⟩ ∧
      ScanFiltered.scanAll w o f beams' true size2 i = .ok ⟨m', false⟩ ∧
      ScanFiltered.scanAll w o f (beams ++ beams') true size i = .ok ⟨plusMaps m m', false⟩ := by
  have e := fun b hb size hs => filtered_maps w hx hq hno M o hbin hpre hgr hre N chunks hmi i hi hmv hst hfs
    f hf b nside sm hb size hs
  refine ⟨_, _, e beams (fun p hp => hm p (List.mem_append_left _ hp)) _ h1,
    e beams' (fun p hp => hm p (List.mem_append_right _ hp)) _ h2, ?_⟩
  rw [e _ hm _ h, List.flatMap_append, plusMaps_mapsOf]

/-- **C153.** Neither the order of the pairs on the focal plane nor the number of ranks matters. -/
theorem C153_order (w : World E) (hx : ExtOk w.x) (hq : PixOk w.q) (hno : 0 < w.nsideOut)
    (M : Motion) (o : Opts) (hbin : o.binning = true) (hpre : o.preview = false)
    (hgr : o.ground = false) (hre : o.reuseSpinmaps = false) (N : Nat) (chunks : List Chunk)
    (hmi : Mission N chunks) (i : Inst E)
    (hi : Ready w chunks i) (hmv : Moves w.fsamp M i.rot i.hwp chunks)
    (hst : Steady w M chunks i.el) (hfs : 0 < w.fsamp)
    (f : Wanted) (hf : FiltersReturn w f i chunks N)
    (beams beams' : List Pair) (hp : beams.Perm beams') (nside : Nat) (sm : Pair → Spinmaps SpinDict)
    (hm : ∀ p ∈ beams, MapsOk w nside (sm p) p) (size size' : Nat) (h : 0 < size) (h' : 0 < size') :
    ScanFiltered.scanAll w o f beams' true size' i = ScanFiltered.scanAll w o f beams true size i := by
  have e := fun b hb size hs => filtered_maps w hx hq hno M o hbin hpre hgr hre N chunks hmi i hi hmv hst hfs
    f hf b nside sm hb size hs
  rw [e _ hm _ h, e _ (fun p hb => hm p (hp.mem_iff.2 hb)) _ h', mapsOf_perm (hp.flatMap_right _)]

/-- **C153.** The solved map of a filtered scan fits the filtered timelines `out` best, in each pixel that
has been seen under three angles. -/
theorem C153_best_fit (w : World E) (hx : ExtOk w.x) (hq : PixOk w.q) (hs : SolveOk w.q) (iau : Bool)
    (hxq : Agree w.x w.q iau) (hno : 0 < w.nsideOut)
    (M : Motion) (o : Opts) (hbin : o.binning = true) (hpre : o.preview = false)
    (hgr : o.ground = false) (hre : o.reuseSpinmaps = false) (N : Nat) (chunks : List Chunk)
    (hmi : Mission N chunks) (i : Inst E)
    (hi : Ready w chunks i) (hmv : Moves w.fsamp M i.rot i.hwp chunks)
    (hst : Steady w M chunks i.el) (hfs : 0 < w.fsamp)
    (f : Wanted) (hf : FiltersReturn w f i chunks N) (hbore : ∀ t, t < N → IsRot (M.bore t))
    (beams : List Pair)
    (hoff : ∀ p ∈ beams, ∀ e, (live p.1 = some e ∨ live p.2 = some e) →
      IsRot (w.x.detOffset e.beam.az e.beam.el 0)) (nside : Nat) (sm : Pair → Spinmaps SpinDict)
    (hm : ∀ p ∈ beams, MapsOk w nside (sm p) p) (size : Nat) (hsize : 0 < size) (fill : ℝ) :
    ∃ (out : Pair → BinBeam → Nat → ℝ) (m : Maps),
      (∀ p b t, t < N →
        filterTod (optsOf w f i.hwp) (part (detects M w.x o.interp nside (sm p) b)
          (stretch i.rot chunks t)) = .ok (some (part (out p b) (stretch i.rot chunks t)))) ∧
      ScanFiltered.scanAll w o f beams true size i = .ok ⟨m, false⟩ ∧
      ∀ p, p < 12 * w.nsideOut ^ 2 → ThreeAngles (here p (seenBy M w N beams)) →
        ∃ v, (solveForMap w.q m fill)[p]? = some v ∧
          BestFit (here p (beams.flatMap fun p => (List.range N).flatMap
            (pairObs M w.x w.q w.varphi w.nsideOut o.ctalk (out p) p))) v := by
  obtain ⟨_, out, m, -, h1, h2, hH⟩ := C116_any w hx hq hno M o hbin hpre hgr hre N chunks hmi i hi hmv hst
    hfs f hf beams nside sm hm size hsize
  refine ⟨out, m, fun p b t ht => (h1 p b t ht).1, h2, fun p hp h3 => ?_⟩
  have h2 : (beams.flatMap fun p => (List.range N).flatMap (pairObs M w.x w.q w.varphi w.nsideOut o.ctalk
      (out p) p)).map blank = (seenBy M w N beams).map blank := by
    unfold seenBy
    simp only [List.map_flatMap]
    apply flatMap_congr'
    intro p _
    apply flatMap_congr'
    intro t _
    exact FocalScan.talk_blank M w.x w.q w.varphi w.nsideOut _ _ _ _ p t
  rw [← three_blank, ← here_blank, ← h2, here_blank, three_blank] at h3
  obtain ⟨v, v1, v2, -⟩ := C150_best_fit w.q hs hH (by
    intro ob hob
    obtain ⟨p, hp, hob⟩ := List.mem_flatMap.1 hob
    obtain ⟨t, ht, hob⟩ := List.mem_flatMap.1 hob
    obtain ⟨e, d, he, rfl, -⟩ := obs_cases hob
    dsimp only [obsAt]
    have eo : offset w.x (M.rot t) e.beam = qOff w.x (M.rot t) e.beam := rfl
    rw [eo, hxq _ _ _ _ _ _ (hbore t (List.mem_range.1 ht)) (qOff_rot w.x _ _ (hoff p hp e he))]
    dsimp only
    rw [mul_pow]
    have h1 : ((if iau = true then 1 else -1 : ℝ)) ^ 2 = 1 := by cases iau <;> norm_num
    rw [h1, one_mul]
    exact Real.cos_sq_add_sin_sq _) fill hp h3
  exact ⟨v, v1, v2⟩

/-! ### Concrete cases -/

namespace Sieved

open Rec Whole

theorem returns : FiltersReturn w f i chunks 3 :=
  fun _ _ => ⟨List.replicate _ 0, _, List.length_replicate, rfl⟩

/-- The hypotheses of `C153_sum` and `C153_order` are met: a detector twice, the mean of each chunk
subtracted. -/
example : ∃ m, ScanFiltered.scanAll w o f beams true 1 i = .ok ⟨m, false⟩ ∧
    ScanFiltered.scanAll w o f (beams ++ beams) true 2 i = .ok ⟨plusMaps m m, false⟩ := by
  obtain ⟨m, m', h1, h2, h3⟩ := C153_sum w ext_ok pix_ok one_pos M o rfl rfl rfl rfl 3 chunks mission_ok i ready
    (moves_spec w.fsamp M 3 chunks mission_ok (by decide) i.rot i.hwp rotates plate) (steady _) one_pos f
    returns beams beams 1 (fun _ => sm) (by
      intro p hp
      rcases List.mem_append.1 hp with hp | hp <;> exact maps p hp) 2 1 1 two_pos one_pos one_pos
  have e : m = m' := by
    have := h1.symm.trans h2
    cases this
    rfl
  subst e
  exact ⟨m, h1, h3⟩

/-- The hypotheses of `C153_best_fit` are met. -/
example (fill : ℝ) : ∃ m, ScanFiltered.scanAll Whole.w o f Whole.beams true 2 i = .ok ⟨m, false⟩ ∧
    ∃ l v, (solveForMap qp m fill)[0]? = some v ∧ BestFit l v := by
  classical
  choose sm h using fun p : {p // p ∈ Whole.beams} => ideal_maps Whole.w one_pos Conv.Y (ideal p.1 p.2)
  obtain ⟨out, m, -, h1, h2⟩ := C153_best_fit Whole.w ext_ok pix_ok solve_ok false agree one_pos M o
    rfl rfl rfl rfl 3 chunks mission_ok i session.ready
    (moves_spec Whole.w.fsamp M 3 chunks mission_ok (by decide) i.rot i.hwp rotates plate)
    session.steady one_pos f (fun _ _ => ⟨List.replicate _ 0, _, List.length_replicate, rfl⟩)
    (fun _ _ => one_rot) Whole.beams (fun _ _ _ _ => one_rot) 1
    (fun p => if hp : p ∈ Whole.beams then sm ⟨p, hp⟩ else ⟨[], none, []⟩) (by
      intro p hp
      rw [dif_pos hp]
      exact (h ⟨p, hp⟩).1) 2 two_pos fill
  obtain ⟨v, v1, v2⟩ := h2 0 (by decide) Whole.three
  exact ⟨m, h1, _, v, v1, v2⟩

end Sieved

end Verif.Props
