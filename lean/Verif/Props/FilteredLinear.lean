import Verif.Spec.FilteredLinear
import Verif.Props.FilterAny
import Verif.Props.ScanFiltered
import Verif.Props.WholeScans

/-!
# Property C152: filtered scans and the sky

`FiltersReturn`: see `Verif.Spec.FilteredLinear`; `under`, `addSky`, `PairOk`: see C101.
-/

noncomputable section

namespace Verif.Props

open Verif.Chunks Verif.Timeline Verif.Spinmaps Verif.MapMaking Verif.ScanInstrument Verif.Spec
  Verif.Filters

open ScanFiltered (Wanted optsOf stretch part Tame)

variable {E : Type}

theorem tame_return {w : World E} {f : Wanted} {i : Inst E} {chunks : List Chunk} {N : Nat}
    (hmi : Mission N chunks) (hi : Ready w chunks i) (hfs : 0 < w.fsamp)
    (hf : FiltersReturn w f i chunks N) (t : Nat) (ht : t < N) :
    Tame (optsOf w f i.hwp) (stretch i.rot chunks t).2 := by
  obtain ⟨tod, out, h1, h2⟩ := hf t ht
  have hpos := stretch_pos hmi hi ht
  obtain ⟨g, -, h⟩ := gain_of (optsOf w f i.hwp) hfs tod out
    (by rintro rfl; simp at h1; omega) h2
  rw [h1] at h
  exact ScanFiltered.tame_of h

theorem after_lin {f : FilterOpts} {win : Nat → Nat × Nat} {t : Nat} (hw : Tame f (win t).2)
    (h1 : (win t).1 ≤ t) (h2 : t < (win t).1 + (win t).2) (c : ℝ) (v1 v2 v3 : Nat → ℝ)
    (hv : ∀ t, v3 t = v1 t + c * v2 t) :
    ScanFiltered.after f win v3 t = ScanFiltered.after f win v1 t + c * ScanFiltered.after f win v2 t := by
  have e : part v3 (win t) = List.zipWith (fun u v => u + c * v) (part v1 (win t)) (part v2 (win t)) := by
    unfold ScanFiltered.part
    rw [List.zipWith_map, List.zipWith_self]
    apply List.map_congr_left
    intro k _
    exact hv _
  unfold ScanFiltered.after
  rw [e, hw.2 _ _ c (ScanFiltered.part_length _ _) (ScanFiltered.part_length _ _)]
  have l1 := (hw.1 _ (ScanFiltered.part_length v1 (win t))).2
  have l2 := (hw.1 _ (ScanFiltered.part_length v2 (win t))).2
  rw [List.getElem?_zipWith, List.getElem?_eq_getElem (by omega), List.getElem?_eq_getElem (by omega)]
  rfl

/-- **C152.** A whole scan with filters is linear in the sky, for all focal planes with ghosts, non-ideal
plates and cross-talk, any plate that stands, steps or turns at any speed in any direction, any filters
that return numbers, and any number of ranks: the binned signal of `sky1 + c sky2` is that of `sky1`
plus `c` times that of `sky2`, and hits and angles do not depend on the sky. -/
theorem C152_linear (w : World E) (hx : ExtOk w.x) (hq : PixOk w.q) (hno : 0 < w.nsideOut)
    (M : Motion) (o : Opts) (hbin : o.binning = true) (hpre : o.preview = false)
    (hgr : o.ground = false) (hre : o.reuseSpinmaps = false) (N : Nat) (chunks : List Chunk)
    (hmi : Mission N chunks) (i : Inst E)
    (hi : Ready w chunks i) (hmv : Moves w.fsamp M i.rot i.hwp chunks)
    (hst : Steady w M chunks i.el) (hfs : 0 < w.fsamp)
    (f : Wanted) (hf : FiltersReturn w f i chunks N)
    (Y : Harmonics) (maxSpin : Int) (nside : Nat) (hns : 0 < nside)
    (inputV beamV : Bool) (data : BinBeam → BeamData) (gdata : BinBeam → List BeamData) (Ls : Nat)
    (sky1 sky2 : List (List ℂ)) (a1 a2 : Nat → Nat → Nat → ℂ) (L : BeamData → Nat)
    (b : BeamData → Nat → Nat → Nat → ℂ) (beams : List Pair)
    (hp : ∀ p ∈ beams, p = (none, none) ∨ ∃ d, p.1 = some d ∧
      PairOk Ls sky1 a1 maxSpin inputV beamV data gdata L b d p.2 ∧
      PairOk Ls sky2 a2 maxSpin inputV beamV data gdata L b d p.2) (c : ℝ)
    (size : Nat) (hsize : 0 < size) :
    let scan := fun sky => ScanFiltered.scanAll (under w Y maxSpin nside inputV beamV data gdata sky) o f
      beams true size i
    ∃ m1 m2, scan sky1 = .ok ⟨m1, false⟩ ∧ scan sky2 = .ok ⟨m2, false⟩ ∧
      m1.map (·.proj) = m2.map (·.proj) ∧
      scan (addSky c sky1 sky2) =
        .ok ⟨List.zipWith (fun c1 c2 => ⟨c1.vec + c • c2.vec, c1.proj⟩) m1 m2, false⟩ := by
  intro scan
  have hmaps := sky_maps w M o hx Y maxSpin nside hns inputV beamV data gdata Ls sky1 sky2
    a1 a2 L b beams hp c
  choose s1 s2 s3 hsm using hmaps
  have hG := tame_return hmi hi hfs hf
  have hstep : ∀ (sky : List (List ℂ)) (s : Pair → Spinmaps SpinDict),
      (∀ p ∈ beams, MapsOk (under w Y maxSpin nside inputV beamV data gdata sky) nside (s p) p) →
      scan sky = .ok ⟨mapsOf (12 * w.nsideOut ^ 2) (beams.flatMap fun p => missionObs w M o N
        (fun b => ScanFiltered.after (optsOf w f i.hwp) (stretch i.rot chunks)
          (detects M w.x o.interp nside (s p) b)) p), false⟩ := by
    intro sky s hs
    have hst' : Steady (under w Y maxSpin nside inputV beamV data gdata sky) M chunks i.el := by
      obtain ⟨P, h1, h2⟩ := hst
      refine ⟨P, h1, fun first e h => ?_⟩
      obtain ⟨e', h3, h4⟩ := h2 first e h
      exact ⟨e', points_under w Y maxSpin nside inputV beamV data gdata sky M _ chunks e e' h3, h4⟩
    exact ScanFiltered.all_tame (under w Y maxSpin nside inputV beamV data gdata sky) hq hno M o hbin hgr
      (fun p => detects M w.x o.interp nside (s p)) N chunks hmi i
      ⟨hi.chunks, hi.maps, hi.rot, hi.period, hi.hwp⟩ hmv hst' beams size hsize f hG
      fun p hp => pairGood_scan (under w Y maxSpin nside inputV beamV data gdata sky) hx M chunks o hpre
        hre nside (s p) p (hs p hp)
  have r1 := hstep sky1 s1 fun p h => (hsm p h).1.1
  have r2 := hstep sky2 s2 fun p h => (hsm p h).1.2.1
  have r3 := hstep (addSky c sky1 sky2) s3 fun p h => (hsm p h).1.2.2
  have hc : Comb c
      (beams.flatMap fun p => missionObs w M o N (fun b => ScanFiltered.after (optsOf w f i.hwp)
        (stretch i.rot chunks) (detects M w.x o.interp nside (s1 p) b)) p)
      (beams.flatMap fun p => missionObs w M o N (fun b => ScanFiltered.after (optsOf w f i.hwp)
        (stretch i.rot chunks) (detects M w.x o.interp nside (s2 p) b)) p)
      (beams.flatMap fun p => missionObs w M o N (fun b => ScanFiltered.after (optsOf w f i.hwp)
        (stretch i.rot chunks) (detects M w.x o.interp nside (s3 p) b)) p) := by
    apply Comb.flatMap
    intro p h
    unfold missionObs
    apply Comb.flatMap
    intro t ht
    have ht := List.mem_range.1 ht
    obtain ⟨q1, q2, -⟩ := ScanFiltered.stretch_spec hmi i.rot hi.period t ht
    exact pairObs_comb _ _ _ _ _ _ _ _ _ _ p t fun g hg =>
      after_lin (hG t ht) q1 q2 c _ _ _ fun t => (hsm p h).2 g hg t
  refine ⟨_, _, r1, r2, ?_, r3.trans ?_⟩
  · unfold mapsOf
    rw [List.map_map, List.map_map]
    apply List.map_congr_left
    intro p _
    exact ((hc.cell p).2.2).symm
  · congr 2
    unfold mapsOf
    rw [List.zipWith_map, List.zipWith_self]
    apply List.map_congr_left
    intro p _
    obtain ⟨h1, h2, -⟩ := hc.cell p
    exact Cell.ext h1 h2

/-- **C152 (solved maps).** With three or more angles in a pixel (a regular matrix), the solved Stokes
parameters of a scan with filters are linear in the sky; pixels that were not observed are filled for
every sky. -/
theorem C152_solved (w : World E) (hx : ExtOk w.x) (hq : PixOk w.q) (hsolve : SolveOk w.q)
    (hno : 0 < w.nsideOut)
    (M : Motion) (o : Opts) (hbin : o.binning = true) (hpre : o.preview = false)
    (hgr : o.ground = false) (hre : o.reuseSpinmaps = false) (N : Nat) (chunks : List Chunk)
    (hmi : Mission N chunks) (i : Inst E)
    (hi : Ready w chunks i) (hmv : Moves w.fsamp M i.rot i.hwp chunks)
    (hst : Steady w M chunks i.el) (hfs : 0 < w.fsamp)
    (f : Wanted) (hf : FiltersReturn w f i chunks N)
    (Y : Harmonics) (maxSpin : Int) (nside : Nat) (hns : 0 < nside)
    (inputV beamV : Bool) (data : BinBeam → BeamData) (gdata : BinBeam → List BeamData) (Ls : Nat)
    (sky1 sky2 : List (List ℂ)) (a1 a2 : Nat → Nat → Nat → ℂ) (L : BeamData → Nat)
    (b : BeamData → Nat → Nat → Nat → ℂ) (beams : List Pair)
    (hp : ∀ p ∈ beams, p = (none, none) ∨ ∃ d, p.1 = some d ∧
      PairOk Ls sky1 a1 maxSpin inputV beamV data gdata L b d p.2 ∧
      PairOk Ls sky2 a2 maxSpin inputV beamV data gdata L b d p.2) (c : ℝ)
    (size : Nat) (hsize : 0 < size) (fill : ℝ) :
    let scan := fun sky => ScanFiltered.scanAll (under w Y maxSpin nside inputV beamV data gdata sky) o f
      beams true size i
    ∃ m1 m2 m3, scan sky1 = .ok ⟨m1, false⟩ ∧ scan sky2 = .ok ⟨m2, false⟩ ∧
      scan (addSky c sky1 sky2) = .ok ⟨m3, false⟩ ∧
      ∀ (p : Nat) (cell : Cell), m1[p]? = some cell →
        (cell.proj 0 ≠ 0 → (sym cell.proj).det ≠ 0 →
          ∃ s1 s2, (solveForMap w.q m1 fill)[p]? = some s1 ∧ (solveForMap w.q m2 fill)[p]? = some s2 ∧
            (solveForMap w.q m3 fill)[p]? = some (s1 + c • s2)) ∧
        (cell.proj 0 = 0 → ∀ m ∈ [m1, m2, m3],
          (solveForMap w.q m fill)[p]? = some fun _ => fill) := by
  intro scan
  obtain ⟨m1, m2, h1, h2, hproj, h3⟩ := C152_linear w hx hq hno M o hbin hpre hgr hre N chunks hmi i hi
    hmv hst hfs f hf Y maxSpin nside hns inputV beamV data gdata Ls sky1 sky2 a1 a2 L b beams hp c size
    hsize
  exact ⟨m1, m2, _, h1, h2, h3, fun p cell hcell => solved_comb hsolve hproj c fill p cell hcell⟩

theorem part_after {f : FilterOpts} {win : Nat → Nat × Nat} {t : Nat} (hw : Tame f (win t).2)
    (hc : ScanFiltered.Covers win (win t).1 (win t).2) (v : Nat → ℝ) :
    part (ScanFiltered.after f win v) (win t) = ScanFiltered.filt f (part v (win t)) := by
  have hl := (hw.1 _ (ScanFiltered.part_length v (win t))).2
  apply List.ext_getElem (by rw [ScanFiltered.part_length, hl])
  intro k k1 k2
  rw [ScanFiltered.part_length] at k1
  rw [ScanFiltered.part_getElem, ScanFiltered.after_eq hc v k1]
  have : (List.range (win t).2).map (fun k => v ((win t).1 + k)) = part v (win t) := rfl
  rw [this, List.getElem?_eq_getElem k2]
  rfl

/-- **C116 (any filters that return).** The same for any plate that stands, steps or turns at any speed
in any direction, and any filters that return numbers: the values are those that the filters return for
each stretch, and in each stretch all frequencies have been multiplied by numbers between 0 and 1 that
depend only on the length of the stretch. -/
theorem C116_any (w : World E) (hx : ExtOk w.x) (hq : PixOk w.q) (hno : 0 < w.nsideOut)
    (M : Motion) (o : Opts) (hbin : o.binning = true) (hpre : o.preview = false)
    (hgr : o.ground = false) (hre : o.reuseSpinmaps = false) (N : Nat) (chunks : List Chunk)
    (hmi : Mission N chunks) (i : Inst E)
    (hi : Ready w chunks i) (hmv : Moves w.fsamp M i.rot i.hwp chunks)
    (hst : Steady w M chunks i.el) (hfs : 0 < w.fsamp)
    (f : Wanted) (hf : FiltersReturn w f i chunks N)
    (beams : List Pair) (nside : Nat) (sm : Pair → Spinmaps SpinDict)
    (hm : ∀ p ∈ beams, MapsOk w nside (sm p) p) (size : Nat) (hsize : 0 < size) :
    ∃ (gain : Nat → Nat → ℝ) (out : Pair → BinBeam → Nat → ℝ) (m : Maps),
      (∀ n k, 0 ≤ gain n k ∧ gain n k ≤ 1) ∧
      (∀ p b t, t < N →
        filterTod (optsOf w f i.hwp) (part (detects M w.x o.interp nside (sm p) b)
          (stretch i.rot chunks t)) = .ok (some (part (out p b) (stretch i.rot chunks t))) ∧
        Filtered (gain (stretch i.rot chunks t).2)
          (part (detects M w.x o.interp nside (sm p) b) (stretch i.rot chunks t))
          (part (out p b) (stretch i.rot chunks t))) ∧
      ScanFiltered.scanAll w o f beams true size i = .ok ⟨m, false⟩ ∧
      Holds w.nsideOut m (beams.flatMap fun p => (List.range N).flatMap
        (pairObs M w.x w.q w.varphi w.nsideOut o.ctalk (out p) p)) := by
  classical
  have hG := tame_return hmi hi hfs hf
  have hex : ∀ n, ∃ g : Nat → ℝ, (∀ k, 0 ≤ g k ∧ g k ≤ 1) ∧
      ((∃ tod out : List ℝ, 0 < n ∧ tod.length = n ∧ filterTod (optsOf w f i.hwp) tod = .ok (some out)) →
        ∀ tod : List ℝ, tod.length = n → ∃ out, filterTod (optsOf w f i.hwp) tod = .ok (some out) ∧
          Filtered g tod out) := by
    intro n
    by_cases h : ∃ tod out : List ℝ, 0 < n ∧ tod.length = n ∧
        filterTod (optsOf w f i.hwp) tod = .ok (some out)
    · obtain ⟨tod, out, h0, rfl, h2⟩ := h
      obtain ⟨g, g1, g2⟩ := gain_of (optsOf w f i.hwp) hfs tod out
        (by rintro rfl; simp at h0) h2
      exact ⟨g, g1, fun _ => g2⟩
    · exact ⟨fun _ => 0, by norm_num, fun h' => (h h').elim⟩
  choose gain g1 g2 using hex
  refine ⟨gain, fun p b => ScanFiltered.after (optsOf w f i.hwp) (stretch i.rot chunks)
    (detects M w.x o.interp nside (sm p) b), _, g1, fun p b t ht => ?_,
    ScanFiltered.all_tame w hq hno M o hbin hgr (fun p => detects M w.x o.interp nside (sm p)) N
      chunks hmi i hi hmv hst beams size hsize f hG
      fun p hp => pairGood_scan w hx M chunks o hpre hre nside (sm p) p (hm p hp), holds_mapsOf _ _⟩
  obtain ⟨-, -, -, hc⟩ := ScanFiltered.stretch_spec hmi i.rot hi.period t ht
  obtain ⟨tod, out, t1, t2⟩ := hf t ht
  have h1 := ((hG t ht).1 _ (ScanFiltered.part_length (detects M w.x o.interp nside (sm p) b)
    (stretch i.rot chunks t))).1
  rw [part_after (hG t ht) hc]
  obtain ⟨out', o1, o2⟩ := g2 (stretch i.rot chunks t).2 ⟨tod, out, stretch_pos hmi hi ht, t1, t2⟩ _
    (ScanFiltered.part_length (detects M w.x o.interp nside (sm p) b) (stretch i.rot chunks t))
  obtain rfl := Option.some.inj (Except.ok.inj (h1.symm.trans o1))
  exact ⟨h1, o2⟩

/-- **C116, violation.** With a plate that turns backwards by two or more revolutions per stretch,
`filter_4fhwp` removes the signal: the scan returns, with all the hits, and the binned signal is zero in
all pixels, whatever the sky. -/
theorem C116_backwards_violation (w : World E) (hx : ExtOk w.x) (hq : PixOk w.q) (hns : 0 < w.nsideOut)
    (o : Opts) (hbin : o.binning = true) (hpre : o.preview = false) (hgr : o.ground = false)
    (hre : o.reuseSpinmaps = false) (N : Nat) (chunks : List Chunk) (hmi : Mission N chunks)
    (hang : ∀ c ∈ chunks, c.hwpang = none) (i : Inst E) (hi : Ready w chunks i) (rot : Nat → ℝ)
    (hrot : Rotates N chunks i.rot rot) (hfs : 0 < w.fsamp) (freq startAng varphi : ℝ) (hf : freq ≠ 0)
    (angles : Option (List ℝ))
    (hhwp : Hwp.setHwpMod w.fsamp .continuous freq startAng angles varphi = .ok i.hwp)
    (h4 : ∀ t, t < N → turns (stretch i.rot chunks t).2 w.fsamp i.hwp.freq ≤ -2) :
    ∃ alpha : Nat → ℝ, ∀ M : Motion, M.rot = rot → M.alpha = alpha → Steady w M chunks i.el →
      ∀ (beams : List Pair) (nside : Nat) (sm : Pair → Spinmaps SpinDict),
        (∀ p ∈ beams, MapsOk w nside (sm p) p) → ∀ size : Nat, 0 < size →
        ∃ m m0, ScanFiltered.scanAll w o ⟨true, false, none⟩ beams true size i = .ok ⟨m, false⟩ ∧
          scanAll w o beams true size i = .ok m0 ∧ m.map (·.proj) = m0.map (·.proj) ∧
          ∀ cell ∈ m, cell.vec = 0 := by
  obtain ⟨cuts, alpha, -, -, -, h5⟩ := moves_turning w.fsamp N chunks hmi hang i.rot i.hwp rot hrot
    hfs.ne' freq startAng varphi hf angles hhwp
  have hmode : i.hwp.mode = .continuous := by
    unfold Hwp.setHwpMod at hhwp
    simp only [reduceCtorEq, if_false] at hhwp
    rw [← Except.ok.inj hhwp]
  refine ⟨alpha, fun M hM1 hM2 hst beams nside sm hm size hsize => ?_⟩
  have hzero : ∀ t, t < N → ∀ tod : List ℝ, tod.length = (stretch i.rot chunks t).2 →
      filterTod (optsOf w ⟨true, false, none⟩ i.hwp) tod = .ok (some (List.replicate tod.length 0)) := by
    intro t ht tod hl
    have := C91_backwards_violation tod w.fsamp i.hwp.freq hfs (by rw [hl]; exact h4 t ht)
    have e : filter4fStep (optsOf w ⟨true, false, none⟩ i.hwp) tod =
        filterTodHwp tod w.fsamp i.hwp.freq := by
      unfold filter4fStep
      exact (if_pos rfl).trans (if_pos hmode)
    unfold filterTod
    rw [e, this]
    rfl
  have hG : ∀ t, t < N → Tame (optsOf w ⟨true, false, none⟩ i.hwp) (stretch i.rot chunks t).2 :=
    tame_return hmi hi hfs fun t ht => ⟨List.replicate (stretch i.rot chunks t).2 0, _, by simp,
      hzero t ht _ (by simp)⟩
  have e := ScanFiltered.all_tame w hq hns M o hbin hgr
    (fun p => detects M w.x o.interp nside (sm p)) N chunks hmi i hi (h5 M hM1 hM2) hst beams size hsize
    ⟨true, false, none⟩ hG fun p hp => pairGood_scan w hx M chunks o hpre hre nside (sm p) p (hm p hp)
  obtain ⟨m0, k1, k2⟩ := C116_hits w o _ beams true size i _ e
  refine ⟨_, m0, e, k1, k2, ?_⟩
  have hafter : ∀ p b t, t < N → ScanFiltered.after (optsOf w ⟨true, false, none⟩ i.hwp)
      (stretch i.rot chunks) (detects M w.x o.interp nside (sm p) b) t = 0 := by
    intro p b t ht
    unfold ScanFiltered.after ScanFiltered.filt
    rw [hzero t ht _ (ScanFiltered.part_length _ _)]
    dsimp only
    rw [List.getElem?_replicate]
    split <;> rfl
  have hd : ∀ ob ∈ beams.flatMap fun p => missionObs w M o N (fun b =>
      ScanFiltered.after (optsOf w ⟨true, false, none⟩ i.hwp) (stretch i.rot chunks)
        (detects M w.x o.interp nside (sm p) b)) p, ob.d = 0 := by
    intro ob hob
    obtain ⟨p, -, hob⟩ := List.mem_flatMap.1 hob
    obtain ⟨t, ht, hob⟩ := List.mem_flatMap.1 hob
    have ht := List.mem_range.1 ht
    unfold pairObs at hob
    have hA : ∀ x v, (obsAt M w.x w.q w.varphi w.nsideOut x t v).d = v := fun _ _ => rfl
    split at hob
    · cases hob
    · rcases h1 : live p.1 with _ | a <;> rcases h2 : live p.2 with _ | b <;> rw [h1, h2] at hob <;>
        simp only [List.mem_cons, List.not_mem_nil, or_false] at hob
      · rw [hob, hA, hafter p _ t ht]
      · rw [hob, hA, hafter p _ t ht]
      · rcases hob with rfl | rfl
        · rw [hA, hafter p _ t ht, hafter p _ t ht]
          simp
        · rw [hA, hafter p _ t ht, hafter p _ t ht]
          simp
  intro cell hcell
  obtain ⟨k, hk⟩ := List.getElem?_of_mem hcell
  rw [((holds_mapsOf w.nsideOut _).cells k cell hk).1]
  unfold vecAt
  apply List.sum_eq_zero
  intro v hv
  obtain ⟨ob, hob, rfl⟩ := List.mem_map.1 hv
  rw [hd ob (List.mem_filter.1 hob).1, zero_smul]

/-! ### Concrete cases -/

namespace Sieved

open Rec Whole

/-- The hypotheses of `C152_linear` are met by the mission, telescope and beam of C101, with the
mean of each chunk subtracted. -/
example (c : ℝ) : ∃ m1 m2 m3,
    ScanFiltered.scanAll (under Whole.w Conv.Y 4 1 false false (fun _ => Conv.main.data)
      (fun _ => [Conv.ghost.data]) (Conv.rows 5 3 (Conv.coef 1))) o f [(some ghostly, none)] true 2 i =
      .ok ⟨m1, false⟩ ∧
    ScanFiltered.scanAll (under Whole.w Conv.Y 4 1 false false (fun _ => Conv.main.data)
      (fun _ => [Conv.ghost.data]) (Conv.rows 5 3 (Conv.coef 2))) o f [(some ghostly, none)] true 2 i =
      .ok ⟨m2, false⟩ ∧
    ScanFiltered.scanAll (under Whole.w Conv.Y 4 1 false false (fun _ => Conv.main.data)
      (fun _ => [Conv.ghost.data]) (addSky c (Conv.rows 5 3 (Conv.coef 1))
        (Conv.rows 5 3 (Conv.coef 2)))) o f [(some ghostly, none)] true 2 i = .ok ⟨m3, false⟩ := by
  classical
  obtain ⟨m1, m2, h1, h2, -, h3⟩ := C152_linear Whole.w ext_ok pix_ok one_pos M o rfl rfl rfl rfl 3 chunks
    mission_ok i session.ready
    (moves_spec Whole.w.fsamp M 3 chunks mission_ok (by decide) i.rot i.hwp rotates plate)
    session.steady one_pos f
    (fun t ht => ⟨List.replicate _ 0, _, List.length_replicate, rfl⟩) Conv.Y 4 1 one_pos false false
    (fun _ => Conv.main.data) (fun _ => [Conv.ghost.data]) 5 (Conv.rows 5 3 (Conv.coef 1))
    (Conv.rows 5 3 (Conv.coef 2)) (Conv.coef 1) (Conv.coef 2) (fun _ => 6)
    (fun g => if g = Conv.main.data then Conv.bcoef 2 else Conv.bcoef 3) [(some ghostly, none)]
    (by
      intro p hp
      obtain rfl := List.mem_singleton.1 hp
      exact .inr ⟨_, rfl, ghostly_ok 1, ghostly_ok 2⟩) c 2 two_pos
  exact ⟨m1, m2, _, h1, h2, h3⟩

/-- The hypotheses of `C116_backwards_violation` on mission, plate and filters are met: twenty samples,
in which the plate turns back three times. -/
example : ∃ h, Hwp.setHwpMod w.fsamp .continuous (-3 / 20) 0 none 0 = .ok h ∧ h.reset = h ∧
    ∀ t, t < 20 → turns (stretch rot long t).2 w.fsamp h.freq ≤ -2 := by
  refine ⟨_, rfl, rfl, ?_⟩
  intro t ht
  have : stretch rot long t = (0, 20) := by
    interval_cases t <;> rfl
  rw [this]
  show (-3 : ℝ) / 20 / 1 * ((20 : Nat) : ℝ) ≤ -2
  norm_num

end Sieved

end Verif.Props
