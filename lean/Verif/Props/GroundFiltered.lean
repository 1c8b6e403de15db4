import Verif.Lemmas.GroundFiltered
import Verif.Props.ScanFiltered
import Verif.Props.GroundScan

/-!
# Property C116: whole scans with filters and a ground template
-/

noncomputable section

namespace Verif.Props

open Verif.Chunks Verif.Timeline Verif.Spinmaps Verif.MapMaking Verif.ScanInstrument Verif.Spec
  Verif.Filters

open ScanFiltered (Wanted optsOf stretch part IsGain PassesFilters)

variable {E : Type}

theorem stretch_pos_ground {w : World E} {N : Nat} {chunks : List Chunk} (hmi : Mission N chunks)
    {i : Inst E} (hi : Ground.Ready w chunks i) {t : Nat} (ht : t < N) :
    0 < (stretch i.rot chunks t).2 := by
  obtain ⟨a, b, -⟩ := ScanFiltered.stretch_spec hmi i.rot hi.period t ht
  omega

/-- C116 with a ground template for any motion of instrument and plate. -/
theorem filtered_ground_of_moves (w : World E) (hx : ExtOk w.x) (hq : PixOk w.q)
    (hns : 0 < w.nsideOut) (M : Motion) (G : Nat → Quat.Q) (o : Opts) (hbin : o.binning = true)
    (hpre : o.preview = false) (hgr : o.ground = true) (hre : o.reuseSpinmaps = false) (N : Nat)
    (chunks : List Chunk) (hmi : Mission N chunks) (i : Inst E) (hi : Ground.Ready w chunks i)
    (hmv : Moves w.fsamp M i.rot i.hwp chunks) (hst : Ground.Steady w M G chunks i.el) (f : Wanted)
    (hG : ∀ t, t < N → ScanFiltered.Good (optsOf w f i.hwp) (stretch i.rot chunks t).2)
    (beams : List Pair) (nside : Nat) (sm : Pair → Spinmaps SpinDict)
    (hm : ∀ p ∈ beams, Ground.MapsOk w nside (sm p) p) (size : Nat) (hsize : 0 < size) :
    ∃ (gain : Nat → Nat → ℝ) (out : Pair → BinBeam → Nat → ℝ) (m : Maps),
      (∀ p b, PassesFilters (optsOf w f i.hwp) i.rot chunks N gain
        (Ground.detects M G w.x o.interp nside (sm p) b) (out p b)) ∧
      ScanFiltered.scanAll w o f beams true size i = .ok ⟨m, false⟩ ∧
      Holds w.nsideOut m (beams.flatMap fun p => (List.range N).flatMap
        (pairObs M w.x w.q w.varphi w.nsideOut o.ctalk (out p) p)) := by
  obtain ⟨gain, hgain⟩ := ScanFiltered.passes_after hmi i.rot hi.period _ hG
  exact ⟨gain, _, _, fun p b => hgain _,
    ScanFiltered.Ground.all_spec w hq hns M G o hbin hgr (fun _ => True)
      (fun p => Ground.detects M G w.x o.interp nside (sm p)) N
      chunks hmi i hi hmv hst trivial beams size hsize f false (fun t ht => (hG t ht).tame)
      fun p hp => Ground.pairGood_scan w hx M G chunks o hpre hre nside (sm p) p (hm p hp),
    holds_mapsOf _ _⟩

/-- **C116 (ground).** A scan with `filter_highpass` and a ground template: as `C116_maps`, but the
timeline that goes through the filter is that of sky and ground (C110). -/
theorem C116_ground (w : World E) (hx : ExtOk w.x) (hq : PixOk w.q) (hns : 0 < w.nsideOut)
    (M : Motion) (G : Nat → Quat.Q) (o : Opts) (hbin : o.binning = true) (hpre : o.preview = false)
    (hgr : o.ground = true) (hre : o.reuseSpinmaps = false) (N : Nat) (chunks : List Chunk)
    (hmi : Mission N chunks) (hang : ∀ c ∈ chunks, c.hwpang = none) (i : Inst E)
    (hi : Ground.Ready w chunks i) (hrot : Rotates N chunks i.rot M.rot)
    (hhwp : Plate w.fsamp N i.hwp M.alpha) (hst : Ground.Steady w M G chunks i.el)
    (hfs : 0 < w.fsamp) (f : Wanted) (h4 : f.filter4f = false)
    (hd : f.highpass = true → ∀ wc m, f.dict = some (wc, m) → wc ≠ 0 ∧ 0 < m)
    (beams : List Pair) (nside : Nat) (sm : Pair → Spinmaps SpinDict)
    (hm : ∀ p ∈ beams, Ground.MapsOk w nside (sm p) p) (size : Nat) (hsize : 0 < size) :
    ∃ (gain : Nat → Nat → ℝ) (out : Pair → BinBeam → Nat → ℝ) (m : Maps),
      (∀ p b, PassesFilters (optsOf w f i.hwp) i.rot chunks N gain
        (Ground.detects M G w.x o.interp nside (sm p) b) (out p b)) ∧
      ScanFiltered.scanAll w o f beams true size i = .ok ⟨m, false⟩ ∧
      Holds w.nsideOut m (beams.flatMap fun p => (List.range N).flatMap
        (pairObs M w.x w.q w.varphi w.nsideOut o.ctalk (out p) p)) :=
  filtered_ground_of_moves w hx hq hns M G o hbin hpre hgr hre N chunks hmi i hi
    (moves_spec w.fsamp M N chunks hmi hang i.rot i.hwp hrot hhwp) hst f
    (fun _ ht => ScanFiltered.good_of _ _ (stretch_pos_ground hmi hi ht) hfs
      (fun h => by rw [show (optsOf w f i.hwp).filter4f = false from h4] at h; cases h) hd)
    beams nside sm hm size hsize

/-- **C116 (ground, turning plate).** As `C116_maps_turning_partial`, with a ground template.
Missing: as there. -/
theorem C116_ground_turning_partial (w : World E) (hx : ExtOk w.x) (hq : PixOk w.q) (hns : 0 < w.nsideOut)
    (G : Nat → Quat.Q) (o : Opts) (hbin : o.binning = true) (hpre : o.preview = false)
    (hgr : o.ground = true) (hre : o.reuseSpinmaps = false) (N : Nat) (chunks : List Chunk)
    (hmi : Mission N chunks) (hang : ∀ c ∈ chunks, c.hwpang = none) (i : Inst E)
    (hi : Ground.Ready w chunks i) (rot : Nat → ℝ)
    (hrot : Rotates N chunks i.rot rot) (hfs : 0 < w.fsamp) (freq startAng varphi : ℝ) (hf : freq ≠ 0)
    (angles : Option (List ℝ))
    (hhwp : Hwp.setHwpMod w.fsamp .continuous freq startAng angles varphi = .ok i.hwp) (f : Wanted)
    (h4 : f.filter4f = true → ∀ t, t < N →
      1 / 2 < turns (stretch i.rot chunks t).2 w.fsamp i.hwp.freq ∧
      5 * turns (stretch i.rot chunks t).2 w.fsamp i.hwp.freq + 3 / 2 ≤
        ((stretch i.rot chunks t).2 : ℝ) / 2)
    (hd : f.highpass = true → ∀ wc m, f.dict = some (wc, m) → wc ≠ 0 ∧ 0 < m) :
    ∃ (cuts : List (Int × Int)) (alpha : Nat → ℝ), Tiles 0 N cuts ∧
      (i.rot.period = false → cuts = chunks.map fun c => (c.start, c.stop)) ∧
      (∀ (j : Nat) c, cuts[j]? = some c → ∀ t : Nat, c.1 ≤ t → (t : Int) < c.2 → ∃ z : ℤ,
        alpha t = (startAng + 360 * freq / w.fsamp * ((t : ℝ) - j)) * (Real.pi / 180) +
          2 * Real.pi * z) ∧
      ∀ M : Motion, M.rot = rot → M.alpha = alpha → Ground.Steady w M G chunks i.el →
        ∀ (beams : List Pair) (nside : Nat) (sm : Pair → Spinmaps SpinDict),
          (∀ p ∈ beams, Ground.MapsOk w nside (sm p) p) → ∀ size : Nat, 0 < size →
          ∃ (gain : Nat → Nat → ℝ) (out : Pair → BinBeam → Nat → ℝ) (m : Maps),
            (∀ p b, PassesFilters (optsOf w f i.hwp) i.rot chunks N gain
              (Ground.detects M G w.x o.interp nside (sm p) b) (out p b)) ∧
            ScanFiltered.scanAll w o f beams true size i = .ok ⟨m, false⟩ ∧
            Holds w.nsideOut m (beams.flatMap fun p => (List.range N).flatMap
              (pairObs M w.x w.q w.varphi w.nsideOut o.ctalk (out p) p)) := by
  obtain ⟨cuts, alpha, h1, h2, h3, h5⟩ := moves_turning w.fsamp N chunks hmi hang i.rot i.hwp rot hrot
    hfs.ne' freq startAng varphi hf angles hhwp
  have hmode : i.hwp.mode = .continuous := by
    unfold Hwp.setHwpMod at hhwp
    simp only [reduceCtorEq, if_false] at hhwp
    rw [← Except.ok.inj hhwp]
  refine ⟨cuts, alpha, h1, h2, h3, fun M hM1 hM2 hst beams nside sm hm size hsize =>
    filtered_ground_of_moves w hx hq hns M G o hbin hpre hgr hre N chunks hmi i hi (h5 M hM1 hM2) hst f
      (fun t ht => ScanFiltered.good_of _ _ (stretch_pos_ground hmi hi ht) hfs
        (fun h => ⟨hmode, h4 h t ht⟩) hd) beams nside sm hm size hsize⟩

/-- **C116 (ground, ranks).** The maps of a filtered scan with a ground depend neither on the number of
ranks nor on whether the chunks have been scanned with a ground before. -/
theorem C116_ground_ranks (w : World E) (hx : ExtOk w.x) (hq : PixOk w.q) (hns : 0 < w.nsideOut)
    (M : Motion) (G : Nat → Quat.Q) (o : Opts) (hbin : o.binning = true) (hpre : o.preview = false)
    (hgr : o.ground = true) (hre : o.reuseSpinmaps = false) (N : Nat) (chunks : List Chunk)
    (hmi : Mission N chunks) (hang : ∀ c ∈ chunks, c.hwpang = none) (i : Inst E)
    (keys : List (Chunk × Bool)) (hk : keys.map (·.1) = chunks)
    (hi : Ground.Ready w chunks i) (hrot : Rotates N chunks i.rot M.rot)
    (hhwp : Plate w.fsamp N i.hwp M.alpha) (hst : Ground.Steady w M G chunks i.el)
    (hfs : 0 < w.fsamp) (f : Wanted) (h4 : f.filter4f = false)
    (hd : f.highpass = true → ∀ wc m, f.dict = some (wc, m) → wc ≠ 0 ∧ 0 < m)
    (beams : List Pair) (nside : Nat) (sm : Pair → Spinmaps SpinDict)
    (hm : ∀ p ∈ beams, Ground.MapsOk w nside (sm p) p) (size size' : Nat) (hsize : 0 < size)
    (hsize' : 0 < size') :
    ScanFiltered.scanAll w o f beams true size i =
      ScanFiltered.scanAll w o f beams true size' { i with chunks := keys } := by
  have h := fun (j : Inst E) (hj : Ground.Ready w chunks j) (e1 : j.rot = i.rot) (e2 : j.hwp = i.hwp)
      (e3 : j.el = i.el) size hsize =>
    ScanFiltered.Ground.all_spec w hq hns M G o hbin hgr (fun _ => True)
      (fun p => Ground.detects M G w.x o.interp nside (sm p)) N chunks hmi j hj
      (by rw [e1, e2]; exact moves_spec w.fsamp M N chunks hmi hang i.rot i.hwp hrot hhwp)
      (by rw [e3]; exact hst) trivial beams size hsize f false
      (fun _ ht => (ScanFiltered.good_of _ _ (stretch_pos_ground hmi hj ht) hfs
        (fun h => by rw [show (optsOf w f j.hwp).filter4f = false from h4] at h; cases h) hd).tame)
      fun p hp => Ground.pairGood_scan w hx M G chunks o hpre hre nside (sm p) p (hm p hp)
  rw [h i hi rfl rfl rfl size hsize,
    h { i with chunks := keys } ⟨hk, hi.maps, hi.rot, hi.period, hi.hwp⟩ rfl rfl rfl size' hsize']

/-- **C116 (ground, lost).** A filter removes what the ground adds, if that is constant in every
stretch: for detectors without live ghosts the scan with ground and filter returns exactly the maps of
the scan with filter and without ground. -/
theorem C116_ground_lost (w : World E) (hx : ExtOk w.x) (hq : PixOk w.q) (hns : 0 < w.nsideOut)
    (M : Motion) (G : Nat → Quat.Q) (o : Opts) (hbin : o.binning = true) (hpre : o.preview = false)
    (hgr : o.ground = true) (hre : o.reuseSpinmaps = false) (N : Nat) (chunks : List Chunk)
    (hmi : Mission N chunks) (i : Inst E) (hi : ScanInstrument.Ready w chunks i)
    (hmv : Moves w.fsamp M i.rot i.hwp chunks)
    (hst : ScanInstrument.Steady w M chunks i.el) (hst' : Ground.Steady w M G chunks i.el)
    (hfs : 0 < w.fsamp) (f : Wanted) (hon : f.filter4f = true ∨ f.highpass = true)
    (h4 : f.filter4f = true → i.hwp.mode = .continuous ∧ ∀ t, t < N →
      1 / 2 < turns (stretch i.rot chunks t).2 w.fsamp i.hwp.freq ∧
      5 * turns (stretch i.rot chunks t).2 w.fsamp i.hwp.freq + 3 / 2 ≤
        ((stretch i.rot chunks t).2 : ℝ) / 2)
    (hd : f.highpass = true → ∀ wc m, f.dict = some (wc, m) → wc ≠ 0 ∧ 0 < m)
    (beams : List Pair) (hgh : ∀ p ∈ beams, Ground.NoGhosts p)
    (nside : Nat) (sm : Pair → Spinmaps SpinDict) (hm : ∀ p ∈ beams, Ground.MapsOk w nside (sm p) p)
    (c : Pair → BinBeam → Nat × Nat → ℝ)
    (hc : ∀ p ∈ beams, ∀ b, (live p.1 = some b ∨ live p.2 = some b) → ∀ t, t < N →
      Ground.pickup M G w.x o.interp nside ((sm p).ground.getD []) b.beam t =
        c p b (stretch i.rot chunks t))
    (size : Nat) (hsize : 0 < size) :
    ScanFiltered.scanAll w o f beams true size i =
      ScanFiltered.scanAll w { o with ground := false } f beams true size i := by
  have hG : ∀ t, t < N → ScanFiltered.Good (optsOf w f i.hwp) (stretch i.rot chunks t).2 :=
    fun t ht => ScanFiltered.good_of _ _ (stretch_pos hmi hi ht) hfs
      (fun h => ⟨(h4 h).1, (h4 h).2 t ht⟩) hd
  have hm0 : ∀ p ∈ beams, ScanInstrument.MapsOk w nside (sm p) p := by
    intro p hp
    rcases hm p hp with rfl | ⟨a, h1, h2, h3, h4⟩
    · exact .inl rfl
    · refine .inr ⟨a, h1, h2, h3, fun b hb => ⟨(h4 b hb).1, (h4 b hb).2.1, fun g hg hd => ?_⟩⟩
      rw [hgh p hp b hb g hg] at hd
      cases hd
  have hi' : Ground.Ready w chunks i := ⟨by rw [hi.chunks, List.map_map]; exact List.map_id' _, hi.maps,
    hi.rot, hi.period, hi.hwp⟩
  have e := ScanFiltered.all_good w hq hns M { o with ground := false } hbin rfl
    (fun p => detects M w.x o.interp nside (sm p)) N chunks hmi i hi hmv hst beams size hsize f hG
    fun p hp => pairGood_scan w hx M chunks _ hpre hre nside (sm p) p (hm0 p hp)
  have e' := ScanFiltered.Ground.all_spec w hq hns M G o hbin hgr (fun _ => True)
    (fun p => Ground.detects M G w.x o.interp nside (sm p)) N
    chunks hmi i hi' hmv hst' trivial beams size hsize f false (fun t ht => (hG t ht).tame)
    fun p hp => Ground.pairGood_scan w hx M G chunks o hpre hre nside (sm p) p (hm p hp)
  rw [e, e', Bool.false_and, Bool.false_and]
  congr 3
  apply flatMap_congr'
  intro p hp
  unfold missionObs
  apply flatMap_congr'
  intro t ht
  have ht := List.mem_range.1 ht
  have key : ∀ b, (live p.1 = some b ∨ live p.2 = some b) →
      ScanFiltered.after (optsOf w f i.hwp) (stretch i.rot chunks)
        (Ground.detects M G w.x o.interp nside (sm p) b) t =
      ScanFiltered.after (optsOf w f i.hwp) (stretch i.rot chunks)
        (detects M w.x o.interp nside (sm p) b) t := by
    intro b hlive
    obtain ⟨g, g1, g2⟩ := hG t ht
    obtain ⟨-, s2, s3, s4⟩ := ScanFiltered.stretch_spec hmi i.rot hi.period t ht
    have hpart : part (Ground.detects M G w.x o.interp nside (sm p) b) (stretch i.rot chunks t) =
        offsetBy (c p b (stretch i.rot chunks t))
          (part (detects M w.x o.interp nside (sm p) b) (stretch i.rot chunks t)) := by
      unfold ScanFiltered.part offsetBy
      rw [List.map_map]
      apply List.map_congr_left
      intro k hk
      have hk := List.mem_range.1 hk
      rw [detects_alone (hgh p hp b hlive), hc p hp b hlive _ (by omega), s4 k hk, Function.comp]
      congr 1
      unfold ScanInstrument.detects
      have : b.ghosts.filter (fun g => !g.dead) = [] := by
        rw [List.filter_eq_nil_iff]
        intro g hg
        simp [hgh p hp b hlive g hg]
      rw [this]
      simp
    unfold ScanFiltered.after
    rw [hpart]
    congr 2
    exact filtered_offset (gain_zero g1 hon)
      (ScanFiltered.filt_good g2 (ScanFiltered.part_length _ _)).2 _
      (ScanFiltered.filt_good g2 (by simp [offsetBy, ScanFiltered.part_length])).2
  have hobs : ∀ v v' : BinBeam → Nat → ℝ,
      (∀ b, (live p.1 = some b ∨ live p.2 = some b) → v b t = v' b t) →
      pairObs M w.x w.q w.varphi w.nsideOut o.ctalk v p t =
        pairObs M w.x w.q w.varphi w.nsideOut o.ctalk v' p t := by
    intro v v' h
    unfold pairObs
    rcases ha : live p.1 with _ | a <;> rcases hb : live p.2 with _ | b
    · rfl
    · simp only [h b (.inr hb)]
    · simp only [h a (.inl ha)]
    · simp only [h a (.inl ha), h b (.inr hb)]
  exact hobs _ _ key

/-! ### Concrete cases -/

namespace Grounded

open Rec Whole

/-- The hypotheses of `C116_ground` and `C116_ground_ranks` are met, by chunks with and without the key
`ground`. -/
example : (∃ m, ScanFiltered.scanAll w o ⟨false, true, none⟩ beams true 2 i = .ok ⟨m, false⟩) ∧
    ScanFiltered.scanAll w o ⟨false, true, none⟩ beams true 2 i =
      ScanFiltered.scanAll w o ⟨false, true, none⟩ beams true 1 i' := by
  refine ⟨?_, C116_ground_ranks w ext_ok pix_ok one_pos M G o rfl rfl rfl rfl 3 chunks mission_ok
    (by decide) i i'.chunks rfl ⟨rfl, rfl, rfl, .inl rfl, rfl⟩ rotates plate steady' one_pos
    ⟨false, true, none⟩ rfl (fun _ _ _ h => by cases h) beams 1 (fun _ => sm) maps 2 1 two_pos one_pos⟩
  obtain ⟨_, _, m, -, h, -⟩ := C116_ground w ext_ok pix_ok one_pos M G o rfl rfl rfl rfl 3 chunks
    mission_ok (by decide) i ⟨rfl, rfl, rfl, .inl rfl, rfl⟩ rotates plate steady' one_pos
    ⟨false, true, none⟩ rfl (fun _ _ _ h => by cases h) beams 1 (fun _ => sm) maps 2 two_pos
  exact ⟨m, h⟩

/-- The hypotheses of `C116_ground_lost` are met, by a ground that is not 0: it changes the maps of the
scan without filter (see the example for `C110_adds_partial`), but not with filter. -/
example : ScanFiltered.scanAll w o ⟨false, true, none⟩ beams true 2 i =
    ScanFiltered.scanAll w { o with ground := false } ⟨false, true, none⟩ beams true 2 i :=
  C116_ground_lost w ext_ok pix_ok one_pos M G o rfl rfl rfl rfl 3 chunks mission_ok i
    ⟨rfl, rfl, rfl, .inl rfl, rfl⟩
    (moves_spec _ M 3 chunks mission_ok (by decide) i.rot i.hwp rotates plate) steady steady' one_pos
    ⟨false, true, none⟩ (.inr rfl) (fun h => by cases h) (fun _ _ _ h => by cases h) beams no_ghosts 1
    (fun _ => sm) maps (fun _ _ _ => 2) (fun p _ b _ t _ => sees b t) 2 two_pos

end Grounded

end Verif.Props
