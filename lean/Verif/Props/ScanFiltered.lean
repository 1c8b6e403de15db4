import Verif.Lemmas.ScanFiltered
import Verif.Props.ScanInstrument
import Verif.Props.Reuse

/-!
# Property C116: whole scans with filters
-/

noncomputable section

namespace Verif.Props

open Verif.Chunks Verif.Timeline Verif.Spinmaps Verif.MapMaking Verif.ScanInstrument Verif.Spec
  Verif.Filters

open ScanFiltered (Wanted optsOf stretch part IsGain PassesFilters)

variable {E : Type}

/-- C116 for any motion of instrument and plate. -/
theorem filtered_of_moves (w : World E) (hx : ExtOk w.x) (hq : PixOk w.q) (hns : 0 < w.nsideOut)
    (M : Motion) (o : Opts) (hbin : o.binning = true) (hpre : o.preview = false)
    (hgr : o.ground = false) (hre : o.reuseSpinmaps = false) (N : Nat) (chunks : List Chunk)
    (hmi : Mission N chunks) (i : Inst E) (hi : Ready w chunks i)
    (hmv : Moves w.fsamp M i.rot i.hwp chunks) (hst : Steady w M chunks i.el) (f : Wanted)
    (hG : ∀ t, t < N → ScanFiltered.Good (optsOf w f i.hwp) (stretch i.rot chunks t).2)
    (beams : List Pair) (nside : Nat) (sm : Pair → Spinmaps SpinDict)
    (hm : ∀ p ∈ beams, MapsOk w nside (sm p) p) (size : Nat) (hsize : 0 < size) :
    ∃ (gain : Nat → Nat → ℝ) (out : Pair → BinBeam → Nat → ℝ) (m : Maps),
      (∀ p b, PassesFilters (optsOf w f i.hwp) i.rot chunks N gain
        (detects M w.x o.interp nside (sm p) b) (out p b)) ∧
      ScanFiltered.scanAll w o f beams true size i = .ok ⟨m, false⟩ ∧
      Holds w.nsideOut m (beams.flatMap fun p => (List.range N).flatMap
        (pairObs M w.x w.q w.varphi w.nsideOut o.ctalk (out p) p)) := by
  obtain ⟨gain, hgain⟩ := ScanFiltered.passes_after hmi i.rot hi.period _ hG
  exact ⟨gain, _, _, fun p b => hgain _,
    ScanFiltered.all_good w hq hns M o hbin hgr (fun p => detects M w.x o.interp nside (sm p)) N
      chunks hmi i hi hmv hst beams size hsize f hG
      fun p hp => pairGood_scan w hx M chunks o hpre hre nside (sm p) p (hm p hp), holds_mapsOf _ _⟩

theorem stretch_pos {w : World E} {N : Nat} {chunks : List Chunk} (hmi : Mission N chunks) {i : Inst E}
    (hi : Ready w chunks i) {t : Nat} (ht : t < N) : 0 < (stretch i.rot chunks t).2 := by
  obtain ⟨a, b, -⟩ := ScanFiltered.stretch_spec hmi i.rot hi.period t ht
  omega

/-- **C116.** A scan with the option `filter_highpass`, for any list of detector pairs, any number of
ranks, any partition in chunks, with or without boresight rotation, stepping HWP, cross-talk and
ghosts.  The reduced maps contain exactly one observation for each live detector and each sample that
is not flagged, in the direction and under the angles of that sample.  Its value is that of the
timeline after each stretch (from one end of a chunk or rotation to the next) has gone through the
filter by itself; the cross-talk is that of the filtered timelines.  (For scans with ground template
see `C116_ground`.) -/
theorem C116_maps (w : World E) (hx : ExtOk w.x) (hq : PixOk w.q) (hns : 0 < w.nsideOut)
    (M : Motion) (o : Opts) (hbin : o.binning = true) (hpre : o.preview = false)
    (hgr : o.ground = false) (hre : o.reuseSpinmaps = false) (N : Nat) (chunks : List Chunk)
    (hmi : Mission N chunks) (hang : ∀ c ∈ chunks, c.hwpang = none) (i : Inst E)
    (hi : Ready w chunks i) (hrot : Rotates N chunks i.rot M.rot)
    (hhwp : Plate w.fsamp N i.hwp M.alpha) (hst : Steady w M chunks i.el) (hfs : 0 < w.fsamp)
    (f : Wanted) (h4 : f.filter4f = false)
    (hd : f.highpass = true → ∀ wc m, f.dict = some (wc, m) → wc ≠ 0 ∧ 0 < m)
    (beams : List Pair) (nside : Nat) (sm : Pair → Spinmaps SpinDict)
    (hm : ∀ p ∈ beams, MapsOk w nside (sm p) p) (size : Nat) (hsize : 0 < size) :
    ∃ (gain : Nat → Nat → ℝ) (out : Pair → BinBeam → Nat → ℝ) (m : Maps),
      (∀ p b, PassesFilters (optsOf w f i.hwp) i.rot chunks N gain
        (detects M w.x o.interp nside (sm p) b) (out p b)) ∧
      ScanFiltered.scanAll w o f beams true size i = .ok ⟨m, false⟩ ∧
      Holds w.nsideOut m (beams.flatMap fun p => (List.range N).flatMap
        (pairObs M w.x w.q w.varphi w.nsideOut o.ctalk (out p) p)) :=
  filtered_of_moves w hx hq hns M o hbin hpre hgr hre N chunks hmi i hi
    (moves_spec w.fsamp M N chunks hmi hang i.rot i.hwp hrot hhwp) hst f
    (fun _ ht => ScanFiltered.good_of _ _ (stretch_pos hmi hi ht) hfs
      (fun h => by rw [show (optsOf w f i.hwp).filter4f = false from h4] at h; cases h) hd)
    beams nside sm hm size hsize

/-- **C116 (turning plate).** The same with a continuously turning plate, for `filter_4fhwp` and
`filter_highpass`, as long as in every stretch the plate makes more than half a revolution and the
band around four times its frequency is below the Nyquist frequency (see C91).  Missing:
what the gain is for other plates and sampling rates (`C116_any`, `C116_backwards_violation`). -/
theorem C116_maps_turning_partial (w : World E) (hx : ExtOk w.x) (hq : PixOk w.q) (hns : 0 < w.nsideOut)
    (o : Opts) (hbin : o.binning = true) (hpre : o.preview = false) (hgr : o.ground = false)
    (hre : o.reuseSpinmaps = false) (N : Nat) (chunks : List Chunk) (hmi : Mission N chunks)
    (hang : ∀ c ∈ chunks, c.hwpang = none) (i : Inst E) (hi : Ready w chunks i) (rot : Nat → ℝ)
    (hrot : Rotates N chunks i.rot rot) (hfs : 0 < w.fsamp) (freq startAng varphi : ℝ) (hf : freq ≠ 0)
    (angles : Option (List ℝ))
    (hhwp : Hwp.setHwpMod w.fsamp .continuous freq startAng angles varphi = .ok i.hwp) (f : Wanted)
    (h4 : f.filter4f = true → ∀ t, t < N →
      1 / 2 < turns (stretch i.rot chunks t).2 w.fsamp i.hwp.freq ∧
      5 * turns (stretch i.rot chunks t).2 w.fsamp i.hwp.freq + 3 / 2 ≤
        ((stretch i.rot chunks t).2 : ℝ) / 2)
    (hd : f.highpass = true → ∀ wc m, f.dict = some (wc, m) → wc ≠ 0 ∧ 0 < m) :
    ∃ (cuts : List (Int × Int)) (alpha : Nat → ℝ), Tiles 0 N cuts ∧
      (i.rot.period = false → cuts = chunks.map fun c => (c.start, c.stop)) ∧
      (∀ (j : Nat) c, cuts[j]? = some c → ∀ t : Nat, c.1 ≤ t → (t : Int) < c.2 → ∃ z : ℤ,
        alpha t = (startAng + 360 * freq / w.fsamp * ((t : ℝ) - j)) * (Real.pi / 180) +
          2 * Real.pi * z) ∧
      ∀ M : Motion, M.rot = rot → M.alpha = alpha → Steady w M chunks i.el →
        ∀ (beams : List Pair) (nside : Nat) (sm : Pair → Spinmaps SpinDict),
          (∀ p ∈ beams, MapsOk w nside (sm p) p) → ∀ size : Nat, 0 < size →
          ∃ (gain : Nat → Nat → ℝ) (out : Pair → BinBeam → Nat → ℝ) (m : Maps),
            (∀ p b, PassesFilters (optsOf w f i.hwp) i.rot chunks N gain
              (detects M w.x o.interp nside (sm p) b) (out p b)) ∧
            ScanFiltered.scanAll w o f beams true size i = .ok ⟨m, false⟩ ∧
            Holds w.nsideOut m (beams.flatMap fun p => (List.range N).flatMap
              (pairObs M w.x w.q w.varphi w.nsideOut o.ctalk (out p) p)) := by
  obtain ⟨cuts, alpha, h1, h2, h3, h5⟩ := moves_turning w.fsamp N chunks hmi hang i.rot i.hwp rot hrot
    hfs.ne' freq startAng varphi hf angles hhwp
  have hmode : i.hwp.mode = .continuous := by
    unfold Hwp.setHwpMod at hhwp
    simp only [reduceCtorEq, if_false] at hhwp
    rw [← Except.ok.inj hhwp]
  refine ⟨cuts, alpha, h1, h2, h3, fun M hM1 hM2 hst beams nside sm hm size hsize =>
    filtered_of_moves w hx hq hns M o hbin hpre hgr hre N chunks hmi i hi (h5 M hM1 hM2) hst f
      (fun t ht => ScanFiltered.good_of _ _ (stretch_pos hmi hi ht) hfs
        (fun h => ⟨hmode, h4 h t ht⟩) hd) beams nside sm hm size hsize⟩

/-- **C116.** Without filters the scan is the one of C96, with the same errors. -/
theorem C116_off (w : World E) (o : Opts) (f : Wanted) (h4 : f.filter4f = false)
    (hh : f.highpass = false) (beams : List Pair) (scatter : Bool) (size : Nat) (i : Inst E) :
    ScanFiltered.scanAll w o f beams scatter size i =
      (scanAll w o beams scatter size i).map fun m => ⟨m, false⟩ :=
  ScanFiltered.scanAll_off w o h4 hh beams scatter size i

/-- **C116.** Filters do not change which samples are binned, where and under which angles: if a scan
with filters returns, so does the one without, and the projection matrices (and hits) are the same.
This holds for any options, also with NaN in the signal. -/
theorem C116_hits (w : World E) (o : Opts) (f : Wanted) (beams : List Pair) (scatter : Bool)
    (size : Nat) (i : Inst E) (out : ScanFiltered.Out)
    (h : ScanFiltered.scanAll w o f beams scatter size i = .ok out) :
    ∃ m, scanAll w o beams scatter size i = .ok m ∧
      out.maps.map (·.proj) = m.map (·.proj) :=
  ScanFiltered.scanAll_proj h

/-- **C116.** The maps do not depend on the number of ranks. -/
theorem C116_ranks (w : World E) (hx : ExtOk w.x) (hq : PixOk w.q) (hns : 0 < w.nsideOut)
    (M : Motion) (o : Opts) (hbin : o.binning = true) (hpre : o.preview = false)
    (hgr : o.ground = false) (hre : o.reuseSpinmaps = false) (N : Nat) (chunks : List Chunk)
    (hmi : Mission N chunks) (hang : ∀ c ∈ chunks, c.hwpang = none) (i : Inst E)
    (hi : Ready w chunks i) (hrot : Rotates N chunks i.rot M.rot)
    (hhwp : Plate w.fsamp N i.hwp M.alpha) (hst : Steady w M chunks i.el) (hfs : 0 < w.fsamp)
    (f : Wanted) (h4 : f.filter4f = false)
    (hd : f.highpass = true → ∀ wc m, f.dict = some (wc, m) → wc ≠ 0 ∧ 0 < m)
    (beams : List Pair) (nside : Nat) (sm : Pair → Spinmaps SpinDict)
    (hm : ∀ p ∈ beams, MapsOk w nside (sm p) p) (size size' : Nat) (hsize : 0 < size)
    (hsize' : 0 < size') :
    ScanFiltered.scanAll w o f beams true size i = ScanFiltered.scanAll w o f beams true size' i := by
  have h := fun size hsize => ScanFiltered.all_good w hq hns M o hbin hgr
    (fun p => detects M w.x o.interp nside (sm p)) N chunks hmi i hi
    (moves_spec w.fsamp M N chunks hmi hang i.rot i.hwp hrot hhwp) hst beams size hsize f
    (fun _ ht => ScanFiltered.good_of _ _ (stretch_pos hmi hi ht) hfs
      (fun h => by rw [show (optsOf w f i.hwp).filter4f = false from h4] at h; cases h) hd)
    fun p hp => pairGood_scan w hx M chunks o hpre hre nside (sm p) p (hm p hp)
  rw [h size hsize, h size' hsize']

/-- **C116 (violated).** With cutoff 0 in `filter_dict`, which leaves the timeline as it is apart from
its mean in the formula for the filter, the scan returns without an error, and there are NaN in the
signal of the maps as soon as there is one live detector and one sample. -/
theorem C116_cutoff_zero_violation (w : World E) (hx : ExtOk w.x) (hq : PixOk w.q)
    (hns : 0 < w.nsideOut) (M : Motion) (o : Opts) (hbin : o.binning = true)
    (hpre : o.preview = false) (hgr : o.ground = false) (hre : o.reuseSpinmaps = false) (N : Nat)
    (hN : 0 < N) (chunks : List Chunk) (hmi : Mission N chunks)
    (hang : ∀ c ∈ chunks, c.hwpang = none) (i : Inst E) (hi : Ready w chunks i)
    (hrot : Rotates N chunks i.rot M.rot) (hhwp : Plate w.fsamp N i.hwp M.alpha)
    (hst : Steady w M chunks i.el) (hfs : 0 < w.fsamp) (order : Nat) (ho : 0 < order)
    (beams : List Pair) (hb : ∃ p ∈ beams, ∃ b, live p.1 = some b ∨ live p.2 = some b)
    (nside : Nat) (sm : Pair → Spinmaps SpinDict) (hm : ∀ p ∈ beams, MapsOk w nside (sm p) p)
    (size : Nat) (hsize : 0 < size) :
    ∃ m, ScanFiltered.scanAll w o ⟨false, true, some (0, order)⟩ beams true size i =
      .ok ⟨m, true⟩ := by
  have h := ScanFiltered.all_spec w hq hns M o hbin hgr
    (fun p => detects M w.x o.interp nside (sm p)) N chunks hmi i hi
    (moves_spec w.fsamp M N chunks hmi hang i.rot i.hwp hrot hhwp) hst beams size hsize
    ⟨false, true, some (0, order)⟩ true
    (fun _ ht => ScanFiltered.works_zero _ _ (stretch_pos hmi hi ht) hfs rfl rfl order ho rfl)
    fun p hp => pairGood_scan w hx M chunks o hpre hre nside (sm p) p (hm p hp)
  have h1 : beams.any ScanFiltered.alive = true := by
    obtain ⟨p, hp, b, hb⟩ := hb
    rw [List.any_eq_true]
    refine ⟨p, hp, ?_⟩
    rcases hb with hb | hb <;> simp [ScanFiltered.alive, hb]
  have h2 : chunks.isEmpty = false := by
    cases chunks with
    | nil =>
      have := hmi.tiles
      simp only [List.map_nil] at this
      have := ScanFiltered.tiles_nil this
      omega
    | cons c cs => rfl
  rw [h1, h2] at h
  exact ⟨_, h⟩

theorem gain_zero {f : FilterOpts} {n : Nat} {g : Nat → ℝ} (h : IsGain f n g)
    (hon : f.filter4f = true ∨ f.highpass = true) : g 0 = 0 := by
  obtain ⟨g4, gh, h1, h2, h3, h5, h6, h7⟩ := h.split
  rw [h1]
  rcases hon with h | h
  · rw [(h3 h).2.1, zero_mul]
  · cases hd : f.dict with
    | none => rw [h6 h hd 0, if_pos rfl, mul_zero]
    | some d => rw [h7 h d.1 d.2 hd 0, if_pos rfl, mul_zero]

theorem points_skies (w : World E) (s : BinBeam → PyM (Spinmaps SpinDict)) (M : Motion) (pre : Bool)
    (cs : List Chunk) : ∀ e e', Points w M pre e cs e' → Points { w with spinmaps := s } M pre e cs e' := by
  induction cs with
  | nil => exact fun _ _ h => h
  | cons c cs ih =>
    rintro e e' ⟨p, e1, h1, h2, h3⟩
    exact ⟨p, e1, h1, h2, ih _ _ h3⟩

theorem steady_skies (w : World E) (s : BinBeam → PyM (Spinmaps SpinDict)) (M : Motion)
    (cs : List Chunk) (e : E) (h : Steady w M cs e) : Steady { w with spinmaps := s } M cs e := by
  obtain ⟨P, p1, p2⟩ := h
  refine ⟨P, p1, fun first e he => ?_⟩
  obtain ⟨e', h1, h2⟩ := p2 first e he
  exact ⟨e', points_skies w s M _ cs _ _ h1, h2⟩

/-- **C116.** Two scans, of two skies, with a filter switched on (for a turning plate: any of the two).
If the signals of each detector differ by a constant in each stretch, the maps are the same: the mean
of a stretch is lost. -/
theorem C116_offset (w w' : World E) (hww : w' = { w with spinmaps := w'.spinmaps }) (hx : ExtOk w.x)
    (hq : PixOk w.q) (hns : 0 < w.nsideOut)
    (M : Motion) (o : Opts) (hbin : o.binning = true) (hpre : o.preview = false)
    (hgr : o.ground = false) (hre : o.reuseSpinmaps = false) (N : Nat) (chunks : List Chunk)
    (hmi : Mission N chunks) (i : Inst E)
    (hi : Ready w chunks i) (hmv : Moves w.fsamp M i.rot i.hwp chunks)
    (hst : Steady w M chunks i.el) (hfs : 0 < w.fsamp)
    (f : Wanted) (hon : f.filter4f = true ∨ f.highpass = true)
    (h4 : f.filter4f = true → i.hwp.mode = .continuous ∧ ∀ t, t < N →
      1 / 2 < turns (stretch i.rot chunks t).2 w.fsamp i.hwp.freq ∧
      5 * turns (stretch i.rot chunks t).2 w.fsamp i.hwp.freq + 3 / 2 ≤
        ((stretch i.rot chunks t).2 : ℝ) / 2)
    (hd : f.highpass = true → ∀ wc m, f.dict = some (wc, m) → wc ≠ 0 ∧ 0 < m)
    (beams : List Pair) (nside nside' : Nat) (sm sm' : Pair → Spinmaps SpinDict)
    (hm : ∀ p ∈ beams, MapsOk w nside (sm p) p) (hm' : ∀ p ∈ beams, MapsOk w' nside' (sm' p) p)
    (c : Pair → BinBeam → Nat × Nat → ℝ)
    (hc : ∀ p ∈ beams, ∀ b, (live p.1 = some b ∨ live p.2 = some b) → ∀ t, t < N →
      detects M w.x o.interp nside' (sm' p) b t =
      detects M w.x o.interp nside (sm p) b t + c p b (stretch i.rot chunks t))
    (size : Nat) (hsize : 0 < size) :
    ScanFiltered.scanAll w' o f beams true size i = ScanFiltered.scanAll w o f beams true size i := by
  have hG : ∀ t, t < N → ScanFiltered.Good (optsOf w f i.hwp) (stretch i.rot chunks t).2 :=
    fun t ht => ScanFiltered.good_of _ _ (stretch_pos hmi hi ht) hfs
      (fun h => ⟨(h4 h).1, (h4 h).2 t ht⟩) hd
  have e := ScanFiltered.all_good w hq hns M o hbin hgr
    (fun p => detects M w.x o.interp nside (sm p)) N chunks hmi i hi hmv hst beams size hsize f hG
    fun p hp => pairGood_scan w hx M chunks o hpre hre nside (sm p) p (hm p hp)
  generalize w'.spinmaps = s at hww
  subst hww
  have e' := ScanFiltered.all_good { w with spinmaps := s } hq hns M o hbin hgr
    (fun p => detects M w.x o.interp nside' (sm' p)) N chunks hmi i
    ⟨hi.chunks, hi.maps, hi.rot, hi.period, hi.hwp⟩ hmv (steady_skies w s M chunks i.el hst)
    beams size hsize f hG
    fun p hp => pairGood_scan { w with spinmaps := s } hx M chunks o hpre hre nside' (sm' p) p (hm' p hp)
  rw [e, e']
  congr 3
  apply flatMap_congr'
  intro p hp
  unfold missionObs
  apply flatMap_congr'
  intro t ht
  have ht := List.mem_range.1 ht
  have key : ∀ b, (live p.1 = some b ∨ live p.2 = some b) → ScanFiltered.after (optsOf w f i.hwp) (stretch i.rot chunks)
      (detects M w.x o.interp nside' (sm' p) b) t =
      ScanFiltered.after (optsOf w f i.hwp) (stretch i.rot chunks)
        (detects M w.x o.interp nside (sm p) b) t := by
    intro b hlive
    obtain ⟨g, g1, g2⟩ := hG t ht
    obtain ⟨-, s2, s3, s4⟩ := ScanFiltered.stretch_spec hmi i.rot hi.period t ht
    have hpart : part (detects M w.x o.interp nside' (sm' p) b) (stretch i.rot chunks t) =
        offsetBy (c p b (stretch i.rot chunks t))
          (part (detects M w.x o.interp nside (sm p) b) (stretch i.rot chunks t)) := by
      unfold ScanFiltered.part offsetBy
      rw [List.map_map]
      apply List.map_congr_left
      intro k hk
      have hk := List.mem_range.1 hk
      rw [hc p hp b hlive _ (by omega), s4 k hk]
      rfl
    unfold ScanFiltered.after
    rw [hpart]
    congr 2
    exact filtered_offset (gain_zero g1 hon)
      (ScanFiltered.filt_good g2 (ScanFiltered.part_length _ _)).2 _
      (ScanFiltered.filt_good g2 (by simp [offsetBy, ScanFiltered.part_length])).2
  have hobs : ∀ v v' : BinBeam → Nat → ℝ,
      (∀ b, (live p.1 = some b ∨ live p.2 = some b) → v b t = v' b t) →
      pairObs M w.x w.q w.varphi w.nsideOut o.ctalk v p t =
        pairObs M w.x w.q w.varphi w.nsideOut o.ctalk v' p t := by
    intro v v' h
    unfold pairObs
    rcases ha : live p.1 with _ | a <;> rcases hb : live p.2 with _ | b
    · rfl
    · simp only [h b (.inr hb)]
    · simp only [h a (.inl ha)]
    · simp only [h a (.inl ha), h b (.inr hb)]
  exact hobs _ _ key

/-! ### Concrete cases -/

namespace Sieved

open Rec Whole

/-- Maps of a sky with a polarization of 1 everywhere. -/
def sm : Spinmaps SpinDict :=
  ⟨[(.s0a0, ⟨[List.replicate 12 0], [0]⟩), (.s2a4, ⟨[List.replicate 12 1], [0]⟩)], none, []⟩

def w : World Unit := { Whole.w with spinmaps := fun _ => .ok sm }

def b : BinBeam := ⟨⟨false, false, 0, 1, 2, 0⟩, [], 0⟩

def beams : List Pair := [(some b, none)]

/-- The mean of each chunk is subtracted. -/
def f : Wanted := ⟨false, true, none⟩

/-- Chunks of one sample each. -/
def short : List Chunk := [{ start := 0, stop := 1, cidx := some 0 },
  { start := 1, stop := 2, cidx := some 1 }, { start := 2, stop := 3, cidx := some 2 }]

def i' : Inst Unit := { i with chunks := short.map fun c => (c, false) }

theorem sm_ok : DictOk (12 * 1 ^ 2) sm.main := by
  refine ⟨?_, .inl rfl, ?_, ?_, ?_, ?_⟩
  · intro x hx
    simp only [sm, List.mem_cons, List.not_mem_nil, or_false] at hx
    rcases hx with rfl | rfl <;>
      exact ⟨rfl, by simp, by intro m hm; rw [List.mem_singleton.1 hm]; simp⟩
  · intro s hs
    have hs : s ∈ [(0 : Int)] := hs
    rw [List.mem_singleton.1 hs]
  · exact List.nodup_nil
  · intro s hs
    cases hs
  · intro h
    cases h

theorem maps : ∀ p ∈ beams, MapsOk w 1 sm p := by
  intro p hp
  obtain rfl := List.mem_singleton.1 hp
  refine .inr ⟨_, rfl, rfl, one_pos, ?_⟩
  rintro e (h | h)
  · obtain rfl := Option.some.inj h
    exact ⟨rfl, sm_ok, fun g hg => by cases hg⟩
  · cases h

theorem short_ok : Mission 3 short := by
  refine ⟨.cons (by decide) (.cons (by decide) (.cons (by decide) (.nil _))), ?_⟩
  intro i c h
  rcases i with _ | _ | _ | i
  · obtain rfl := Option.some.inj h
    rfl
  · obtain rfl := Option.some.inj h
    rfl
  · obtain rfl := Option.some.inj h
    rfl
  · simp [short] at h

theorem steady (cs : List Chunk) : Steady w M cs () := by
  refine ⟨fun _ _ => True, trivial, fun first e _ => ⟨(), ?_, (), rfl, trivial⟩⟩
  induction cs with
  | nil => rfl
  | cons c cs ih =>
    obtain ⟨p, h1, h2⟩ := points (!first) c
    exact ⟨p, (), h1, h2, ih⟩

theorem sees (t : Nat) : detects M w.x o.interp 1 sm b t = Real.cos (4 * alpha t) := by
  unfold detects Motion.signal Timeline.signal
  have h : isOld sm.main = true := rfl
  have h1 : Timeline.part sm.main .s0a0 = ⟨[List.replicate 12 0], [0]⟩ := rfl
  have h2 : Timeline.part sm.main .s2a4 = ⟨[List.replicate 12 1], [0]⟩ := rfl
  have h3 : b.ghosts = [] := rfl
  have h4 : (Complex.exp (Complex.I * (4 * (alpha t : ℂ)))).re = Real.cos (4 * alpha t) := by
    rw [mul_comm, show (4 * (alpha t : ℂ)) = ((4 * alpha t : ℝ) : ℂ) by push_cast; ring,
      Complex.exp_ofReal_mul_I_re]
  simpa [h, h1, h2, h3, spinSum, spinSumReal, see, sampleAt, ext, w, Whole.w, o, b, M] using h4

/-- The observations of the three samples: their weights, with values `d`. -/
theorem vec_of (d : BinBeam → Nat → ℝ) (m : Maps) (hm : Holds 1 m (beams.flatMap fun p =>
    (List.range 3).flatMap (pairObs M w.x w.q w.varphi w.nsideOut o.ctalk (d) p))) :
    (m[0]?).map (fun c => c.vec 1) = some (d b 0 - d b 2) := by
  have hA : ∀ t v, (obsAt M w.x w.q w.varphi w.nsideOut b t v).pix = 0 ∧
      (obsAt M w.x w.q w.varphi w.nsideOut b t v).d = v := fun _ _ => ⟨rfl, rfl⟩
  have hs : [0, 1, 2].map (fun t => ((obsAt M w.x w.q w.varphi w.nsideOut b t 0).pix,
      (obsAt M w.x w.q w.varphi w.nsideOut b t 0).c,
      (obsAt M w.x w.q w.varphi w.nsideOut b t 0).s)) = [(0, 1, 0), (0, 0, -1), (0, -1, 0)] := seen_eq
  simp only [List.map_cons, List.map_nil, List.cons.injEq, Prod.mk.injEq, and_true] at hs
  obtain ⟨⟨-, c0, -⟩, ⟨-, c1, -⟩, ⟨-, c2, -⟩⟩ := hs
  have hc : ∀ t v, (obsAt M w.x w.q w.varphi w.nsideOut b t v).c =
      (obsAt M w.x w.q w.varphi w.nsideOut b t 0).c := fun _ _ => rfl
  have hl : (beams.flatMap fun p => (List.range 3).flatMap
      (pairObs M w.x w.q w.varphi w.nsideOut o.ctalk d p)) =
      [0, 1, 2].map fun t => obsAt M w.x w.q w.varphi w.nsideOut b t (d b t) := rfl
  rw [hl] at hm
  have h0 : 0 < m.length := by rw [hm.npix]; norm_num
  rw [List.getElem?_eq_getElem h0, Option.map_some,
    (hm.cells 0 _ (List.getElem?_eq_getElem h0)).1]
  simp [vecAt, here, hA, hc, c0, c1, c2, Obs.w]
  ring

theorem plate' : Plate w.fsamp 3 i'.hwp M.alpha := plate

theorem ready : Ready w chunks i := ⟨rfl, rfl, rfl, .inl rfl, rfl⟩

theorem ready' : Ready w short i' := ⟨rfl, rfl, rfl, .inl rfl, rfl⟩

theorem is_mean {h : Hwp.State ℝ} {n : Nat} {g : Nat → ℝ} (hg : IsGain (optsOf w f h) n g) :
    g = fun k => if k = 0 then 0 else 1 := by
  obtain ⟨g4, gh, h1, h2, h3, h5, h6, h7⟩ := hg.split
  funext k
  rw [h1, h2 rfl, h6 rfl rfl, one_mul]

/-- The hypotheses of `C116_maps`, `C116_ranks` are met.  With the two chunks of `Whole` the first two
values, 1 and 0, become 1/2 and -1/2, the last one, -1, becomes 0. -/
theorem two_chunks : ∃ m, ScanFiltered.scanAll w o f beams true 2 i = .ok ⟨m, false⟩ ∧
    (m[0]?).map (fun c => c.vec 1) = some (1 / 2) := by
  obtain ⟨g, out, m, h1, h2, h3⟩ := C116_maps w ext_ok pix_ok one_pos M o rfl rfl rfl rfl 3 chunks
    mission_ok (by decide) i ready rotates plate (steady _) one_pos f rfl (fun _ _ _ h => by cases h)
    beams 1 (fun _ => sm) maps 2 two_pos
  refine ⟨m, h2, ?_⟩
  have e : ∀ p, out p b 0 = 1 / 2 ∧ out p b 2 = 0 := by
    intro p
    have s0 : stretch i.rot chunks 0 = (0, 2) := rfl
    have s2 : stretch i.rot chunks 2 = (2, 1) := rfl
    obtain ⟨a1, a2⟩ := h1 p b 0 (by norm_num)
    obtain ⟨b1, b2⟩ := h1 p b 2 (by norm_num)
    rw [s0] at a1 a2
    rw [s2] at b1 b2
    rw [is_mean a1] at a2
    rw [is_mean b1] at b2
    have a3 := filtered_unique a2 (mean_spec _ (by simp [ScanFiltered.part]))
    have b3 := filtered_unique b2 (mean_spec _ (by simp [ScanFiltered.part]))
    have r2 : List.range 2 = [0, 1] := rfl
    have r1 : List.range 1 = [0] := rfl
    have c0 : Real.cos (4 * alpha 0) = 1 := by simp [alpha]
    have c1 : Real.cos (4 * alpha 1) = 0 := by
      have : 4 * alpha 1 = Real.pi / 2 := by
        simp only [alpha]
        norm_num
        ring
      rw [this, Real.cos_pi_div_two]
    simp [ScanFiltered.part, subtractMean, sees, r1, r2, c0, c1] at a3 b3
    exact ⟨by rw [a3.1]; norm_num, b3⟩
  have hv : (m[0]?).map (fun c => c.vec 1) = some (out (some b, none) b 0 - out (some b, none) b 2) := by
    apply vec_of (fun x => out (some b, none) x) m
    exact h3
  rw [hv, (e _).1, (e _).2, sub_zero]

/-- With chunks of one sample nothing is left. -/
theorem short_chunks : ∃ m, ScanFiltered.scanAll w o f beams true 2 i' = .ok ⟨m, false⟩ ∧
    (m[0]?).map (fun c => c.vec 1) = some 0 := by
  obtain ⟨g, out, m, h1, h2, h3⟩ := C116_maps w ext_ok pix_ok one_pos M o rfl rfl rfl rfl 3 short
    short_ok (by decide) i' ready' (.fixed rfl fun _ _ => rfl) plate' (steady _) one_pos f rfl
    (fun _ _ _ h => by cases h) beams 1 (fun _ => sm) maps 2 two_pos
  refine ⟨m, h2, ?_⟩
  have e : ∀ p, out p b 0 = 0 ∧ out p b 2 = 0 := by
    intro p
    have s0 : stretch i'.rot short 0 = (0, 1) := rfl
    have s2 : stretch i'.rot short 2 = (2, 1) := rfl
    obtain ⟨a1, a2⟩ := h1 p b 0 (by norm_num)
    obtain ⟨b1, b2⟩ := h1 p b 2 (by norm_num)
    rw [s0] at a1 a2
    rw [s2] at b1 b2
    rw [is_mean a1] at a2
    rw [is_mean b1] at b2
    have a3 := filtered_unique a2 (mean_spec _ (by simp [ScanFiltered.part]))
    have b3 := filtered_unique b2 (mean_spec _ (by simp [ScanFiltered.part]))
    have r1 : List.range 1 = [0] := rfl
    simp [ScanFiltered.part, subtractMean, r1] at a3 b3
    exact ⟨a3, b3⟩
  have hv : (m[0]?).map (fun c => c.vec 1) = some (out (some b, none) b 0 - out (some b, none) b 2) := by
    apply vec_of (fun x => out (some b, none) x) m
    exact h3
  rw [hv, (e _).1, (e _).2, sub_zero]

end Sieved

/-- **C116, violation.** Unlike without filters (C96), the maps depend on how the mission is cut in
chunks: the same motion of the telescope over the same sky, in two chunks or in three, with
`filter_highpass`. -/
theorem C116_chunks_violation : ∃ (w : World Unit) (M : Motion) (o : Opts) (f : Wanted)
    (beams : List Pair) (i : Inst Unit) (chunks chunks' : List Chunk), Mission 3 chunks ∧
    Mission 3 chunks' ∧ Ready w chunks i ∧ Ready w chunks' { i with chunks := chunks'.map (·, false) } ∧
    Steady w M chunks i.el ∧ Steady w M chunks' i.el ∧
    ∃ m m', ScanFiltered.scanAll w o f beams true 2 i = .ok ⟨m, false⟩ ∧
      ScanFiltered.scanAll w o f beams true 2 { i with chunks := chunks'.map (·, false) } =
        .ok ⟨m', false⟩ ∧ m ≠ m' := by
  obtain ⟨m, h1, h2⟩ := Sieved.two_chunks
  obtain ⟨m', h1', h2'⟩ := Sieved.short_chunks
  refine ⟨Sieved.w, Whole.M, Whole.o, Sieved.f, Sieved.beams, Whole.i, Whole.chunks, Sieved.short,
    Whole.mission_ok, Sieved.short_ok, Sieved.ready, Sieved.ready', Sieved.steady _, Sieved.steady _,
    m, m', h1, h1', ?_⟩
  rintro rfl
  rw [h2] at h2'
  norm_num at h2'

namespace Sieved

open Rec Whole

/-- The same sky with a temperature of 1. -/
def sm' : Spinmaps SpinDict :=
  ⟨[(.s0a0, ⟨[List.replicate 12 1], [0]⟩), (.s2a4, ⟨[List.replicate 12 1], [0]⟩)], none, []⟩

theorem sm'_ok : DictOk (12 * 1 ^ 2) sm'.main := by
  refine ⟨?_, .inl rfl, ?_, ?_, ?_, ?_⟩
  · intro x hx
    simp only [sm', List.mem_cons, List.not_mem_nil, or_false] at hx
    rcases hx with rfl | rfl <;>
      exact ⟨rfl, by simp, by intro m hm; rw [List.mem_singleton.1 hm]; simp⟩
  · intro s hs
    have hs : s ∈ [(0 : Int)] := hs
    rw [List.mem_singleton.1 hs]
  · exact List.nodup_nil
  · intro s hs
    cases hs
  · intro h
    cases h

def w' : World Unit := { Whole.w with spinmaps := fun _ => .ok sm' }

theorem maps' : ∀ p ∈ beams, MapsOk w' 1 sm' p := by
  intro p hp
  obtain rfl := List.mem_singleton.1 hp
  refine .inr ⟨_, rfl, rfl, one_pos, ?_⟩
  rintro e (h | h)
  · obtain rfl := Option.some.inj h
    exact ⟨rfl, sm'_ok, fun g hg => by cases hg⟩
  · cases h

theorem warmer (b : BinBeam) (t : Nat) : M.signal w.x o.interp 1 sm'.main b.beam t =
    M.signal w.x o.interp 1 sm.main b.beam t + 1 := by
  unfold Motion.signal Timeline.signal
  have h : isOld sm.main = true := rfl
  have h' : isOld sm'.main = true := rfl
  have h1 : Timeline.part sm.main .s0a0 = ⟨[List.replicate 12 0], [0]⟩ := rfl
  have h1' : Timeline.part sm'.main .s0a0 = ⟨[List.replicate 12 1], [0]⟩ := rfl
  have h2 : Timeline.part sm'.main .s2a4 = Timeline.part sm.main .s2a4 := rfl
  rw [h2]
  simp [h, h', h1, h1', spinSumReal, see, sampleAt, ext, w, Whole.w, o]

/-- The hypotheses of `C116_offset` are met: a sky that is warmer by 1 everywhere gives the same maps. -/
example : ScanFiltered.scanAll w' o f beams true 2 i = ScanFiltered.scanAll w o f beams true 2 i :=
  C116_offset w w' rfl ext_ok pix_ok one_pos M o rfl rfl rfl rfl 3 chunks mission_ok i ready
    (moves_spec w.fsamp M 3 chunks mission_ok (by decide) i.rot i.hwp rotates plate) (steady _) one_pos f
    (.inr rfl) (fun h => by cases h) (fun _ _ _ h => by cases h) beams 1 1 (fun _ => sm) (fun _ => sm')
    maps maps' (fun _ _ _ => 1) (by
      intro p hp b hb t _
      obtain rfl := List.mem_singleton.1 hp
      rcases hb with hb | hb
      · obtain rfl := Option.some.inj hb
        have hg : ∀ s, detects M w.x o.interp 1 s Sieved.b t = M.signal w.x o.interp 1 s.main Sieved.b.beam t + 0 :=
          fun _ => rfl
        rw [hg, hg, add_zero, add_zero]
        exact warmer _ _
      · cases hb) 2 two_pos

/-- The hypotheses of `C116_cutoff_zero_violation` are met. -/
example : ∃ m, ScanFiltered.scanAll w o ⟨false, true, some (0, 5)⟩ beams true 2 i = .ok ⟨m, true⟩ :=
  C116_cutoff_zero_violation w ext_ok pix_ok one_pos M o rfl rfl rfl rfl 3 (by norm_num) chunks
    mission_ok (by decide) i ready rotates plate (steady _) one_pos 5 (by norm_num) beams
    ⟨_, List.mem_singleton_self _, _, .inl rfl⟩ 1 (fun _ => sm) maps 2 two_pos

/-- One chunk of twenty samples, in which the plate turns once. -/
def long : List Chunk := [{ start := 0, stop := 20, cidx := some 0 }]

/-- The hypotheses of `C116_maps_turning_partial` on mission, plate and filters are met. -/
example : ∃ h, Hwp.setHwpMod w.fsamp .continuous (1 / 20) 0 none 0 = .ok h ∧ h.reset = h ∧
    0 < w.fsamp ∧ Mission 20 long ∧ ∀ t, t < 20 →
      1 / 2 < turns (stretch rot long t).2 w.fsamp h.freq ∧
      5 * turns (stretch rot long t).2 w.fsamp h.freq + 3 / 2 ≤ ((stretch rot long t).2 : ℝ) / 2 := by
  refine ⟨_, rfl, rfl, one_pos, ⟨.cons (by decide) (.nil _), ?_⟩, ?_⟩
  · intro i c h
    rcases i with _ | i
    · obtain rfl := Option.some.inj h
      rfl
    · simp [long] at h
  · intro t ht
    have : stretch rot long t = (0, 20) := by
      interval_cases t <;> rfl
    rw [this]
    show 1 / 2 < (1 : ℝ) / 20 / 1 * ((20 : Nat) : ℝ) ∧
      5 * ((1 : ℝ) / 20 / 1 * ((20 : Nat) : ℝ)) + 3 / 2 ≤ ((20 : Nat) : ℝ) / 2
    norm_num

end Sieved

end Verif.Props
