import Verif.Spec.FilterRefused
import Verif.Lemmas.FilterRefused
import Verif.Props.FilteredLinear

/-!
# Property C154: when scans with filters fail

`FiltersRefuse`, `FiltersNan`, `Watched`: see `Verif.Spec.FilterRefused`; `FiltersReturn`: see
`Verif.Spec.FilteredLinear`.
-/

noncomputable section

namespace Verif.Props

open Verif.Chunks Verif.Timeline Verif.Spinmaps Verif.MapMaking Verif.ScanInstrument Verif.Spec
  Verif.Filters

open ScanFiltered (Wanted optsOf stretch part Tame)

variable {E : Type}

theorem watched_alive {beams : List Pair} (hb : Watched beams) :
    beams.any ScanFiltered.alive = true := by
  obtain ⟨p, hp, b, hb⟩ := hb
  rw [List.any_eq_true]
  refine ⟨p, hp, ?_⟩
  rcases hb with hb | hb <;> simp [ScanFiltered.alive, hb]

theorem chunks_nonempty {N : Nat} (hN : 0 < N) {chunks : List Chunk} (hmi : Mission N chunks) :
    chunks.isEmpty = false := by
  cases chunks with
  | nil =>
    have := hmi.tiles
    simp only [List.map_nil] at this
    have := ScanFiltered.tiles_nil this
    omega
  | cons c cs => rfl

/-- **C154.** For every setting of the filters and every plate a scan of at least one sample by at least
one live detector does one of three things: it raises ValueError, and there is a stretch that the
filters refuse; it returns maps with NaN in them, and the filters make NaN of all stretches; or it
returns maps without NaN, and the filters return numbers for all stretches. -/
theorem C154_outcome (w : World E) (hx : ExtOk w.x) (hq : PixOk w.q) (hno : 0 < w.nsideOut)
    (M : Motion) (o : Opts) (hbin : o.binning = true) (hpre : o.preview = false)
    (hgr : o.ground = false) (hre : o.reuseSpinmaps = false) (N : Nat) (hN : 0 < N)
    (chunks : List Chunk) (hmi : Mission N chunks) (i : Inst E)
    (hi : Ready w chunks i) (hmv : Moves w.fsamp M i.rot i.hwp chunks)
    (hst : Steady w M chunks i.el) (hfs : 0 < w.fsamp) (f : Wanted)
    (beams : List Pair) (hb : Watched beams) (nside : Nat) (sm : Pair → Spinmaps SpinDict)
    (hm : ∀ p ∈ beams, MapsOk w nside (sm p) p) (size : Nat) (hsize : 0 < size) :
    let scan := ScanFiltered.scanAll w o f beams true size i
    (scan = .error .valueError ∧ FiltersRefuse w f i chunks N) ∨
    (∃ m, scan = .ok ⟨m, true⟩ ∧ FiltersNan w f i chunks N) ∨
    ∃ m, scan = .ok ⟨m, false⟩ ∧ FiltersReturn w f i chunks N := by
  obtain ⟨bad, hbad⟩ := ScanFiltered.errs_or_works (optsOf w f i.hwp) hfs
  have hG := fun t (ht : t < N) => hbad _ (stretch_pos hmi hi ht)
  by_cases h : ∃ t, t < N ∧ ScanFiltered.Errs (optsOf w f i.hwp) (stretch i.rot chunks t).2
  · left
    refine ⟨ScanFiltered.all_err w hq hno M o hbin hgr (fun p => detects M w.x o.interp nside (sm p)) N
      chunks hmi i hi hmv hst beams size hsize f bad hG h
      (fun p hp => pairGood_scan w hx M chunks o hpre hre nside (sm p) p (hm p hp)) (watched_alive hb), ?_⟩
    obtain ⟨t, ht, he⟩ := h
    exact ⟨t, ht, List.replicate _ 0, List.length_replicate, he _ List.length_replicate⟩
  · have hG' := fun t (ht : t < N) => (hG t ht).resolve_left fun he => h ⟨t, ht, he⟩
    have e := ScanFiltered.all_spec w hq hno M o hbin hgr (fun p => detects M w.x o.interp nside (sm p)) N
      chunks hmi i hi hmv hst beams size hsize f bad hG'
      fun p hp => pairGood_scan w hx M chunks o hpre hre nside (sm p) p (hm p hp)
    rw [watched_alive hb, chunks_nonempty hN hmi] at e
    right
    cases bad with
    | true =>
      exact .inl ⟨_, e, fun t ht => ⟨List.replicate _ 0, List.length_replicate,
        hG' t ht _ List.length_replicate⟩⟩
    | false =>
      exact .inr ⟨_, e, fun t ht => ⟨List.replicate _ 0, _, List.length_replicate,
        ((hG' t ht).1 _ List.length_replicate).1⟩⟩

theorem refuse_nan {w : World E} {f : Wanted} {i : Inst E} {chunks : List Chunk} {N : Nat}
    (hmi : Mission N chunks) (hi : Ready w chunks i) (hfs : 0 < w.fsamp)
    (h : FiltersRefuse w f i chunks N) :
    ¬ FiltersNan w f i chunks N ∧ ¬ FiltersReturn w f i chunks N := by
  obtain ⟨t, ht, tod, h1, h2⟩ := h
  have hn := stretch_pos hmi hi ht
  have key : ∀ tod' : List ℝ, tod'.length = (stretch i.rot chunks t).2 →
      filterTod (optsOf w f i.hwp) tod' = .error .valueError := by
    rcases C151_gain (optsOf w f i.hwp) hfs _ hn with e | e | ⟨g, -, e⟩
    · exact e
    · rw [e tod h1] at h2
      cases h2
    · obtain ⟨out, e, -⟩ := e tod h1
      rw [e] at h2
      cases h2
  constructor
  · intro h
    obtain ⟨tod', g1, g2⟩ := h t ht
    rw [key tod' g1] at g2
    cases g2
  · intro h
    obtain ⟨tod', out, g1, g2⟩ := h t ht
    rw [key tod' g1] at g2
    cases g2

theorem nan_return {w : World E} {f : Wanted} {i : Inst E} {chunks : List Chunk} {N : Nat} (hN : 0 < N)
    (hmi : Mission N chunks) (hi : Ready w chunks i) (hfs : 0 < w.fsamp)
    (h : FiltersNan w f i chunks N) : ¬ FiltersReturn w f i chunks N := by
  intro h'
  obtain ⟨tod, h1, h2⟩ := h 0 hN
  rw [((tame_return hmi hi hfs h' 0 hN).1 tod h1).1] at h2
  cases h2

/-- **C154 (which of the three).** Only one of the three can be the case, so the scan raises exactly if a
stretch is refused. -/
theorem C154_refused (w : World E) (hx : ExtOk w.x) (hq : PixOk w.q) (hno : 0 < w.nsideOut)
    (M : Motion) (o : Opts) (hbin : o.binning = true) (hpre : o.preview = false)
    (hgr : o.ground = false) (hre : o.reuseSpinmaps = false) (N : Nat) (hN : 0 < N)
    (chunks : List Chunk) (hmi : Mission N chunks) (i : Inst E)
    (hi : Ready w chunks i) (hmv : Moves w.fsamp M i.rot i.hwp chunks)
    (hst : Steady w M chunks i.el) (hfs : 0 < w.fsamp) (f : Wanted)
    (beams : List Pair) (hb : Watched beams) (nside : Nat) (sm : Pair → Spinmaps SpinDict)
    (hm : ∀ p ∈ beams, MapsOk w nside (sm p) p) (size : Nat) (hsize : 0 < size) :
    let scan := ScanFiltered.scanAll w o f beams true size i
    (scan = .error .valueError ↔ FiltersRefuse w f i chunks N) ∧
    ((∃ m, scan = .ok ⟨m, true⟩) ↔ FiltersNan w f i chunks N) ∧
    ((∃ m, scan = .ok ⟨m, false⟩) ↔ FiltersReturn w f i chunks N) := by
  have h := C154_outcome w hx hq hno M o hbin hpre hgr hre N hN chunks hmi i hi hmv hst hfs f beams hb nside
    sm hm size hsize
  have h1 := refuse_nan (f := f) hmi hi hfs
  have h2 := nan_return (f := f) hN hmi hi hfs
  intro scan
  change (scan = .error .valueError ∧ _) ∨ (∃ m, scan = .ok ⟨m, true⟩ ∧ _) ∨ ∃ m, scan = .ok ⟨m, false⟩ ∧ _ at h
  rcases h with ⟨e, g⟩ | ⟨m, e, g⟩ | ⟨m, e, g⟩
  · have := h1 g
    simp only [e]
    refine ⟨by simpa using g, ?_, ?_⟩ <;> simp [this.1, this.2]
  · have a : ¬ FiltersRefuse w f i chunks N := fun r => (h1 r).1 g
    have b := h2 g
    simp only [e]
    refine ⟨by simpa using a, ?_, ?_⟩
    · simp [g]
    · simp [b]
  · have a : ¬ FiltersRefuse w f i chunks N := fun r => (h1 r).2 g
    have b : ¬ FiltersNan w f i chunks N := fun r => h2 r g
    simp only [e]
    refine ⟨by simpa using a, ?_, ?_⟩
    · simp [b]
    · simp [g]

/-- **C154 (not the data).** Whether a scan raises, and whether there are NaN in its maps, depends neither on
the sky and the beams, nor on which detectors there are, nor on the number of ranks. -/
theorem C154_sky (w w' : World E) (hww : w' = { w with spinmaps := w'.spinmaps }) (hx : ExtOk w.x)
    (hq : PixOk w.q) (hno : 0 < w.nsideOut)
    (M : Motion) (o : Opts) (hbin : o.binning = true) (hpre : o.preview = false)
    (hgr : o.ground = false) (hre : o.reuseSpinmaps = false) (N : Nat) (hN : 0 < N)
    (chunks : List Chunk) (hmi : Mission N chunks) (i : Inst E)
    (hi : Ready w chunks i) (hmv : Moves w.fsamp M i.rot i.hwp chunks)
    (hst : Steady w M chunks i.el) (hfs : 0 < w.fsamp) (f : Wanted)
    (beams beams' : List Pair) (hb : Watched beams) (hb' : Watched beams') (nside nside' : Nat)
    (sm sm' : Pair → Spinmaps SpinDict) (hm : ∀ p ∈ beams, MapsOk w nside (sm p) p)
    (hm' : ∀ p ∈ beams', MapsOk w' nside' (sm' p) p) (size size' : Nat) (hsize : 0 < size)
    (hsize' : 0 < size') :
    (ScanFiltered.scanAll w' o f beams' true size' i).map (·.nan) =
      (ScanFiltered.scanAll w o f beams true size i).map (·.nan) := by
  have h := C154_outcome w hx hq hno M o hbin hpre hgr hre N hN chunks hmi i hi hmv hst hfs f beams hb nside
    sm hm size hsize
  generalize w'.spinmaps = s at hww
  subst hww
  have h' := C154_outcome { w with spinmaps := s } hx hq hno M o hbin hpre hgr hre N hN chunks hmi i
    ⟨hi.chunks, hi.maps, hi.rot, hi.period, hi.hwp⟩ hmv (steady_skies w s M chunks i.el hst) hfs f beams' hb'
    nside' sm' hm' size' hsize'
  have h1 := refuse_nan (f := f) hmi hi hfs
  have h2 := nan_return (f := f) hN hmi hi hfs
  rcases h with ⟨e, g⟩ | ⟨m, e, g⟩ | ⟨m, e, g⟩ <;> rcases h' with ⟨e', g'⟩ | ⟨m', e', g'⟩ | ⟨m', e', g'⟩ <;>
    rw [e, e']
  · exact ((h1 g).1 g').elim
  · exact ((h1 g).2 g').elim
  · exact ((h1 g').1 g).elim
  · rfl
  · exact (h2 g g').elim
  · exact ((h1 g').2 g).elim
  · exact (h2 g' g).elim
  · rfl

/-- **C154 (plates that do not turn).** With `filter_4fhwp` and a plate that stands or steps the scan
raises ValueError. -/
theorem C154_not_turning (w : World E) (hx : ExtOk w.x) (hq : PixOk w.q) (hno : 0 < w.nsideOut)
    (M : Motion) (o : Opts) (hbin : o.binning = true) (hpre : o.preview = false)
    (hgr : o.ground = false) (hre : o.reuseSpinmaps = false) (N : Nat) (hN : 0 < N)
    (chunks : List Chunk) (hmi : Mission N chunks) (i : Inst E)
    (hi : Ready w chunks i) (hmv : Moves w.fsamp M i.rot i.hwp chunks)
    (hst : Steady w M chunks i.el) (hfs : 0 < w.fsamp) (f : Wanted) (h4 : f.filter4f = true)
    (hmode : i.hwp.mode ≠ .continuous)
    (beams : List Pair) (hb : Watched beams) (nside : Nat) (sm : Pair → Spinmaps SpinDict)
    (hm : ∀ p ∈ beams, MapsOk w nside (sm p) p) (size : Nat) (hsize : 0 < size) :
    ScanFiltered.scanAll w o f beams true size i = .error .valueError := by
  refine (C154_refused w hx hq hno M o hbin hpre hgr hre N hN chunks hmi i hi hmv hst hfs f beams hb nside
    sm hm size hsize).1.2 ⟨0, hN, List.replicate _ 0, List.length_replicate, ?_⟩
  have e : ∀ tod, filter4fStep (optsOf w f i.hwp) tod = .error .valueError := by
    intro tod
    unfold filter4fStep
    exact (if_pos h4).trans (if_neg hmode)
  unfold filterTod
  rw [e]
  rfl

/-- **C154 (short stretches).** A single stretch in which a turning plate makes less than a tenth of a
revolution, such as a last chunk of a few samples, makes the whole scan with `filter_4fhwp` raise
ValueError, for any sky and detectors, however long the other chunks are. -/
theorem C154_short (w : World E) (hx : ExtOk w.x) (hq : PixOk w.q) (hno : 0 < w.nsideOut)
    (o : Opts) (hbin : o.binning = true) (hpre : o.preview = false) (hgr : o.ground = false)
    (hre : o.reuseSpinmaps = false) (N : Nat) (chunks : List Chunk) (hmi : Mission N chunks)
    (hang : ∀ c ∈ chunks, c.hwpang = none) (i : Inst E) (hi : Ready w chunks i) (rot : Nat → ℝ)
    (hrot : Rotates N chunks i.rot rot) (hfs : 0 < w.fsamp) (freq startAng varphi : ℝ) (hf : 0 < freq)
    (angles : Option (List ℝ))
    (hhwp : Hwp.setHwpMod w.fsamp .continuous freq startAng angles varphi = .ok i.hwp)
    (f : Wanted) (h4 : f.filter4f = true)
    (hshort : ∃ t, t < N ∧ turns (stretch i.rot chunks t).2 w.fsamp i.hwp.freq < 1 / 10) :
    ∃ alpha : Nat → ℝ, ∀ M : Motion, M.rot = rot → M.alpha = alpha → Steady w M chunks i.el →
      ∀ (beams : List Pair) (nside : Nat) (sm : Pair → Spinmaps SpinDict), Watched beams →
        (∀ p ∈ beams, MapsOk w nside (sm p) p) → ∀ size : Nat, 0 < size →
        ScanFiltered.scanAll w o f beams true size i = .error .valueError := by
  obtain ⟨cuts, alpha, -, -, -, h5⟩ := moves_turning w.fsamp N chunks hmi hang i.rot i.hwp rot hrot
    hfs.ne' freq startAng varphi hf.ne' angles hhwp
  have hmode : i.hwp.mode = .continuous ∧ i.hwp.freq = freq := by
    unfold Hwp.setHwpMod at hhwp
    simp only [reduceCtorEq, if_false] at hhwp
    rw [← Except.ok.inj hhwp]
    exact ⟨rfl, rfl⟩
  obtain ⟨t, ht, ht'⟩ := hshort
  refine ⟨alpha, fun M hM1 hM2 hst beams nside sm hb hm size hsize => ?_⟩
  refine (C154_refused w hx hq hno M o hbin hpre hgr hre N (by omega) chunks hmi i hi (h5 M hM1 hM2) hst hfs
    f beams hb nside sm hm size hsize).1.2
    ⟨t, ht, List.replicate (stretch i.rot chunks t).2 0, List.length_replicate, ?_⟩
  have hpos := stretch_pos hmi hi ht
  have := C91_short_violation (List.replicate (stretch i.rot chunks t).2 0)
    (List.ne_nil_of_length_pos (by simpa using hpos)) w.fsamp i.hwp.freq hfs (by rw [hmode.2]; exact hf.le)
    (by rw [List.length_replicate]; exact ht')
  have e : ∀ tod, filter4fStep (optsOf w f i.hwp) tod = filterTodHwp tod w.fsamp i.hwp.freq := by
    intro tod
    unfold filter4fStep
    exact (if_pos h4).trans (if_pos hmode.1)
  unfold filterTod
  rw [e, this]
  rfl

/-! ### Concrete cases -/

namespace Sieved

open Rec Whole

theorem watched : Watched beams := ⟨_, List.mem_singleton_self _, _, .inl rfl⟩

/-- The hypotheses of `C154_outcome` and `C154_refused` are met: filters that return. -/
example : ∃ m, ScanFiltered.scanAll w o f beams true 2 i = .ok ⟨m, false⟩ :=
  (C154_refused w ext_ok pix_ok one_pos M o rfl rfl rfl rfl 3 (by norm_num) chunks mission_ok i ready
    (moves_spec w.fsamp M 3 chunks mission_ok (by decide) i.rot i.hwp rotates plate) (steady _) one_pos f
    beams watched 1 (fun _ => sm) maps 2 two_pos).2.2.2
    fun _ _ => ⟨List.replicate _ 0, _, List.length_replicate, rfl⟩

/-- The hypotheses of `C154_sky` are met: one detector or two of them, one rank or two. -/
example (f : Wanted) : (ScanFiltered.scanAll w o f (beams ++ beams) true 2 i).map (·.nan) =
    (ScanFiltered.scanAll w o f beams true 1 i).map (·.nan) :=
  C154_sky w w rfl ext_ok pix_ok one_pos M o rfl rfl rfl rfl 3 (by norm_num) chunks mission_ok i ready
    (moves_spec w.fsamp M 3 chunks mission_ok (by decide) i.rot i.hwp rotates plate) (steady _) one_pos f
    beams (beams ++ beams) watched ⟨_, List.mem_append_left _ (List.mem_singleton_self _), _, .inl rfl⟩ 1 1
    (fun _ => sm) (fun _ => sm) maps (by
      intro p hp
      rcases List.mem_append.1 hp with hp | hp <;> exact maps p hp) 1 2 one_pos two_pos

/-- The hypotheses of `C154_not_turning` are met: the plate of this session stands. -/
example : ScanFiltered.scanAll w o ⟨true, false, none⟩ beams true 2 i = .error .valueError :=
  C154_not_turning w ext_ok pix_ok one_pos M o rfl rfl rfl rfl 3 (by norm_num) chunks mission_ok i ready
    (moves_spec w.fsamp M 3 chunks mission_ok (by decide) i.rot i.hwp rotates plate) (steady _) one_pos
    ⟨true, false, none⟩ rfl (by decide) beams watched 1 (fun _ => sm) maps 2 two_pos

/-- A chunk of twenty samples and one of a single sample. -/
def leftover : List Chunk :=
  [{ start := 0, stop := 20, cidx := some 0 }, { start := 20, stop := 21, cidx := some 1 }]

/-- The hypotheses of `C154_short` on mission, plate and filters are met: the plate turns once in
the first chunk and by a twentieth in the second one. -/
example : ∃ h, Hwp.setHwpMod w.fsamp .continuous (1 / 20) 0 none 0 = .ok h ∧ h.reset = h ∧
    Mission 21 leftover ∧ (∃ t, t < 21 ∧ turns (stretch rot leftover t).2 w.fsamp h.freq < 1 / 10) ∧
    ∃ t, t < 21 ∧ turns (stretch rot leftover t).2 w.fsamp h.freq = 1 := by
  refine ⟨_, rfl, rfl, ⟨.cons (by decide) (.cons (by decide) (.nil _)), ?_⟩, ⟨20, by norm_num, ?_⟩, 0,
    by norm_num, ?_⟩
  · intro i c h
    rcases i with _ | _ | i
    · obtain rfl := Option.some.inj h
      rfl
    · obtain rfl := Option.some.inj h
      rfl
    · simp [leftover] at h
  · have : stretch rot leftover 20 = (20, 1) := rfl
    rw [this]
    show (1 : ℝ) / 20 / 1 * ((1 : Nat) : ℝ) < 1 / 10
    norm_num
  · have : stretch rot leftover 0 = (0, 20) := rfl
    rw [this]
    show (1 : ℝ) / 20 / 1 * ((20 : Nat) : ℝ) = 1
    norm_num

end Sieved

end Verif.Props
