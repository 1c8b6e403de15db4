import Verif.Lemmas.ScanStoredRank
import Verif.Lemmas.Unbinned

/-!
# Property C105: the data stored by whole scans
-/

noncomputable section

namespace Verif.Props

open Verif.Chunks Verif.Timeline Verif.Spinmaps Verif.MapMaking Verif.Spec Verif.ScanStored
open Verif.ScanInstrument (World Inst Pair Motion Mission Ready Steady Rotates Plate Moves MapsOk detects
  pairObs reduceMaps moves_spec moves_turning ready_rot reduce_mapsOf missionObs)

variable {E : Type}

theorem mapM_range {ε α : Type} (f : Nat → Except ε α) (R : Nat → α → Prop) (n : Nat)
    (h : ∀ r, r < n → ∃ x, f r = .ok x ∧ R r x) :
    ∃ xs, (List.range n).mapM f = .ok xs ∧ ∃ hl : xs.length = n, ∀ r (hr : r < n), R r (xs[r]) := by
  induction n with
  | zero => exact ⟨[], rfl, rfl, fun r hr => absurd hr (Nat.not_lt_zero r)⟩
  | succ n ih =>
    obtain ⟨xs, e1, e2, e3⟩ := ih fun r hr => h r (by omega)
    obtain ⟨x, f1, f2⟩ := h n (by omega)
    refine ⟨xs ++ [x], ?_, by simp [e2], ?_⟩
    · rw [List.range_succ, List.mapM_append, e1]
      simp [f1, bind, Except.bind, pure, Except.pure]
    · intro r hr
      by_cases hlt : r < n
      · rw [List.getElem_append_left (by omega)]
        exact e3 r hlt
      · obtain rfl : r = n := by omega
        rw [List.getElem_append_right (by omega)]
        simpa using f2

/-- C105 for any motion of instrument and plate. -/
theorem stored_of_moves (w : World E) (hx : ExtOk w.x) (hq : PixOk w.q) (hns : 0 < w.nsideOut) (M : Motion)
    (o : SOpts) (halm : o.hasAlm = true) (hbin : o.binning = true) (hpre : o.preview = false)
    (hgr : o.ground = false)
    (hre : o.reuseSpinmaps = false) (N : Nat) (chunks : List Chunk) (hmi : Mission N chunks)
    (i : Inst E) (hi : Ready w chunks i) (hmv : Moves w.fsamp M i.rot i.hwp chunks)
    (hst : Steady w M chunks i.el) (store : Store) (beams : List SPair)
    (hnd : ((liveBeams beams).map SBeam.idx).Nodup) (nside : Nat) (sm : SPair → Spinmaps SpinDict)
    (hm : ∀ p ∈ beams, MapsOk w nside (sm p) (plain p)) (size : Nat) (hsize : 0 < size) :
    ∃ res : List (Inst E × Store),
      (List.range size).mapM (fun r => ScanStored.scanInstrument w o beams true size r (i, store)) =
        Except.ok (ε := PyErr) res ∧
      Holds w.nsideOut (reduceMaps i.maps.length (res.map (·.1.maps)))
        (beams.flatMap fun p => (List.range N).flatMap (pairObs M w.x w.q w.varphi w.nsideOut o.ctalk
          (detects M w.x o.interp nside (sm p)) (plain p))) ∧
      (∀ p ∈ beams, ∃ x ∈ res, ∀ c ∈ chunks, StoredOn M w.x o nside sm p c x.2) ∧
      ∀ x ∈ res, ∀ c ∈ chunks, ∀ b : SBeam, b.idx ∉ (liveBeams beams).map SBeam.idx →
        ∀ f, f ≠ .hwpAng →
          Data.dataOf x.2 c (some b.det) f = Data.dataOf store c (some b.det) f := by
  obtain ⟨work, w1, w2, w3, -⟩ := C03_every_pair_scanned_once beams size hsize
  have hsub : ∀ l ∈ work, (l.filterMap id).Sublist beams := by
    intro l hl
    rw [← w3]
    exact List.sublist_flatten_of_mem (List.mem_map_of_mem hl)
  have hone : ∀ r, r < size → ∃ x, ScanStored.scanInstrument w o beams true size r (i, store) = .ok x ∧
      ∃ l, work[r]? = some l ∧
      x.1.maps = mapsOf (12 * w.nsideOut ^ 2) ((l.filterMap id).flatMap fun p =>
        missionObs w M o.toOpts N (detects M w.x o.interp nside (sm p)) (plain p)) ∧
      ∀ c ∈ chunks, (∀ p ∈ l.filterMap id, StoredOn M w.x o nside sm p c x.2) ∧
        ∀ b : SBeam, b.idx ∉ (liveBeams (l.filterMap id)).map SBeam.idx → ∀ f, f ≠ .hwpAng →
          Data.dataOf x.2 c (some b.det) f = Data.dataOf store c (some b.det) f := by
    intro r hr
    have hlt : r < work.length := by omega
    have hwr := w2 r hr
    rw [List.getElem?_eq_getElem hlt] at hwr
    obtain ⟨i', st', g1, g2⟩ := rank_stores w hx hq hns M o hbin hpre hgr hre N chunks hmi i hi hmv hst
      store beams hnd nside sm hm work[r] (hsub _ (List.getElem_mem hlt))
    refine ⟨(i', st'), ?_, work[r], List.getElem?_eq_getElem hlt, g2⟩
    unfold ScanStored.scanInstrument
    rw [if_neg (by simp [halm]), if_neg (by simp [hpre]), ← Option.some.inj hwr]
    exact g1
  obtain ⟨res, e1, e2, e3⟩ := mapM_range _ _ size hone
  refine ⟨res, e1, ?_, ?_, ?_⟩
  · have hmaps : res.map (·.1.maps) = (work.map fun l => (l.filterMap id).flatMap fun p =>
        missionObs w M o.toOpts N (detects M w.x o.interp nside (sm p)) (plain p)).map
          (mapsOf (12 * w.nsideOut ^ 2)) := by
      apply List.ext_getElem (by simp [e2, w1])
      intro k h1 h2
      simp only [List.length_map] at h1
      obtain ⟨l, l1, l2, -⟩ := e3 k (by omega)
      simp only [List.getElem_map]
      rw [List.getElem?_eq_getElem (by omega)] at l1
      rw [l2, ← Option.some.inj l1]
    rw [hmaps, hi.maps]
    have hlen : (allocateMaps w.nsideOut).length = 12 * w.nsideOut ^ 2 := by simp [allocateMaps]
    rw [hlen, reduce_mapsOf]
    have : ((work.map fun l => (l.filterMap id).flatMap fun p =>
        missionObs w M o.toOpts N (detects M w.x o.interp nside (sm p)) (plain p))).flatten =
        beams.flatMap fun p =>
          missionObs w M o.toOpts N (detects M w.x o.interp nside (sm p)) (plain p) := by
      rw [← w3]
      simp only [List.flatMap_def, List.map_flatten, List.flatten_flatten, List.map_map]
      rfl
    rw [this]
    exact holds_mapsOf _ _
  · intro p hp
    rw [← w3] at hp
    obtain ⟨ps, h1, h2⟩ := List.mem_flatten.1 hp
    obtain ⟨l, h3, rfl⟩ := List.mem_map.1 h1
    obtain ⟨k, hk, rfl⟩ := List.getElem_of_mem h3
    obtain ⟨l, l1, -, l2⟩ := e3 k (by omega)
    rw [List.getElem?_eq_getElem hk] at l1
    obtain rfl := Option.some.inj l1
    exact ⟨_, List.getElem_mem _, fun c hc => (l2 c hc).1 p h2⟩
  · intro x hx c hc b hb f hf
    obtain ⟨k, hk, rfl⟩ := List.getElem_of_mem hx
    obtain ⟨l, l1, -, l2⟩ := e3 k (by omega)
    refine (l2 c hc).2 b (fun hmem => hb ?_) f hf
    obtain ⟨b', h1, h2⟩ := List.mem_map.1 hmem
    obtain ⟨p, h3, h4⟩ := List.mem_flatMap.1 h1
    exact List.mem_map.2 ⟨b', List.mem_flatMap.2
      ⟨p, (hsub l (List.mem_of_getElem? l1)).subset h3, h4⟩, h2⟩

/-- **C105.** After a scan with `save_tod` and `save_point` by any number of ranks, with the scan
settings of C96, some rank has the complete record of every live detector for every chunk: sample by
sample what the detector recorded (with cross-talk), pixel number and position angle, and the plate
angle.  Data of other detectors stay as they were, and the maps are those of C96.  Missing:
scans with ground, where storing pointing fails (`C105_ground_violation`).  `reuse_spinmaps` is in
`C105_reuse_first`, `C105_reuse_same` and `C105_reuse_stored_partial`, `binning=False` in
`C105_unbinned_partial`. -/
theorem C105_stored_partial (w : World E) (hx : ExtOk w.x) (hq : PixOk w.q) (hns : 0 < w.nsideOut) (M : Motion)
    (o : SOpts) (halm : o.hasAlm = true) (hbin : o.binning = true) (hpre : o.preview = false)
    (hgr : o.ground = false)
    (hre : o.reuseSpinmaps = false) (N : Nat) (chunks : List Chunk) (hmi : Mission N chunks)
    (hang : ∀ c ∈ chunks, c.hwpang = none) (i : Inst E) (hi : Ready w chunks i)
    (hrot : Rotates N chunks i.rot M.rot) (hhwp : Plate w.fsamp N i.hwp M.alpha)
    (hst : Steady w M chunks i.el) (store : Store) (beams : List SPair)
    (hnd : ((liveBeams beams).map SBeam.idx).Nodup) (nside : Nat) (sm : SPair → Spinmaps SpinDict)
    (hm : ∀ p ∈ beams, MapsOk w nside (sm p) (plain p)) (size : Nat) (hsize : 0 < size) :
    ∃ res : List (Inst E × Store),
      (List.range size).mapM (fun r => ScanStored.scanInstrument w o beams true size r (i, store)) =
        Except.ok (ε := PyErr) res ∧
      Holds w.nsideOut (reduceMaps i.maps.length (res.map (·.1.maps)))
        (beams.flatMap fun p => (List.range N).flatMap (pairObs M w.x w.q w.varphi w.nsideOut o.ctalk
          (detects M w.x o.interp nside (sm p)) (plain p))) ∧
      (∀ p ∈ beams, ∃ x ∈ res, ∀ c ∈ chunks, StoredOn M w.x o nside sm p c x.2) ∧
      ∀ x ∈ res, ∀ c ∈ chunks, ∀ b : SBeam, b.idx ∉ (liveBeams beams).map SBeam.idx →
        ∀ f, f ≠ .hwpAng →
          Data.dataOf x.2 c (some b.det) f = Data.dataOf store c (some b.det) f :=
  stored_of_moves w hx hq hns M o halm hbin hpre hgr hre N chunks hmi i hi
    (moves_spec w.fsamp M N chunks hmi hang i.rot i.hwp hrot hhwp) hst store beams hnd nside sm hm size
    hsize

/-- **C105 (turning plate).** The same with a continuously turning plate, with the plate angles of
C96.  Missing: as above. -/
theorem C105_stored_turning_partial (w : World E) (hx : ExtOk w.x) (hq : PixOk w.q) (hns : 0 < w.nsideOut)
    (o : SOpts) (halm : o.hasAlm = true) (hbin : o.binning = true) (hpre : o.preview = false)
    (hgr : o.ground = false)
    (hre : o.reuseSpinmaps = false) (N : Nat) (chunks : List Chunk) (hmi : Mission N chunks)
    (hang : ∀ c ∈ chunks, c.hwpang = none) (i : Inst E) (hi : Ready w chunks i) (rot : Nat → ℝ)
    (hrot : Rotates N chunks i.rot rot) (hfs : w.fsamp ≠ 0) (freq startAng varphi : ℝ) (hf : freq ≠ 0)
    (angles : Option (List ℝ))
    (hhwp : Hwp.setHwpMod w.fsamp .continuous freq startAng angles varphi = .ok i.hwp) :
    ∃ (cuts : List (Int × Int)) (alpha : Nat → ℝ), Tiles 0 N cuts ∧
      (i.rot.period = false → cuts = chunks.map fun c => (c.start, c.stop)) ∧
      (∀ (j : Nat) c, cuts[j]? = some c → ∀ t : Nat, c.1 ≤ t → (t : Int) < c.2 → ∃ z : ℤ,
        alpha t = (startAng + 360 * freq / w.fsamp * ((t : ℝ) - j)) * (Real.pi / 180) +
          2 * Real.pi * z) ∧
      ∀ M : Motion, M.rot = rot → M.alpha = alpha → Steady w M chunks i.el →
        ∀ (store : Store) (beams : List SPair), ((liveBeams beams).map SBeam.idx).Nodup →
        ∀ (nside : Nat) (sm : SPair → Spinmaps SpinDict),
          (∀ p ∈ beams, MapsOk w nside (sm p) (plain p)) → ∀ size : Nat, 0 < size →
          ∃ res : List (Inst E × Store),
            (List.range size).mapM
                (fun r => ScanStored.scanInstrument w o beams true size r (i, store)) =
              Except.ok (ε := PyErr) res ∧
            ∀ p ∈ beams, ∃ x ∈ res, ∀ c ∈ chunks, StoredOn M w.x o nside sm p c x.2 := by
  obtain ⟨cuts, alpha, h1, h2, h3, h4⟩ := moves_turning w.fsamp N chunks hmi hang i.rot i.hwp rot hrot
    hfs freq startAng varphi hf angles hhwp
  refine ⟨cuts, alpha, h1, h2, h3, fun M hM1 hM2 hst store beams hnd nside sm hm size hsize => ?_⟩
  obtain ⟨res, r1, -, r2, -⟩ := stored_of_moves w hx hq hns M o halm hbin hpre hgr hre N chunks hmi i hi
    (h4 M hM1 hM2) hst store beams hnd nside sm hm size hsize
  exact ⟨res, r1, r2⟩

/-- **C105.** Storing changes nothing else: whatever the options, pairs and state, a scan with
`save_tod` or `save_point` that succeeds leaves instrument, maps and timeline as the same scan without
them. -/
theorem C105_maps_unchanged (w : World E) (o : SOpts) (beams : List SPair) (scatter : Bool)
    (size rank : Nat) (i : Inst E) (store : Store) (i' : Inst E) (store' : Store)
    (h : ScanStored.scanInstrument w o beams scatter size rank (i, store) = .ok (i', store')) :
    ScanInstrument.scanInstrument w o.toOpts (beams.map plain) scatter size rank i = .ok i' := by
  unfold ScanStored.scanInstrument at h
  split at h
  · cases h
  split at h
  · cases h
  obtain ⟨ps, h1, h2⟩ := ScanStored.ok_bind h
  have := scanLoop_erase _ h2
  unfold ScanInstrument.scanInstrument
  rw [passes_map, h1]
  exact this

/-- **C105 (no binning).** `binning=False` changes nothing but the maps, which stay as they are: whatever
the options, pairs and state, a scan that succeeds with binning succeeds without it, and leaves the same
store, timeline and instrument. -/
theorem C105_binning (w : World E) (o : SOpts) (beams : List SPair) (scatter : Bool)
    (size rank : Nat) (i : Inst E) (store : Store) (i' : Inst E) (store' : Store)
    (h : ScanStored.scanInstrument w o beams scatter size rank (i, store) = .ok (i', store')) :
    ScanStored.scanInstrument w { o with binning := false } beams scatter size rank (i, store) =
      .ok ({ i' with maps := i.maps }, store') :=
  ScanStored.scanInstrument_nb i.maps h

theorem mapM_wm {w : World E} {o : SOpts} {beams : List SPair} {size : Nat} {i : Inst E} {store : Store}
    (rs : List Nat) : ∀ {res : List (Inst E × Store)},
    rs.mapM (fun r => ScanStored.scanInstrument w o beams true size r (i, store)) =
      Except.ok (ε := PyErr) res →
    rs.mapM (fun r => ScanStored.scanInstrument w { o with binning := false } beams true size r
      (i, store)) = Except.ok (ε := PyErr) (res.map (ScanStored.wm i.maps)) := by
  induction rs with
  | nil =>
    intro res h
    cases h
    rfl
  | cons r rs ih =>
    intro res h
    rw [List.mapM_cons] at h ⊢
    obtain ⟨x, h1, h⟩ := ScanStored.ok_bind h
    obtain ⟨xs, h2, h⟩ := ScanStored.ok_bind h
    cases h
    have h1' : ScanStored.scanInstrument w { o with binning := false } beams true size r (i, store) =
        .ok (ScanStored.wm i.maps x) := ScanStored.scanInstrument_nb i.maps h1
    rw [h1']
    show (Except.bind _ _) = _
    rw [ih h2]
    rfl

/-- **C105 (no binning).** After a scan with `binning=False` the record is complete as well, and no map
has changed.  Missing: as above. -/
theorem C105_unbinned_partial (w : World E) (hx : ExtOk w.x) (hq : PixOk w.q) (hns : 0 < w.nsideOut)
    (M : Motion) (o : SOpts) (halm : o.hasAlm = true) (hbin : o.binning = false)
    (hpre : o.preview = false) (hgr : o.ground = false)
    (hre : o.reuseSpinmaps = false) (N : Nat) (chunks : List Chunk) (hmi : Mission N chunks)
    (hang : ∀ c ∈ chunks, c.hwpang = none) (i : Inst E) (hi : Ready w chunks i)
    (hrot : Rotates N chunks i.rot M.rot) (hhwp : Plate w.fsamp N i.hwp M.alpha)
    (hst : Steady w M chunks i.el) (store : Store) (beams : List SPair)
    (hnd : ((liveBeams beams).map SBeam.idx).Nodup) (nside : Nat) (sm : SPair → Spinmaps SpinDict)
    (hm : ∀ p ∈ beams, MapsOk w nside (sm p) (plain p)) (size : Nat) (hsize : 0 < size) :
    ∃ res : List (Inst E × Store),
      (List.range size).mapM (fun r => ScanStored.scanInstrument w o beams true size r (i, store)) =
        Except.ok (ε := PyErr) res ∧
      (∀ x ∈ res, x.1.maps = i.maps) ∧
      (∀ p ∈ beams, ∃ x ∈ res, ∀ c ∈ chunks, StoredOn M w.x o nside sm p c x.2) ∧
      ∀ x ∈ res, ∀ c ∈ chunks, ∀ b : SBeam, b.idx ∉ (liveBeams beams).map SBeam.idx →
        ∀ f, f ≠ .hwpAng →
          Data.dataOf x.2 c (some b.det) f = Data.dataOf store c (some b.det) f := by
  obtain ⟨res, h1, -, h3, h4⟩ := C105_stored_partial w hx hq hns M { o with binning := true } halm rfl hpre
    hgr hre N chunks hmi hang i hi hrot hhwp hst store beams hnd nside sm hm size hsize
  have e : ({ ({ o with binning := true } : SOpts) with binning := false } : SOpts) = o := by
    obtain ⟨⟨_, _, _, _, _, _⟩, _, _, _⟩ := o
    dsimp only at hbin
    subst hbin
    rfl
  have h5 := mapM_wm _ h1
  rw [e] at h5
  refine ⟨_, h5, ?_, ?_, ?_⟩
  · intro x hx
    obtain ⟨y, -, rfl⟩ := List.mem_map.1 hx
    rfl
  · intro p hp
    obtain ⟨x, hx, h⟩ := h3 p hp
    refine ⟨_, List.mem_map.2 ⟨x, hx, rfl⟩, fun c hc => ?_⟩
    obtain ⟨a1, a2, a3, a4, a5, a6⟩ := h c hc
    exact ⟨a1, a2, a3, a4, a5, a6⟩
  · intro x hx
    obtain ⟨y, hy, rfl⟩ := List.mem_map.1 hx
    exact h4 y hy

/-- **C105.** Without `alm` only a preview can be made: TypeError.  A preview stores nothing: asking for
it is a ValueError.  In both cases nothing is scanned. -/
theorem C105_arguments (w : World E) (o : SOpts) (beams : List SPair) (scatter : Bool)
    (size rank : Nat) (i : Inst E × Store) :
    (o.hasAlm = false → o.preview = false →
      ScanStored.scanInstrument w o beams scatter size rank i = .error .typeError) ∧
    (o.preview = true → (o.saveTod = true ∨ o.savePoint = true) →
      ScanStored.scanInstrument w o beams scatter size rank i = .error .valueError) := by
  constructor
  · intro h1 h2
    unfold ScanStored.scanInstrument
    rw [if_pos ⟨h1, h2⟩]
  · intro h1 h2
    unfold ScanStored.scanInstrument
    rw [if_neg (by simp [h1]), if_pos ⟨h1, h2⟩]

theorem detector_ground {x : Ext} {mission : List Chunk} {b : Beam} {ghosts : List Beam} {s : Sub}
    {interp : Bool} {st : State} {r : Timeline.Ret × State}
    (h : scanDetector x mission b ghosts s true interp true st = .ok r) : False := by
  unfold scanDetector at h
  split at h
  · cases h
  obtain ⟨⟨n, st1⟩, -, h⟩ := ScanStored.ok_bind h
  dsimp only at h
  rw [if_pos rfl] at h
  obtain ⟨⟨r1, st2⟩, -, h⟩ := ScanStored.ok_bind h
  dsimp only at h
  rw [if_pos rfl] at h
  cases h

theorem scanOne_ground {x : Ext} {mission : List Chunk} {o : SOpts} (hpre : o.preview = false)
    (hsp : o.savePoint = true) {b : SBeam} {s : Sub} {st : State} {store : Store}
    {r : State × Store} (h : ScanStored.scanOne x mission o b s true st store = .ok r) : False := by
  unfold ScanStored.scanOne at h
  rw [if_neg (by simp [hpre])] at h
  obtain ⟨y, h, -⟩ := ScanStored.ok_bind h
  rw [hsp] at h
  exact detector_ground h

theorem scanPair_ground {w : World E} {mission : List Chunk} {o : SOpts} (hpre : o.preview = false)
    (hsp : o.savePoint = true) {flag : Option (List Bool)} {p : SPair} {s : Sub} {st : State}
    {maps : Maps} {store : Store} {r : State × Maps × Store}
    (hb : live p.1 ≠ none ∨ live p.2 ≠ none)
    (h : ScanStored.scanPair w mission o flag p s true st maps store = .ok r) : False := by
  have hone : ∀ b r, ScanStored.scanBinOne w mission o flag s true b st maps store = .ok r → False := by
    intro b r h
    unfold ScanStored.scanBinOne at h
    obtain ⟨y, h, -⟩ := ScanStored.ok_bind h
    exact scanOne_ground hpre hsp h
  unfold ScanStored.scanPair at h
  split at h
  · split at h
    · unfold ScanStored.scanMix at h
      obtain ⟨y, h, -⟩ := ScanStored.ok_bind h
      exact scanOne_ground hpre hsp h
    · obtain ⟨y, h, -⟩ := ScanStored.ok_bind h
      exact hone _ _ h
  · exact hone _ _ h
  · exact hone _ _ h
  · rename_i h1 h2
    rcases hb with hb | hb
    · exact hb h1
    · exact hb h2

/-- **C105 does not hold with a ground.** With `ground_alm` and `save_point` no scan of a live detector
succeeds (NameError: `_scan_detector` uses `cidx` before it is set). -/
theorem C105_ground_violation (w : World E) (o : SOpts) (hpre : o.preview = false)
    (hgr : o.ground = true) (hsp : o.savePoint = true) (p : SPair)
    (hb : live p.1 ≠ none ∨ live p.2 ≠ none) (i : Inst E) (hrot : i.rot.period = false)
    (hch : i.chunks ≠ []) (store : Store) :
    ∀ r, ScanStored.scanPass w o true p (i, store) ≠ .ok r := by
  intro r h
  unfold ScanStored.scanPass at h
  simp only [if_true] at h
  obtain ⟨j, e, h⟩ := ScanStored.ok_bind h
  cases e
  obtain ⟨j, e, h⟩ := ScanStored.ok_bind h
  obtain ⟨k1, k2⟩ := ScanInstrument.initPair_keeps e
  split at h
  · obtain ⟨c, cs, hc⟩ := List.exists_cons_of_ne_nil (k1 ▸ hch)
    rw [hc, List.length_cons, List.range_succ_eq_map, List.foldlM_cons] at h
    obtain ⟨y, h, -⟩ := ScanStored.ok_bind h
    unfold ScanStored.stepChunk at h
    obtain ⟨⟨c1, g⟩, -, h⟩ := ScanStored.ok_bind h
    obtain ⟨⟨pt, el⟩, -, h⟩ := ScanStored.ok_bind h
    obtain ⟨cidx, -, h⟩ := ScanStored.ok_bind h
    obtain ⟨⟨subs, rot⟩, e2, h⟩ := ScanStored.ok_bind h
    have hp : j.rot.period = false := by rw [k2]; exact hrot
    unfold subpartChunk at e2
    dsimp only at e2
    rw [if_neg (by simp [hp])] at e2
    cases e2
    dsimp only at h
    rw [List.foldlM_cons] at h
    obtain ⟨z, h, -⟩ := ScanStored.ok_bind h
    unfold ScanStored.stepSub at h
    obtain ⟨rot', -, h⟩ := ScanStored.ok_bind h
    obtain ⟨⟨ang, hwp⟩, -, h⟩ := ScanStored.ok_bind h
    obtain ⟨ci, -, h⟩ := ScanStored.ok_bind h
    obtain ⟨q, h, -⟩ := ScanStored.ok_bind h
    simp only [hgr, Bool.or_true, ite_self] at h
    exact scanPair_ground hpre hsp hb h
  · cases h

/-! ## The hypotheses are met -/

namespace Whole

open Rec

/-- Everything is stored. -/
def so : SOpts := { o with saveTod := true, savePoint := true, hasAlm := true }

/-- The pairs of `Whole.beams` with an index. -/
def sbeams : List SPair := [(some ⟨⟨det.point, [], 0⟩, 5⟩, none), (none, none)]

/-- The hypotheses of `C105_stored_partial` are met: the plate angles of the first chunk are 0 and 22.5 deg. -/
example (store : Store) : ∃ res : List (Inst Unit × Store),
    (List.range 2).mapM (fun r => ScanStored.scanInstrument w so sbeams true 2 r (i, store)) =
      Except.ok (ε := PyErr) res ∧
    ∃ x ∈ res, Data.dataOf x.2 { start := 0, stop := 2, cidx := some 0 } none .hwpAng =
      .ok [0, 45 / 2] := by
  classical
  choose sm hsm using fun p : {p // p ∈ beams} =>
    ScanInstrument.ideal_maps w one_pos Conv.Y (ideal p.1 p.2)
  have hmem : ∀ p ∈ sbeams, plain p ∈ beams := by
    intro p hp
    simp only [sbeams, List.mem_cons, List.not_mem_nil, or_false] at hp
    rcases hp with rfl | rfl
    · exact List.mem_cons_self
    · exact List.mem_cons_of_mem _ List.mem_cons_self
  obtain ⟨res, h1, -, h2, -⟩ := C105_stored_partial w ext_ok pix_ok one_pos M so rfl rfl rfl rfl rfl 3 chunks
    mission_ok (by decide) i ready rotates plate repeats.steady store sbeams
    (by simp [sbeams, liveBeams, ScanStored.live, det]) 1
    (fun p => if hp : plain p ∈ beams then sm ⟨_, hp⟩ else ⟨[], none, []⟩) (by
      intro p hp
      rw [dif_pos (hmem p hp)]
      exact (hsm ⟨_, hmem p hp⟩).1) 2 two_pos
  obtain ⟨x, hx, h3⟩ := h2 _ List.mem_cons_self
  refine ⟨res, h1, x, hx, ?_⟩
  rw [(h3 _ List.mem_cons_self).hwpAng rfl ⟨⟨det.point, [], 0⟩, 5⟩ none ⟨rfl, .inl rfl⟩]
  have hr : List.range (((2 : Int) - 0).toNat) = [0, 1] := rfl
  have hp := Real.pi_ne_zero
  unfold ScanStored.samples
  rw [hr]
  congr 1
  show [alpha 0 * 180 / Real.pi, alpha 1 * 180 / Real.pi] = _
  have a0 : alpha 0 = 0 := rfl
  have a1 : alpha 1 = Real.pi / 8 := rfl
  rw [a0, a1]
  congr 1
  · simp
  · congr 1
    field_simp
    norm_num

/-- The hypotheses of `C105_unbinned_partial` are met: the two ranks make no maps. -/
example (store : Store) : ∃ res : List (Inst Unit × Store),
    (List.range 2).mapM (fun r =>
      ScanStored.scanInstrument w { so with binning := false } sbeams true 2 r (i, store)) =
      Except.ok (ε := PyErr) res ∧ ∀ x ∈ res, x.1.maps = i.maps := by
  classical
  choose sm hsm using fun p : {p // p ∈ beams} =>
    ScanInstrument.ideal_maps w one_pos Conv.Y (ideal p.1 p.2)
  have hmem : ∀ p ∈ sbeams, plain p ∈ beams := by
    intro p hp
    simp only [sbeams, List.mem_cons, List.not_mem_nil, or_false] at hp
    rcases hp with rfl | rfl
    · exact List.mem_cons_self
    · exact List.mem_cons_of_mem _ List.mem_cons_self
  obtain ⟨res, h1, h2, -, -⟩ := C105_unbinned_partial w ext_ok pix_ok one_pos M
    { so with binning := false } rfl rfl rfl rfl rfl 3 chunks
    mission_ok (by decide) i ready rotates plate repeats.steady store sbeams
    (by simp [sbeams, liveBeams, ScanStored.live, det]) 1
    (fun p => if hp : plain p ∈ beams then sm ⟨_, hp⟩ else ⟨[], none, []⟩) (by
      intro p hp
      rw [dif_pos (hmem p hp)]
      exact (hsm ⟨_, hmem p hp⟩).1) 2 two_pos
  exact ⟨res, h1, h2⟩

/-- The hypotheses of `C105_ground_violation` are met. -/
example (store : Store) :
    ∀ r, ScanStored.scanPass w { so with ground := true } true (some ⟨⟨det.point, [], 0⟩, 5⟩, none)
      (i, store) ≠ .ok r :=
  C105_ground_violation w _ rfl rfl rfl _ (.inl (by simp [ScanStored.live, det])) i rfl
    (by simp [i, chunks]) store

end Whole

end Verif.Props
