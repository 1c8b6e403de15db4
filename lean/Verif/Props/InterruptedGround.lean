import Verif.Lemmas.InterruptedGround
import Verif.Props.Interrupted
import Verif.Props.GroundScan

/-!
# Property C115: interrupted scans with a ground template
-/

noncomputable section

namespace Verif.Props

open Verif.Chunks Verif.Timeline Verif.Spinmaps Verif.MapMaking Verif.ScanInstrument Verif.Interrupted
open Verif.Interrupted.Ground (AnyScans)

variable {E : Type}

/-- **C115.** Wherever scans with or without ground are stopped, and however often: the limits of the
chunks and all settings of boresight rotation and plate are what they were. -/
theorem C115_settings (w : World E) (H : Halfway E) (i j : Inst E) (h : AnyScans w H i j) :
    j.chunks.map (·.1) = i.chunks.map (·.1) ∧ j.rot.period = i.rot.period ∧
      j.rot.rotChunkSize = i.rot.rotChunkSize ∧
      j.rot.startAng = i.rot.startAng ∧ j.rot.angles = i.rot.angles ∧ j.hwp.mode = i.hwp.mode ∧
      j.hwp.freq = i.hwp.freq ∧ j.hwp.dict.stepSize = i.hwp.dict.stepSize ∧
      j.hwp.startAng = i.hwp.startAng ∧ j.hwp.varphi = i.hwp.varphi ∧ j.hwp.angles = i.hwp.angles := by
  have hk := Interrupted.Ground.keeps_after (fun _ => True) (i.chunks.map (·.1)) i.rot i.hwp w H
    (fun _ _ _ _ _ _ _ _ _ => trivial) (fun _ _ _ _ => trivial) (fun _ _ _ _ => trivial)
    ⟨trivial, rfl, .refl _, .refl _⟩ h
  obtain ⟨a, b, c, h1⟩ := hk.rot
  obtain ⟨a', b', c', h2⟩ := hk.hwp
  rw [h1, h2]
  exact ⟨hk.chunks, rfl, rfl, rfl, rfl, rfl, rfl, rfl, rfl, rfl, rfl⟩

/-- **C115.** Every rank has done any number of scans with or without ground before, with any options and
detectors, each of them stopped anywhere or complete.  After `reset_instr_rot`, `reset_hwp_mod`,
`reset_el_steps` and `allocate_maps` on every rank, a scan with a ground ends with the maps of C110: those
of a fresh scan. -/
theorem C115_recover (w : World E) (hx : ExtOk w.x) (hq : PixOk w.q) (hns : 0 < w.nsideOut) (M : Motion)
    (G : Nat → Quat.Q) (o : Opts) (hbin : o.binning = true) (hpre : o.preview = false)
    (hgr : o.ground = true) (hre : o.reuseSpinmaps = false) (N : Nat) (chunks : List Chunk)
    (hmi : Mission N chunks) (hang : ∀ c ∈ chunks, c.hwpang = none) (i : Inst E)
    (hi : ScanInstrument.Ground.Ready w chunks i) (hrot : Rotates N chunks i.rot M.rot)
    (hhwp : Plate w.fsamp N i.hwp M.alpha) (H : Halfway E)
    (hfirst : ScanInstrument.Ground.Steady w M G chunks i.el)
    (hst : Interrupted.Ground.Restores w H (ScanInstrument.Ground.Steady w M G chunks) chunks i.el)
    (beams : List Pair) (nside : Nat) (sm : Pair → Spinmaps SpinDict)
    (hm : ∀ p ∈ beams, ScanInstrument.Ground.MapsOk w nside (sm p) p)
    (size : Nat) (hsize : 0 < size) (stopped : Nat → Inst E)
    (hstop : ∀ r, r < size → AnyScans w H i (stopped r)) :
    ∃ again : Nat → Inst E, (∀ r, r < size → restart w (stopped r) = .ok (again r)) ∧
      ∃ m, scanEach w o beams true size again = .ok m ∧ scanAll w o beams true size i = .ok m ∧
        Holds w.nsideOut m (Interrupted.Ground.Full w M G o N nside sm beams) := by
  have hmv := moves_spec w.fsamp M N chunks hmi hang i.rot i.hwp hrot hhwp
  have hone : ∀ r, ∃ k, r < size → restart w (stopped r) = .ok k ∧ k.rot = i.rot ∧ k.hwp = i.hwp ∧
      ScanInstrument.Ground.Steady w M G chunks k.el ∧ k.chunks.map (·.1) = chunks ∧
      k.maps = allocateMaps w.nsideOut := by
    intro r
    by_cases hr : r < size
    · obtain ⟨k, h⟩ := Interrupted.Ground.restart_of hst hi (hstop r hr)
      exact ⟨k, fun _ => h⟩
    · exact ⟨i, fun h => (hr h).elim⟩
  choose again hag using hone
  have hgood := fun p hp => ScanInstrument.Ground.pairGood_scan w hx M G chunks o hpre hre nside (sm p) p
    (hm p hp)
  have h1 := Interrupted.Ground.each_spec w hq hns M G o hbin hgr
    (fun p => ScanInstrument.Ground.detects M G w.x o.interp nside (sm p)) N chunks hmi i.rot i.hwp
    (ScanInstrument.Ground.ready_rot hi) hi.rot hi.hwp hmv beams size hsize again (fun _ => [])
    (fun r hr => by
      obtain ⟨_, h2, h3, h4, h5, h6⟩ := hag r hr
      exact ⟨h2, h3, h4, h5, by rw [h6, mapsOf_nil]⟩) hgood
  have hnil : ((List.range size).flatMap fun _ => ([] : List Obs)) = [] := by simp
  rw [hnil, List.nil_append] at h1
  exact ⟨again, fun r hr => (hag r hr).1, _, h1, ScanInstrument.Ground.all_spec w hq hns M G o hbin hgr
    (fun _ => True) _ N chunks hmi i hi hmv hfirst trivial beams size hsize hgood, holds_mapsOf _ _⟩

/-- **C115.** For a scan without ground after scans with a ground, the mission has to be partitioned
again, too: the maps are then those of C96, of a fresh scan. -/
theorem C115_recover_sky (w : World E) (M : Motion) (o : Opts) (N : Nat)
    (chunks : List Chunk) (i : Inst E) (hp : Strategies.Prepared w M o N chunks i) (H : Halfway E)
    (hfirst : Steady w M chunks i.el)
    (hst : Interrupted.Ground.Restores w H (Steady w M chunks) chunks i.el) (beams : List Pair)
    (nside : Nat) (sm : Pair → Spinmaps SpinDict) (hm : ∀ p ∈ beams, MapsOk w nside (sm p) p)
    (size : Nat) (hsize : 0 < size) (stopped : Nat → Inst E)
    (hstop : ∀ r, r < size → AnyScans w H i (stopped r)) :
    ∃ again : Nat → Inst E, (∀ r, r < size → restart w (stopped r) = .ok (again r)) ∧
      ∃ m, scanEach w o beams true size (fun r => Interrupted.Ground.again chunks (again r)) = .ok m ∧
        scanAll w o beams true size i = .ok m ∧
        Holds w.nsideOut m (Interrupted.Full w M o N nside sm beams) := by
  have hmv := moves_spec w.fsamp M N chunks hp.mission hp.hwpang i.rot i.hwp hp.rotates hp.plate
  have hi : ScanInstrument.Ground.Ready w chunks i := ⟨by
    rw [hp.ready.chunks, List.map_map]; exact List.map_id' _, hp.ready.maps, hp.ready.rot,
    hp.ready.period, hp.ready.hwp⟩
  have hone : ∀ r, ∃ k, r < size → restart w (stopped r) = .ok k ∧ k.rot = i.rot ∧ k.hwp = i.hwp ∧
      Steady w M chunks k.el ∧ k.chunks.map (·.1) = chunks ∧ k.maps = allocateMaps w.nsideOut := by
    intro r
    by_cases hr : r < size
    · obtain ⟨k, h⟩ := Interrupted.Ground.restart_of hst hi (hstop r hr)
      exact ⟨k, fun _ => h⟩
    · exact ⟨i, fun h => (hr h).elim⟩
  choose again hag using hone
  have hgood := fun p hp' => pairGood_scan w hp.ext M chunks o hp.preview hp.reuse nside (sm p) p
    (hm p hp')
  have h1 := each_spec w hp.pix hp.nside M o hp.binning hp.ground
    (fun p => detects M w.x o.interp nside (sm p)) N chunks hp.mission i.rot i.hwp (ready_rot hp.ready)
    hp.ready.rot hp.ready.hwp hmv beams size hsize
    (fun r => Interrupted.Ground.again chunks (again r)) (fun _ => [])
    (fun r hr => by
      obtain ⟨_, h2, h3, h4, h5, h6⟩ := hag r hr
      exact ⟨h2, h3, h4, rfl, by rw [mapsOf_nil]; exact h6⟩) hgood
  have hnil : ((List.range size).flatMap fun _ => ([] : List Obs)) = [] := by simp
  rw [hnil, List.nil_append] at h1
  exact ⟨again, fun r hr => (hag r hr).1, _, h1, all_spec w hp.pix hp.nside M o hp.binning hp.ground
    _ N chunks hp.mission i hp.ready hmv hfirst beams size hsize hgood, holds_mapsOf _ _⟩

/-- **C115 (generic scan).** The generic ground-based scan without memory map points as in C110 again
after interruptions. -/
theorem C115_generic (w : World (Scan.State ℝ Quat.Q)) (site : Scan.Site ℝ Quat.Q)
    (o : Scan.Opts ℝ) (prf : Nat → ℝ) (hprf : Scan.IsProfile site o prf)
    (hfs : o.fsamp ≠ 0) (hcl : 0 < o.checkLen) (hd : o.dec0 ≠ [])
    (hr : o.ra0.length = o.dec0.length) (cfg : Scan.ElCfg ℝ) (hv : cfg.Valid)
    (hw : w.implement = genericImplement site o) (hw' : w.resetEl = genericReset) (N : Nat)
    (chunks : List Chunk) (hmi : Mission N chunks)
    (hdiv : o.azThrow ≠ 0 ∨ ∀ c ∈ chunks, o.checkLen.toNat ∣ (c.stop - c.start).toNat)
    (e0 : Scan.State ℝ Quat.Q) (hfr : Scan.Fresh cfg e0.el) (hm : e0.mmap = none)
    (hf : e0.flag = none) :
    ∃ bore G : Nat → Quat.Q,
      (∀ c ∈ chunks, ∀ i : Nat, i < (c.stop - c.start).toNat → ∃ (p : ℝ × ℝ) (y : ℝ),
        Spec.Selected o.elMin (Scan.patches site o (((c.start +
            (i / o.checkLen.toNat * o.checkLen.toNat : Nat) : Int) : ℝ) / o.fsamp + o.ctime0)) p ∧
          cfg.At (c.start.toNat + i) p.2 y ∧
          bore (c.start.toNat + i) =
            site.azel2bore (prf i + p.1) y (((c.start + i : Int) : ℝ) / o.fsamp + o.ctime0) ∧
          G (c.start.toNat + i) = site.ground (prf i + p.1) y) ∧
      ∀ M : Motion, M.bore = bore → (∀ t : Nat, M.time t = t / o.fsamp + o.ctime0) →
        (∀ t, M.flag t = false) →
        (Steady w M chunks e0 ∧ ScanInstrument.Ground.Steady w M G chunks e0) ∧
        Interrupted.Ground.Restores w genericHalf
          (fun e => Steady w M chunks e ∧ ScanInstrument.Ground.Steady w M G chunks e) chunks e0 :=
  Interrupted.Ground.generic_restores w site o prf hprf hfs hcl hd hr cfg hv hw hw' N chunks hmi hdiv e0
    hfr hm hf

/-- **C115 (violation).** The resets and new maps are not enough for a scan without ground after one
with a ground, without boresight rotation: the chunks keep the key `ground`, and every pass over a
live detector fails. -/
theorem C115_kept_violation (w : World E) (o og : Opts) (hg : og.ground = true) (hgr : o.ground = false)
    (hpre : o.preview = false) (hre : o.reuseSpinmaps = false) (p : Pair) (a : BinBeam)
    (b : Option BinBeam) (ha : a.beam.dead = false)
    (hm : ∀ sm, w.spinmaps a = .ok sm → sm.ground = none) (i j k : Inst E)
    (hr : i.rot.period = false) (hc : i.chunks ≠ []) (h1 : scanPass w og true p i = .ok j)
    (h2 : restart w j = .ok k) (k' : Inst E) : scanPass w o true (some a, b) k ≠ .ok k' := by
  have hch := C99_ground_stays w og hg true p i j hr h1
  have hk : k.chunks = j.chunks ∧ k.rot.period = j.rot.period := by
    obtain ⟨x, e1, e2⟩ := bind_ok h2
    cases e2
    obtain ⟨y, e3, e4⟩ := bind_ok e1
    cases e4
    exact ⟨rfl, rfl⟩
  have hper : j.rot.period = i.rot.period := by
    have hs := Interrupted.Ground.safe_pass (fun _ => True) (i.chunks.map (·.1)) i.rot i.hwp w
      ⟨fun _ _ => True, fun _ _ => True⟩ (fun _ _ _ _ _ _ _ _ _ => trivial) (fun _ _ _ _ => trivial)
      (fun _ _ _ _ => trivial) og true p i ⟨trivial, rfl, .refl _, .refl _⟩
    obtain ⟨x, y, z, e⟩ := (hs.2 j ((pass_result _ _ _ _ _ _).trans h1)).rot
    rw [e]
  refine C99_ground_violation w o hgr hpre hre true a b ha hm k ?_ ?_ ?_ k'
  · rw [hk.2, hper, hr]
  · rw [hk.1, hch]
    simpa using hc
  · rw [hk.1, hch]
    intro c hc
    obtain ⟨d, _, rfl⟩ := List.mem_map.1 hc
    rfl

/-! ## The hypotheses are met -/

namespace Grounded

open Rec Whole

/-- A scan with a ground is stopped when it has marked the first of two chunks. -/
theorem marked : ∃ j, Stopped w Stopping.H o beams true 2 0 i j ∧
    j.chunks = [({ start := 0, stop := 2, cidx := some 0 }, true),
      ({ start := 2, stop := 3, cidx := some 1 }, false)] := by
  obtain ⟨pt, h1, _⟩ := points true false { start := 0, stop := 2, cidx := some 0 }
  refine ⟨{ i with
    st := { i.st with maps := sm, ctime := pt.ctime, qBore := pt.bore, qGround := pt.ground }
    hasMaps := true
    flag := pt.flag
    chunks := [({ start := 0, stop := 2, cidx := some 0 }, true),
      ({ start := 2, stop := 3, cidx := some 1 }, false)] }, .inl ?_, rfl⟩
  unfold scanRun
  rw [show Mpi.scanPasses beams true 2 0 = .ok [some (some ⟨det.point, [], 0⟩, none)] from rfl]
  refine .inl (.inr ⟨{ i with st := { i.st with maps := sm }, hasMaps := true }, rfl, ?_⟩)
  refine .inl (.inr ⟨{ i with
    st := { i.st with maps := sm, ctime := pt.ctime, qBore := pt.bore, qGround := pt.ground }
    hasMaps := true
    flag := pt.flag }, ?_, .inl ⟨i.rot, _, .refl _, .inr ⟨rfl, rfl⟩, rfl⟩⟩)
  unfold pointRun
  dsimp only
  rw [show w.implement _ _ (false || o.ground) (!true) = _ from h1]
  rfl

theorem restores (S : Unit → Prop) (h : S ()) :
    Interrupted.Ground.Restores w Stopping.H S chunks () :=
  ⟨fun _ => True, trivial, fun _ _ _ _ _ _ _ _ _ => trivial, fun _ _ _ _ => trivial,
    fun _ _ _ _ => trivial, fun _ _ => ⟨(), rfl, h⟩⟩

/-- The hypotheses of `C115_settings`, `C115_recover` and `C115_recover_sky` are met, by ranks that have
marked only one of the chunks. -/
example (size : Nat) (hs : 0 < size) : ∃ j : Inst Unit, j.chunks.map (·.2) = [true, false] ∧
    j.chunks.map (·.1) = chunks ∧
    (∃ again : Nat → Inst Unit, (∀ r, r < size → restart w j = .ok (again r)) ∧
      ∃ m, scanEach w o beams true size again = .ok m ∧ scanAll w o beams true size i = .ok m ∧
        Holds 1 m (Interrupted.Ground.Full w M G o 3 1 (fun _ => sm) beams)) ∧
    ∃ again : Nat → Inst Unit, (∀ r, r < size → restart w j = .ok (again r)) ∧
      ∃ m, scanEach w Whole.o beams true size (fun r => Interrupted.Ground.again chunks (again r)) = .ok m ∧
        scanAll w Whole.o beams true size i = .ok m ∧
        Holds 1 m (Interrupted.Full w M Whole.o 3 1 (fun _ => sm) beams) := by
  obtain ⟨j, h1, h2⟩ := marked
  have ha : AnyScans w Stopping.H i j := .scan _ _ _ _ _ .start h1
  refine ⟨j, by rw [h2]; rfl, (C115_settings w Stopping.H i j ha).1, ?_, ?_⟩
  · exact C115_recover w ext_ok pix_ok one_pos M G o rfl rfl rfl rfl 3 chunks mission_ok (by decide) i
      ⟨rfl, rfl, rfl, .inl rfl, rfl⟩ rotates plate Stopping.H steady' (restores _ steady') beams 1
      (fun _ => sm) maps size hs (fun _ => j) fun _ _ => ha
  · refine C115_recover_sky w M Whole.o 3 chunks i
      ⟨ext_ok, pix_ok, one_pos, rfl, rfl, rfl, rfl, mission_ok, by decide,
        ⟨ready.chunks, ready.maps, ready.rot, ready.period, ready.hwp⟩, rotates, plate⟩
      Stopping.H steady (restores _ steady) beams 1 (fun _ => sm) ?_ size hs (fun _ => j) fun _ _ => ha
    intro p hp
    rcases maps p hp with rfl | ⟨a, k1, k2, k3, k4⟩
    · exact .inl rfl
    · refine .inr ⟨a, k1, k2, k3, fun b hb => ⟨(k4 b hb).1, (k4 b hb).2.1, fun g hg hd => ?_⟩⟩
      rw [no_ghosts p hp b hb g hg] at hd
      cases hd

/-- The hypotheses of `C115_generic` are met. -/
example : ∃ bore G : Nat → Quat.Q, Interrupted.Ground.Restores gw genericHalf
    (fun e => Steady gw { M with bore := bore } chunks e ∧
      ScanInstrument.Ground.Steady gw { M with bore := bore } G chunks e) chunks
    ⟨[], [], none, none, none, none⟩ := by
  obtain ⟨bore, G, -, h⟩ := C115_generic gw site _ (fun _ => 0) (.inl ⟨rfl, fun _ => rfl⟩)
    one_ne_zero one_pos (by decide) rfl none trivial rfl rfl 3 chunks mission_ok
    (.inr fun _ _ => one_dvd _) ⟨[], [], none, none, none, none⟩ trivial rfl rfl
  exact ⟨bore, G, (h { M with bore := bore } rfl (fun t => by show (t : ℝ) = t / 1 + 0; simp)
    fun _ => rfl).2⟩

/-- A world without maps of the ground. -/
def w0 : World Unit := { w with spinmaps := fun _ => .ok ⟨[], none, []⟩ }

/-- The hypotheses of `C115_kept_violation` are met: a pass with a ground marks the chunks even without
a live detector. -/
example : ∃ j k, scanPass w0 o true (none, none) i = .ok j ∧ restart w0 j = .ok k ∧
    ∀ k', scanPass w0 Whole.o true (some ⟨det.point, [], 0⟩, none) k ≠ .ok k' := by
  have hst : ScanInstrument.Ground.Steady w0 M G chunks () := steady'
  obtain ⟨P, p1, p2⟩ := hst
  obtain ⟨e', p3, _⟩ := p2 true _ p1
  have hi : ScanInstrument.Ground.Ready w0 chunks i := ⟨rfl, rfl, rfl, .inl rfl, rfl⟩
  obtain ⟨j, hj, -⟩ := ScanInstrument.Ground.pass_spec w0 pix_ok one_pos M G o rfl rfl (none, none)
    (fun _ => True) (fun _ _ => 0) 3 chunks mission_ok
    (ScanInstrument.Ground.pairGood_none _ _ _ _ _ _ _) true i i.rot i.hwp i.el e' ⟨rfl, rfl, rfl⟩
    (ScanInstrument.Ground.ready_rot hi) p3
    (moves_spec 1 M 3 chunks mission_ok (by decide) i.rot i.hwp rotates plate) rfl trivial []
    (by rw [mapsOf_nil]; rfl)
  refine ⟨j, _, hj, rfl, ?_⟩
  exact C115_kept_violation w0 Whole.o o rfl rfl rfl rfl (none, none) _ none rfl
    (fun sm h => by obtain rfl := Except.ok.inj h; rfl) i j _ rfl
    (fun h => by cases (congrArg List.length h)) hj rfl

end Grounded

end Verif.Props
