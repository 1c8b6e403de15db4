import Verif.Lemmas.ScanInstrument
import Verif.Props.MapMaking

/-!
# Properties C96 to C99: whole scans
-/

noncomputable section

namespace Verif.Props

open Verif.Chunks Verif.Timeline Verif.Spinmaps Verif.MapMaking Verif.ScanInstrument Verif.Spec

variable {E : Type}

/-! ## C96: the maps of a whole scan -/

/-- C96 for any motion of instrument and plate. -/
theorem maps_of_moves (w : World E) (hx : ExtOk w.x) (hq : PixOk w.q) (hns : 0 < w.nsideOut) (M : Motion)
    (o : Opts) (hbin : o.binning = true) (hpre : o.preview = false) (hgr : o.ground = false)
    (hre : o.reuseSpinmaps = false) (N : Nat) (chunks : List Chunk) (hmi : Mission N chunks)
    (i : Inst E) (hi : Ready w chunks i) (hmv : Moves w.fsamp M i.rot i.hwp chunks)
    (hst : Steady w M chunks i.el) (beams : List Pair) (nside : Nat)
    (sm : Pair → Spinmaps SpinDict) (hm : ∀ p ∈ beams, MapsOk w nside (sm p) p)
    (size : Nat) (hsize : 0 < size) :
    ∃ m, scanAll w o beams true size i = .ok m ∧
      Holds w.nsideOut m (beams.flatMap fun p => (List.range N).flatMap
        (pairObs M w.x w.q w.varphi w.nsideOut o.ctalk (detects M w.x o.interp nside (sm p)) p)) :=
  ⟨_, all_spec w hq hns M o hbin hgr (fun p => detects M w.x o.interp nside (sm p)) N chunks hmi i hi
    hmv hst beams size hsize
    fun p hp => pairGood_scan w hx M chunks o hpre hre nside (sm p) p (hm p hp), holds_mapsOf _ _⟩

/-- **C96.** Any list of detector pairs is scanned by any number of ranks, with any partition of the
mission of `N` samples in chunks, with or without boresight rotation, stepping HWP, cross-talk and
ghosts.  The reduced maps then contain exactly one observation for each live detector and each sample
that is not flagged: in the direction and under the angles of that sample, with the signal of that
sample. -/
theorem C96_maps (w : World E) (hx : ExtOk w.x) (hq : PixOk w.q) (hns : 0 < w.nsideOut) (M : Motion)
    (o : Opts) (hbin : o.binning = true) (hpre : o.preview = false) (hgr : o.ground = false)
    (hre : o.reuseSpinmaps = false) (N : Nat) (chunks : List Chunk) (hmi : Mission N chunks)
    (hang : ∀ c ∈ chunks, c.hwpang = none) (i : Inst E) (hi : Ready w chunks i)
    (hrot : Rotates N chunks i.rot M.rot) (hhwp : Plate w.fsamp N i.hwp M.alpha)
    (hst : Steady w M chunks i.el) (beams : List Pair) (nside : Nat)
    (sm : Pair → Spinmaps SpinDict) (hm : ∀ p ∈ beams, MapsOk w nside (sm p) p)
    (size : Nat) (hsize : 0 < size) :
    ∃ m, scanAll w o beams true size i = .ok m ∧
      Holds w.nsideOut m (beams.flatMap fun p => (List.range N).flatMap
        (pairObs M w.x w.q w.varphi w.nsideOut o.ctalk (detects M w.x o.interp nside (sm p)) p)) :=
  maps_of_moves w hx hq hns M o hbin hpre hgr hre N chunks hmi i hi
    (moves_spec w.fsamp M N chunks hmi hang i.rot i.hwp hrot hhwp) hst beams nside sm hm size hsize

/-- **C96 (turning plate).** The same with a continuously turning plate: the angle of sample `t` in
subchunk number `j` is that of time `t - j` (mod 2 pi), see C13; without boresight rotation the
subchunks are the chunks. -/
theorem C96_maps_turning (w : World E) (hx : ExtOk w.x) (hq : PixOk w.q) (hns : 0 < w.nsideOut)
    (o : Opts) (hbin : o.binning = true) (hpre : o.preview = false) (hgr : o.ground = false)
    (hre : o.reuseSpinmaps = false) (N : Nat) (chunks : List Chunk) (hmi : Mission N chunks)
    (hang : ∀ c ∈ chunks, c.hwpang = none) (i : Inst E) (hi : Ready w chunks i) (rot : Nat → ℝ)
    (hrot : Rotates N chunks i.rot rot) (hfs : w.fsamp ≠ 0) (freq startAng varphi : ℝ) (hf : freq ≠ 0)
    (angles : Option (List ℝ))
    (hhwp : Hwp.setHwpMod w.fsamp .continuous freq startAng angles varphi = .ok i.hwp) :
    ∃ (cuts : List (Int × Int)) (alpha : Nat → ℝ), Tiles 0 N cuts ∧
      (i.rot.period = false → cuts = chunks.map fun c => (c.start, c.stop)) ∧
      (∀ (j : Nat) c, cuts[j]? = some c → ∀ t : Nat, c.1 ≤ t → (t : Int) < c.2 → ∃ z : ℤ,
        alpha t = (startAng + 360 * freq / w.fsamp * ((t : ℝ) - j)) * (Real.pi / 180) +
          2 * Real.pi * z) ∧
      ∀ M : Motion, M.rot = rot → M.alpha = alpha → Steady w M chunks i.el →
        ∀ (beams : List Pair) (nside : Nat) (sm : Pair → Spinmaps SpinDict),
          (∀ p ∈ beams, MapsOk w nside (sm p) p) → ∀ size : Nat, 0 < size →
          ∃ m, scanAll w o beams true size i = .ok m ∧
            Holds w.nsideOut m (beams.flatMap fun p => (List.range N).flatMap
              (pairObs M w.x w.q w.varphi w.nsideOut o.ctalk
                (detects M w.x o.interp nside (sm p)) p)) := by
  obtain ⟨cuts, alpha, h1, h2, h3, h4⟩ := moves_turning w.fsamp N chunks hmi hang i.rot i.hwp rot hrot
    hfs freq startAng varphi hf angles hhwp
  exact ⟨cuts, alpha, h1, h2, h3, fun M hM1 hM2 hst beams nside sm hm size hsize =>
    maps_of_moves w hx hq hns M o hbin hpre hgr hre N chunks hmi i hi (h4 M hM1 hM2) hst beams nside sm
      hm size hsize⟩

/-- **C96 (chunk angles).** The same with a static plate and chunks with their own plate angles (other
than zero, see C58), without boresight rotation. -/
theorem C96_maps_static (w : World E) (hx : ExtOk w.x) (hq : PixOk w.q) (hns : 0 < w.nsideOut)
    (M : Motion) (o : Opts) (hbin : o.binning = true) (hpre : o.preview = false)
    (hgr : o.ground = false) (hre : o.reuseSpinmaps = false) (N : Nat) (chunks : List Chunk)
    (hmi : Mission N chunks) (hang : ∀ c ∈ chunks, c.hwpang ≠ some 0) (i : Inst E)
    (hi : Ready w chunks i) (hrot : i.rot.period = false) (hhwp : i.hwp.freq = 0 ∨ i.hwp.mode = .none)
    (hM : ∀ c ∈ chunks, ∀ t : Nat, c.start ≤ t → (t : Int) < c.stop → M.rot t = i.rot.angle ∧
      M.alpha t = ((c.hwpang.map fun (a : ℚ) => (a : ℝ)).getD i.hwp.dict.angle) * (Real.pi / 180))
    (hst : Steady w M chunks i.el) (beams : List Pair) (nside : Nat)
    (sm : Pair → Spinmaps SpinDict) (hm : ∀ p ∈ beams, MapsOk w nside (sm p) p)
    (size : Nat) (hsize : 0 < size) :
    ∃ m, scanAll w o beams true size i = .ok m ∧
      Holds w.nsideOut m (beams.flatMap fun p => (List.range N).flatMap
        (pairObs M w.x w.q w.varphi w.nsideOut o.ctalk (detects M w.x o.interp nside (sm p)) p)) :=
  maps_of_moves w hx hq hns M o hbin hpre hgr hre N chunks hmi i hi
    (moves_static w.fsamp M i.rot hrot i.hwp hhwp chunks hang hM) hst beams nside sm hm size hsize

/-- **C96 (generic scan).** The generic ground-based `implement_scan` points the telescope in the same
way in every pass and for every rank: there is a boresight pointing `bore` for the samples of the
mission, towards the highest patch at the last check, at the elevation of the step schedule, with the
azimuth profile of the chunk, which fulfils the hypotheses `Steady` and `Repeats` of the theorems on whole scans. -/
theorem C96_generic (w : World (Scan.State ℝ Quat.Q)) (site : Scan.Site ℝ Quat.Q)
    (o : Scan.Opts ℝ) (hgr : o.ground = false) (prf : Nat → ℝ) (hprf : Scan.IsProfile site o prf)
    (hfs : o.fsamp ≠ 0) (hcl : 0 < o.checkLen) (hd : o.dec0 ≠ [])
    (hr : o.ra0.length = o.dec0.length) (cfg : Scan.ElCfg ℝ) (hv : cfg.Valid)
    (hw : w.implement = genericImplement site o) (hw' : w.resetEl = genericReset) (N : Nat)
    (chunks : List Chunk) (hmi : Mission N chunks)
    (hdiv : o.azThrow ≠ 0 ∨ ∀ c ∈ chunks, o.checkLen.toNat ∣ (c.stop - c.start).toNat)
    (e0 : Scan.State ℝ Quat.Q) (hfr : Scan.Fresh cfg e0.el) (hm : e0.mmap = none)
    (hf : e0.flag = none) :
    ∃ bore : Nat → Quat.Q,
      (∀ c ∈ chunks, ∀ i : Nat, i < (c.stop - c.start).toNat → ∃ (p : ℝ × ℝ) (y : ℝ),
        Selected o.elMin (Scan.patches site o (((c.start +
            (i / o.checkLen.toNat * o.checkLen.toNat : Nat) : Int) : ℝ) / o.fsamp + o.ctime0)) p ∧
          cfg.At (c.start.toNat + i) p.2 y ∧
          bore (c.start.toNat + i) =
            site.azel2bore (prf i + p.1) y (((c.start + i : Int) : ℝ) / o.fsamp + o.ctime0)) ∧
      ∀ M : Motion, M.bore = bore → (∀ t : Nat, M.time t = t / o.fsamp + o.ctime0) →
        (∀ t, M.flag t = false) → Steady w M chunks e0 ∧ Repeats w M chunks e0 :=
  let ⟨bore, h1, h2⟩ := generic_steady w site o hgr prf hprf hfs hcl hd hr cfg hv hw hw' N chunks hmi
    hdiv e0 hfr hm hf
  ⟨bore, h1, fun M a b c => ⟨(h2 M a b c).steady, h2 M a b c⟩⟩

/-- **C96.** The maps do not depend on the number of ranks. -/
theorem C96_ranks (w : World E) (hx : ExtOk w.x) (hq : PixOk w.q) (hns : 0 < w.nsideOut) (M : Motion)
    (o : Opts) (hbin : o.binning = true) (hpre : o.preview = false) (hgr : o.ground = false)
    (hre : o.reuseSpinmaps = false) (N : Nat) (chunks : List Chunk) (hmi : Mission N chunks)
    (hang : ∀ c ∈ chunks, c.hwpang = none) (i : Inst E) (hi : Ready w chunks i)
    (hrot : Rotates N chunks i.rot M.rot) (hhwp : Plate w.fsamp N i.hwp M.alpha)
    (hst : Steady w M chunks i.el) (beams : List Pair) (nside : Nat)
    (sm : Pair → Spinmaps SpinDict) (hm : ∀ p ∈ beams, MapsOk w nside (sm p) p)
    (size size' : Nat) (hsize : 0 < size) (hsize' : 0 < size') :
    scanAll w o beams true size i = scanAll w o beams true size' i := by
  have h := fun size hsize => all_spec w hq hns M o hbin hgr
    (fun p => detects M w.x o.interp nside (sm p)) N chunks hmi i hi
    (moves_spec w.fsamp M N chunks hmi hang i.rot i.hwp hrot hhwp) hst beams size hsize
    fun p hp => pairGood_scan w hx M chunks o hpre hre nside (sm p) p (hm p hp)
  rw [h size hsize, h size' hsize']

/-- **C96.** The maps do not depend on how the mission is cut in chunks, as long as the telescope
does the same. -/
theorem C96_chunks (w w' : World E) (hww : w' = { w with implement := w'.implement, resetEl := w'.resetEl })
    (hx : ExtOk w.x) (hq : PixOk w.q) (hns : 0 < w.nsideOut) (M : Motion)
    (o : Opts) (hbin : o.binning = true) (hpre : o.preview = false) (hgr : o.ground = false)
    (hre : o.reuseSpinmaps = false) (N : Nat) (chunks chunks' : List Chunk)
    (hmi : Mission N chunks) (hmi' : Mission N chunks')
    (hang : ∀ c ∈ chunks, c.hwpang = none) (hang' : ∀ c ∈ chunks', c.hwpang = none)
    (i i' : Inst E) (hi : Ready w chunks i) (hi' : Ready w' chunks' i')
    (hrot : Rotates N chunks i.rot M.rot) (hrot' : Rotates N chunks' i'.rot M.rot)
    (hhwp : Plate w.fsamp N i.hwp M.alpha) (hhwp' : Plate w.fsamp N i'.hwp M.alpha)
    (hst : Steady w M chunks i.el) (hst' : Steady w' M chunks' i'.el) (beams : List Pair) (nside : Nat)
    (sm : Pair → Spinmaps SpinDict) (hm : ∀ p ∈ beams, MapsOk w nside (sm p) p)
    (size : Nat) (hsize : 0 < size) :
    scanAll w o beams true size i = scanAll w' o beams true size i' := by
  have e1 : w'.x = w.x := by rw [hww]
  have e2 : w'.q = w.q := by rw [hww]
  have e3 : w'.varphi = w.varphi := by rw [hww]
  have e4 : w'.nsideOut = w.nsideOut := by rw [hww]
  have e5 : w'.fsamp = w.fsamp := by rw [hww]
  have e6 : w'.spinmaps = w.spinmaps := by rw [hww]
  have hm' : ∀ p ∈ beams, MapsOk w' nside (sm p) p := by
    intro p hp
    unfold MapsOk
    rw [e6]
    exact hm p hp
  rw [all_spec w hq hns M o hbin hgr (fun p => detects M w.x o.interp nside (sm p)) N chunks hmi i hi
    (moves_spec w.fsamp M N chunks hmi hang i.rot i.hwp hrot hhwp) hst beams size hsize
    fun p hp => pairGood_scan w hx M chunks o hpre hre nside (sm p) p (hm p hp),
    all_spec w' (by rw [e2]; exact hq) (by rw [e4]; exact hns) M o hbin hgr
    (fun p => detects M w.x o.interp nside (sm p)) N chunks' hmi' i' hi'
    (moves_spec w'.fsamp M N chunks' hmi' hang' i'.rot i'.hwp hrot' (by rw [e5]; exact hhwp')) hst' beams
    size hsize fun p hp => by
      have := pairGood_scan w' (by rw [e1]; exact hx) M chunks' o hpre hre nside (sm p) p (hm' p hp)
      rw [e1] at this
      exact this]
  unfold missionObs
  rw [e1, e2, e3, e4]

/-- Number of live detectors. -/
def liveCount (p : Pair) : Nat := (live p.1).toList.length + (live p.2).toList.length

/-- **C96.** The total number of hits is the number of live detectors times the number of samples that
are not flagged. -/
theorem C96_hits (w : World E) (hx : ExtOk w.x) (hq : PixOk w.q) (hns : 0 < w.nsideOut) (M : Motion)
    (o : Opts) (hbin : o.binning = true) (hpre : o.preview = false) (hgr : o.ground = false)
    (hre : o.reuseSpinmaps = false) (N : Nat) (chunks : List Chunk) (hmi : Mission N chunks)
    (hang : ∀ c ∈ chunks, c.hwpang = none) (i : Inst E) (hi : Ready w chunks i)
    (hrot : Rotates N chunks i.rot M.rot) (hhwp : Plate w.fsamp N i.hwp M.alpha)
    (hst : Steady w M chunks i.el) (beams : List Pair) (nside : Nat)
    (sm : Pair → Spinmaps SpinDict) (hm : ∀ p ∈ beams, MapsOk w nside (sm p) p)
    (size : Nat) (hsize : 0 < size) :
    ∃ m, scanAll w o beams true size i = .ok m ∧
      (m.map fun c => c.proj 0).sum =
        (beams.map liveCount).sum * ((List.range N).filter fun t => !M.flag t).length := by
  obtain ⟨m, h1, h2⟩ := C96_maps w hx hq hns M o hbin hpre hgr hre N chunks hmi hang i hi hrot hhwp hst
    beams nside sm hm size hsize
  refine ⟨m, h1, ?_⟩
  rw [hits_total h2]
  · rw [← Nat.cast_mul, Nat.cast_inj]
    exact obs_count M w.x w.q w.varphi w.nsideOut o.ctalk _ N beams
  · intro ob hob
    obtain ⟨p, _, hob⟩ := List.mem_flatMap.1 hob
    obtain ⟨t, _, hob⟩ := List.mem_flatMap.1 hob
    exact pairObs_pix hq hns hob

/-! ## C97: previews of whole scans -/

/-- **C97.** `preview_pointing` gives the hits and angles of the real scan, and no signal. -/
theorem C97_preview (w : World E) (hx : ExtOk w.x) (hq : PixOk w.q) (hns : 0 < w.nsideOut) (M : Motion)
    (o : Opts) (hbin : o.binning = true) (hpre : o.preview = false) (hgr : o.ground = false)
    (hre : o.reuseSpinmaps = false) (N : Nat) (chunks : List Chunk) (hmi : Mission N chunks)
    (hang : ∀ c ∈ chunks, c.hwpang = none) (i : Inst E) (hi : Ready w chunks i)
    (hrot : Rotates N chunks i.rot M.rot) (hhwp : Plate w.fsamp N i.hwp M.alpha)
    (hst : Steady w M chunks i.el) (beams : List Pair) (nside : Nat)
    (sm : Pair → Spinmaps SpinDict) (hm : ∀ p ∈ beams, MapsOk w nside (sm p) p)
    (size : Nat) (hsize : 0 < size) :
    ∃ m m', scanAll w o beams true size i = .ok m ∧
      scanAll w { o with preview := true } beams true size i = .ok m' ∧
      m'.map (·.proj) = m.map (·.proj) ∧ ∀ c ∈ m', c.vec = 0 := by
  have hmv := moves_spec w.fsamp M N chunks hmi hang i.rot i.hwp hrot hhwp
  have h1 := all_spec w hq hns M o hbin hgr (fun p => detects M w.x o.interp nside (sm p)) N chunks
    hmi i hi hmv hst beams size hsize
    fun p hp => pairGood_scan w hx M chunks o hpre hre nside (sm p) p (hm p hp)
  have h2 := all_spec w hq hns M { o with preview := true } hbin hgr (fun _ _ _ => 0) N chunks
    hmi i hi hmv hst beams size hsize
    fun p hp => pairGood_preview w M chunks _ rfl p fun b hb => by
      rcases hm p hp with rfl | ⟨a, _, _, _, h4⟩
      · rcases hb with hb | hb <;> cases hb
      · exact (h4 b hb).1
  refine ⟨_, _, h1, h2, mapsOf_proj ?_, ?_⟩
  · simp only [List.map_flatMap]
    apply flatMap_congr'
    intro p _
    unfold missionObs
    simp only [List.map_flatMap]
    apply flatMap_congr'
    intro t _
    exact pairObs_blank M w.x w.q w.varphi w.nsideOut o.ctalk _ _ p t
  · intro c hc
    unfold mapsOf at hc
    obtain ⟨p, _, rfl⟩ := List.mem_map.1 hc
    rw [cellAt_vec, vec_zero]
    intro ob hob
    obtain ⟨p, _, hob⟩ := List.mem_flatMap.1 hob
    obtain ⟨t, _, hob⟩ := List.mem_flatMap.1 hob
    exact pairObs_zero hob

/-! ## C98: a whole scan recovers the sky -/

/-- C98 for any motion of instrument and plate. -/
theorem recovery_of_moves (Y : Harmonics) (hY : Conjugation Y) (w : World E) (hx : ExtOk w.x)
    (hq : PixOk w.q) (hs : SolveOk w.q) (iau : Bool) (hxq : Agree w.x w.q iau) (hns : 0 < w.nsideOut)
    (M : Motion) (o : Opts) (hbin : o.binning = true) (hpre : o.preview = false)
    (hgr : o.ground = false) (hre : o.reuseSpinmaps = false) (hint : o.interp = false)
    (hct : o.ctalk = 0) (N : Nat) (chunks : List Chunk) (hmi : Mission N chunks)
    (i : Inst E) (hi : Ready w chunks i) (hmv : Moves w.fsamp M i.rot i.hwp chunks)
    (hst : Steady w M chunks i.el) (hbore : ∀ t, t < N → IsRot (M.bore t))
    {Ls L : Nat} {alm : List (List ℂ)} {a b : Nat → Nat → Nat → ℂ} {maxSpin : Int}
    {inputV beamV : Bool} (ha : RealSky Ls a) (hb : RealBeam L b) (err : ℝ)
    (data : BinBeam → BeamData) (beams : List Pair)
    (hideal : ∀ p ∈ beams, IdealPair w Y Ls L alm a b maxSpin inputV beamV err data p)
    (size : Nat) (hsize : 0 < size) (fill : ℝ) :
    ∃ m, scanAll w o beams true size i = .ok m ∧ ∀ p, p < 12 * w.nsideOut ^ 2 →
      (ThreeAngles (here p (seenBy M w N beams)) →
        (solveForMap w.q m fill)[p]? = some (stokes iau
          (smoothI Y w.nsideOut (min Ls L) (skyOf inputV a) (beamOf beamV b) p)
          (smoothP Y w.nsideOut (min Ls L) (skyOf inputV a) (beamOf beamV b) p *
            Complex.exp (2 * ((err + 2 * w.varphi) * Real.pi / 180 : ℝ) * Complex.I)))) ∧
      (here p (seenBy M w N beams) = [] →
        (solveForMap w.q m fill)[p]? = some fun _ => fill) := by
  have hmaps : ∀ p : Pair, ∃ sm, p ∈ beams → MapsOk w w.nsideOut sm p ∧ (p = (none, none) ∨ ∃ s, 0 ≤ s ∧
      sm.main = dictSpec Y w.nsideOut (min Ls L) a b s true none inputV beamV) := by
    intro p
    by_cases hp : p ∈ beams
    · obtain ⟨sm, h⟩ := ideal_maps w hns Y (hideal p hp)
      exact ⟨sm, fun _ => h⟩
    · exact ⟨⟨[], none, []⟩, fun h => (hp h).elim⟩
  choose sm hsm using hmaps
  obtain ⟨m, h1, hH⟩ := maps_of_moves w hx hq hns M o hbin hpre hgr hre N chunks hmi i hi hmv hst
    beams w.nsideOut sm (fun p hp => (hsm p hp).1) size hsize
  refine ⟨m, h1, ?_⟩
  let X : Nat → Fin 3 → ℝ := fun p => stokes iau
    (smoothI Y w.nsideOut (min Ls L) (skyOf inputV a) (beamOf beamV b) p)
    (smoothP Y w.nsideOut (min Ls L) (skyOf inputV a) (beamOf beamV b) p *
      Complex.exp (2 * ((err + 2 * w.varphi) * Real.pi / 180 : ℝ) * Complex.I))
  rw [hct, hint] at hH
  generalize hos : (beams.flatMap fun p => (List.range N).flatMap
    (pairObs M w.x w.q w.varphi w.nsideOut 0 (detects M w.x false w.nsideOut (sm p)) p)) = os at hH
  have h2 : os.map blank = (seenBy M w N beams).map blank := by
    rw [← hos]
    unfold seenBy
    simp only [List.map_flatMap]
    apply flatMap_congr'
    intro p _
    apply flatMap_congr'
    intro t _
    exact pairObs_blank M w.x w.q w.varphi w.nsideOut 0 _ _ p t
  have h3 : ∀ ob ∈ os, ob.c ^ 2 + ob.s ^ 2 = 1 ∧
      ob.d = X ob.pix.toNat 0 + ob.c * X ob.pix.toNat 1 + ob.s * X ob.pix.toNat 2 := by
    intro ob hob
    rw [← hos] at hob
    obtain ⟨p, hp, hob⟩ := List.mem_flatMap.1 hob
    obtain ⟨t, ht, hob⟩ := List.mem_flatMap.1 hob
    obtain ⟨e, d, he, rfl, hd⟩ := obs_cases hob
    have hd : d = detects M w.x false w.nsideOut (sm p) e t := by
      rcases hd with hd | ⟨_, _, hd⟩
      · exact hd
      · rw [hd]
        ring
    obtain ⟨k1, k2⟩ := hsm p hp
    rcases hideal p hp with rfl | ⟨d0, g1, g2, g3, g4, g5, g6⟩
    · rcases he with he | he <;> cases he
    obtain ⟨q1, q2, q3, q4⟩ := g6 e he
    rcases k2 with rfl | ⟨s, k2, k3⟩
    · cases g1
    refine ideal_sample Y hY w.x hx w.q iau hxq k2 ha hb w.nsideOut hns err w.varphi M e t
      (hbore t (List.mem_range.1 ht)) q4 q3 d ?_
    rw [hd]
    unfold detects
    rw [q1, k3]
    simp
  intro p hp
  obtain ⟨c, hc⟩ : ∃ c, m[p]? = some c :=
    ⟨_, List.getElem?_eq_getElem (by rw [hH.npix]; exact hp)⟩
  obtain ⟨c1, c2⟩ := hH.cells p c hc
  have hth : ThreeAngles (here p (seenBy M w N beams)) ↔ ThreeAngles (here p os) := by
    rw [← three_blank, ← here_blank, ← h2, here_blank, three_blank]
  have hem : here p (seenBy M w N beams) = [] ↔ here p os = [] := by
    rw [← List.map_eq_nil_iff (f := blank), ← here_blank, ← h2, here_blank, List.map_eq_nil_iff]
  rw [hth, hem]
  unfold solveForMap
  rw [List.getElem?_map, hc, Option.map_some]
  constructor
  · intro h3a
    have hd := (C88_regular hH (fun o ho => (h3 o ho).1) hc).2 h3a
    congr 1
    apply solve_unique w.q hs _ _ _ (X p) (hits_ne c2 hd) hd
    rw [c1, c2]
    exact vec_proj os X p fun o ho => (h3 o ho).2
  · intro he
    congr 1
    apply hs.empty
    rw [C88_hits hH hc, he]
    simp

/-- **C98.** Pairs of ideal detectors that share a symmetric beam scan a sky, on any number of ranks,
with any chunks, boresight rotation and stepping or fixed HWP.  In every pixel seen under three angles
the solution of the reduced maps is the sky seen through the beam, exactly (the polarization rotated by
`2 (err + 2 varphi)` for detector angles wrong by `err` and an HWP phase `varphi`); pixels not seen are
filled. -/
theorem C98_recovery (Y : Harmonics) (hY : Conjugation Y) (w : World E) (hx : ExtOk w.x)
    (hq : PixOk w.q) (hs : SolveOk w.q) (iau : Bool) (hxq : Agree w.x w.q iau) (hns : 0 < w.nsideOut)
    (M : Motion) (o : Opts) (hbin : o.binning = true) (hpre : o.preview = false)
    (hgr : o.ground = false) (hre : o.reuseSpinmaps = false) (hint : o.interp = false)
    (hct : o.ctalk = 0) (N : Nat) (chunks : List Chunk) (hmi : Mission N chunks)
    (hang : ∀ c ∈ chunks, c.hwpang = none) (i : Inst E) (hi : Ready w chunks i)
    (hrot : Rotates N chunks i.rot M.rot) (hhwp : Plate w.fsamp N i.hwp M.alpha)
    (hst : Steady w M chunks i.el) (hbore : ∀ t, t < N → IsRot (M.bore t))
    {Ls L : Nat} {alm : List (List ℂ)} {a b : Nat → Nat → Nat → ℂ} {maxSpin : Int}
    {inputV beamV : Bool} (ha : RealSky Ls a) (hb : RealBeam L b) (err : ℝ)
    (data : BinBeam → BeamData) (beams : List Pair)
    (hideal : ∀ p ∈ beams, IdealPair w Y Ls L alm a b maxSpin inputV beamV err data p)
    (size : Nat) (hsize : 0 < size) (fill : ℝ) :
    ∃ m, scanAll w o beams true size i = .ok m ∧ ∀ p, p < 12 * w.nsideOut ^ 2 →
      (ThreeAngles (here p (seenBy M w N beams)) →
        (solveForMap w.q m fill)[p]? = some (stokes iau
          (smoothI Y w.nsideOut (min Ls L) (skyOf inputV a) (beamOf beamV b) p)
          (smoothP Y w.nsideOut (min Ls L) (skyOf inputV a) (beamOf beamV b) p *
            Complex.exp (2 * ((err + 2 * w.varphi) * Real.pi / 180 : ℝ) * Complex.I)))) ∧
      (here p (seenBy M w N beams) = [] →
        (solveForMap w.q m fill)[p]? = some fun _ => fill) :=
  recovery_of_moves Y hY w hx hq hs iau hxq hns M o hbin hpre hgr hre hint hct N chunks hmi i hi
    (moves_spec w.fsamp M N chunks hmi hang i.rot i.hwp hrot hhwp) hst hbore
    ha hb err data beams hideal size hsize fill

/-- **C98 (chunk angles).** The same with a static plate and chunks with their own plate angles. -/
theorem C98_recovery_static (Y : Harmonics) (hY : Conjugation Y) (w : World E) (hx : ExtOk w.x)
    (hq : PixOk w.q) (hs : SolveOk w.q) (iau : Bool) (hxq : Agree w.x w.q iau) (hns : 0 < w.nsideOut)
    (M : Motion) (o : Opts) (hbin : o.binning = true) (hpre : o.preview = false)
    (hgr : o.ground = false) (hre : o.reuseSpinmaps = false) (hint : o.interp = false)
    (hct : o.ctalk = 0) (N : Nat) (chunks : List Chunk) (hmi : Mission N chunks)
    (hang : ∀ c ∈ chunks, c.hwpang ≠ some 0) (i : Inst E) (hi : Ready w chunks i)
    (hrot : i.rot.period = false) (hhwp : i.hwp.freq = 0 ∨ i.hwp.mode = .none)
    (hM : ∀ c ∈ chunks, ∀ t : Nat, c.start ≤ t → (t : Int) < c.stop → M.rot t = i.rot.angle ∧
      M.alpha t = ((c.hwpang.map fun (a : ℚ) => (a : ℝ)).getD i.hwp.dict.angle) * (Real.pi / 180))
    (hst : Steady w M chunks i.el) (hbore : ∀ t, t < N → IsRot (M.bore t))
    {Ls L : Nat} {alm : List (List ℂ)} {a b : Nat → Nat → Nat → ℂ} {maxSpin : Int}
    {inputV beamV : Bool} (ha : RealSky Ls a) (hb : RealBeam L b) (err : ℝ)
    (data : BinBeam → BeamData) (beams : List Pair)
    (hideal : ∀ p ∈ beams, IdealPair w Y Ls L alm a b maxSpin inputV beamV err data p)
    (size : Nat) (hsize : 0 < size) (fill : ℝ) :
    ∃ m, scanAll w o beams true size i = .ok m ∧ ∀ p, p < 12 * w.nsideOut ^ 2 →
      (ThreeAngles (here p (seenBy M w N beams)) →
        (solveForMap w.q m fill)[p]? = some (stokes iau
          (smoothI Y w.nsideOut (min Ls L) (skyOf inputV a) (beamOf beamV b) p)
          (smoothP Y w.nsideOut (min Ls L) (skyOf inputV a) (beamOf beamV b) p *
            Complex.exp (2 * ((err + 2 * w.varphi) * Real.pi / 180 : ℝ) * Complex.I)))) ∧
      (here p (seenBy M w N beams) = [] →
        (solveForMap w.q m fill)[p]? = some fun _ => fill) :=
  recovery_of_moves Y hY w hx hq hs iau hxq hns M o hbin hpre hgr hre hint hct N chunks hmi i hi
    (moves_static w.fsamp M i.rot hrot i.hwp hhwp chunks hang hM) hst hbore
    ha hb err data beams hideal size hsize fill

/-- **C98 (turning plate).** The same with a continuously turning plate, although its angle lags
behind (C13): the lag is the same in scanning and binning. -/
theorem C98_recovery_turning (Y : Harmonics) (hY : Conjugation Y) (w : World E) (hx : ExtOk w.x)
    (hq : PixOk w.q) (hs : SolveOk w.q) (iau : Bool) (hxq : Agree w.x w.q iau) (hns : 0 < w.nsideOut)
    (o : Opts) (hbin : o.binning = true) (hpre : o.preview = false)
    (hgr : o.ground = false) (hre : o.reuseSpinmaps = false) (hint : o.interp = false)
    (hct : o.ctalk = 0) (N : Nat) (chunks : List Chunk) (hmi : Mission N chunks)
    (hang : ∀ c ∈ chunks, c.hwpang = none) (i : Inst E) (hi : Ready w chunks i) (rot : Nat → ℝ)
    (hrot : Rotates N chunks i.rot rot) (hfs : w.fsamp ≠ 0) (freq startAng varphi : ℝ) (hf : freq ≠ 0)
    (angles : Option (List ℝ))
    (hhwp : Hwp.setHwpMod w.fsamp .continuous freq startAng angles varphi = .ok i.hwp) :
    ∃ (cuts : List (Int × Int)) (alpha : Nat → ℝ), Tiles 0 N cuts ∧
      (i.rot.period = false → cuts = chunks.map fun c => (c.start, c.stop)) ∧
      (∀ (j : Nat) c, cuts[j]? = some c → ∀ t : Nat, c.1 ≤ t → (t : Int) < c.2 → ∃ z : ℤ,
        alpha t = (startAng + 360 * freq / w.fsamp * ((t : ℝ) - j)) * (Real.pi / 180) +
          2 * Real.pi * z) ∧
      ∀ M : Motion, M.rot = rot → M.alpha = alpha → Steady w M chunks i.el →
        (∀ t, t < N → IsRot (M.bore t)) →
        ∀ {Ls L : Nat} {alm : List (List ℂ)} {a b : Nat → Nat → Nat → ℂ} {maxSpin : Int}
          {inputV beamV : Bool}, RealSky Ls a → RealBeam L b → ∀ (err : ℝ)
          (data : BinBeam → BeamData) (beams : List Pair),
          (∀ p ∈ beams, IdealPair w Y Ls L alm a b maxSpin inputV beamV err data p) →
          ∀ size : Nat, 0 < size → ∀ fill : ℝ,
          ∃ m, scanAll w o beams true size i = .ok m ∧ ∀ p, p < 12 * w.nsideOut ^ 2 →
            (ThreeAngles (here p (seenBy M w N beams)) →
              (solveForMap w.q m fill)[p]? = some (stokes iau
                (smoothI Y w.nsideOut (min Ls L) (skyOf inputV a) (beamOf beamV b) p)
                (smoothP Y w.nsideOut (min Ls L) (skyOf inputV a) (beamOf beamV b) p *
                  Complex.exp (2 * ((err + 2 * w.varphi) * Real.pi / 180 : ℝ) * Complex.I)))) ∧
            (here p (seenBy M w N beams) = [] →
              (solveForMap w.q m fill)[p]? = some fun _ => fill) := by
  obtain ⟨cuts, alpha, h1, h2, h3, h4⟩ := moves_turning w.fsamp N chunks hmi hang i.rot i.hwp rot hrot
    hfs freq startAng varphi hf angles hhwp
  exact ⟨cuts, alpha, h1, h2, h3, fun M hM1 hM2 hst hbore Ls L alm a b maxSpin inputV beamV ha hb err
    data beams hideal size hsize fill => recovery_of_moves Y hY w hx hq hs iau hxq hns M o hbin hpre
      hgr hre hint hct N chunks hmi i hi (h4 M hM1 hM2) hst hbore ha hb err data beams hideal size
      hsize fill⟩

/-! ## C99: repeated scans, and what goes wrong -/

/-- **C99.** A second scan, after `reset_instr_rot`, `reset_hwp_mod`, `reset_el_steps` and
`allocate_maps`, gives the maps of the first one, on every rank.  Missing: scans without the resets
(`C99_again_violation`) and after a scan with ground (`C99_ground_violation`). -/
theorem C99_again_partial (w : World E) (hx : ExtOk w.x) (hq : PixOk w.q) (hns : 0 < w.nsideOut) (M : Motion)
    (o : Opts) (hbin : o.binning = true) (hpre : o.preview = false) (hgr : o.ground = false)
    (hre : o.reuseSpinmaps = false) (N : Nat) (chunks : List Chunk) (hmi : Mission N chunks)
    (hang : ∀ c ∈ chunks, c.hwpang = none) (i : Inst E) (hi : Ready w chunks i)
    (hrot : Rotates N chunks i.rot M.rot) (hhwp : Plate w.fsamp N i.hwp M.alpha)
    (hst : Repeats w M chunks i.el) (beams : List Pair) (hb : beams ≠ []) (nside : Nat)
    (sm : Pair → Spinmaps SpinDict) (hm : ∀ p ∈ beams, MapsOk w nside (sm p) p)
    (size rank : Nat) (hrank : rank < size) :
    ∃ i' i'' j, scanInstrument w o beams true size rank i = .ok i' ∧ resetAll w i' = .ok i'' ∧
      scanInstrument w o beams true size rank { i'' with maps := allocateMaps w.nsideOut } = .ok j ∧
      j.maps = i'.maps := by
  obtain ⟨os, h⟩ := rank_spec w hq hns M o hbin hgr (fun p => detects M w.x o.interp nside (sm p)) N
    chunks hmi i.rot i.hwp (moves_spec w.fsamp M N chunks hmi hang i.rot i.hwp hrot hhwp) beams hb size
    rank hrank fun p hp => pairGood_scan w hx M chunks o hpre hre nside (sm p) p (hm p hp)
  obtain ⟨i', i'', h1, h2, h3, h4, h5, h6, h7⟩ := h i hi rfl rfl hst
  obtain ⟨j, _, g1, g2, _⟩ := h { i'' with maps := allocateMaps w.nsideOut }
    ⟨h6.trans hi.chunks, rfl, by rw [h4]; exact hi.rot, by rw [h4]; exact hi.period,
      by rw [h5]; exact hi.hwp⟩ h4 h5 h7
  exact ⟨i', i'', j, h1, h3, g1, g2.trans h2.symm⟩

/-- **C99 (violation).** Without these resets a second scan goes on where the first one stopped: with
boresight angles 10 and 20 deg, for one sample each, the only sample of the mission is scanned at
10 deg the first time and at 20 deg the second time. -/
theorem C99_again_violation (w : World E) (o : Opts) (hgr : o.ground = false) (i : Inst E)
    (hr : i.rot = setInstrRot 1 0 [10, 20])
    (hc : i.chunks = [({ start := 0, stop := 1, cidx := some 0 }, false)])
    (himp : ∀ e c g p, ∃ r, w.implement e c g p = .ok r) (hh : i.hwp.freq = 0) :
    ∃ i' i'', scanPass w o true (none, none) i = .ok i' ∧ scanPass w o true (none, none) i' = .ok i'' ∧
      i'.st.rotAngle = 10 ∧ i''.st.rotAngle = 20 := by
  have hone : ∀ j : Inst E, j.chunks = i.chunks → j.hwp = i.hwp → ∀ s r1 r2,
      subpartChunk j.rot { start := 0, stop := 1, cidx := some 0 } = .ok ([s], r1) →
      s.cidx = some 0 → rotStep r1 s = .ok r2 →
      ∃ j', scanPass w o true (none, none) j = .ok j' ∧ j'.chunks = i.chunks ∧ j'.hwp = i.hwp ∧
        j'.rot = r2 ∧ j'.st.rotAngle = r2.angle := by
    intro j hj1 hj2 s r1 r2 hs hx hr'
    obtain ⟨⟨pt, el⟩, himp⟩ := himp j.el { start := 0, stop := 1, cidx := some 0 } false false
    have hhw : ∃ a, Hwp.rotateHwp Real.pi w.fsamp j.hwp (s.hwpang.map fun (a : ℚ) => (a : ℝ)) s.start
        s.stop = .ok (a, j.hwp) := by
      unfold Hwp.rotateHwp
      rw [if_pos (.inl (by rw [hj2]; exact hh))]
      rcases (s.hwpang.map fun (a : ℚ) => (a : ℝ)) with _ | a
      · exact ⟨_, rfl⟩
      · by_cases h0 : a = 0
        · exact ⟨_, by dsimp only; rw [if_neg (by simpa using h0)]⟩
        · exact ⟨_, by dsimp only; rw [if_pos h0]⟩
    obtain ⟨a, hhw⟩ := hhw
    refine ⟨{ j with rot := r2, el := el, flag := pt.flag, st := { j.st with
      ctime := pt.ctime, qBore := pt.bore, qGround := pt.ground, rotAngle := r2.angle,
      hwpAng := newAng a j.st.hwpAng } }, ?_, hj1, hj2, rfl, rfl⟩
    show (if j.chunks.all fun c => c.1.cidx.isSome then
      (List.range j.chunks.length).foldlM (stepChunk w o (none, none) true) j
      else .error .keyError) = _
    have hlen : j.chunks.length = 1 := by rw [hj1, hc]; rfl
    have hall : (j.chunks.all fun c => c.1.cidx.isSome) = true := by rw [hj1, hc]; rfl
    rw [hlen, if_pos hall]
    show ((stepChunk w o (none, none) true j 0).bind fun j => Except.ok j) = _
    have hstep : stepSub w o (none, none) (if j.rot.period then false else false) s
        { j with rot := r1, el := el, flag := pt.flag, st := { j.st with
          ctime := pt.ctime, qBore := pt.bore, qGround := pt.ground } } =
        .ok { j with rot := r2, el := el, flag := pt.flag, st := { j.st with
          ctime := pt.ctime, qBore := pt.bore, qGround := pt.ground, rotAngle := r2.angle,
          hwpAng := newAng a j.st.hwpAng } } := by
      unfold stepSub
      simp only [bind, Except.bind, pure, Except.pure]
      rw [hr']
      dsimp only
      rw [hhw]
      dsimp only
      unfold cidxOf
      rw [hx]
      rfl
    have : stepChunk w o (none, none) true j 0 = .ok { j with rot := r2, el := el, flag := pt.flag, st := { j.st with
          ctime := pt.ctime, qBore := pt.bore, qGround := pt.ground, rotAngle := r2.angle,
          hwpAng := newAng a j.st.hwpAng } } := by
      unfold stepChunk
      have hget : pyGet j.chunks ((0 : Nat) : Int) =
          .ok ({ start := 0, stop := 1, cidx := some 0 }, false) := by
        rw [hj1, hc]
        rfl
      rw [hget]
      simp only [bind, Except.bind]
      simp only [hgr, Bool.or_false, Bool.false_eq_true, false_and, if_false, Bool.not_true]
      rw [himp]
      dsimp only
      rw [hs]
      dsimp only
      rw [List.foldlM_cons, hstep]
      rfl
    rw [this]
    rfl
  have hs1 : subpartChunk i.rot { start := 0, stop := 1, cidx := some 0 } =
      .ok ([{ start := 0, stop := 1, cidx := some 0 }], i.rot) := by
    rw [hr]
    rfl
  have hs2 : rotStep i.rot { start := 0, stop := 1, cidx := some 0 } =
      .ok { i.rot with angle := 10, gen := ⟨[10, 20], 1⟩ } := by
    rw [hr]
    rfl
  obtain ⟨i', a1, a2, a3, a4, a5⟩ := hone i rfl rfl _ _ _ hs1 rfl hs2
  have hs3 : subpartChunk i'.rot { start := 0, stop := 1, cidx := some 0 } =
      .ok ([{ start := 0, stop := 1, cidx := some 0 }], i'.rot) := by
    rw [a4, hr]
    rfl
  have hs4 : rotStep i'.rot { start := 0, stop := 1, cidx := some 0 } =
      .ok { i'.rot with angle := 20, gen := ⟨[10, 20], 0⟩ } := by
    rw [a4, hr]
    rfl
  obtain ⟨i'', b1, b2, b3, b4, b5⟩ := hone i' a2 a3 _ _ _ hs3 rfl hs4
  exact ⟨i', i'', a1, b1, a5, b5⟩

/-- **C99 (violation).** A pair without first detector cannot be scanned. -/
theorem C99_unpaired_violation (w : World E) (o : Opts) (hpre : o.preview = false) (b : BinBeam)
    (i : Inst E) (hi : (i.hasMaps && o.reuseSpinmaps) = false) :
    scanPass w o true (none, some b) i = .error .attributeError := by
  unfold scanPass
  have : initPair w o (none, some b) i = .error .attributeError := by
    unfold initPair
    simp [hpre, hi]
  rw [if_pos rfl]
  show (initPair w o (none, some b) i).bind _ = _
  rw [this]
  rfl

/-- **C99 (violation).** The beam of the second detector of a pair has no effect: only spin maps of
first detectors are made and used. -/
theorem C99_second_beam_violation (w : World E) (o : Opts) (beams : List Pair) (scatter : Bool)
    (size : Nat) (i : Inst E) (maps' : BinBeam → PyM (Spinmaps SpinDict))
    (h : ∀ p ∈ beams, ∀ a, p.1 = some a → maps' a = w.spinmaps a) :
    scanAll { w with spinmaps := maps' } o beams scatter size i = scanAll w o beams scatter size i := by
  have hpass : ∀ (first : Bool) (p : Pair), (p = (none, none) ∨ p ∈ beams) → ∀ i : Inst E,
      scanPass { w with spinmaps := maps' } o first p i = scanPass w o first p i := by
    intro first p hp i
    have hin : ∀ i : Inst E, initPair { w with spinmaps := maps' } o p i = initPair w o p i := by
      intro i
      rcases hp with rfl | hp
      · rfl
      · obtain ⟨a, b⟩ := p
        unfold initPair
        rcases a with _ | a
        · rcases b with _ | b <;> rfl
        · have := h _ hp a rfl
          simp only [this]
    unfold scanPass
    simp only [hin]
    rfl
  have hloop : ∀ (ps : List (Option Pair)), (∀ p ∈ ps.filterMap id, p ∈ beams) →
      ∀ (first : Bool) (i : Inst E),
      scanLoop { w with spinmaps := maps' } o first ps i = scanLoop w o first ps i := by
    intro ps
    induction ps with
    | nil => intros; rfl
    | cons p ps ih =>
      intro hp first i
      unfold scanLoop
      rw [hpass first _ (by
        cases p with
        | none => exact .inl rfl
        | some p => exact .inr (hp p (by simp))) i]
      congr 1
      funext i
      exact ih (fun q hq => hp q (by
        cases p with
        | none => simpa using hq
        | some p => exact List.mem_cons_of_mem _ (by simpa using hq))) false i
  unfold scanAll
  congr 1
  have hr : ∀ r, r < size → scanInstrument { w with spinmaps := maps' } o beams scatter size r i =
      scanInstrument w o beams scatter size r i := by
    intro r hr
    unfold scanInstrument Mpi.scanPasses
    have hl : ∃ loc, Mpi.localBeams beams scatter size r = .ok loc ∧ ∀ p ∈ loc, p ∈ beams := by
      unfold Mpi.localBeams
      split
      · refine ⟨_, Mpi.scatterList_eq _ _ _ hr, ?_⟩
        intro p hp
        exact List.mem_of_mem_take (List.mem_of_mem_drop hp)
      · exact ⟨_, rfl, fun p hp => hp⟩
    obtain ⟨loc, h1, h2⟩ := hl
    rw [h1]
    apply hloop
    intro p hp
    simp only [Mpi.passes, List.mem_filterMap, List.mem_map, id_eq, exists_eq_right] at hp
    obtain ⟨k, _, hk⟩ := hp
    exact h2 p (List.mem_of_getElem? hk)
  have hlist : ∀ l : List Nat, (∀ r ∈ l, r < size) →
      l.mapM (fun r => scanInstrument { w with spinmaps := maps' } o beams scatter size r i) =
      l.mapM (fun r => scanInstrument w o beams scatter size r i) := by
    intro l
    induction l with
    | nil => intro; rfl
    | cons r l ih =>
      intro hl
      rw [List.mapM_cons, List.mapM_cons, hr r (hl r List.mem_cons_self),
        ih fun r hr => hl r (List.mem_cons_of_mem _ hr)]
  exact hlist _ fun r hr => List.mem_range.1 hr

/-- **C99 (violation).** After a scan with a ground, without boresight rotation, the chunks keep the
mark of the ground. -/
theorem C99_ground_stays (w : World E) (o : Opts) (hgr : o.ground = true) (first : Bool) (p : Pair)
    (i i' : Inst E) (hr : i.rot.period = false) (h : scanPass w o first p i = .ok i') :
    i'.chunks = i.chunks.map fun c => (c.1, true) := by
  obtain ⟨i0, i1, h1, h2, h3, h4⟩ := pass_ok h
  obtain ⟨k1, k2⟩ := initPair_keeps h3
  have hmain : ∀ (n k : Nat) (j j' : Inst E), j.rot.period = false → k + n = j.chunks.length →
      (List.range' k n).foldlM (stepChunk w o p first) j = .ok j' →
      j'.chunks = j.chunks.take k ++ (j.chunks.drop k).map fun c => (c.1, true) := by
    intro n
    induction n with
    | zero =>
      intro k j j' _ hk h
      rw [List.range'_zero, List.foldlM_nil] at h
      rw [← Except.ok.inj h]
      rw [List.take_of_length_le (by omega), List.drop_of_length_le (by omega)]
      simp
    | succ n ih =>
      intro k j j' hp hk h
      rw [List.range'_succ, List.foldlM_cons] at h
      obtain ⟨j1, g1, g2⟩ := bind_ok h
      obtain ⟨q1, c, q2, q3⟩ := stepChunk_ground hgr hp g1
      have := ih (k + 1) j1 j' q1 (by rw [q3, List.length_set]; omega) g2
      rw [this, q3]
      have hlt : k < j.chunks.length := by omega
      have hck : j.chunks[k] = c := by
        rw [List.getElem?_eq_getElem hlt] at q2
        exact Option.some.inj q2
      rw [List.drop_set_of_lt (by omega), List.drop_eq_getElem_cons hlt, List.map_cons, hck,
        List.take_set, List.take_add_one, q2]
      simp [List.set_append, hlt, Nat.min_eq_left hlt.le]
  have := hmain i1.chunks.length 0 i1 i' (by rw [k2, h2, hr]) (by omega)
    (by rw [← List.range_eq_range']; exact h4)
  rw [this, k1, h1]
  simp

/-- **C99 (violation).** A later scan of such chunks without a ground fails, for every live detector:
there are no maps of the ground. -/
theorem C99_ground_violation (w : World E) (o : Opts) (hgr : o.ground = false)
    (hpre : o.preview = false) (hre : o.reuseSpinmaps = false) (first : Bool) (a : BinBeam)
    (b : Option BinBeam) (ha : a.beam.dead = false) (hm : ∀ sm, w.spinmaps a = .ok sm → sm.ground = none)
    (i : Inst E) (hr : i.rot.period = false) (hc : i.chunks ≠ []) (hg : ∀ c ∈ i.chunks, c.2 = true)
    (i' : Inst E) : scanPass w o first (some a, b) i ≠ .ok i' := by
  intro h
  obtain ⟨i0, i1, h1, h2, h3, h4⟩ := pass_ok h
  obtain ⟨k1, k2⟩ := initPair_keeps h3
  have hsm : i1.st.maps.ground.getD [] = [] := by
    unfold initPair at h3
    simp only [hpre, hre, Bool.and_false, Bool.false_eq_true, if_false] at h3
    obtain ⟨sm, e1, e2⟩ := bind_ok h3
    rw [← Except.ok.inj e2]
    dsimp only
    rw [hm sm e1]
    rfl
  rcases hch : i1.chunks with _ | ⟨c, cs⟩
  · exact hc (by rw [← h1, ← k1, hch])
  rw [hch, List.length_cons, List.range_succ_eq_map, List.foldlM_cons] at h4
  obtain ⟨j, h5, _⟩ := bind_ok h4
  have hcg : c.2 = true := hg c (by rw [← h1, ← k1, hch]; exact List.mem_cons_self)
  have hp : i1.rot.period = false := by rw [k2, h2, hr]
  unfold stepChunk at h5
  obtain ⟨⟨c', g⟩, e1, h5⟩ := bind_ok h5
  have : (c', g) = c := by
    rw [hch] at e1
    exact (Except.ok.inj e1).symm
  obtain ⟨⟨pt, el⟩, _, h5⟩ := bind_ok h5
  obtain ⟨⟨subs, rot⟩, e2, h5⟩ := bind_ok h5
  obtain ⟨rfl, rfl⟩ := subpart_fixed hp e2
  have hgg : g = true := by rw [← this] at hcg; exact hcg
  dsimp only at h5
  rw [List.foldlM_cons] at h5
  obtain ⟨j', h5, _⟩ := bind_ok h5
  unfold stepSub at h5
  obtain ⟨r, _, h5⟩ := bind_ok h5
  obtain ⟨⟨an, hw⟩, _, h5⟩ := bind_ok h5
  obtain ⟨cx, _, h5⟩ := bind_ok h5
  obtain ⟨⟨st, mp⟩, h5, _⟩ := bind_ok h5
  simp only [hp, hgg, Bool.true_or, Bool.false_eq_true, if_false] at h5
  have hno : ∀ (mission : List Chunk) (s : Sub) (st st' : State), st.maps = i1.st.maps →
      scanOne w.x mission o a s true st ≠ .ok st' := by
    intro mission s st st' hst e
    unfold scanOne at e
    rw [hpre] at e
    simp only [Bool.false_eq_true, if_false] at e
    obtain ⟨q, e, _⟩ := bind_ok e
    exact detector_ground (by rw [hst]; exact hsm) _ e
  have hone : ∀ (mission : List Chunk) (flag : Option (List Bool)) (s : Sub) (st : State) (maps : Maps) q,
      st.maps = i1.st.maps → scanBinOne w mission o flag s true a st maps ≠ .ok q := by
    intro mission flag s st maps q hst e
    unfold scanBinOne at e
    obtain ⟨q, e, _⟩ := bind_ok e
    exact hno _ _ _ _ hst e
  have hla : live (some a) = some a := by
    unfold live
    simp [ha]
  unfold scanPair at h5
  dsimp only at h5
  rw [hla] at h5
  rcases hlb : live b with _ | b'
  · rw [hlb] at h5
    exact hone _ _ _ _ _ _ (by rfl) h5
  · rw [hlb] at h5
    dsimp only at h5
    split at h5
    · unfold scanMix at h5
      obtain ⟨q, e, _⟩ := bind_ok h5
      exact hno _ _ _ _ (by rfl) e
    · obtain ⟨q, e, _⟩ := bind_ok h5
      exact hone _ _ _ _ _ _ (by rfl) e

/-! ## The hypotheses are met -/

namespace Whole

open Rec

/-- Three samples in two chunks, always in the same direction. -/
def chunks : List Chunk := [{ start := 0, stop := 2, cidx := some 0 },
  { start := 2, stop := 3, cidx := some 1 }]

def w : World Unit where
  x := ext
  q := qp
  varphi := 0
  nsideOut := 1
  fsamp := 1
  implement := fun e c _ _ => .ok (⟨(List.range (c.stop - c.start).toNat).map fun k =>
      ((c.start.toNat + k : Nat) : ℝ), List.replicate (c.stop - c.start).toNat ![1, 0, 0, 0], none,
      none⟩, e)
  resetEl := .ok
  spinmaps := fun _ => initSpinmaps Conv.Y (Conv.rows 5 3 (Conv.coef 1)) none 4 1 false false det.data []

/-- A plate that steps through 0, 22.5 and 45 deg. -/
def hwp : Hwp.State ℝ := ⟨.stepped, 1, ⟨1, 0, 0⟩, 0, 0, [0, 45 / 2, 45], ⟨[0, 45 / 2, 45], 0⟩⟩

def rot : Rot ℝ := ⟨false, 0, 0, 0, 0, [], ⟨[], 0⟩⟩

def i : Inst Unit where
  rot := rot
  hwp := hwp
  el := ()
  st := { ctime := [], qBore := [], qGround := none, rotAngle := 0, hwpAng := none,
          maps := ⟨[], none, []⟩, tod := none }
  flag := none
  hasMaps := false
  chunks := chunks.map fun c => (c, false)
  maps := allocateMaps 1

def alpha (t : Nat) : ℝ := if t = 0 then 0 else if t = 1 then Real.pi / 8 else Real.pi / 4

def M : Motion where
  time := fun t => t
  bore := fun _ => ![1, 0, 0, 0]
  rot := fun _ => 0
  alpha := alpha
  flag := fun _ => false

def o : Opts := ⟨true, false, false, 0, false, false⟩

/-- One detector, and a place without detectors. -/
def beams : List Pair := [(some ⟨det.point, [], 0⟩, none), (none, none)]

theorem mission_ok : Mission 3 chunks := by
  refine ⟨.cons (by decide) (.cons (by decide) (.nil _)), ?_⟩
  intro i c h
  rcases i with _ | _ | i
  · obtain rfl := Option.some.inj h
    rfl
  · obtain rfl := Option.some.inj h
    rfl
  · simp [chunks] at h

theorem ready : Ready w chunks i := ⟨rfl, rfl, rfl, .inl rfl, rfl⟩

theorem rotates : Rotates 3 chunks i.rot M.rot := .fixed rfl fun _ _ => rfl

theorem plate : Plate w.fsamp 3 i.hwp M.alpha := by
  have ht : Hwp.truncInt ((1 : ℝ) / 1) = ((1 : Nat) : Int) := by
    unfold Hwp.truncInt
    simp
  refine .stepped 1 one_pos 1 0 0 [0, 45 / 2, 45] one_ne_zero ht (by simp) ?_ ?_ ?_
  · intro a ha
    simp only [List.mem_cons, List.not_mem_nil, or_false] at ha
    rcases ha with rfl | rfl | rfl <;> norm_num
  · have ht' : Hwp.truncInt (w.fsamp / 1) = 1 := ht
    unfold Hwp.setHwpMod
    rw [if_neg (by simp), if_pos rfl, ht']
    rfl
  · intro t h
    interval_cases t
    · exact ⟨0, rfl, by show (0 : ℝ) = _; simp⟩
    · exact ⟨45 / 2, rfl, by show Real.pi / 8 = _; ring⟩
    · exact ⟨45, rfl, by show Real.pi / 4 = _; ring⟩

theorem points (pre : Bool) (c : Chunk) : ∃ p, w.implement () c false pre = .ok (p, ()) ∧
    PointsAt M c p := by
  refine ⟨_, rfl, rfl, ?_, fun _ _ => rfl⟩
  apply List.ext_getElem (by simp)
  intro k h1 h2
  simp [M]

theorem repeats : Repeats w M chunks i.el := by
  refine ⟨fun _ => True, trivial, fun first e _ => ⟨(), ?_, (), rfl, trivial⟩⟩
  obtain ⟨p, h1, h2⟩ := points (!first) { start := 0, stop := 2, cidx := some 0 }
  obtain ⟨p', h1', h2'⟩ := points (!first) { start := 2, stop := 3, cidx := some 1 }
  exact ⟨p, (), h1, h2, p', (), h1', h2', rfl⟩

theorem ideal : ∀ p ∈ beams, IdealPair w Conv.Y 5 6 (Conv.rows 5 3 (Conv.coef 1)) (Conv.coef 1)
    (Conv.bcoef 2) 4 false false 7 (fun _ => det.data) p := by
  intro p hp
  simp only [beams, List.mem_cons, List.not_mem_nil, or_false] at hp
  rcases hp with rfl | rfl
  · refine .inr ⟨_, rfl, rfl, ⟨Conv.rows_ok _ _ _, Conv.rows_ok _ _ _, by simp, by simp, by decide,
      by decide, by simp, by simp⟩, rfl, rfl, ?_⟩
    rintro e (h | h)
    · obtain rfl := Option.some.inj h
      exact ⟨rfl, rfl, by show (7 : ℝ) = 0 + 7; norm_num, one_rot⟩
    · cases h
  · exact .inl rfl

theorem seen_eq : (seenBy M w 3 beams).map (fun o => (o.pix, o.c, o.s)) =
    [(0, 1, 0), (0, 0, -1), (0, -1, 0)] := by
  have hq : ∀ t : Nat, (pairObs M w.x w.q w.varphi w.nsideOut 0 (fun _ _ => 0)
      (some ⟨det.point, [], 0⟩, none) t).map (fun o => (o.pix, o.c, o.s)) =
      [(0, Real.cos (4 * alpha t), -Real.sin (4 * alpha t))] := by
    intro t
    have ho : offset ext 0 det.point = ![1, 0, 0, 0] := by
      show Quat.quatLeftMult ![Real.cos (0 * Real.pi / 180 / 2), 0, 0,
        Real.sin (0 * Real.pi / 180 / 2)] ![1, 0, 0, 0] = _
      simp [Quat.quatLeftMult]
    have hz : zc (Quat.quatLeftMult ![1, 0, 0, 0] ![1, 0, 0, 0]) = 1 := by
      simp [zc, Quat.quatLeftMult]
    have e : 2 * ((-(2 * 0) * 180 / Real.pi + 0 + 2 * (alpha t * 180 / Real.pi - 0)) *
        Real.pi / 180) = 4 * alpha t := by
      have := Real.pi_ne_zero
      field_simp
      ring
    have hr : qp.quat2pix ![1, 0, 0, 0] (qp.hwpQuat (alpha t * 180 / Real.pi - 0))
        (binOff (offset ext 0 det.point) 0) (t : ℝ) 1 =
        (0, Real.cos (4 * alpha t), -Real.sin (4 * alpha t)) := by
      rw [ho, agree _ _ _ _ _ _ one_rot one_rot]
      show ((0 : Int), Real.cos (2 * ((-(2 * Complex.arg (zc _)) * 180 / Real.pi + 0 + 2 * _) *
        Real.pi / 180)), -1 * Real.sin (2 * ((-(2 * Complex.arg (zc _)) * 180 / Real.pi + 0 + 2 * _) *
        Real.pi / 180))) = _
      rw [hz, Complex.arg_one, e]
      simp
    show [(_, _, _)] = _
    exact congrArg (fun r => [r]) hr
  have hn : ∀ t : Nat, pairObs M w.x w.q w.varphi w.nsideOut 0 (fun _ _ => 0) (none, none) t = [] :=
    fun t => rfl
  have h3 : List.range 3 = [0, 1, 2] := rfl
  unfold seenBy beams
  simp only [List.flatMap_cons, List.flatMap_nil, h3, List.map_append, hq, hn, List.append_nil,
    List.map_nil]
  have a0 : alpha 0 = 0 := rfl
  have a1 : alpha 1 = Real.pi / 8 := rfl
  have a2 : alpha 2 = Real.pi / 4 := rfl
  have h1 : 4 * (Real.pi / 8) = Real.pi / 2 := by ring
  have h2 : 4 * (Real.pi / 4) = Real.pi := by ring
  rw [a0, a1, a2, h1, h2]
  simp

theorem three : ThreeAngles (here 0 (seenBy M w 3 beams)) := by
  have h := seen_eq
  generalize seenBy M w 3 beams = l at h
  rcases l with _ | ⟨a, _ | ⟨b, _ | ⟨c, _ | ⟨d, l⟩⟩⟩⟩ <;> simp at h
  obtain ⟨⟨a1, a2, a3⟩, ⟨b1, b2, b3⟩, ⟨c1, c2, c3⟩⟩ := h
  refine ⟨a, ?_, b, ?_, c, ?_, ?_, ?_, ?_⟩
  · simp [here, a1]
  · simp [here, a1, b1]
  · simp [here, a1, b1, c1]
  · rw [a2, b2]
    norm_num
  · rw [a2, c2]
    norm_num
  · rw [b2, c2]
    norm_num

theorem nowhere : here 5 (seenBy M w 3 beams) = [] := by
  have h := seen_eq
  generalize seenBy M w 3 beams = l at h
  rcases l with _ | ⟨a, _ | ⟨b, _ | ⟨c, _ | ⟨d, l⟩⟩⟩⟩ <;> simp at h
  obtain ⟨⟨a1, a2, a3⟩, ⟨b1, b2, b3⟩, ⟨c1, c2, c3⟩⟩ := h
  simp [here, a1, b1, c1]

/-- The hypotheses of `C98_recovery` are met, with two ranks: pixel 0 is solved and pixel 5 filled. -/
example (fill : ℝ) : ∃ m, scanAll w o beams true 2 i = .ok m ∧
    (solveForMap qp m fill)[0]? = some (stokes false
      (smoothI Conv.Y 1 5 (skyOf false (Conv.coef 1)) (beamOf false (Conv.bcoef 2)) 0)
      (smoothP Conv.Y 1 5 (skyOf false (Conv.coef 1)) (beamOf false (Conv.bcoef 2)) 0 *
        Complex.exp (2 * ((7 + 2 * 0) * Real.pi / 180 : ℝ) * Complex.I))) ∧
    (solveForMap qp m fill)[5]? = some fun _ => fill := by
  obtain ⟨m, h1, h2⟩ := C98_recovery Conv.Y Conv.Y_conj w ext_ok pix_ok solve_ok false agree one_pos M o
    rfl rfl rfl rfl rfl rfl 3 chunks mission_ok (by decide) i ready rotates plate repeats.steady
    (fun _ _ => one_rot) (Conv.coef_real 1 5) (Conv.bcoef_real 2 6) 7 (fun _ => det.data) beams ideal 2
    two_pos fill
  exact ⟨m, h1, (h2 0 (by decide)).1 three, (h2 5 (by decide)).2 nowhere⟩

/-- The hypotheses of `C96_maps`, `C96_ranks`, `C96_hits`, `C97_preview` and `C99_again_partial` are met. -/
example : ∃ sm : Pair → Spinmaps SpinDict, (∀ p ∈ beams, MapsOk w 1 (sm p) p) ∧
    Repeats w M chunks i.el ∧ beams ≠ [] := by
  classical
  choose sm h using fun p : {p // p ∈ beams} => ideal_maps w one_pos Conv.Y (ideal p.1 p.2)
  refine ⟨fun p => if hp : p ∈ beams then sm ⟨p, hp⟩ else ⟨[], none, []⟩, ?_, repeats, by simp [beams]⟩
  intro p hp
  dsimp only
  rw [dif_pos hp]
  exact (h ⟨p, hp⟩).1

/-- A schedule of boresight angles of two samples each, for `Rotates`. -/
example : ∃ rot, Rotates 3 chunks (setInstrRot 2 0 [10, 20]) rot ∧ rot 0 ≠ rot 2 :=
  ⟨fun t => if t < 2 then 10 else 20, .schedule 2 two_pos 0 [10, 20] (by simp) rfl (by decide) (by
    intro t ht
    interval_cases t <;> rfl), by norm_num⟩

/-- The hypothesis of `C96_maps_turning` and `C98_recovery_turning` on the plate is met. -/
example : ∃ h, Hwp.setHwpMod w.fsamp .continuous (1 / 3) 0 none 0 = .ok h ∧ h.reset = h ∧
    w.fsamp ≠ 0 := ⟨_, rfl, rfl, one_ne_zero⟩

/-- The hypotheses of `C96_maps_static` are met by chunks with plate angles. -/
example : ∃ (cs : List Chunk) (M : Motion), Mission 3 cs ∧ (∀ c ∈ cs, c.hwpang ≠ some 0) ∧
    ∀ c ∈ cs, ∀ t : Nat, c.start ≤ t → (t : Int) < c.stop → M.rot t = rot.angle ∧
      M.alpha t = ((c.hwpang.map fun (a : ℚ) => (a : ℝ)).getD hwp.dict.angle) * (Real.pi / 180) := by
  refine ⟨[{ start := 0, stop := 3, cidx := some 0, hwpang := some 30 }],
    { M with alpha := fun _ => 30 * (Real.pi / 180) }, ⟨.cons (by decide) (.nil _), ?_⟩, ?_, ?_⟩
  · intro i c h
    rcases i with _ | i
    · obtain rfl := Option.some.inj h
      rfl
    · simp at h
  · intro c hc
    obtain rfl := List.mem_singleton.1 hc
    decide
  · intro c hc t _ _
    obtain rfl := List.mem_singleton.1 hc
    exact ⟨rfl, by simp⟩

/-- The hypotheses of `C99_again_violation` are met. -/
example : ∃ (i : Inst Unit), i.rot = setInstrRot 1 0 [10, 20] ∧
    i.chunks = [({ start := 0, stop := 1, cidx := some 0 }, false)] ∧ i.hwp.freq = 0 ∧
    ∀ e c g p, ∃ r, w.implement e c g p = .ok r :=
  ⟨{ i with rot := setInstrRot 1 0 [10, 20], hwp := { hwp with freq := 0 },
            chunks := [({ start := 0, stop := 1, cidx := some 0 }, false)] }, rfl, rfl, rfl,
    fun _ _ _ _ => ⟨_, rfl⟩⟩

/-- A plate that does not move, and one chunk. -/
def j : Inst Unit :=
  { i with hwp := { hwp with freq := 0 },
           chunks := [({ start := 0, stop := 1, cidx := some 0 }, false)] }

/-- A scan with a ground succeeds (here without detectors), so that `C99_ground_stays` applies. -/
example : ∃ i i', scanPass w { o with ground := true } true (none, none) i = .ok i' ∧
    i.chunks ≠ [] ∧ i.rot.period = false := by
  have h : ∀ p, Hwp.rotateHwp Real.pi w.fsamp j.hwp none 0 1 = .ok p →
      ∃ i', scanPass w { o with ground := true } true (none, none) j = .ok i' := by
    intro p hp
    show ∃ i', ((Except.bind (stepChunk w { o with ground := true } (none, none) true j 0)
      fun j => Except.ok j) : PyM (Inst Unit)) = .ok i'
    have : ∃ i', stepChunk w { o with ground := true } (none, none) true j 0 = .ok i' := by
      show ∃ i', ((Except.bind (stepSub w _ (none, none) true { start := 0, stop := 1, cidx := some 0 } _)
        fun j => Except.ok j) : PyM (Inst Unit)) = .ok i'
      unfold stepSub
      simp only [bind, Except.bind, rotStep, Rot.rotate, j, i, rot, Bool.false_eq_true, if_false]
      have hp' := hp
      simp only [j] at hp'
      simp only [Option.map_none, hp']
      exact ⟨_, rfl⟩
    obtain ⟨i', e⟩ := this
    rw [e]
    exact ⟨i', rfl⟩
  obtain ⟨i', hi'⟩ := h (some (.scalar (Hwp.radians Real.pi 0)), j.hwp) (by
    unfold Hwp.rotateHwp
    rw [if_pos (.inl rfl)]
    rfl)
  exact ⟨j, i', hi', by simp [j], rfl⟩

/-- The hypotheses of `C99_ground_violation` are met. -/
example : ∃ (w : World Unit) (i : Inst Unit), (∀ a sm, w.spinmaps a = .ok sm → sm.ground = none) ∧
    i.rot.period = false ∧ i.chunks ≠ [] ∧ ∀ c ∈ i.chunks, c.2 = true := by
  refine ⟨{ w with spinmaps := fun _ => .ok ⟨[], none, []⟩ },
    { i with chunks := chunks.map fun c => (c, true) }, ?_, rfl, by simp [chunks], by simp⟩
  intro a sm h
  obtain rfl := Except.ok.inj h
  rfl

end Whole

end Verif.Props
