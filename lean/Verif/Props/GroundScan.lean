import Verif.Lemmas.GroundGeneric
import Verif.Props.Reuse

/-!
# Property C110: whole scans with a ground template
-/

noncomputable section

namespace Verif.Props

open Verif.Chunks Verif.Timeline Verif.Spinmaps Verif.MapMaking Verif.ScanInstrument Verif.Spec

variable {E : Type}

/-- What the maps hold after a scan with `ground_alm`, with live ghosts as they are: one observation
for each live detector and each sample that is not flagged, in the direction and under the angles on
the sky, with the signal of sky and ground (`Ground.detects`). -/
theorem C110_actual (w : World E) (hx : ExtOk w.x) (hq : PixOk w.q) (hns : 0 < w.nsideOut) (M : Motion)
    (G : Nat → Quat.Q) (o : Opts) (hbin : o.binning = true) (hpre : o.preview = false)
    (hgr : o.ground = true) (hre : o.reuseSpinmaps = false) (N : Nat) (chunks : List Chunk)
    (hmi : Mission N chunks) (hang : ∀ c ∈ chunks, c.hwpang = none) (i : Inst E)
    (hi : Ground.Ready w chunks i) (hrot : Rotates N chunks i.rot M.rot)
    (hhwp : Plate w.fsamp N i.hwp M.alpha) (hst : Ground.Steady w M G chunks i.el) (beams : List Pair)
    (nside : Nat) (sm : Pair → Spinmaps SpinDict) (hm : ∀ p ∈ beams, Ground.MapsOk w nside (sm p) p)
    (size : Nat) (hsize : 0 < size) :
    ∃ m, scanAll w o beams true size i = .ok m ∧
      Holds w.nsideOut m (beams.flatMap fun p => (List.range N).flatMap
        (pairObs M w.x w.q w.varphi w.nsideOut o.ctalk
          (Ground.detects M G w.x o.interp nside (sm p)) p)) :=
  ⟨_, Ground.all_spec w hq hns M G o hbin hgr (fun _ => True)
    (fun p => Ground.detects M G w.x o.interp nside (sm p)) N chunks hmi i hi
    (moves_spec w.fsamp M N chunks hmi hang i.rot i.hwp hrot hhwp) hst trivial beams size hsize
    fun p hp => Ground.pairGood_scan w hx M G chunks o hpre hre nside (sm p) p (hm p hp),
    holds_mapsOf _ _⟩

theorem detects_alone {M : Motion} {G : Nat → Quat.Q} {x : Ext} {interp : Bool} {nside : Nat}
    {sm : Spinmaps SpinDict} {b : BinBeam} (h : ∀ g ∈ b.ghosts, g.dead = true) (t : Nat) :
    Ground.detects M G x interp nside sm b t = M.signal x interp nside sm.main b.beam t +
      Ground.pickup M G x interp nside (sm.ground.getD []) b.beam t := by
  have : b.ghosts.filter (fun g => !g.dead) = [] := by
    rw [List.filter_eq_nil_iff]
    intro g hg
    simp [h g hg]
  unfold Ground.detects
  rw [this]
  simp

theorem pairObs_congr {M : Motion} {x : Ext} {q : QExt} {varphi : ℝ} {nsideOut : Nat} {c : ℝ}
    {f g : BinBeam → Nat → ℝ} {p : Pair}
    (h : ∀ b, (live p.1 = some b ∨ live p.2 = some b) → ∀ t, f b t = g b t) (t : Nat) :
    pairObs M x q varphi nsideOut c f p t = pairObs M x q varphi nsideOut c g p t := by
  unfold pairObs
  split
  · rfl
  · split
    · rename_i a b ha hb
      rw [h a (.inl ha), h b (.inr hb)]
    · rename_i a ha hb
      rw [h a (.inl ha)]
    · rename_i b ha hb
      rw [h b (.inr hb)]
    · rfl

/-- **C110.** Pairs of detectors without live ghosts are scanned with a ground template, by any number
of ranks, with any partition of the mission in chunks, with or without boresight rotation, stepping HWP
and cross-talk.  The reduced maps then contain exactly one observation for each live detector and each
sample that is not flagged: its value is the sky in the direction of the sample plus the ground in the
direction of the sample relative to the ground.  The chunks may have been scanned with a ground
before. -/
theorem C110_sky_and_ground_partial (w : World E) (hx : ExtOk w.x) (hq : PixOk w.q)
    (hns : 0 < w.nsideOut) (M : Motion)
    (G : Nat → Quat.Q) (o : Opts) (hbin : o.binning = true) (hpre : o.preview = false)
    (hgr : o.ground = true) (hre : o.reuseSpinmaps = false) (N : Nat) (chunks : List Chunk)
    (hmi : Mission N chunks) (hang : ∀ c ∈ chunks, c.hwpang = none) (i : Inst E)
    (hi : Ground.Ready w chunks i) (hrot : Rotates N chunks i.rot M.rot)
    (hhwp : Plate w.fsamp N i.hwp M.alpha) (hst : Ground.Steady w M G chunks i.el) (beams : List Pair)
    (hgh : ∀ p ∈ beams, Ground.NoGhosts p)
    (nside : Nat) (sm : Pair → Spinmaps SpinDict) (hm : ∀ p ∈ beams, Ground.MapsOk w nside (sm p) p)
    (size : Nat) (hsize : 0 < size) :
    ∃ m, scanAll w o beams true size i = .ok m ∧
      Holds w.nsideOut m (beams.flatMap fun p => (List.range N).flatMap
        (pairObs M w.x w.q w.varphi w.nsideOut o.ctalk (fun b t =>
          M.signal w.x o.interp nside (sm p).main b.beam t +
          Ground.pickup M G w.x o.interp nside ((sm p).ground.getD []) b.beam t) p)) := by
  obtain ⟨m, h1, h2⟩ := C110_actual w hx hq hns M G o hbin hpre hgr hre N chunks hmi hang i hi hrot hhwp
    hst beams nside sm hm size hsize
  refine ⟨m, h1, ?_⟩
  convert h2 using 1
  apply flatMap_congr'
  intro p hp
  apply flatMap_congr'
  intro t _
  exact pairObs_congr (fun b hb t => (detects_alone (hgh p hp b hb) t).symm) t

/-- **C110.** A ground template changes neither hits nor angles, and adds to the maps exactly what the
ground alone gives, sample by sample. -/
theorem C110_adds_partial (w : World E) (hx : ExtOk w.x) (hq : PixOk w.q) (hns : 0 < w.nsideOut)
    (M : Motion) (G : Nat → Quat.Q) (o : Opts) (hbin : o.binning = true) (hpre : o.preview = false)
    (hgr : o.ground = true) (hre : o.reuseSpinmaps = false) (N : Nat) (chunks : List Chunk)
    (hmi : Mission N chunks) (hang : ∀ c ∈ chunks, c.hwpang = none) (i : Inst E)
    (hi : ScanInstrument.Ready w chunks i) (hrot : Rotates N chunks i.rot M.rot)
    (hhwp : Plate w.fsamp N i.hwp M.alpha) (hst : ScanInstrument.Steady w M chunks i.el)
    (hst' : Ground.Steady w M G chunks i.el) (beams : List Pair)
    (hgh : ∀ p ∈ beams, Ground.NoGhosts p)
    (nside : Nat) (sm : Pair → Spinmaps SpinDict) (hm : ∀ p ∈ beams, Ground.MapsOk w nside (sm p) p)
    (size : Nat) (hsize : 0 < size) :
    ∃ m m', scanAll w { o with ground := false } beams true size i = .ok m ∧
      scanAll w o beams true size i = .ok m' ∧
      m'.map (·.proj) = m.map (·.proj) ∧
      ∀ (p : Nat) c c', m[p]? = some c → m'[p]? = some c' → c'.vec = c.vec +
        vecAt (beams.flatMap fun p => (List.range N).flatMap
          (pairObs M w.x w.q w.varphi w.nsideOut o.ctalk (fun b t =>
            Ground.pickup M G w.x o.interp nside ((sm p).ground.getD []) b.beam t) p)) p := by
  have hmv := moves_spec w.fsamp M N chunks hmi hang i.rot i.hwp hrot hhwp
  have hm0 : ∀ p ∈ beams, ScanInstrument.MapsOk w nside (sm p) p := by
    intro p hp
    rcases hm p hp with rfl | ⟨a, h1, h2, h3, h4⟩
    · exact .inl rfl
    · refine .inr ⟨a, h1, h2, h3, fun b hb => ⟨(h4 b hb).1, (h4 b hb).2.1, fun g hg hd => ?_⟩⟩
      rw [hgh p hp b hb g hg] at hd
      cases hd
  have hi' : Ground.Ready w chunks i := ⟨by rw [hi.chunks, List.map_map]; exact List.map_id' _, hi.maps,
    hi.rot, hi.period, hi.hwp⟩
  have h1 := all_spec w hq hns M { o with ground := false } hbin rfl
    (fun p => ScanInstrument.detects M w.x o.interp nside (sm p)) N chunks
    hmi i hi hmv hst beams size hsize
    fun p hp => pairGood_scan w hx M chunks _ hpre hre nside (sm p) p (hm0 p hp)
  have h2 := Ground.all_spec w hq hns M G o hbin hgr (fun _ => True)
    (fun p => Ground.detects M G w.x o.interp nside (sm p)) N chunks hmi i hi' hmv hst' trivial beams
    size hsize fun p hp => Ground.pairGood_scan w hx M G chunks o hpre hre nside (sm p) p (hm p hp)
  refine ⟨_, _, h1, h2, mapsOf_proj ?_, ?_⟩
  · simp only [List.map_flatMap]
    apply flatMap_congr'
    intro p _
    unfold missionObs
    simp only [List.map_flatMap]
    apply flatMap_congr'
    intro t _
    exact pairObs_blank M w.x w.q w.varphi w.nsideOut o.ctalk _ _ p t
  · intro k c c' hc hc'
    obtain ⟨e1, -⟩ := (holds_mapsOf w.nsideOut _).cells k c hc
    obtain ⟨e2, -⟩ := (holds_mapsOf w.nsideOut _).cells k c' hc'
    rw [e1, e2]
    apply Ground.vecAt_flatMap
    intro p hp
    apply Ground.vecAt_flatMap
    intro t _
    rw [← Ground.vecAt_pair]
    congr 1
    refine pairObs_congr (fun b hb t => ?_) t
    rw [detects_alone (hgh p hp b hb)]
    congr 1
    unfold ScanInstrument.detects
    have : b.ghosts.filter (fun g => !g.dead) = [] := by
      rw [List.filter_eq_nil_iff]
      intro g hg
      simp [hgh p hp b hb g hg]
    rw [this]
    simp

/-- **C110.** The maps depend neither on the number of ranks nor on whether the chunks have been
scanned with a ground before. -/
theorem C110_ranks (w : World E) (hx : ExtOk w.x) (hq : PixOk w.q) (hns : 0 < w.nsideOut) (M : Motion)
    (G : Nat → Quat.Q) (o : Opts) (hbin : o.binning = true) (hpre : o.preview = false)
    (hgr : o.ground = true) (hre : o.reuseSpinmaps = false) (N : Nat) (chunks : List Chunk)
    (hmi : Mission N chunks) (hang : ∀ c ∈ chunks, c.hwpang = none) (i i' : Inst E)
    (hi : Ground.Ready w chunks i) (hi' : Ground.Ready w chunks i')
    (hrot : Rotates N chunks i.rot M.rot) (hrot' : Rotates N chunks i'.rot M.rot)
    (hhwp : Plate w.fsamp N i.hwp M.alpha) (hhwp' : Plate w.fsamp N i'.hwp M.alpha)
    (hst : Ground.Steady w M G chunks i.el) (hst' : Ground.Steady w M G chunks i'.el)
    (beams : List Pair)
    (nside : Nat) (sm : Pair → Spinmaps SpinDict) (hm : ∀ p ∈ beams, Ground.MapsOk w nside (sm p) p)
    (size size' : Nat) (hsize : 0 < size) (hsize' : 0 < size') :
    scanAll w o beams true size i = scanAll w o beams true size' i' := by
  rw [Ground.all_spec w hq hns M G o hbin hgr (fun _ => True)
    (fun p => Ground.detects M G w.x o.interp nside (sm p)) N chunks hmi i hi
    (moves_spec w.fsamp M N chunks hmi hang i.rot i.hwp hrot hhwp) hst trivial beams size hsize
    fun p hp => Ground.pairGood_scan w hx M G chunks o hpre hre nside (sm p) p (hm p hp),
    Ground.all_spec w hq hns M G o hbin hgr (fun _ => True)
    (fun p => Ground.detects M G w.x o.interp nside (sm p)) N chunks hmi i' hi'
    (moves_spec w.fsamp M N chunks hmi hang i'.rot i'.hwp hrot' hhwp') hst' trivial beams size' hsize'
    fun p hp => Ground.pairGood_scan w hx M G chunks o hpre hre nside (sm p) p (hm p hp)]

/-- **C110 (generic scan).** The generic ground-based `implement_scan` (without memory map, see C55)
points the telescope in every pass in the same way on the sky, with or without ground template, and on
the ground: with one azimuth and one elevation per sample for both. -/
theorem C110_generic (w : World (Scan.State ℝ Quat.Q)) (site : Scan.Site ℝ Quat.Q)
    (o : Scan.Opts ℝ) (prf : Nat → ℝ) (hprf : Scan.IsProfile site o prf)
    (hfs : o.fsamp ≠ 0) (hcl : 0 < o.checkLen) (hd : o.dec0 ≠ [])
    (hr : o.ra0.length = o.dec0.length) (cfg : Scan.ElCfg ℝ) (hv : cfg.Valid)
    (hw : w.implement = genericImplement site o) (hw' : w.resetEl = genericReset) (N : Nat)
    (chunks : List Chunk) (hmi : Mission N chunks)
    (hdiv : o.azThrow ≠ 0 ∨ ∀ c ∈ chunks, o.checkLen.toNat ∣ (c.stop - c.start).toNat)
    (e0 : Scan.State ℝ Quat.Q) (hfr : Scan.Fresh cfg e0.el) (hm : e0.mmap = none)
    (hf : e0.flag = none) :
    ∃ bore G : Nat → Quat.Q,
      (∀ c ∈ chunks, ∀ i : Nat, i < (c.stop - c.start).toNat → ∃ (p : ℝ × ℝ) (y : ℝ),
        Selected o.elMin (Scan.patches site o (((c.start +
            (i / o.checkLen.toNat * o.checkLen.toNat : Nat) : Int) : ℝ) / o.fsamp + o.ctime0)) p ∧
          cfg.At (c.start.toNat + i) p.2 y ∧
          bore (c.start.toNat + i) =
            site.azel2bore (prf i + p.1) y (((c.start + i : Int) : ℝ) / o.fsamp + o.ctime0) ∧
          G (c.start.toNat + i) = site.ground (prf i + p.1) y) ∧
      ∀ M : Motion, M.bore = bore → (∀ t : Nat, M.time t = t / o.fsamp + o.ctime0) →
        (∀ t, M.flag t = false) →
          ScanInstrument.Steady w M chunks e0 ∧ Ground.Steady w M G chunks e0 :=
  Ground.generic_steady w site o prf hprf hfs hcl hd hr cfg hv hw hw' N chunks hmi hdiv e0 hfr hm hf

/-- **C110 (violation).** A preview (C97: no signal) with a ground template is not without signal: if
there are spin maps from an earlier scan, the ground seen through the main beam is scanned and
binned. -/
theorem C110_preview_violation (w : World E) (hx : ExtOk w.x) (hq : PixOk w.q) (hns : 0 < w.nsideOut)
    (M : Motion) (G : Nat → Quat.Q) (o : Opts) (hbin : o.binning = true) (hpre : o.preview = true)
    (hgr : o.ground = true) (N : Nat) (chunks : List Chunk)
    (hmi : Mission N chunks) (hang : ∀ c ∈ chunks, c.hwpang = none) (i : Inst E)
    (hi : Ground.Ready w chunks i) (hrot : Rotates N chunks i.rot M.rot)
    (hhwp : Plate w.fsamp N i.hwp M.alpha) (hst : Ground.Steady w M G chunks i.el) (beams : List Pair)
    (hg : ∀ p ∈ beams, ∀ b, (live p.1 = some b ∨ live p.2 = some b) → b.beam.ghost = false)
    (nside : Nat) (hnside : 0 < nside) (d : SpinDict) (hd : i.st.maps.ground = some d)
    (hd' : DictOk (12 * nside ^ 2) d) (size : Nat) (hsize : 0 < size) :
    ∃ m, scanAll w o beams true size i = .ok m ∧
      Holds w.nsideOut m (beams.flatMap fun p => (List.range N).flatMap
        (pairObs M w.x w.q w.varphi w.nsideOut o.ctalk (fun b =>
          Ground.pickup M G w.x o.interp nside d b.beam) p)) :=
  ⟨_, Ground.all_spec w hq hns M G o hbin hgr (fun m => m.ground = some d)
    (fun _ b => Ground.pickup M G w.x o.interp nside d b.beam) N chunks hmi i hi
    (moves_spec w.fsamp M N chunks hmi hang i.rot i.hwp hrot hhwp) hst hd beams size hsize
    fun p hp => Ground.pairGood_preview w hx M G chunks o hpre nside hnside d hd' p (hg p hp),
    holds_mapsOf _ _⟩

/-! ## The hypotheses are met -/

namespace Grounded

open Rec Whole

/-- The pointing on the ground: another direction, sample by sample. -/
def G (t : Nat) : Quat.Q := if t = 1 then ![0, 1, 0, 0] else ![1, 0, 0, 0]

/-- A sky of temperature 1 and a ground of temperature 2. -/
def sm : Spinmaps SpinDict := ⟨(Reusing.flat 1).main, some (Reusing.flat 2).main, []⟩

def w : World Unit := { Whole.w with
  implement := fun e c g _ => .ok (⟨(List.range (c.stop - c.start).toNat).map fun k =>
      ((c.start.toNat + k : Nat) : ℝ), List.replicate (c.stop - c.start).toNat ![1, 0, 0, 0],
      if g then some ((List.range (c.stop - c.start).toNat).map fun k => G (c.start.toNat + k)) else none,
      none⟩, e)
  spinmaps := fun _ => .ok sm }

/-- Chunks that have been scanned with a ground before. -/
def i' : Inst Unit := { i with chunks := chunks.map fun c => (c, true) }

def o : Opts := { Whole.o with ground := true }

theorem points (g pre : Bool) (c : Chunk) : ∃ p, w.implement () c g pre = .ok (p, ()) ∧
    PointsAt M c p ∧ (g = true → Ground.PointsAt M G c p) := by
  have h : ∀ gr, PointsAt M c ⟨(List.range (c.stop - c.start).toNat).map fun k =>
      ((c.start.toNat + k : Nat) : ℝ), List.replicate (c.stop - c.start).toNat ![1, 0, 0, 0], gr,
      none⟩ := by
    intro gr
    refine ⟨rfl, ?_, fun _ _ => rfl⟩
    apply List.ext_getElem (by simp)
    intro k h1 h2
    simp [M]
  refine ⟨_, rfl, h _, ?_⟩
  rintro rfl
  exact ⟨h _, rfl⟩

theorem steady : ScanInstrument.Steady w M chunks () := by
  refine ⟨fun _ _ => True, trivial, fun first e _ => ⟨(), ?_, (), rfl, trivial⟩⟩
  obtain ⟨p, h1, h2, _⟩ := points false (!first) { start := 0, stop := 2, cidx := some 0 }
  obtain ⟨p', h1', h2', _⟩ := points false (!first) { start := 2, stop := 3, cidx := some 1 }
  exact ⟨p, (), h1, h2, p', (), h1', h2', rfl⟩

theorem steady' : Ground.Steady w M G chunks () := by
  refine ⟨fun _ _ => True, trivial, fun first e _ => ⟨(), ?_, (), rfl, trivial⟩⟩
  obtain ⟨p, h1, _, h2⟩ := points true (!first) { start := 0, stop := 2, cidx := some 0 }
  obtain ⟨p', h1', _, h2'⟩ := points true (!first) { start := 2, stop := 3, cidx := some 1 }
  exact ⟨p, (), h1, h2 rfl, p', (), h1', h2' rfl, rfl⟩

theorem maps : ∀ p ∈ beams, Ground.MapsOk w 1 sm p := by
  intro p hp
  simp only [beams, List.mem_cons, List.not_mem_nil, or_false] at hp
  rcases hp with rfl | rfl
  · refine .inr ⟨_, rfl, rfl, one_pos, ?_⟩
    rintro b (h | h)
    · obtain rfl := Option.some.inj h
      exact ⟨rfl, Reusing.flat_ok _, _, rfl, Reusing.flat_ok _⟩
    · cases h
  · exact .inl rfl

theorem no_ghosts : ∀ p ∈ beams, Ground.NoGhosts p := by
  intro p hp
  simp only [beams, List.mem_cons, List.not_mem_nil, or_false] at hp
  rcases hp with rfl | rfl
  · rintro b (h | h)
    · obtain rfl := Option.some.inj h
      intro g hg
      cases hg
    · cases h
  · rintro b (h | h) <;> cases h

theorem sees (b : BinBeam) (t : Nat) :
    Ground.pickup M G ext false 1 (Reusing.flat 2).main b.beam t = 2 := by
  unfold Ground.pickup Motion.signal Timeline.signal
  have h : isOld (Reusing.flat 2).main = true := rfl
  have h1 : part (Reusing.flat 2).main .s0a0 = ⟨[List.replicate 12 2], [0]⟩ := rfl
  have h2 : part (Reusing.flat 2).main .s2a4 = ⟨[List.replicate 12 0], [0]⟩ := rfl
  simp [h, h1, h2, spinSum, spinSumReal, see, sampleAt, ext]

/-- Three samples of the ground. -/
theorem three_of : vecAt (beams.flatMap fun p => (List.range 3).flatMap
    (pairObs M ext qp 0 1 0 (fun b t =>
      Ground.pickup M G ext false 1 (Reusing.flat 2).main b.beam t) p)) 0 0 = 6 := by
  have h : ∀ t, pairObs M ext qp 0 1 0 (fun b t =>
      Ground.pickup M G ext false 1 (Reusing.flat 2).main b.beam t) (some ⟨det.point, [], 0⟩, none) t
      = [obsAt M ext qp 0 1 ⟨det.point, [], 0⟩ t 2] := by
    intro t
    exact congrArg (fun v => [obsAt M ext qp 0 1 ⟨det.point, [], 0⟩ t v]) (sees ⟨det.point, [], 0⟩ t)
  have hp : ∀ t, (obsAt M ext qp 0 1 ⟨det.point, [], 0⟩ t 2).pix = 0 := fun _ => rfl
  have hd : ∀ t, (obsAt M ext qp 0 1 ⟨det.point, [], 0⟩ t 2).d = 2 := fun _ => rfl
  have h3 : List.range 3 = [0, 1, 2] := rfl
  have hn : ∀ t : Nat, pairObs M ext qp 0 1 0 (fun b t =>
      Ground.pickup M G ext false 1 (Reusing.flat 2).main b.beam t) (none, none) t = [] := fun _ => rfl
  simp only [beams, h3, List.flatMap_cons, List.flatMap_nil, h, hn]
  simp [vecAt, here, hp, hd, Obs.w]
  norm_num

/-- The hypotheses of `C110_actual`, `C110_sky_and_ground_partial` and `C110_ranks` are met, by chunks
with and without the key `ground`. -/
example : (∃ m, scanAll w o beams true 2 i = .ok m ∧ Holds 1 m
      (beams.flatMap fun p => (List.range 3).flatMap (pairObs M ext qp 0 1 0 (fun b t =>
        M.signal ext false 1 sm.main b.beam t +
          Ground.pickup M G ext false 1 (Reusing.flat 2).main b.beam t) p))) ∧
    scanAll w o beams true 2 i = scanAll w o beams true 1 i' :=
  ⟨C110_sky_and_ground_partial w ext_ok pix_ok one_pos M G o rfl rfl rfl rfl 3 chunks mission_ok
      (by decide) i ⟨rfl, rfl, rfl, .inl rfl, rfl⟩ rotates plate steady' beams no_ghosts 1 (fun _ => sm)
      maps 2 two_pos,
    C110_ranks w ext_ok pix_ok one_pos M G o rfl rfl rfl rfl 3 chunks mission_ok (by decide) i i'
      ⟨rfl, rfl, rfl, .inl rfl, rfl⟩ ⟨rfl, rfl, rfl, .inl rfl, rfl⟩ rotates rotates plate plate steady'
      steady' beams 1 (fun _ => sm) maps 2 1 two_pos one_pos⟩

/-- The hypotheses of `C110_adds_partial` are met, and what is added is not 0. -/
example : ∃ m m', scanAll w { o with ground := false } beams true 2 i = .ok m ∧
    scanAll w o beams true 2 i = .ok m' ∧ m.map (·.vec 0) ≠ m'.map (·.vec 0) := by
  obtain ⟨m, m', h1, h2, h3, h4⟩ := C110_adds_partial w ext_ok pix_ok one_pos M G o rfl rfl rfl rfl 3
    chunks mission_ok (by decide) i ⟨rfl, rfl, rfl, .inl rfl, rfl⟩ rotates plate steady steady' beams
    no_ghosts 1 (fun _ => sm) maps 2 two_pos
  refine ⟨m, m', h1, h2, fun e => ?_⟩
  obtain ⟨m'', g1, g2⟩ := C110_actual w ext_ok pix_ok one_pos M G o rfl rfl rfl rfl 3 chunks mission_ok
    (by decide) i ⟨rfl, rfl, rfl, .inl rfl, rfl⟩ rotates plate steady' beams 1 (fun _ => sm) maps 2 two_pos
  obtain rfl := Except.ok.inj (h2.symm.trans g1)
  have hl : 0 < m'.length := by rw [g2.npix]; decide
  have hl' : 0 < m.length := by
    have := congrArg List.length h3
    simp only [List.length_map] at this
    omega
  have e4 := congrFun (h4 0 _ _ (List.getElem?_eq_getElem hl') (List.getElem?_eq_getElem hl)) 0
  have e5 := congrArg (·[0]?) e
  simp only [List.getElem?_map, List.getElem?_eq_getElem hl, List.getElem?_eq_getElem hl',
    Option.map_some, Option.some.injEq] at e5
  rw [← e5] at e4
  have e6 := three_of
  have e4' : m[0].vec 0 = m[0].vec 0 + vecAt (beams.flatMap fun p => (List.range 3).flatMap
    (pairObs M ext qp 0 1 0 (fun b t =>
      Ground.pickup M G ext false 1 (Reusing.flat 2).main b.beam t) p)) 0 0 := e4
  rw [e6] at e4'
  linarith

/-- The hypotheses of `C110_preview_violation` are met, and the signal is not 0. -/
example : ∃ (j : Inst Unit) (m : Maps),
    scanAll w { o with preview := true } beams true 2 j = .ok m ∧ m.map (·.vec 0) ≠ m.map fun _ => 0 := by
  obtain ⟨m, h1, h2⟩ := C110_preview_violation w ext_ok pix_ok one_pos M G { o with preview := true } rfl
    rfl rfl 3 chunks mission_ok (by decide) { i with st := { i.st with maps := sm } }
    ⟨rfl, rfl, rfl, .inl rfl, rfl⟩ rotates plate steady' beams (by
      intro p hp
      simp only [beams, List.mem_cons, List.not_mem_nil, or_false] at hp
      rcases hp with rfl | rfl
      · rintro b (h | h)
        · obtain rfl := Option.some.inj h
          rfl
        · cases h
      · rintro b (h | h) <;> cases h) 1 one_pos _ rfl (Reusing.flat_ok _) 2 two_pos
  refine ⟨_, m, h1, fun e => ?_⟩
  have hl : 0 < m.length := by rw [h2.npix]; decide
  have e1 := congrFun (h2.cells 0 _ (List.getElem?_eq_getElem hl)).1 0
  have e5 := congrArg (·[0]?) e
  simp only [List.getElem?_map, List.getElem?_eq_getElem hl, Option.map_some, Option.some.injEq] at e5
  rw [e5] at e1
  have e2 : (0 : ℝ) = vecAt (beams.flatMap fun p => (List.range 3).flatMap
    (pairObs M ext qp 0 1 0 (fun b t =>
      Ground.pickup M G ext false 1 (Reusing.flat 2).main b.beam t) p)) 0 0 := e1
  rw [three_of] at e2
  norm_num at e2

/-- A site for which the pointing depends on the azimuth, on the sky and on the ground. -/
def site : Scan.Site ℝ Quat.Q :=
  ⟨fun _ _ _ => (0, 1), fun a _ _ => ![a, 1, 0, 0], fun a _ => ![a, 0, 1, 0], fun _ _ _ _ => []⟩

def gw : World (Scan.State ℝ Quat.Q) where
  x := ext
  q := qp
  varphi := 0
  nsideOut := 1
  fsamp := 1
  implement := genericImplement site ⟨1, 0, [0], [0], 0, 1, .triangle, 1, 0, false, false⟩
  resetEl := genericReset
  spinmaps := fun _ => .ok sm

/-- The hypotheses of `C110_generic` are met. -/
example : ∃ bore G : Nat → Quat.Q, Ground.Steady gw { M with bore := bore } G chunks
      ⟨[], [], none, none, none, none⟩ ∧ bore 1 = ![0, 1, 0, 0] ∧ G 1 = ![0, 0, 1, 0] := by
  obtain ⟨bore, G, h1, h2⟩ := C110_generic gw site _ (fun _ => 0) (.inl ⟨rfl, fun _ => rfl⟩)
    one_ne_zero one_pos (by decide) rfl none trivial rfl rfl 3 chunks mission_ok
    (.inr fun _ _ => one_dvd _) ⟨[], [], none, none, none, none⟩ trivial rfl rfl
  obtain ⟨p, y, h3, -, h4, h5⟩ := h1 { start := 0, stop := 2, cidx := some 0 } (by simp [chunks]) 1
    (by decide)
  have hp : p.1 = 0 := by
    rcases h3 with ⟨k, h3, _⟩ | ⟨_, _, q, h3, h6⟩
    · rcases k with _ | k
      · have : p = (0, 1) := (Option.some.inj h3).symm
        rw [this]
      · cases h3
    · have : q = (0, 1) := (Option.some.inj h3).symm
      rw [h6, this]
  refine ⟨bore, G, (h2 { M with bore := bore } rfl
      (fun t => by show (t : ℝ) = t / 1 + 0; simp) fun _ => rfl).2, ?_, ?_⟩
  · have h4' : bore (0 + 1) = ![0 + p.1, 1, 0, 0] := h4
    rw [hp] at h4'
    simpa using h4'
  · have h5' : G (0 + 1) = ![0 + p.1, 0, 1, 0] := h5
    rw [hp] at h5'
    simpa using h5'

end Grounded

end Verif.Props
