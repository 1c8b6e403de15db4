import Verif.Lemmas.Interrupted
import Verif.Props.Strategies
import Verif.Props.Spmd

/-!
# Property C108: scans that are interrupted and done again
-/

noncomputable section

namespace Verif.Props

open Verif.Chunks Verif.Timeline Verif.Spinmaps Verif.MapMaking Verif.ScanInstrument Verif.Interrupted
open Verif.Strategies (Att Strategy Uses Prepared Clock)

variable {E : Type}

/-- **C108.** The runs considered here end as the scans of C96 to C107 do. -/
theorem C108_result (w : World E) (H : Halfway E) (o : Opts) (beams : List Pair) (scatter : Bool)
    (size rank : Nat) (i : Inst E) :
    (scanRun w H o beams scatter size rank i).result = scanInstrument w o beams scatter size rank i :=
  scan_result w H o beams scatter size rank i

/-- **C108.** Wherever scans without ground are stopped, and however often: the chunks of the mission and
all settings of boresight rotation and plate are what they were. -/
theorem C108_settings (w : World E) (H : Halfway E) (chunks : List Chunk) (i j : Inst E)
    (hi : Ready w chunks i) (h : After w H i j) :
    j.chunks = i.chunks ∧ j.rot.period = i.rot.period ∧ j.rot.rotChunkSize = i.rot.rotChunkSize ∧
      j.rot.startAng = i.rot.startAng ∧ j.rot.angles = i.rot.angles ∧ j.hwp.mode = i.hwp.mode ∧
      j.hwp.freq = i.hwp.freq ∧ j.hwp.dict.stepSize = i.hwp.dict.stepSize ∧
      j.hwp.startAng = i.hwp.startAng ∧ j.hwp.varphi = i.hwp.varphi ∧ j.hwp.angles = i.hwp.angles := by
  have hk := keeps_after (fun _ => True) chunks i.rot i.hwp w H (fun _ _ _ _ _ _ _ _ => trivial)
    (fun _ _ _ _ => trivial) (fun _ _ _ _ => trivial) ⟨trivial, hi.chunks, .refl _, .refl _⟩ h
  obtain ⟨a, b, c, h1⟩ := hk.rot
  obtain ⟨a', b', c', h2⟩ := hk.hwp
  rw [h1, h2]
  exact ⟨hk.chunks.trans hi.chunks.symm, rfl, rfl, rfl, rfl, rfl, rfl, rfl, rfl, rfl, rfl⟩

/-- **C108.** Every rank has done any number of scans without ground before, with any options and
detectors, each of them stopped anywhere or complete.  After `reset_instr_rot`, `reset_hwp_mod`,
`reset_el_steps` and `allocate_maps` on every rank, a scan ends with the maps of C96: each sample of each
live detector counts once. -/
theorem C108_recover (w : World E) (H : Halfway E) (M : Motion) (o : Opts) (N : Nat)
    (chunks : List Chunk) (i : Inst E) (hp : Prepared w M o N chunks i)
    (hst : Restores w H M chunks i.el) (beams : List Pair) (nside : Nat)
    (sm : Pair → Spinmaps SpinDict) (hm : ∀ p ∈ beams, MapsOk w nside (sm p) p)
    (size : Nat) (hsize : 0 < size) (stopped : Nat → Inst E)
    (hstop : ∀ r, r < size → After w H i (stopped r)) :
    ∃ again : Nat → Inst E, (∀ r, r < size → restart w (stopped r) = .ok (again r)) ∧
      ∃ m, scanEach w o beams true size again = .ok m ∧
        Holds w.nsideOut m (Full w M o N nside sm beams) := by
  have hone : ∀ r, ∃ k, r < size → restart w (stopped r) = .ok k ∧ k.rot = i.rot ∧ k.hwp = i.hwp ∧
      Steady w M chunks k.el ∧ (k.chunks = chunks.map fun c => (c, false)) ∧
      k.maps = allocateMaps w.nsideOut := by
    intro r
    by_cases hr : r < size
    · obtain ⟨k, h⟩ := restart_of hst hp.ready (hstop r hr)
      exact ⟨k, fun _ => h⟩
    · exact ⟨i, fun h => (hr h).elim⟩
  choose again hag using hone
  refine ⟨again, fun r hr => (hag r hr).1, _, each_spec w hp.pix hp.nside M o hp.binning hp.ground
    (fun p => detects M w.x o.interp nside (sm p)) N chunks hp.mission i.rot i.hwp (ready_rot hp.ready)
    hp.ready.rot hp.ready.hwp
    (moves_spec w.fsamp M N chunks hp.mission hp.hwpang i.rot i.hwp hp.rotates hp.plate) beams size hsize
    again (fun _ => []) (fun r hr => ?_)
    (fun p hp' => pairGood_scan w hp.ext M chunks o hp.preview hp.reuse nside (sm p) p (hm p hp')), ?_⟩
  · obtain ⟨_, h2, h3, h4, h5, h6⟩ := hag r hr
    exact ⟨h2, h3, h4, h5, by rw [h6, mapsOf_nil]⟩
  · have : ((List.range size).flatMap fun _ => ([] : List Obs)) = [] := by simp
    rw [this]
    exact holds_mapsOf _ _

/-- **C108 (generic scan).** The generic ground-based scan, with or without elevation steps and memory
map, points as in C96 after interruptions, even if the memory map was being written. -/
theorem C108_generic (w : World (Scan.State ℝ Quat.Q)) (site : Scan.Site ℝ Quat.Q)
    (o : Scan.Opts ℝ) (hgr : o.ground = false) (prf : Nat → ℝ) (hprf : Scan.IsProfile site o prf)
    (hfs : o.fsamp ≠ 0) (hcl : 0 < o.checkLen) (hd : o.dec0 ≠ [])
    (hr : o.ra0.length = o.dec0.length) (cfg : Scan.ElCfg ℝ) (hv : cfg.Valid)
    (hw : w.implement = genericImplement site o) (hw' : w.resetEl = genericReset) (N : Nat)
    (chunks : List Chunk) (hmi : Mission N chunks)
    (hdiv : o.azThrow ≠ 0 ∨ ∀ c ∈ chunks, o.checkLen.toNat ∣ (c.stop - c.start).toNat)
    (e0 : Scan.State ℝ Quat.Q) (hfr : Scan.Fresh cfg e0.el) (hm : ∀ m, e0.mmap = some m → N ≤ m.length)
    (hf : e0.flag = none) :
    ∃ bore : Nat → Quat.Q,
      (∀ c ∈ chunks, ∀ i : Nat, i < (c.stop - c.start).toNat → ∃ (p : ℝ × ℝ) (y : ℝ),
        Spec.Selected o.elMin (Scan.patches site o (((c.start +
            (i / o.checkLen.toNat * o.checkLen.toNat : Nat) : Int) : ℝ) / o.fsamp + o.ctime0)) p ∧
          cfg.At (c.start.toNat + i) p.2 y ∧
          bore (c.start.toNat + i) =
            site.azel2bore (prf i + p.1) y (((c.start + i : Int) : ℝ) / o.fsamp + o.ctime0)) ∧
      ∀ M : Motion, M.bore = bore → (∀ t : Nat, M.time t = t / o.fsamp + o.ctime0) →
        (∀ t, M.flag t = false) → Restores w genericHalf M chunks e0 :=
  generic_restores w site o hgr prf hprf hfs hcl hd hr cfg hv hw hw' N chunks hmi hdiv e0 hfr hm hf

/-- **C108 (external pointing).** So do functions of the user whose results depend on the samples only, as
long as they leave elevation steps and flags alone (C107). -/
theorem C108_external {A : Type} (w : World (Att A)) (s : Strategy A) (hw : Uses w s)
    (hext : s.extPoint = true) (hl2 : s.useL2 = false) (H : Halfway (Att A))
    (hH : ∀ e e', H.implement e e' ∨ H.reset e e' → e'.st.el = e.st.el ∧ e'.st.flag = e.st.flag)
    (M : Motion) (chunks : List Chunk) (e0 : Att A) (hel : e0.st.el = none) (hfl : e0.st.flag = none)
    (hM : ∀ t, M.flag t = false)
    (hct : ∀ c ∈ chunks, s.ctimeFunc c.start c.stop c.cidx =
      .ok ((List.range (c.stop - c.start).toNat).map fun k => M.time (c.start.toNat + k)))
    (hq : ∀ c ∈ chunks, ∀ e, s.boreFunc c.start c.stop c.cidx none e =
      .ok ((List.range (c.stop - c.start).toNat).map fun k => M.bore (c.start.toNat + k), e)) :
    Restores w H M chunks e0 := by
  obtain ⟨h1, h2⟩ := external_points w s hw hext hl2 M chunks hM hct hq
  refine restores_of (I := fun e => e.st.el = none ∧ e.st.flag = none) ⟨hel, hfl⟩ h1 h2 ?_
  rintro e e' ⟨g1, g2⟩ h
  obtain ⟨k1, k2⟩ := hH e e' h
  exact ⟨k1.trans g1, k2.trans g2⟩

/-- **C108 (azimuth scan).** So does `strictly_az` (C107). -/
theorem C108_strictly_az {A : Type} (w : World (Att A)) (s : Strategy A) (hw : Uses w s)
    (hext : s.extPoint = false) (hl2 : s.useL2 = false) (haz : s.useStrictlyAz = true)
    (el0 az0 speed : ℝ) (hsp : speed ≠ 0)
    (hb : s.boreFunc = Strategies.strictlyAz s.site s.so.fsamp el0 az0 speed) (hfs : s.so.fsamp ≠ 0)
    (H : Halfway (Att A)) (hH : ∀ e e', H.implement e e' ∨ H.reset e e' → e'.st.el = e.st.el)
    (M : Motion) (N : Nat) (chunks : List Chunk) (hmi : Mission N chunks) (e0 : Att A)
    (hel : e0.st.el = none) (ht : Clock s.so.fsamp s.so.ctime0 M) (hM : ∀ t, M.flag t = false)
    (hbore : ∀ c ∈ chunks, ∀ k : Nat, k < (c.stop - c.start).toNat → M.bore (c.start.toNat + k) =
      s.site.azel2bore (az0 + k * speed / s.so.fsamp) el0 (M.time (c.start.toNat + k))) :
    Restores w H M chunks e0 := by
  obtain ⟨h1, h2⟩ := strictly_points w s hw hext hl2 haz el0 az0 speed hsp hb hfs M N chunks hmi ht hM
    hbore
  exact restores_of (I := fun e => e.st.el = none) hel h1 h2 fun e e' he h => (hH e e' h).trans he

/-- **C108 (violation).** A satellite does not come back: no pointing is restored by `reset_el_steps`,
because longitude and latitude go on from where they are. -/
theorem C108_satellite_violation (w : World (Att Satellite.State)) (s : Strategy Satellite.State)
    (hw : Uses w s) (hext : s.extPoint = true) (hl2 : s.useL2 = false)
    (azel2bore : ℝ → ℝ → ℝ → ℝ → ℝ → Quat.Q)
    (hinj : ∀ a b l l' c c' t, azel2bore a b l c t = azel2bore a b l' c' t → l = l')
    (hfs : s.so.fsamp ≠ 0) (hct : s.ctimeFunc = Strategies.plainCtime s.so.fsamp s.so.ctime0)
    (hq : s.boreFunc = Strategies.satelliteScan azel2bore slow) (st : Scan.State ℝ Quat.Q)
    (hel : st.el = none) (H : Halfway (Att Satellite.State)) (M : Motion) :
    ¬ Restores w H M [⟨0, 2, some 0, false, none⟩] ⟨st, none, none⟩ := by
  rintro ⟨I, i1, -, -, -, i5⟩
  obtain ⟨p, e1, e2, p', e3, h1, h2, h3, -, h5⟩ := C107_satellite_violation w s hw hext hl2 azel2bore hinj
    hfs hct hq st hel
  obtain ⟨e0, g1, P, P1, P2⟩ := i5 _ i1
  have hr : w.resetEl ⟨st, none, none⟩ = .ok ⟨st, none, none⟩ := by
    rw [hw.2]
    exact Strategies.reset_none hel
  rw [hr] at g1
  obtain rfl := Except.ok.inj g1
  obtain ⟨f1, ⟨q1, f2, k1, k2, rfl⟩, f3, k3, k4⟩ := P2 true _ P1
  have k1 : w.implement ⟨st, none, none⟩ ⟨0, 2, some 0, false, none⟩ false false = .ok (q1, f1) := k1
  rw [h1] at k1
  obtain ⟨rfl, rfl⟩ := Prod.mk.inj (Except.ok.inj k1)
  rw [h2] at k3
  obtain rfl := Except.ok.inj k3
  obtain ⟨f4, ⟨q2, f5, k5, k6, rfl⟩, -⟩ := P2 false _ k4
  have k5 : w.implement e2 ⟨0, 2, some 0, false, none⟩ false true = .ok (q2, f4) := k5
  rw [h3] at k5
  obtain ⟨rfl, rfl⟩ := Prod.mk.inj (Except.ok.inj k5)
  exact h5 (by rw [k2.bore, k6.bore])

/-- **C108 (violation).** If the maps are not allocated again, what was binned before the interruption
counts twice: a rank is stopped after the first chunk of its first pair, and resets everything else. -/
theorem C108_leftover_violation (w : World E) (H : Halfway E) (hH : ∀ e, H.implement e e) (M : Motion)
    (o : Opts) (N : Nat) (c : Chunk) (cs : List Chunk) (i : Inst E)
    (hp : Prepared w M o N (c :: cs) i) (hst : Restores w H M (c :: cs) i.el)
    (hfirst : Steady w M (c :: cs) i.el) (beams : List Pair)
    (nside : Nat) (sm : Pair → Spinmaps SpinDict) (hm : ∀ p ∈ beams, MapsOk w nside (sm p) p)
    (size r : Nat) (hr : r < size) (p : Pair) (hpm : p ∈ beams) (ps : List (Option Pair))
    (hps : Mpi.scanPasses beams true size r = .ok (some p :: ps)) :
    ∃ j k, Stopped w H o beams true size r i j ∧ resetAll w j = .ok k ∧
      ∃ m, scanEach w o beams true size (fun s => if s = r then k else i) = .ok m ∧
        Holds w.nsideOut m ((List.range c.stop.toNat).flatMap
          (pairObs M w.x w.q w.varphi w.nsideOut o.ctalk (detects M w.x o.interp nside (sm p)) p) ++
          Full w M o N nside sm beams) := by
  have hmv := moves_spec w.fsamp M N (c :: cs) hp.mission hp.hwpang i.rot i.hwp hp.rotates hp.plate
  have hgood := fun p hp' => pairGood_scan w hp.ext M (c :: cs) o hp.preview hp.reuse nside (sm p) p
    (hm p hp')
  obtain ⟨Q, hQ, hinit⟩ := hgood p hpm
  obtain ⟨s, b, hin, hQs⟩ := hinit i
  obtain ⟨P, hP, hP'⟩ := hfirst
  obtain ⟨e', hpts, _⟩ := hP' true _ hP
  obtain ⟨pt, e1, q1, q2, q3⟩ := hpts
  obtain ⟨subs, r1, r2, h2, m1, m2, m3⟩ := hmv
  have h0 : c.start = 0 ∧ c.start < c.stop := by
    have htile := hp.mission.tiles
    simp only [List.map_cons] at htile
    generalize hz : (0 : Int) = z at htile
    generalize hx : (c.start, c.stop) = x at htile
    cases htile with
    | cons hlt _ =>
    obtain ⟨h1, h2⟩ := Prod.mk.inj hx
    omega
  obtain ⟨j, g1, g2, g3, g4, g5, g6, g7, g8, g9, g10⟩ := chunk_step w hp.pix hp.nside M o hp.binning
    hp.ground p Q _ (c :: cs) hQ true 0 c rfl (hp.mission.numbered 0 c rfl) (by omega) h0.2
    { i with st := { i.st with maps := s }, hasMaps := b } hp.ready.chunks
    (by rw [h0.1]; exact ready_rot (i := i) hp.ready) pt e1 q1 q2 subs r1 r2 h2 m1 m2 hQs []
    (by rw [mapsOf_nil]; exact hp.ready.maps)
  obtain ⟨I, i1, i2, i3, i4, i5⟩ := hst
  have hI : I j.el := by
    rw [g4]
    exact i2 _ _ _ _ _ i1 List.mem_cons_self q1
  obtain ⟨e2, k1, k2⟩ := i5 _ hI
  have hstop : Stopped w H o beams true size r i j := by
    refine .inl ?_
    unfold scanRun
    rw [hps]
    refine .inl (.inr ⟨{ i with st := { i.st with maps := s }, hasMaps := b }, ?_, ?_⟩)
    · exact hin
    · unfold chunksRun
      have hch : i.chunks = (c :: cs).map fun c => (c, false) := hp.ready.chunks
      have hall : (i.chunks.all fun c => c.1.cidx.isSome) = true := by
        rw [hch]
        simp only [List.all_eq_true, List.mem_map]
        rintro _ ⟨d, hd, rfl⟩
        obtain ⟨n, hn, rfl⟩ := List.getElem_of_mem hd
        rw [hp.mission.numbered n _ (List.getElem?_eq_getElem hn)]
        rfl
      have hlen : i.chunks.length = cs.length + 1 := by
        rw [hch]
        simp
      rw [if_pos hall]
      dsimp only
      rw [hlen, List.range_succ_eq_map]
      exact .inr ⟨j, (chunk_result _ _ _ _ _ _ _).trans g1, each_start w H hH o p true _ j⟩
  refine ⟨j, { j with rot := j.rot.reset, hwp := j.hwp.reset, el := e2 }, hstop, ?_, _,
    each_spec w hp.pix hp.nside M o hp.binning hp.ground
    (fun p => detects M w.x o.interp nside (sm p)) N (c :: cs) hp.mission i.rot i.hwp
    (ready_rot hp.ready) hp.ready.rot hp.ready.hwp
    (moves_spec w.fsamp M N _ hp.mission hp.hwpang i.rot i.hwp hp.rotates hp.plate) beams size (by omega)
    _ (fun s => if s = r then (List.range c.stop.toNat).flatMap
      (pairObs M w.x w.q w.varphi w.nsideOut o.ctalk (detects M w.x o.interp nside (sm p)) p) else [])
    (fun t ht => ?_) hgood, ?_⟩
  · unfold resetAll
    rw [k1]
    rfl
  · by_cases htr : t = r
    · simp only [if_pos htr]
      refine ⟨g6.trans hp.ready.rot, g7.trans hp.ready.hwp, k2, g8.trans hp.ready.chunks, ?_⟩
      rw [g10, h0.1]
      simp [List.range_eq_range']
    · simp only [if_neg htr]
      exact ⟨trivial, trivial, ⟨P, hP, hP'⟩, hp.ready.chunks, by rw [mapsOf_nil]; exact hp.ready.maps⟩
  · rw [flatMap_single _ _ _ hr]
    exact holds_mapsOf _ _

namespace Stopping

open Rec Whole

/-- Anything may be left half done (there is nothing). -/
def H : Halfway Unit := ⟨fun _ _ => True, fun _ _ => True⟩

theorem prepared : Prepared Whole.w Whole.M Whole.o 3 Whole.chunks Whole.i :=
  ⟨ext_ok, pix_ok, one_pos, rfl, rfl, rfl, rfl, mission_ok, by decide, ready, rotates, plate⟩

theorem restores : Restores Whole.w H Whole.M Whole.chunks Whole.i.el :=
  ⟨fun _ => True, trivial, fun _ _ _ _ _ _ _ _ => trivial, fun _ _ _ _ => trivial,
    fun _ _ _ _ => trivial, fun _ _ => ⟨(), rfl, repeats.steady⟩⟩

/-- The maps of the detector of `Whole` can be used. -/
theorem maps_ok : ∃ sm : Pair → Spinmaps SpinDict, ∀ p ∈ Whole.beams, MapsOk Whole.w 1 (sm p) p := by
  classical
  choose sm h using fun p : {p // p ∈ Whole.beams} =>
    ideal_maps Whole.w one_pos Conv.Y (Whole.ideal p.1 p.2)
  refine ⟨fun p => if hp : p ∈ Whole.beams then sm ⟨p, hp⟩ else ⟨[], none, []⟩, ?_⟩
  intro p hp
  dsimp only
  rw [dif_pos hp]
  exact (h ⟨p, hp⟩).1

/-- The hypotheses of `C108_leftover_violation` are met: the first of two ranks is stopped after two of
three samples. -/
theorem stopped_early (sm : Pair → Spinmaps SpinDict)
    (h : ∀ p ∈ Whole.beams, MapsOk Whole.w 1 (sm p) p) :
    ∃ j k, Stopped Whole.w H Whole.o Whole.beams true 2 0 Whole.i j ∧ resetAll Whole.w j = .ok k ∧
      ∃ m, scanEach Whole.w Whole.o Whole.beams true 2 (fun s => if s = 0 then k else Whole.i) = .ok m ∧
        Holds Whole.w.nsideOut m ((List.range 2).flatMap
          (pairObs Whole.M Whole.w.x Whole.w.q Whole.w.varphi Whole.w.nsideOut Whole.o.ctalk
            (detects Whole.M Whole.w.x Whole.o.interp 1 (sm (some ⟨det.point, [], 0⟩, none)))
            (some ⟨det.point, [], 0⟩, none)) ++ Full Whole.w Whole.M Whole.o 3 1 sm Whole.beams) :=
  C108_leftover_violation Whole.w H (fun _ => trivial) Whole.M Whole.o 3 _ _ Whole.i prepared restores
    repeats.steady Whole.beams 1 sm h 2 0 two_pos _ List.mem_cons_self [] rfl

/-- The hypotheses of `C108_recover` and `C108_settings` are met: every rank has been stopped in a scan,
once more while it was resetting, and has then done a scan of other detectors. -/
example (size : Nat) (hs : 0 < size) : ∃ sm, ∃ stopped : Inst Unit,
    (∃ j, Stopped Whole.w H Whole.o Whole.beams true 2 0 Whole.i j ∧ ∃ j', (resetRun Whole.w H j).during j' ∧
      scanInstrument Whole.w Whole.o [] true 1 0 j' = .ok stopped) ∧
    stopped.rot.period = Whole.rot.period ∧
    ∃ again : Nat → Inst Unit, (∀ r, r < size → restart Whole.w stopped = .ok (again r)) ∧
      ∃ m, scanEach Whole.w Whole.o Whole.beams true size again = .ok m ∧
        Holds 1 m (Full Whole.w Whole.M Whole.o 3 1 sm Whole.beams) := by
  obtain ⟨sm, h⟩ := maps_ok
  obtain ⟨j, k, h1, -⟩ := stopped_early sm h
  have h2 : (resetRun Whole.w H j).during { j with hwp := j.hwp.reset } :=
    ⟨j.rot, j.hwp.reset, (), .refl _, ⟨_, _, _, rfl⟩, .inl rfl, rfl⟩
  have h3 : scanInstrument Whole.w Whole.o [] true 1 0 { j with hwp := j.hwp.reset }
      = .ok { j with hwp := j.hwp.reset } := rfl
  have ha : After Whole.w H Whole.i { j with hwp := j.hwp.reset } :=
    .scan Whole.o [] true 1 0 (.resetting (.scan Whole.o Whole.beams true 2 0 .start rfl h1) h2) rfl
      (.inr h3)
  refine ⟨sm, _, ⟨j, h1, _, h2, h3⟩, (C108_settings Whole.w H Whole.chunks Whole.i _ ready ha).2.1, ?_⟩
  exact C108_recover Whole.w H Whole.M Whole.o 3 Whole.chunks Whole.i prepared restores Whole.beams 1 sm h
    size hs (fun _ => _) (fun _ _ => ha)

/-- The hypotheses of `C108_generic` are met, with a memory map. -/
example : ∃ bore, ∀ M : Motion, M.bore = bore → (∀ t : Nat, M.time t = t / 1 + 0) →
    (∀ t, M.flag t = false) → Restores Together.s.w genericHalf M Whole.chunks
      { Together.i.el with mmap := some [0, 0, 0] } := by
  obtain ⟨bore, -, h⟩ := C108_generic Together.s.w Together.s.site Together.s.so rfl (fun _ => 0)
    (.inl ⟨rfl, fun _ => rfl⟩) one_ne_zero one_pos (by decide) rfl none trivial rfl rfl 3 Whole.chunks
    mission_ok (.inr fun _ _ => one_dvd _) { Together.i.el with mmap := some [0, 0, 0] } trivial
    (by rintro m ⟨⟩; exact le_refl 3) rfl
  exact ⟨bore, h⟩

/-- Nothing is left half done by the functions of the user. -/
def atomic {A : Type} : Halfway (Strategies.Att A) := ⟨fun e e' => e' = e, fun e e' => e' = e⟩

/-- The hypotheses of `C108_external` are met. -/
example : Restores (Ways.world Ways.own) atomic
    ⟨fun t => t, fun t => ![1, (t : ℝ), 0, 0], fun _ => 0, alpha, fun _ => false⟩ Whole.chunks
    (Ways.inst ()).el :=
  C108_external (Ways.world Ways.own) Ways.own ⟨rfl, rfl⟩ rfl rfl atomic
    (by rintro e e' (rfl | rfl) <;> exact ⟨rfl, rfl⟩) _ _ _ rfl rfl (fun _ => rfl) (fun _ _ => rfl)
    (fun _ _ _ => rfl)

/-- The hypotheses of `C108_strictly_az` are met. -/
example : Restores (Ways.world Ways.turning) atomic
    ⟨fun t => t / 1 + 0, fun t => ![1, 10 + ((if t < 2 then t else t - 2 : Nat) : ℝ) * 3 / 1, 45,
      (t : ℝ) / 1 + 0], fun _ => 0, alpha, fun _ => false⟩ Whole.chunks (Ways.inst ()).el := by
  refine C108_strictly_az (Ways.world Ways.turning) Ways.turning ⟨rfl, rfl⟩ rfl rfl rfl 45 10 3
    (by norm_num) rfl one_ne_zero atomic (by rintro e e' (rfl | rfl) <;> rfl) _ 3 _ mission_ok _ rfl
    (fun _ => rfl) (fun _ => rfl) ?_
  intro c hc k hk
  simp only [chunks, List.mem_cons, List.not_mem_nil, or_false] at hc
  rcases hc with rfl | rfl
  · have hk' : k < 2 := hk
    show ![1, 10 + ((if 0 + k < 2 then 0 + k else _ : Nat) : ℝ) * 3 / 1, 45, _] = ![1, 10 + (k : ℝ) * 3 / 1, 45, _]
    rw [if_pos (by omega), Nat.zero_add]
  · have hk' : k < 1 := hk
    show ![1, 10 + ((if 2 + k < 2 then _ else 2 + k - 2 : Nat) : ℝ) * 3 / 1, 45, _] = ![1, 10 + (k : ℝ) * 3 / 1, 45, _]
    rw [if_neg (by omega), Nat.add_sub_cancel_left]

/-- The hypotheses of `C108_satellite_violation` are met. -/
example (M : Motion) : ¬ Restores (Ways.world Ways.flying) atomic M [⟨0, 2, some 0, false, none⟩]
    ⟨⟨[], [], none, none, none, none⟩, none, none⟩ :=
  C108_satellite_violation (Ways.world Ways.flying) Ways.flying ⟨rfl, rfl⟩ rfl rfl
    (fun a _ l la _ => ![1, a, l, la]) (fun _ _ _ _ _ _ _ h => by simpa using congrFun h 2) one_ne_zero
    rfl rfl _ rfl atomic M

end Stopping

end Verif.Props
