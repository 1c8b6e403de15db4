import Verif.Props.Crew

/-!
# Property C136: pointing jitter of a satellite on several ranks
-/

noncomputable section

namespace Verif.Props

open Verif.Chunks Verif.Timeline Verif.Spinmaps Verif.MapMaking Verif.ScanInstrument Verif.Spec
open Verif.Strategies (Strategy Att Uses GivesMaps Clock Prepared)
open Verif.Spmd (Junk JunkOk AlwaysEnds firstOnly RunsTo)
open Verif.Crew (scanAndSolve owner mixed Shaken computes_jitter)

/-- **C136.** `satellite_scan` with jitter on several ranks, each with normal deviates of its own: whatever
the schedule, all ranks end with the same pointing.  It is that of a satellite without jitter, but for the
elevation, which is off by `amp` times one deviate, taken from the rank which points this sample. -/
theorem C136_agree (azel2bore : ℝ → ℝ → ℝ → ℝ → ℝ → Quat.Q) (o : Satellite.Opts) (amp : ℝ)
    (rng : Nat → Nat → ℝ) (size : Nat) (hs : 0 < size) (junk : Junk) (hj : JunkOk junk)
    (start stop : Int) (cidx : Option Int) (ground : Option Bool) (e : Att (Satellite.State × Nat))
    (hn : e.st.ctime ≠ []) :
    ∃ az el lon lat own, Satellite.scan o e.own.1 e.st.ctime.length = .ok ((az, el, lon, lat), own) ∧
    ∃ q drawn, AlwaysEnds size
        (fun r => Crew.satelliteJitter junk size r azel2bore o amp (rng r) start stop cidx ground e)
        (fun _ => .ok (q, ⟨{ e.st with flag := some (List.replicate e.st.ctime.length false) },
          own, drawn⟩)) ∧
      q.length = e.st.ctime.length ∧
      ∀ k a b c d t, az[k]? = some a → el[k]? = some b → lon[k]? = some c → lat[k]? = some d →
        e.st.ctime[k]? = some t →
        q[k]? = some (azel2bore a (b + amp * rng (owner size e.st.ctime.length k) (e.own.2 + k)) c d t) := by
  obtain ⟨n, hl⟩ : ∃ n, e.st.ctime.length = n := ⟨_, rfl⟩
  have hn' : 1 ≤ n := by
    rw [← hl]
    exact List.length_pos_iff.2 hn
  rw [hl]
  obtain ⟨lo, e1, h1⟩ := last_of (l := Satellite.lon o e.own.1 n) (n := n)
    (by simp [Satellite.lon, Satellite.linspaceClosed]) hn'
  obtain ⟨la, e2, h2⟩ := last_of (l := Satellite.lat o e.own.1 n) (n := n)
    (by simp [Satellite.lat, Hwp.linspace]) hn'
  refine ⟨Satellite.az o n, List.replicate n o.beta, Satellite.lon o e.own.1 n, Satellite.lat o e.own.1 n,
    ⟨some lo, some la⟩, ?_, ?_⟩
  · unfold Satellite.scan
    rw [e1, e2]
    rfl
  have hf : Strategies.satelliteJitter azel2bore o amp (mixed size rng) start stop cidx ground e =
      .ok (List.zipWith (fun (x : ℝ × ℝ × ℝ × ℝ) t => azel2bore x.1 x.2.1 x.2.2.1 x.2.2.2 t)
        ((Satellite.az o n).zip ((Satellite.elJitter o amp (mixed size rng n e.own.2) e.own.2 n).zip
          ((Satellite.lon o e.own.1 n).zip (Satellite.lat o e.own.1 n)))) e.st.ctime,
        ⟨{ e.st with flag := some (List.replicate n false) }, ⟨some lo, some la⟩,
          if amp ≠ 0 then e.own.2 + n else e.own.2⟩) := by
    unfold Strategies.satelliteJitter Satellite.scanJitter
    rw [hl, e1, e2]
    have : (Satellite.az o n).map (fun _ => false) = List.replicate n false := by
      simp [Satellite.az, Function.comp_def]
    rw [← this]
    rfl
  refine ⟨_, _, RunsTo.alwaysEnds hs (computes_jitter hs junk hj azel2bore o amp rng start stop cidx ground
    e _ (by simp) hf), ?_, ?_⟩
  · simp [hl, Satellite.az, Satellite.lon, Satellite.lat, Satellite.linspaceClosed, Hwp.linspace,
      Satellite.elJitter, apply_ite List.length]
  · intro k a b c d t ha hb hc hd ht
    have hk : k < n := by
      rw [← hl]
      exact (List.getElem?_eq_some_iff.1 ht).1
    have hel : (Satellite.elJitter o amp (mixed size rng n e.own.2) e.own.2 n)[k]? =
        some (b + amp * rng (owner size n k) (e.own.2 + k)) := by
      rw [List.getElem?_replicate, if_pos hk] at hb
      obtain rfl := Option.some.inj hb
      unfold Satellite.elJitter
      split
      · simp [hk, mixed]
      · rename_i h0
        rw [not_not.1 h0, List.getElem?_replicate, if_pos hk, zero_mul, add_zero]
    simp only [List.zip, List.getElem?_zipWith, ha, hel, hc, hd, ht]

/-- **C136 (one seed).** If all ranks have the same normal deviates, because their generators were seeded
alike, any number of them points the satellite as a single process does. -/
theorem C136_seeded (azel2bore : ℝ → ℝ → ℝ → ℝ → ℝ → Quat.Q) (o : Satellite.Opts) (amp : ℝ)
    (seq : Nat → ℝ) (size : Nat) (hs : 0 < size) (junk : Junk) (hj : JunkOk junk)
    (start stop : Int) (cidx : Option Int) (ground : Option Bool) (e : Att (Satellite.State × Nat))
    (x : List Quat.Q × Att (Satellite.State × Nat))
    (h : Strategies.satelliteJitter azel2bore o amp (fun _ _ j => seq j) start stop cidx ground e = .ok x) :
    AlwaysEnds size
      (fun r => Crew.satelliteJitter junk size r azel2bore o amp seq start stop cidx ground e)
      fun _ => .ok x :=
  RunsTo.alwaysEnds hs (computes_jitter hs junk hj azel2bore o amp (fun _ => seq) start stop cidx ground
    e x (by simp) h)

/-- **C136 (no jitter).** With `jitter_amp=0` nothing is drawn: the ranks do what they do without the
option. -/
theorem C136_none (azel2bore : ℝ → ℝ → ℝ → ℝ → ℝ → Quat.Q) (o : Satellite.Opts) (seq : Nat → ℝ)
    (start stop : Int) (cidx : Option Int) (ground : Option Bool) (e : Att (Satellite.State × Nat))
    (q : List Quat.Q) (e' : Att Satellite.State)
    (h : Strategies.satelliteScan azel2bore o start stop cidx ground ⟨e.st, e.own.1⟩ = .ok (q, e')) :
    Strategies.satelliteJitter azel2bore o 0 (fun _ _ j => seq j) start stop cidx ground e =
      .ok (q, ⟨e'.st, e'.own, e.own.2⟩) := by
  obtain ⟨⟨p, own⟩, h1, h⟩ := bind_ok h
  cases h
  unfold Strategies.satelliteJitter
  rw [C85_no_jitter, h1]
  rfl

theorem jitter_step {s : Strategy (Satellite.State × Nat)} (hext : s.extPoint = true) (hl2 : s.useL2 = false)
    {azel2bore : ℝ → ℝ → ℝ → ℝ → ℝ → Quat.Q} {so : Satellite.Opts} (hfs : s.so.fsamp ≠ 0)
    (hct : s.ctimeFunc = Strategies.plainCtime s.so.fsamp s.so.ctime0)
    {amp : ℝ} (ha : amp ≠ 0) {rng : Nat → Nat → ℝ} {size : Nat}
    (hq : s.boreFunc = Strategies.satelliteJitter azel2bore so amp (mixed size rng)) {M : Motion}
    (ht : Clock s.so.fsamp s.so.ctime0 M) (c : Chunk) (h0 : 0 ≤ c.start) (h1 : c.start < c.stop)
    (e : Att (Satellite.State × Nat)) (g pre : Bool) : ∃ p e', Strategies.implement s e c g pre = .ok (p, e') ∧
      p.ctime = ((List.range (c.stop - c.start).toNat).map fun k => M.time (c.start.toNat + k)) ∧
      p.bore = ((List.range (c.stop - c.start).toNat).map fun k => azel2bore (Strategies.orbitAz so k)
        (so.beta + amp * rng (owner size (c.stop - c.start).toNat k) (e.own.2 + k))
        (Strategies.orbitLon so (Satellite.startAt e.own.1.lon) (c.stop - c.start).toNat k)
        (Strategies.orbitLat so (Satellite.startAt e.own.1.lat) k) (M.time (c.start.toNat + k))) ∧
      p.flag = some ((List.range (c.stop - c.start).toNat).map fun _ => false) ∧
      e'.own.1.lon = some (Strategies.orbitLon so (Satellite.startAt e.own.1.lon) (c.stop - c.start).toNat
        ((c.stop - c.start).toNat - 1)) ∧
      e'.own.1.lat = some (Strategies.orbitLat so (Satellite.startAt e.own.1.lat)
        ((c.stop - c.start).toNat - 1)) ∧
      e'.own.2 = e.own.2 + (c.stop - c.start).toNat := by
  have e1 : s.ctimeFunc c.start c.stop c.cidx = .ok ((List.range (c.stop - c.start).toNat).map fun k =>
      M.time (c.start.toNat + k)) := by
    rw [hct]
    exact Strategies.ctimes_eq hfs ht h0
  obtain ⟨n, hn⟩ : ∃ n, n = (c.stop - c.start).toNat := ⟨_, rfl⟩
  have hn1 : 1 ≤ n := by omega
  rw [← hn] at e1 ⊢
  obtain ⟨lo, la, h2, h3, h4⟩ := scan_ok so e.own.1 n hn1
  have e2 : s.boreFunc c.start c.stop c.cidx none (Strategies.setCtime
      ((List.range n).map fun k => M.time (c.start.toNat + k)) e) =
      .ok (List.zipWith (fun (x : ℝ × ℝ × ℝ × ℝ) t => azel2bore x.1 x.2.1 x.2.2.1 x.2.2.2 t)
        ((Satellite.az so n).zip ((Satellite.elJitter so amp (mixed size rng n e.own.2) e.own.2 n).zip
          ((Satellite.lon so e.own.1 n).zip (Satellite.lat so e.own.1 n))))
        ((List.range n).map fun k => M.time (c.start.toNat + k)),
        { st := { e.st with
            ctime := (List.range n).map fun k => M.time (c.start.toNat + k)
            flag := some ((Satellite.az so n).map fun _ => false) }
          own := (⟨some lo, some la⟩, e.own.2 + n) }) := by
    rw [hq]
    unfold Strategies.satelliteJitter
    have : (Strategies.setCtime ((List.range n).map fun k => M.time (c.start.toNat + k)) e).st.ctime.length
        = n := by simp [Strategies.setCtime]
    rw [this]
    show (Satellite.scanJitter so amp _ e.own.1 e.own.2 n >>= _) = _
    obtain ⟨_, g2, h2⟩ := bind_ok h2
    obtain ⟨_, g3, h2⟩ := bind_ok h2
    cases h2
    unfold Satellite.scanJitter
    rw [g2, g3, if_pos ha]
    rfl
  refine ⟨_, _, implement_external hext hl2 e1 e2, rfl, ?_, ?_, ?_, ?_, rfl⟩
  · have ea : Satellite.az so n = (List.range n).map fun k => Strategies.orbitAz so k := by
      refine List.ext_getElem? fun k => ?_
      by_cases hk : k < n
      · rw [az_get so n k hk, List.getElem?_map, List.getElem?_range hk]
        rfl
      · rw [List.getElem?_eq_none (by simpa [Satellite.az] using hk),
          List.getElem?_eq_none (by simpa using hk)]
    have eb : Satellite.elJitter so amp (mixed size rng n e.own.2) e.own.2 n = (List.range n).map fun k =>
        so.beta + amp * rng (owner size n k) (e.own.2 + k) := by
      unfold Satellite.elJitter
      rw [if_pos ha]
      refine List.map_congr_left fun k _ => ?_
      simp [mixed]
    have ec : Satellite.lon so e.own.1 n = (List.range n).map fun k =>
        Strategies.orbitLon so (Satellite.startAt e.own.1.lon) n k := by
      refine List.ext_getElem? fun k => ?_
      by_cases hk : k < n
      · rw [lon_get so e.own.1 n k hk, List.getElem?_map, List.getElem?_range hk]
        rfl
      · rw [List.getElem?_eq_none (by simpa [Satellite.lon, Satellite.linspaceClosed] using hk),
          List.getElem?_eq_none (by simpa using hk)]
    have ed : Satellite.lat so e.own.1 n = (List.range n).map fun k =>
        Strategies.orbitLat so (Satellite.startAt e.own.1.lat) k := by
      refine List.ext_getElem? fun k => ?_
      by_cases hk : k < n
      · rw [lat_get so e.own.1 n k hk, List.getElem?_map, List.getElem?_range hk]
        rfl
      · rw [List.getElem?_eq_none (by simpa [Satellite.lat, Hwp.linspace] using hk),
          List.getElem?_eq_none (by simpa using hk)]
    show List.zipWith _ _ _ = _
    rw [ea, eb, ec, ed, List.zip_map', List.zip_map', List.zip_map', List.zipWith_map]
    simp [List.zipWith_self]
  · show some ((Satellite.az so n).map _) = _
    unfold Satellite.az
    rw [List.map_map]
    rfl
  · show some lo = _
    rw [← h3, lon_get so e.own.1 n _ (by omega)]
    rfl
  · show some la = _
    rw [← h4, lat_get so e.own.1 n _ (by omega)]
    rfl

/-- **C136 (whole scans), a part.** If every rank has at most one detector pair, a scan with
`satellite_ctime` and `satellite_scan(jitter_amp=amp)` ends on all ranks, whatever the schedule, and sees
the sky along the pointing that `Shaken` describes, which is the same for all detectors.  Missing: several
pairs on a rank, which see the sky at different longitudes (`C107_satellite_violation`) and through
different jitter (`C85_violation_jitter`). -/
theorem C136_scan_partial (w : World (Att (Satellite.State × Nat))) (s : Strategy (Satellite.State × Nat))
    (hw : Uses w s) (hext : s.extPoint = true) (hl2 : s.useL2 = false)
    (azel2bore : ℝ → ℝ → ℝ → ℝ → ℝ → Quat.Q) (so : Satellite.Opts) (hfs : s.so.fsamp ≠ 0)
    (hct : s.ctimeFunc = Strategies.plainCtime s.so.fsamp s.so.ctime0)
    (amp : ℝ) (ha : amp ≠ 0) (rng : Nat → Nat → ℝ) (size : Nat) (hs : 0 < size)
    (hq : s.boreFunc = Strategies.satelliteJitter azel2bore so amp (mixed size rng))
    (M : Motion) (o : Opts) (N : Nat) (chunks : List Chunk) (i : Inst (Att (Satellite.State × Nat)))
    (hp : Prepared w M o N chunks i) (ht : Clock s.so.fsamp s.so.ctime0 M) (hM : ∀ t, M.flag t = false)
    (hb : Shaken size azel2bore so amp rng M (Satellite.startAt i.el.own.1.lon)
      (Satellite.startAt i.el.own.1.lat) i.el.own.2 chunks)
    (beams : List Pair) (hone : beams.length ≤ size) (nside : Nat) (sm : Pair → Spinmaps SpinDict)
    (hsm : ∀ p ∈ beams, MapsOk w nside (sm p) p) :
    ∃ m, Holds w.nsideOut m (beams.flatMap fun p => (List.range N).flatMap
        (pairObs M w.x w.q w.varphi w.nsideOut o.ctalk (detects M w.x o.interp nside (sm p)) p)) ∧
      ∀ (junk : Junk) (fill : ℝ), JunkOk junk → AlwaysEnds size
        (scanAndSolve w o s (fun r => Crew.satelliteJitter junk size r azel2bore so amp (rng r)) beams
          fill i size) (firstOnly (solveForMap w.q m fill)) := by
  have hg : GivesMaps w M o N beams size i := by
    have hpts : ∀ (cs : List Chunk) (e : Att (Satellite.State × Nat)) (pre : Bool),
        (∀ c ∈ cs, 0 ≤ c.start ∧ c.start < c.stop) →
        Shaken size azel2bore so amp rng M (Satellite.startAt e.own.1.lon)
          (Satellite.startAt e.own.1.lat) e.own.2 cs →
        ∃ e', Points w M pre e cs e' := by
      intro cs
      induction cs with
      | nil => exact fun e _ _ _ => ⟨e, rfl⟩
      | cons c cs ih =>
        intro e pre hc ⟨ho, hos⟩
        obtain ⟨p, e', h1, h2, h3, h4, h5, h6, h8⟩ := jitter_step hext hl2 hfs hct ha hq ht c
          (hc c List.mem_cons_self).1 (hc c List.mem_cons_self).2 e false pre
        obtain ⟨e'', h7⟩ := ih e' pre (fun d hd => hc d (List.mem_cons_of_mem _ hd)) (by
          rw [h5, h6, h8, startAt_some, startAt_some]
          exact hos)
        refine ⟨e'', p, e', by rw [hw.1]; exact h1, ⟨h2, ?_, ?_⟩, h7⟩
        · rw [h3]
          exact List.map_congr_left fun k hk => (ho k (List.mem_range.1 hk)).symm
        · rw [h4]
          exact List.map_congr_left fun k _ => (hM _).symm
    have hp' : Prepared { w with resetEl := fun _ => .ok i.el } M o N chunks i :=
      ⟨hp.ext, hp.pix, hp.nside, hp.binning, hp.preview, hp.ground, hp.reuse, hp.mission, hp.hwpang,
        ⟨hp.ready.chunks, hp.ready.maps, hp.ready.rot, hp.ready.period, hp.ready.hwp⟩, hp.rotates, hp.plate⟩
    have hst : Steady { w with resetEl := fun _ => .ok i.el } M chunks i.el := by
      refine ⟨fun _ e => e = i.el, rfl, ?_⟩
      rintro first e rfl
      obtain ⟨e', he⟩ := hpts chunks i.el (!first)
        (fun c hc => ⟨(Strategies.Mission.start_nonneg hp.mission hc).1,
          (Strategies.Mission.start_nonneg hp.mission hc).2.1⟩) hb
      exact ⟨e', Strategies.points_resetEl _ he, i.el, rfl, rfl⟩
    have := hp'.gives hst beams size hs
    intro nside sm hm
    obtain ⟨m, h1, h2⟩ := this nside sm hm
    rw [Strategies.scanAll_resetEl w _ o beams size hone hs i] at h1
    exact ⟨m, h1, h2⟩
  obtain ⟨m, h1, h2⟩ := C133_maps w s hw (.inl hext) M o N beams i size hs hg nside sm hsm
  exact ⟨m, h1, fun junk fill hj => h2 junk _ fill hj (.jitter hq)⟩

namespace Ways

open Rec Whole

/-- Two ranks with different deviates. -/
def deviates (r j : Nat) : ℝ := (r : ℝ) * 100 + j

/-- A satellite that shakes. -/
def shaken : Strategy (Satellite.State × Nat) where
  extPoint := true
  useL2 := false
  useStrictlyAz := false
  ctimeFunc := Strategies.plainCtime 1 0
  boreFunc := Strategies.satelliteJitter (fun a el _ la _ => ![1, a, el, la]) slow 2 (mixed 2 deviates)
  site := site
  so := so

/-- Three samples on two ranks: the first rank points two of them. -/
example : owner 2 3 0 = 0 ∧ owner 2 3 1 = 0 ∧ owner 2 3 2 = 1 := by decide

/-- The hypotheses of `C136_agree` are met: the last of three samples has a deviate of the second rank. -/
example : ∃ q e', AlwaysEnds 2 (fun r => Crew.satelliteJitter junk 2 r
      (fun a el _ la _ => ![1, a, el, la]) slow 2 (deviates r) 0 3 none none
      ⟨⟨[0, 1, 2], [], none, none, none, none⟩, ⟨none, none⟩, 5⟩) (fun _ => .ok (q, e')) ∧
    ∃ a c, q[2]? = some ![1, a, slow.beta + 2 * 107, c] := by
  obtain ⟨az, el, lon, lat, own, h, q, d, h1, -, h2⟩ := C136_agree (fun a el _ la _ => ![1, a, el, la]) slow 2
    deviates 2 two_pos junk junk_ok 0 3 none none
    ⟨⟨[0, 1, 2], [], none, none, none, none⟩, ⟨none, none⟩, 5⟩ (by simp)
  obtain ⟨lo, e1, h⟩ := bind_ok h
  obtain ⟨la, e2, h⟩ := bind_ok h
  cases h
  have h3 := h2 2 _ slow.beta _ _ 2 rfl rfl rfl rfl rfl
  obtain ⟨a, c, h3⟩ : ∃ a c, q[2]? = some ![1, a, slow.beta + 2 * deviates 1 7, c] := ⟨_, _, h3⟩
  refine ⟨q, _, h1, a, c, h3.trans ?_⟩
  rw [show deviates 1 7 = 107 by norm_num [deviates]]

/-- The hypotheses of `C136_scan_partial` are met: two chunks, with a detector on each of two ranks. -/
example (fill : ℝ) : ∃ sky, AlwaysEnds 2 (scanAndSolve (world shaken) Whole.o shaken
    (fun r => Crew.satelliteJitter junk 2 r (fun a el _ la _ => ![1, a, el, la]) slow 2 (deviates r)) beams
    fill (inst (⟨none, none⟩, 0)) 2) (firstOnly sky) := by
  obtain ⟨sm, hsm⟩ := maps_ok
  have e0 : Satellite.startAt (none : Option ℝ) = 0 := rfl
  obtain ⟨m, -, h⟩ := C136_scan_partial (world shaken) shaken ⟨rfl, rfl⟩ rfl rfl
    (fun a el _ la _ => ![1, a, el, la]) slow one_ne_zero rfl 2 two_ne_zero deviates 2 two_pos rfl
    ⟨fun t => t / 1 + 0, fun t => if t < 2 then
        ![1, Strategies.orbitAz slow t, slow.beta + 2 * deviates t t, Strategies.orbitLat slow 0 t]
      else ![1, Strategies.orbitAz slow (t - 2), slow.beta + 2 * deviates 0 t,
        Strategies.orbitLat slow (Strategies.orbitLat slow 0 1) (t - 2)],
      fun _ => 0, alpha, fun _ => false⟩ _ _ _ _
    (prepared shaken (⟨none, none⟩, 0) _ _) (fun _ => rfl) (fun _ => rfl) (by
      show Shaken _ _ _ _ _ _ (Satellite.startAt none) (Satellite.startAt none) _ _
      rw [e0]
      refine ⟨fun k hk => ?_, fun k hk => ?_, trivial⟩
      · have hk' : k < 2 := hk
        interval_cases k <;> rfl
      · have hk' : k < 1 := hk
        interval_cases k
        rfl) beams (by decide) 1 sm hsm
  exact ⟨_, h junk fill junk_ok⟩

end Ways

end Verif.Props
