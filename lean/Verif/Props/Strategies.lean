import Verif.Lemmas.Strategies
import Verif.Props.Schedule
import Verif.Props.Satellite
import Verif.Props.Angles

/-!
# C107: whole scans with every pointing strategy
-/

noncomputable section

namespace Verif.Props

open Verif.Chunks Verif.Timeline Verif.Spinmaps Verif.MapMaking Verif.ScanInstrument Verif.Spec
open Verif.Strategies (Att Strategy Uses Prepared GivesMaps Clock)

variable {A : Type}

theorem implement_of {s : Strategy A} {e e' : Att A} {c : Chunk} {g pre : Bool}
    (h : Strategies.implementScan s e c g pre = .ok e') : Strategies.implement s e c g pre =
      .ok (⟨e'.st.ctime, e'.st.qBore, e'.st.qGround, e'.st.flag⟩, e') := by
  unfold Strategies.implement
  rw [h]
  rfl

theorem implement_external {s : Strategy A} (hext : s.extPoint = true) (hl2 : s.useL2 = false)
    {e e' : Att A} {c : Chunk} {g pre : Bool} {t : List ℝ} {q : List Quat.Q}
    (ht : s.ctimeFunc c.start c.stop c.cidx = .ok t)
    (hq : s.boreFunc c.start c.stop c.cidx none (Strategies.setCtime t e) = .ok (q, e')) :
    Strategies.implement s e c g pre = .ok (⟨e'.st.ctime, q, e'.st.qGround, e'.st.flag⟩,
      Strategies.setBore q e') := by
  refine implement_of (e' := Strategies.setBore q e') ?_
  unfold Strategies.implementScan Strategies.external
  rw [hext, hl2]
  simp only [Bool.not_false, Bool.and_self, if_true, bind, Except.bind, pure, Except.pure]
  rw [ht]
  dsimp only
  rw [hq]

theorem bore_range {site : Scan.Site ℝ Quat.Q} {n : Nat} {f g h : Nat → ℝ} :
    Scan.bore site ((List.range n).map f) ((List.range n).map g) ((List.range n).map h) =
      (List.range n).map fun k => site.azel2bore (f k) (g k) (h k) := by
  unfold Scan.bore
  rw [List.zip_map', List.zip_map', List.map_map]
  rfl

/-! ## functions of the user -/

theorem external_points (w : World (Att A)) (s : Strategy A) (hw : Uses w s) (hext : s.extPoint = true)
    (hl2 : s.useL2 = false) (M : Motion) (chunks : List Chunk) (hM : ∀ t, M.flag t = false)
    (hct : ∀ c ∈ chunks, s.ctimeFunc c.start c.stop c.cidx =
      .ok ((List.range (c.stop - c.start).toNat).map fun k => M.time (c.start.toNat + k)))
    (hq : ∀ c ∈ chunks, ∀ e, s.boreFunc c.start c.stop c.cidx none e =
      .ok ((List.range (c.stop - c.start).toNat).map fun k => M.bore (c.start.toNat + k), e)) :
    (∀ c ∈ chunks, ∀ e pre, (e.st.el = none ∧ e.st.flag = none) → ∃ p e',
      w.implement e c false pre = .ok (p, e') ∧ PointsAt M c p ∧ e'.st.el = none ∧ e'.st.flag = none) ∧
    ∀ e : Att A, (e.st.el = none ∧ e.st.flag = none) → w.resetEl e = .ok e := by
  refine ⟨?_, ?_⟩
  · rintro c hc e pre ⟨h1, h2⟩
    rw [hw.1, implement_external hext hl2 (hct c hc) (hq c hc _)]
    refine ⟨_, _, rfl, ⟨rfl, rfl, ?_⟩, h1, h2⟩
    show match e.st.flag with
      | some f => _
      | none => _
    rw [h2]
    exact fun _ _ => hM _
  · rintro e ⟨h1, h2⟩
    rw [hw.2, Strategies.reset_none h1]

/-- **C107 (external pointing).** With `external_pointing=True`, and functions of the user that return the
times and boresight quaternions of the samples asked for, a whole scan sees the sky along this pointing,
for any number of detector pairs and ranks. -/
theorem C107_external (w : World (Att A)) (s : Strategy A) (hw : Uses w s) (hext : s.extPoint = true)
    (hl2 : s.useL2 = false) (M : Motion) (o : Opts) (N : Nat) (chunks : List Chunk) (i : Inst (Att A))
    (hp : Prepared w M o N chunks i) (hel : i.el.st.el = none) (hfl : i.el.st.flag = none)
    (hM : ∀ t, M.flag t = false)
    (hct : ∀ c ∈ chunks, s.ctimeFunc c.start c.stop c.cidx =
      .ok ((List.range (c.stop - c.start).toNat).map fun k => M.time (c.start.toNat + k)))
    (hq : ∀ c ∈ chunks, ∀ e, s.boreFunc c.start c.stop c.cidx none e =
      .ok ((List.range (c.stop - c.start).toNat).map fun k => M.bore (c.start.toNat + k), e))
    (beams : List Pair) (size : Nat) (hs : 0 < size) : GivesMaps w M o N beams size i := by
  obtain ⟨h1, h2⟩ := external_points w s hw hext hl2 M chunks hM hct hq
  exact hp.gives (Repeats.steady (Strategies.repeats_of
    (I := fun e => e.st.el = none ∧ e.st.flag = none) ⟨hel, hfl⟩ h1 fun e he => ⟨e, h2 e he, he⟩)) beams
    size hs

/-! ## `strictly_az` -/

theorem strictly_points (w : World (Att A)) (s : Strategy A) (hw : Uses w s) (hext : s.extPoint = false)
    (hl2 : s.useL2 = false) (haz : s.useStrictlyAz = true) (el0 az0 speed : ℝ) (hsp : speed ≠ 0)
    (hb : s.boreFunc = Strategies.strictlyAz s.site s.so.fsamp el0 az0 speed) (hfs : s.so.fsamp ≠ 0)
    (M : Motion) (N : Nat) (chunks : List Chunk) (hmi : Mission N chunks)
    (ht : Clock s.so.fsamp s.so.ctime0 M) (hM : ∀ t, M.flag t = false)
    (hbore : ∀ c ∈ chunks, ∀ k : Nat, k < (c.stop - c.start).toNat → M.bore (c.start.toNat + k) =
      s.site.azel2bore (az0 + k * speed / s.so.fsamp) el0 (M.time (c.start.toNat + k))) :
    (∀ c ∈ chunks, ∀ (e : Att A) (pre : Bool), e.st.el = none → ∃ p e',
      w.implement e c false pre = .ok (p, e') ∧ PointsAt M c p ∧ e'.st.el = none) ∧
    ∀ e : Att A, e.st.el = none → w.resetEl e = .ok e := by
  refine ⟨?_, ?_⟩
  · intro c hc e pre h1
    have h0 := (Strategies.Mission.start_nonneg hmi hc).1
    have key : Strategies.implementScan s e c false pre = .ok (Strategies.setBore
        ((List.range (c.stop - c.start).toNat).map fun k => M.bore (c.start.toNat + k))
        { Strategies.setCtime ((List.range (c.stop - c.start).toNat).map fun k =>
            M.time (c.start.toNat + k)) e with
          st := { (Strategies.setCtime ((List.range (c.stop - c.start).toNat).map fun k =>
            M.time (c.start.toNat + k)) e).st with
              flag := some ((List.range (c.stop - c.start).toNat).map fun k =>
                M.flag (c.start.toNat + k)) } }) := by
      unfold Strategies.implementScan Strategies.strictly
      rw [hext, hl2, haz]
      simp only [Bool.false_and, Bool.false_eq_true, if_false, if_true]
      rw [Strategies.ctimes_eq hfs ht h0]
      show (s.boreFunc _ _ _ _ _ >>= _) = _
      rw [hb]
      unfold Strategies.strictlyAz
      simp only [if_neg hsp, bind, Except.bind, pure, Except.pure]
      have e1 : Scan.bore s.site ((List.range (c.stop - c.start).toNat).map fun (k : Nat) =>
            (k : ℝ) * speed / s.so.fsamp + az0)
          ((List.range (c.stop - c.start).toNat).map fun (_ : Nat) => 0 + el0)
          ((List.range (c.stop - c.start).toNat).map fun k => M.time (c.start.toNat + k)) =
          (List.range (c.stop - c.start).toNat).map fun k => M.bore (c.start.toNat + k) := by
        rw [bore_range]
        refine List.map_congr_left fun k hk => ?_
        rw [hbore c hc k (List.mem_range.1 hk), zero_add, add_comm az0]
      have e2 : (((List.range (c.stop - c.start).toNat).map fun (k : Nat) =>
            (k : ℝ) * speed / s.so.fsamp + az0).map fun _ => false) =
          (List.range (c.stop - c.start).toNat).map fun k => M.flag (c.start.toNat + k) := by
        rw [List.map_map]
        exact List.map_congr_left fun k _ => (hM _).symm
      rw [e2]
      unfold Strategies.setBore Strategies.setCtime
      dsimp only
      rw [e1]
      rfl
    rw [hw.1, implement_of key]
    exact ⟨_, _, rfl, ⟨rfl, rfl, rfl⟩, h1⟩
  · intro e h1
    rw [hw.2, Strategies.reset_none h1]

/-- **C107 (azimuth scan).** With `use_strictly_az` and `strictly_az`, sample `k` of every chunk is
observed at elevation `el0` and azimuth `az0 + k * speed / fsamp`. -/
theorem C107_strictly_az (w : World (Att A)) (s : Strategy A) (hw : Uses w s) (hext : s.extPoint = false)
    (hl2 : s.useL2 = false) (haz : s.useStrictlyAz = true) (el0 az0 speed : ℝ) (hsp : speed ≠ 0)
    (hb : s.boreFunc = Strategies.strictlyAz s.site s.so.fsamp el0 az0 speed) (hfs : s.so.fsamp ≠ 0)
    (M : Motion) (o : Opts) (N : Nat) (chunks : List Chunk) (i : Inst (Att A))
    (hp : Prepared w M o N chunks i) (hel : i.el.st.el = none)
    (ht : Clock s.so.fsamp s.so.ctime0 M) (hM : ∀ t, M.flag t = false)
    (hbore : ∀ c ∈ chunks, ∀ k : Nat, k < (c.stop - c.start).toNat → M.bore (c.start.toNat + k) =
      s.site.azel2bore (az0 + k * speed / s.so.fsamp) el0 (M.time (c.start.toNat + k)))
    (beams : List Pair) (size : Nat) (hs : 0 < size) : GivesMaps w M o N beams size i := by
  obtain ⟨h1, h2⟩ := strictly_points w s hw hext hl2 haz el0 az0 speed hsp hb hfs M N chunks hp.mission ht
    hM hbore
  exact hp.gives (Repeats.steady (Strategies.repeats_of
    (I := fun e => e.st.el = none) hel h1 fun e he => ⟨e, h2 e he, he⟩)) beams size hs

/-! ## schedules -/

open Verif.Schedule (Ces partitionSchedule) in
/-- **C107 (schedules), a part.** A whole scan with `schedule_ctime` and `schedule_scan` observes every
chunk at the times and the elevation of its own scan of the schedule, along the triangle between the
azimuths of this scan.  Missing: scans through north (`C53_violation`), samples that are in no chunk
(`C52_violation_coverage`). -/
theorem C107_schedule_partial (w : World (Att A)) (s : Strategy A) (hw : Uses w s)
    (hext : s.extPoint = true) (hl2 : s.useL2 = false) (nsamp : Int) (fsamp speed : ℚ)
    (cs : Option Nat) (ces : List Ces) (hf : 0 < fsamp) (hv : 0 < speed) (hn : 0 ≤ nsamp)
    (hx : ∀ x ∈ ces, x.t0 < x.t1 ∧ x.az0 < x.az1 ∧ 1 ≤ (x.az1 - x.az0) / speed * fsamp)
    (azel2bore : ℝ → ℝ → ℝ → Quat.Q)
    (hct : s.ctimeFunc = Strategies.scheduleCtime fsamp (partitionSchedule nsamp fsamp cs ces))
    (hq : s.boreFunc = Strategies.scheduleScan azel2bore fsamp speed
      (partitionSchedule nsamp fsamp cs ces))
    (o : Opts) (N : Nat) (i : Inst (Att A)) (hel : i.el.st.el = none)
    (rot alpha : Nat → ℝ)
    (hp : ∀ time bore, Prepared w ⟨time, bore, rot, alpha, fun _ => false⟩ o N
      ((partitionSchedule nsamp fsamp cs ces).map (·.chunk)) i) :
    ∃ time bore,
      (∀ e ∈ partitionSchedule nsamp fsamp cs ces, e.ces ∈ ces ∧ ∃ phase : Int, ∀ k : Nat,
        (e.chunk.start + k < e.chunk.stop) → time (e.chunk.start.toNat + k) =
            ((e.ctimeStart + k / fsamp : ℚ) : ℝ) ∧
          bore (e.chunk.start.toNat + k) = azel2bore
            (triangle e.ces.az0 e.ces.az1 ⌊(e.ces.az1 - e.ces.az0) / speed * fsamp⌋.toNat
              (((k : Int) - phase) % (2 * ⌊(e.ces.az1 - e.ces.az0) / speed * fsamp⌋ - 1)).toNat : ℚ)
            e.ces.el (time (e.chunk.start.toNat + k))) ∧
      ∀ (beams : List Pair) (size : Nat), 0 < size →
        GivesMaps w ⟨time, bore, rot, alpha, fun _ => false⟩ o N beams size i := by
  have hm := (hp (fun _ => 0) (fun _ => default)).mission
  have hpt : ∀ e ∈ partitionSchedule nsamp fsamp cs ces, e.ces ∈ ces ∧ ∃ c t q,
      e.chunk.cidx = some c ∧
      Strategies.scheduleTimes fsamp (partitionSchedule nsamp fsamp cs ces) e.chunk.start e.chunk.stop
        (some c) = .ok t ∧
      t = ((List.range (e.chunk.stop - e.chunk.start).toNat).map fun (i : Nat) =>
            e.ctimeStart + (i : Rat) / fsamp) ∧
      Schedule.scheduleScan (fun (a el t : ℚ) => azel2bore a el t) fsamp speed
        (partitionSchedule nsamp fsamp cs ces) c t = .ok q ∧
      q.length = (e.chunk.stop - e.chunk.start).toNat ∧
      ∃ phase : Int, ∀ k : Nat, k < q.length → q[k]? = some (azel2bore
            (triangle e.ces.az0 e.ces.az1 ⌊(e.ces.az1 - e.ces.az0) / speed * fsamp⌋.toNat
              (((k : Int) - phase) % (2 * ⌊(e.ces.az1 - e.ces.az0) / speed * fsamp⌋ - 1)).toNat : ℚ)
            e.ces.el ((e.ctimeStart + k / fsamp : ℚ) : ℝ)) := by
    intro e he
    have hlt := (Strategies.Mission.start_nonneg hm (List.mem_map.2 ⟨e, he, rfl⟩)).2.1
    have hmem : e.ces ∈ ces := by
      obtain ⟨j, h, -⟩ := (C52_contiguous nsamp fsamp cs ces hf hn (fun x h => (hx x h).1) _ rfl).2.2.1 e he
      exact List.mem_of_getElem? h
    have h1 : (1 : Int) ≤ ⌊(e.ces.az1 - e.ces.az0) / speed * fsamp⌋ :=
      Int.le_floor.2 (by exact_mod_cast (hx _ hmem).2.2)
    have h2 : ⌊(e.ces.az1 - e.ces.az0) / speed * fsamp⌋ =
        (⌊(e.ces.az1 - e.ces.az0) / speed * fsamp⌋.toNat : Int) := by omega
    obtain ⟨c, t, q, a1, -, a3, a4, a5, phase, a6⟩ := C53_pointing_partial
      (fun (a el t : ℚ) => azel2bore a el t) nsamp fsamp speed cs ces hf hn (fun x h => (hx x h).1) e he
      hlt hv (hx _ hmem).2.1 _ (by omega) h2
    obtain ⟨c', b1, -, b3⟩ := C52_lookup nsamp fsamp cs ces hf hn (fun x h => (hx x h).1) e he
    rw [a1] at b1
    obtain rfl := Option.some.inj b1
    rw [a3] at b3
    refine ⟨hmem, c, t, q, a1, a3, Except.ok.inj b3, a4, a5, phase, fun k hk => ?_⟩
    rw [a6 k hk, ← h2]
  have htl : Tiles 0 N ((partitionSchedule nsamp fsamp cs ces).map fun e =>
      (e.chunk.start, e.chunk.stop)) := by
    have := hm.tiles
    rwa [List.map_map] at this
  have hq' : ∀ e : Schedule.Entry, ∃ q : List Quat.Q, e ∈ partitionSchedule nsamp fsamp cs ces →
      ∃ c t, e.chunk.cidx = some c ∧
      Strategies.scheduleTimes fsamp (partitionSchedule nsamp fsamp cs ces) e.chunk.start e.chunk.stop
        (some c) = .ok t ∧
      t = ((List.range (e.chunk.stop - e.chunk.start).toNat).map fun (i : Nat) =>
            e.ctimeStart + (i : Rat) / fsamp) ∧
      Schedule.scheduleScan (fun (a el t : ℚ) => azel2bore a el t) fsamp speed
        (partitionSchedule nsamp fsamp cs ces) c t = .ok q ∧
      q.length = (e.chunk.stop - e.chunk.start).toNat ∧
      ∃ phase : Int, ∀ k : Nat, k < q.length → q[k]? = some (azel2bore
            (triangle e.ces.az0 e.ces.az1 ⌊(e.ces.az1 - e.ces.az0) / speed * fsamp⌋.toNat
              (((k : Int) - phase) % (2 * ⌊(e.ces.az1 - e.ces.az0) / speed * fsamp⌋ - 1)).toNat : ℚ)
            e.ces.el ((e.ctimeStart + k / fsamp : ℚ) : ℝ)) := by
    intro e
    by_cases he : e ∈ partitionSchedule nsamp fsamp cs ces
    · obtain ⟨-, c, t, q, h⟩ := hpt e he
      exact ⟨q, fun _ => ⟨c, t, h⟩⟩
    · exact ⟨[], fun h => absurd h he⟩
  choose q hq' using hq'
  obtain ⟨bore, hbore⟩ := Strategies.glue (fun e : Schedule.Entry => e.chunk) le_rfl htl
    (fun e k => ((q e)[k]?).getD default)
  obtain ⟨time, htime⟩ := Strategies.glue (fun e : Schedule.Entry => e.chunk) le_rfl htl
    (fun e k => ((e.ctimeStart + k / fsamp : ℚ) : ℝ))
  refine ⟨time, bore, fun e he => ?_, fun beams size hs => ?_⟩
  · obtain ⟨c, t, -, -, -, -, hl, phase, hv⟩ := hq' e he
    refine ⟨(hpt e he).1, phase, fun k hk => ?_⟩
    have hk' : k < (e.chunk.stop - e.chunk.start).toNat := by omega
    refine ⟨htime e he k hk', ?_⟩
    rw [htime e he k hk', hbore e he k hk', hv k (by omega)]
    rfl
  · refine (hp time bore).gives (Repeats.steady (Strategies.repeats_of
      (I := fun e => e.st.el = none) hel ?_ ?_)) beams size hs
    · intro ch hch e pre h1
      obtain ⟨en, hen, rfl⟩ := List.mem_map.1 hch
      obtain ⟨c, t, a1, a2, a3, a4, a5, -⟩ := hq' en hen
      have e1 : s.ctimeFunc en.chunk.start en.chunk.stop en.chunk.cidx = .ok (t.map fun (x : ℚ) => (x : ℝ)) := by
        rw [hct, a1]
        unfold Strategies.scheduleCtime
        rw [a2]
        rfl
      have e2 : ∀ e, s.boreFunc en.chunk.start en.chunk.stop en.chunk.cidx none e =
          .ok (q en, { e with st := { e.st with flag := some (t.map fun _ => false) } }) := by
        intro e
        rw [hq, a1]
        unfold Strategies.scheduleScan
        rw [a2]
        show (Schedule.scheduleScan _ _ _ _ c t >>= _) = _
        rw [a4]
        rfl
      rw [hw.1, implement_external hext hl2 e1 (e2 _)]
      refine ⟨_, _, rfl, ⟨?_, ?_, ?_⟩, h1⟩
      · show t.map _ = _
        rw [a3, List.map_map]
        exact List.map_congr_left fun k hk => (htime en hen k (List.mem_range.1 hk)).symm
      · refine List.ext_getElem? fun k => ?_
        show (q en)[k]? = _
        rw [List.getElem?_map]
        by_cases hk : k < (en.chunk.stop - en.chunk.start).toNat
        · rw [List.getElem?_range hk]
          show _ = some (bore _)
          rw [hbore en hen k hk, List.getElem?_eq_getElem (by omega)]
          rfl
        · rw [List.getElem?_eq_none (by omega), List.getElem?_eq_none (by simpa using hk)]
          rfl
      · show t.map _ = _
        rw [a3, List.map_map]
        rfl
    · intro e h1
      rw [hw.2, Strategies.reset_none h1]
      exact ⟨e, rfl, h1⟩

/-! ## satellites -/

theorem satellite_step {s : Strategy Satellite.State} (hext : s.extPoint = true) (hl2 : s.useL2 = false)
    {azel2bore : ℝ → ℝ → ℝ → ℝ → ℝ → Quat.Q} {so : Satellite.Opts} (hfs : s.so.fsamp ≠ 0)
    (hct : s.ctimeFunc = Strategies.plainCtime s.so.fsamp s.so.ctime0)
    (hq : s.boreFunc = Strategies.satelliteScan azel2bore so) {M : Motion}
    (ht : Clock s.so.fsamp s.so.ctime0 M) (c : Chunk) (h0 : 0 ≤ c.start) (h1 : c.start < c.stop)
    (e : Att Satellite.State) (g pre : Bool) : ∃ p e', Strategies.implement s e c g pre = .ok (p, e') ∧
      p.ctime = ((List.range (c.stop - c.start).toNat).map fun k => M.time (c.start.toNat + k)) ∧
      p.bore = ((List.range (c.stop - c.start).toNat).map fun k => azel2bore (Strategies.orbitAz so k)
        so.beta (Strategies.orbitLon so (Satellite.startAt e.own.lon) (c.stop - c.start).toNat k)
        (Strategies.orbitLat so (Satellite.startAt e.own.lat) k) (M.time (c.start.toNat + k))) ∧
      p.flag = some ((List.range (c.stop - c.start).toNat).map fun _ => false) ∧
      e'.own.lon = some (Strategies.orbitLon so (Satellite.startAt e.own.lon) (c.stop - c.start).toNat
        ((c.stop - c.start).toNat - 1)) ∧
      e'.own.lat = some (Strategies.orbitLat so (Satellite.startAt e.own.lat)
        ((c.stop - c.start).toNat - 1)) ∧ e'.st.el = e.st.el := by
  have e1 : s.ctimeFunc c.start c.stop c.cidx = .ok ((List.range (c.stop - c.start).toNat).map fun k =>
      M.time (c.start.toNat + k)) := by
    rw [hct]
    exact Strategies.ctimes_eq hfs ht h0
  obtain ⟨n, hn⟩ : ∃ n, n = (c.stop - c.start).toNat := ⟨_, rfl⟩
  have hn1 : 1 ≤ n := by omega
  rw [← hn] at e1 ⊢
  obtain ⟨lo, la, h2, h3, h4⟩ := scan_ok so e.own n hn1
  have e2 : s.boreFunc c.start c.stop c.cidx none (Strategies.setCtime
      ((List.range n).map fun k => M.time (c.start.toNat + k)) e) =
      .ok (List.zipWith (fun (x : ℝ × ℝ × ℝ × ℝ) t => azel2bore x.1 x.2.1 x.2.2.1 x.2.2.2 t)
        ((Satellite.az so n).zip ((List.replicate n so.beta).zip
          ((Satellite.lon so e.own n).zip (Satellite.lat so e.own n))))
        ((List.range n).map fun k => M.time (c.start.toNat + k)),
        { st := { e.st with
            ctime := (List.range n).map fun k => M.time (c.start.toNat + k)
            flag := some ((Satellite.az so n).map fun _ => false) }
          own := ⟨some lo, some la⟩ }) := by
    rw [hq]
    unfold Strategies.satelliteScan
    have : (Strategies.setCtime ((List.range n).map fun k => M.time (c.start.toNat + k)) e).st.ctime.length
        = n := by simp [Strategies.setCtime]
    rw [this]
    show (Satellite.scan so e.own n >>= _) = _
    rw [h2]
    rfl
  refine ⟨_, _, implement_external hext hl2 e1 e2, rfl, ?_, ?_, ?_, ?_, rfl⟩
  · have ea : Satellite.az so n = (List.range n).map fun k => Strategies.orbitAz so k := by
      refine List.ext_getElem? fun k => ?_
      by_cases hk : k < n
      · rw [az_get so n k hk, List.getElem?_map, List.getElem?_range hk]
        rfl
      · rw [List.getElem?_eq_none (by simpa [Satellite.az] using hk),
          List.getElem?_eq_none (by simpa using hk)]
    have eb : List.replicate n so.beta = (List.range n).map fun _ => so.beta := by simp
    have ec : Satellite.lon so e.own n = (List.range n).map fun k =>
        Strategies.orbitLon so (Satellite.startAt e.own.lon) n k := by
      refine List.ext_getElem? fun k => ?_
      by_cases hk : k < n
      · rw [lon_get so e.own n k hk, List.getElem?_map, List.getElem?_range hk]
        rfl
      · rw [List.getElem?_eq_none (by simpa [Satellite.lon, Satellite.linspaceClosed] using hk),
          List.getElem?_eq_none (by simpa using hk)]
    have ed : Satellite.lat so e.own n = (List.range n).map fun k =>
        Strategies.orbitLat so (Satellite.startAt e.own.lat) k := by
      refine List.ext_getElem? fun k => ?_
      by_cases hk : k < n
      · rw [lat_get so e.own n k hk, List.getElem?_map, List.getElem?_range hk]
        rfl
      · rw [List.getElem?_eq_none (by simpa [Satellite.lat, Hwp.linspace] using hk),
          List.getElem?_eq_none (by simpa using hk)]
    show List.zipWith _ _ _ = _
    rw [ea, eb, ec, ed, List.zip_map', List.zip_map', List.zip_map', List.zipWith_map]
    simp [List.zipWith_self]
  · show some ((Satellite.az so n).map _) = _
    unfold Satellite.az
    rw [List.map_map]
    rfl
  · show some lo = _
    rw [← h3, lon_get so e.own n _ (by omega)]
    rfl
  · show some la = _
    rw [← h4, lat_get so e.own n _ (by omega)]
    rfl

/-- **C107 (satellites), a part.** If every rank has at most one detector pair, a whole scan with
`satellite_ctime` and `satellite_scan` sees the sky along the pointing that `Orbit` describes.  Missing:
several pairs on a rank (`C107_satellite_violation`). -/
theorem C107_satellite_partial (w : World (Att Satellite.State)) (s : Strategy Satellite.State)
    (hw : Uses w s) (hext : s.extPoint = true) (hl2 : s.useL2 = false)
    (azel2bore : ℝ → ℝ → ℝ → ℝ → ℝ → Quat.Q) (so : Satellite.Opts) (hfs : s.so.fsamp ≠ 0)
    (hct : s.ctimeFunc = Strategies.plainCtime s.so.fsamp s.so.ctime0)
    (hq : s.boreFunc = Strategies.satelliteScan azel2bore so)
    (M : Motion) (o : Opts) (N : Nat) (chunks : List Chunk) (i : Inst (Att Satellite.State))
    (hp : Prepared w M o N chunks i) (ht : Clock s.so.fsamp s.so.ctime0 M) (hM : ∀ t, M.flag t = false)
    (hb : Strategies.Orbit azel2bore so M (Satellite.startAt i.el.own.lon) (Satellite.startAt i.el.own.lat) chunks)
    (beams : List Pair) (size : Nat) (hs : 0 < size) (hone : beams.length ≤ size) :
    GivesMaps w M o N beams size i := by
  have hpts : ∀ (cs : List Chunk) (e : Att Satellite.State) (pre : Bool),
      (∀ c ∈ cs, 0 ≤ c.start ∧ c.start < c.stop) →
      Strategies.Orbit azel2bore so M (Satellite.startAt e.own.lon) (Satellite.startAt e.own.lat) cs →
      ∃ e', Points w M pre e cs e' := by
    intro cs
    induction cs with
    | nil => exact fun e _ _ _ => ⟨e, rfl⟩
    | cons c cs ih =>
      intro e pre hc ⟨ho, hos⟩
      obtain ⟨p, e', h1, h2, h3, h4, h5, h6, -⟩ := satellite_step hext hl2 hfs hct hq ht c
        (hc c List.mem_cons_self).1 (hc c List.mem_cons_self).2 e false pre
      obtain ⟨e'', h7⟩ := ih e' pre (fun d hd => hc d (List.mem_cons_of_mem _ hd)) (by
        rw [h5, h6, startAt_some, startAt_some]
        exact hos)
      refine ⟨e'', p, e', by rw [hw.1]; exact h1, ⟨h2, ?_, ?_⟩, h7⟩
      · rw [h3]
        exact List.map_congr_left fun k hk => (ho k (List.mem_range.1 hk)).symm
      · rw [h4]
        exact List.map_congr_left fun k _ => (hM _).symm
  have hp' : Prepared { w with resetEl := fun _ => .ok i.el } M o N chunks i :=
    ⟨hp.ext, hp.pix, hp.nside, hp.binning, hp.preview, hp.ground, hp.reuse, hp.mission, hp.hwpang,
      ⟨hp.ready.chunks, hp.ready.maps, hp.ready.rot, hp.ready.period, hp.ready.hwp⟩, hp.rotates, hp.plate⟩
  have hst : Steady { w with resetEl := fun _ => .ok i.el } M chunks i.el := by
    refine ⟨fun _ e => e = i.el, rfl, ?_⟩
    rintro first e rfl
    obtain ⟨e', he⟩ := hpts chunks i.el (!first)
      (fun c hc => ⟨(Strategies.Mission.start_nonneg hp.mission hc).1,
        (Strategies.Mission.start_nonneg hp.mission hc).2.1⟩) hb
    exact ⟨e', Strategies.points_resetEl _ he, i.el, rfl, rfl⟩
  have := hp'.gives hst beams size hs
  intro nside sm hm
  obtain ⟨m, h1, h2⟩ := this nside sm hm
  rw [Strategies.scanAll_resetEl w _ o beams size hone hs i] at h1
  exact ⟨m, h1, h2⟩

/-- **C107 is false for several pairs on a rank of a satellite scan.**  The second pass over the same two
samples points elsewhere, because longitude and latitude go on from the end of the first pass. -/
theorem C107_satellite_violation (w : World (Att Satellite.State)) (s : Strategy Satellite.State)
    (hw : Uses w s) (hext : s.extPoint = true) (hl2 : s.useL2 = false)
    (azel2bore : ℝ → ℝ → ℝ → ℝ → ℝ → Quat.Q)
    (hinj : ∀ a b l l' c c' t, azel2bore a b l c t = azel2bore a b l' c' t → l = l')
    (hfs : s.so.fsamp ≠ 0) (hct : s.ctimeFunc = Strategies.plainCtime s.so.fsamp s.so.ctime0)
    (hq : s.boreFunc = Strategies.satelliteScan azel2bore slow) (st : Scan.State ℝ Quat.Q)
    (hel : st.el = none) :
    ∃ p e1 e2 p' e3, w.implement ⟨st, none, none⟩ ⟨0, 2, some 0, false, none⟩ false false = .ok (p, e1) ∧
      w.resetEl e1 = .ok e2 ∧
      w.implement e2 ⟨0, 2, some 0, false, none⟩ false true = .ok (p', e3) ∧
      p.ctime = p'.ctime ∧ p.bore[0]? ≠ p'.bore[0]? := by
  have ht : Clock s.so.fsamp s.so.ctime0 (⟨fun t => t / s.so.fsamp + s.so.ctime0, fun _ => default,
    fun _ => 0, fun _ => 0, fun _ => false⟩ : Motion) := fun _ => rfl
  obtain ⟨p, e1, h1, h2, h3, -, h5, h6, h7⟩ := satellite_step hext hl2 hfs hct hq ht
    ⟨0, 2, some 0, false, none⟩ le_rfl (by decide) ⟨st, none, none⟩ false false
  have hr : w.resetEl e1 = .ok e1 := by
    rw [hw.2]
    exact Strategies.reset_none (h7.trans hel)
  obtain ⟨p', e3, g1, g2, g3, -⟩ := satellite_step hext hl2 hfs hct hq ht
    ⟨0, 2, some 0, false, none⟩ le_rfl (by decide) e1 false true
  refine ⟨p, e1, e1, p', e3, by rw [hw.1]; exact h1, hr, by rw [hw.1]; exact g1, by rw [h2, g2], ?_⟩
  rw [h3, g3, h5, h6, startAt_some, startAt_some]
  intro h
  have h := hinj _ _ _ _ _ _ _ (Option.some.inj h)
  revert h
  have e0 : Satellite.startAt (none : Option ℝ) = 0 := rfl
  have a1 : Strategies.orbitLon slow 0 2 0 = 0 := by
    unfold Strategies.orbitLon
    rw [npMod_of (y := 0) (k := 0)] <;> norm_num
  have a2 : Strategies.orbitLon slow 0 2 1 = 359.0137 := by
    unfold Strategies.orbitLon
    rw [npMod_of (y := 359.0137) (k := -2)] <;> norm_num [slow]
  have a3 : Strategies.orbitLon slow 359.0137 2 0 = 0.9863 := by
    unfold Strategies.orbitLon
    rw [npMod_of (y := 0.9863) (k := -1)] <;> norm_num
  show Strategies.orbitLon slow (Satellite.startAt none) 2 0 =
    Strategies.orbitLon slow (Strategies.orbitLon slow (Satellite.startAt none) 2 1) 2 0 → False
  rw [e0, a1, a2, a3]
  norm_num

/-! ## L2 -/

theorem scan_fails {E : Type} (w : World E) (o : Opts) (i : Inst E) (x : PyErr)
    (hi : ∃ c rest, i.chunks = (c, false) :: rest ∧ (∀ d ∈ i.chunks, d.1.cidx.isSome = true) ∧
      w.implement i.el c o.ground false = .error x)
    (beams : List Pair) (hb : beams ≠ [])
    (hm : ∀ p ∈ beams, ∃ nside sm, MapsOk w nside sm p) (size : Nat) (hs : 0 < size) :
    scanAll w o beams true size i = .error x := by
  obtain ⟨c, rest, hc, hidx, himp⟩ := hi
  have hpass : ∀ p, (p = (none, none) ∨ p ∈ beams) → scanPass w o true p i = .error x := by
    intro p hp
    have hinit : ∃ j, initPair w o p i = .ok j ∧ j.chunks = i.chunks ∧ j.el = i.el := by
      have h0 : ∃ j, initPair w o (none, none) i = .ok j ∧ j.chunks = i.chunks ∧ j.el = i.el :=
        ⟨i, rfl, rfl, rfl⟩
      rcases hp with rfl | hp
      · exact h0
      · obtain ⟨nside, sm, rfl | ⟨a, ha, hsm, -⟩⟩ := hm p hp
        · exact h0
        · obtain ⟨a', b⟩ := p
          obtain rfl : a' = some a := ha
          unfold initPair
          dsimp only
          split
          · exact ⟨i, rfl, rfl, rfl⟩
          · split
            · exact ⟨i, rfl, rfl, rfl⟩
            · rw [hsm]
              exact ⟨_, rfl, rfl, rfl⟩
    obtain ⟨j, hj, hjc, hje⟩ := hinit
    unfold scanPass
    simp only [if_true, bind, Except.bind, hj]
    rw [if_pos (by rw [hjc]; simpa using hidx)]
    rw [hjc, hc, List.length_cons, List.range_succ_eq_map, List.foldlM_cons]
    have : stepChunk w o p true j 0 = .error x := by
      unfold stepChunk
      have : pyGet j.chunks ((0 : Nat) : Int) = .ok (c, false) := by rw [hjc, hc]; rfl
      rw [this]
      show (w.implement j.el c (false || o.ground) (!true) >>= _) = _
      rw [hje, Bool.false_or, Bool.not_true, himp]
      rfl
    rw [this]
    rfl
  obtain ⟨work, hwl, hw1, hw2, hw3⟩ := C03_every_pair_scanned_once beams size hs
  have h0 : ∃ p ps, Mpi.scanPasses beams true size 0 = .ok (p :: ps) ∧
      (p.getD (none, none) = (none, none) ∨ p.getD (none, none) ∈ beams) := by
    have hw0 := hw1 0 hs
    rw [List.getElem?_eq_getElem (by omega)] at hw0
    have hmem := List.getElem_mem (l := work) (n := 0) (show 0 < work.length by omega)
    have hne : work[0].length ≠ 0 := by
      intro h
      apply hb
      rw [← hw2]
      simp only [List.flatten_eq_nil_iff, List.mem_map]
      rintro l ⟨v, hv, rfl⟩
      have := hw3 v hv _ hmem
      rw [h] at this
      rw [List.length_eq_zero_iff.1 this]
      rfl
    have hin : ∀ p ∈ work[0], p.getD (none, none) = (none, none) ∨ p.getD (none, none) ∈ beams := by
      intro p hp
      cases p with
      | none => exact .inl rfl
      | some p =>
        right
        rw [← hw2]
        simp only [List.mem_flatten, List.mem_map]
        exact ⟨_, ⟨_, hmem, rfl⟩, List.mem_filterMap.2 ⟨some p, hp, rfl⟩⟩
    generalize hg : work[0] = l at hw0 hne hin
    rw [Option.map_some] at hw0
    rcases l with _ | ⟨p, ps⟩
    · exact absurd rfl hne
    · exact ⟨p, ps, (Option.some.inj hw0).symm, hin p List.mem_cons_self⟩
  obtain ⟨p, ps, hps, hp⟩ := h0
  have hone : scanInstrument w o beams true size 0 i = .error x := by
    unfold scanInstrument
    rw [hps]
    show (scanPass w o true (p.getD (none, none)) i >>= _) = _
    rw [hpass _ hp]
    rfl
  unfold scanAll
  obtain ⟨n, rfl⟩ : ∃ n, size = n + 1 := ⟨size - 1, by omega⟩
  rw [List.range_succ_eq_map, List.mapM_cons, hone]
  rfl

/-- **C107 is false for L2 scans.**  If the first chunk has two or more samples, every scan raises
NameError. -/
theorem C107_l2_violation (w : World (Att A)) (s : Strategy A) (hw : Uses w s) (hl2 : s.useL2 = true)
    (hfs : s.so.fsamp ≠ 0) (hct : s.ctimeFunc = Strategies.plainCtime s.so.fsamp s.so.ctime0)
    (radecpa2quat : ℝ → ℝ → ℝ → Quat.Q) (a b fa fb sr jit : ℝ)
    (hq : s.boreFunc = Strategies.l2Scan radecpa2quat a b fa fb sr jit)
    (o : Opts) (N : Nat) (c : Chunk) (rest : List Chunk) (hm : Mission N (c :: rest))
    (hc : 2 ≤ c.stop - c.start) (i : Inst (Att A)) (hi : i.chunks = (c :: rest).map fun c => (c, false))
    (beams : List Pair) (hb : beams ≠ []) (hmaps : ∀ p ∈ beams, ∃ nside sm, MapsOk w nside sm p)
    (size : Nat) (hs : 0 < size) : scanAll w o beams true size i = .error .nameError := by
  refine scan_fails w o i _ ⟨c, rest.map fun c => (c, false), hi, ?_, ?_⟩ beams hb hmaps size hs
  · rw [hi]
    intro d hd
    obtain ⟨d, hd', rfl⟩ := List.mem_map.1 hd
    obtain ⟨k, hk⟩ := List.getElem?_of_mem hd'
    dsimp only
    rw [hm.numbered k d hk]
    rfl
  · have h0 := (Strategies.Mission.start_nonneg hm List.mem_cons_self).1
    rw [hw.1]
    unfold Strategies.implement Strategies.implementScan Strategies.external
    rw [hl2]
    simp only [Bool.not_true, Bool.and_false, Bool.false_eq_true, if_false, if_true]
    have ht : Clock s.so.fsamp s.so.ctime0 (⟨fun t => t / s.so.fsamp + s.so.ctime0, fun _ => default,
      fun _ => 0, fun _ => 0, fun _ => false⟩ : Motion) := fun _ => rfl
    rw [hct]
    unfold Strategies.plainCtime
    rw [Strategies.ctimes_eq hfs ht h0, hq]
    unfold Strategies.l2Scan Angles.l2Scan
    simp only [bind, Except.bind]
    rw [C34_array_violation _ _ _ _ _ (by norm_num) (by
      simp only [Strategies.setCtime, List.length_map, List.length_range]
      omega)]

/-- **C107 for L2 scans (a part).** A chunk with a single sample is pointed away from the boresight
vector `v` of C34 (which looks at the Sun), at its own time, and not flagged, unless `v` is exactly the
south pole.  Missing: chunks with more samples (`C107_l2_violation`). -/
theorem C107_l2_single_partial (s : Strategy A) (hl2 : s.useL2 = true)
    (hfs : s.so.fsamp ≠ 0) (hct : s.ctimeFunc = Strategies.plainCtime s.so.fsamp s.so.ctime0)
    (radecpa2quat : ℝ → ℝ → ℝ → Quat.Q) (a b fa fb sr jit : ℝ)
    (hq : s.boreFunc = Strategies.l2Scan radecpa2quat a b fa fb sr jit)
    (e : Att A) (c : Chunk) (hc : c.stop = c.start + 1) (ground pre : Bool) :
    let t : ℝ := c.start / s.so.fsamp + s.so.ctime0
    ∃ phi : ℝ, (∃ k : ℤ, phi = sunLongitude ((t + 2209032000) / 86400 - 2415020) + k * (2 * Real.pi)) ∧
      let v := boresight ⟨45 * (Real.pi / 180), 50 * (Real.pi / 180), 2 * Real.pi * (1 / (192.348 * 60)),
        2 * Real.pi * (0.05 / 60)⟩ (Real.pi / 2) phi t
      v.z > -1 → ∃ ra dec psi e', radecDir ra dec = ⟨-v.x, -v.y, -v.z⟩ ∧
        Strategies.implement s e c ground pre =
          .ok (⟨[t], [radecpa2quat ra dec psi], e.st.qGround, some [false]⟩, e') := by
  intro t
  obtain ⟨phi, hk, h⟩ := C34_radec_partial t 45 50 192.348 0.05 (by norm_num)
  refine ⟨phi, hk, ?_⟩
  intro v hv
  obtain ⟨ra, dec, psi, h1, h2⟩ := h hv
  have ht : s.ctimeFunc c.start c.stop none = .ok [t] := by
    rw [hct]
    unfold Strategies.plainCtime Data.ctimes
    rw [if_neg hfs, hc]
    unfold intRange
    rw [show (c.start + 1 - c.start).toNat = 1 by omega]
    simp [t]
  have hb : s.boreFunc c.start c.stop none none (Strategies.setCtime [t] e) =
      .ok ([radecpa2quat ra dec psi], { e with
        st := { e.st with
          ctime := [t]
          flag := some [false] } }) := by
    rw [hq]
    unfold Strategies.l2Scan Angles.l2Scan
    dsimp only [Strategies.setCtime]
    rw [h1]
    rfl
  refine ⟨ra, dec, psi, { e with
    st := { e.st with
      ctime := [t]
      flag := some [false]
      qBore := [radecpa2quat ra dec psi] } }, h2, ?_⟩
  unfold Strategies.implement Strategies.implementScan Strategies.external
  rw [hl2]
  simp only [Bool.not_true, Bool.and_false, Bool.false_eq_true, if_false, if_true]
  rw [ht]
  simp only [bind, Except.bind]
  rw [hb]
  rfl

/-! ## ground templates -/

/-- **C107 is false for ground templates with external pointing.**  `implement_scan` does not hand
`ground` on: unless the function of the user does it unasked, there is no ground pointing, and every
scan of a ground template fails. -/
theorem C107_ground_violation (s : Strategy A) (hs : (s.extPoint = true ∧ s.useL2 = false) ∨ s.useL2 = true)
    (hq : ∀ a b c e q e', s.boreFunc a b c none e = .ok (q, e') → e'.st.qGround = e.st.qGround)
    (e e' : Att A) (he : e.st.qGround = none) (c : Chunk) (pre : Bool) (p : Pointing)
    (h : Strategies.implement s e c true pre = .ok (p, e')) :
    p.ground = none ∧ ∀ x mission st b sub interp add r, st.qGround = p.ground →
      Timeline.scan x mission st b sub true interp add ≠ .ok r := by
  have hg : p.ground = none := by
    have hext : ∀ cidx, (Strategies.external s c.start c.stop cidx e >>= fun e =>
        (pure (⟨e.st.ctime, e.st.qBore, e.st.qGround, e.st.flag⟩, e) : PyM (Pointing × Att A))) =
        .ok (p, e') → p.ground = none := by
      intro cidx h
      unfold Strategies.external at h
      obtain ⟨e1, h1, h2⟩ := bind_ok h
      obtain ⟨t, h3, h4⟩ := bind_ok h1
      obtain ⟨⟨q, e2⟩, h5, h6⟩ := bind_ok h4
      cases h2
      cases h6
      show e2.st.qGround = none
      rw [hq _ _ _ _ _ _ h5]
      exact he
    unfold Strategies.implement Strategies.implementScan at h
    rcases hs with ⟨h1, h2⟩ | h1
    · rw [h1, h2] at h
      exact hext _ h
    · rw [h1] at h
      simp only [Bool.not_true, Bool.and_false, Bool.false_eq_true, if_false, if_true] at h
      exact hext _ h
  refine ⟨hg, fun x mission st b sub interp add r hst h => ?_⟩
  rw [hg] at hst
  unfold Timeline.scan at h
  rw [hst] at h
  split at h
  · cases h
  · obtain ⟨d, -, h⟩ := bind_ok h
    obtain ⟨ns, -, h⟩ := bind_ok h
    obtain ⟨ij, -, h⟩ := bind_ok h
    obtain ⟨bo, h1, -⟩ := bind_ok h
    cases h1

/-! ## the hypotheses are met -/

namespace Ways

open Rec Whole

/-- The instrument, detectors and sky of `Whole`, pointed by a strategy. -/
def world (s : Strategy A) : World (Att A) where
  x := ext
  q := qp
  varphi := 0
  nsideOut := 1
  fsamp := 1
  implement := Strategies.implement s
  resetEl := Strategies.reset
  spinmaps := Whole.w.spinmaps

def inst (own : A) : Inst (Att A) :=
  { rot := Whole.rot, hwp := Whole.hwp, el := ⟨⟨[], [], none, none, none, none⟩, own⟩, st := Whole.i.st,
    flag := none, hasMaps := false, chunks := Whole.i.chunks, maps := Whole.i.maps }

theorem prepared (s : Strategy A) (own : A) (time : Nat → ℝ) (bore : Nat → Quat.Q) :
    Prepared (world s) ⟨time, bore, fun _ => 0, alpha, fun _ => false⟩ Whole.o 3 chunks (inst own) :=
  ⟨ext_ok, pix_ok, one_pos, rfl, rfl, rfl, rfl, mission_ok, by decide,
    ⟨rfl, rfl, rfl, .inl rfl, rfl⟩, rotates, plate⟩

/-- A site where azimuth, elevation and time can be read off the quaternion. -/
def site : Scan.Site ℝ Quat.Q :=
  ⟨fun _ _ _ => (0, 1), fun a e t => ![1, a, e, t], fun a e => ![1, a, e, 0], fun _ _ _ _ => []⟩

def so : Scan.Opts ℝ := ⟨1, 0, [0], [0], 0, 1, .triangle, 1, 0, false, false⟩

/-- Functions of the user. -/
def own : Strategy Unit where
  extPoint := true
  useL2 := false
  useStrictlyAz := false
  ctimeFunc := fun a b _ => .ok ((List.range (b - a).toNat).map fun k => ((a.toNat + k : Nat) : ℝ))
  boreFunc := fun a b _ _ e => .ok ((List.range (b - a).toNat).map fun k =>
    ![1, ((a.toNat + k : Nat) : ℝ), 0, 0], e)
  site := site
  so := so

/-- The hypotheses of `C107_external` are met. -/
example (size : Nat) (hs : 0 < size) : GivesMaps (world own)
    ⟨fun t => t, fun t => ![1, (t : ℝ), 0, 0], fun _ => 0, alpha, fun _ => false⟩ Whole.o 3 beams size
    (inst ()) :=
  C107_external (world own) own ⟨rfl, rfl⟩ rfl rfl _ _ _ _ _ (prepared own () _ _) rfl rfl (fun _ => rfl)
    (fun _ _ => rfl) (fun _ _ _ => rfl) beams size hs

/-- An azimuth scan from 10 deg with 3 deg per sample. -/
def turning : Strategy Unit :=
  { own with extPoint := false, useStrictlyAz := true, boreFunc := Strategies.strictlyAz site 1 45 10 3 }

/-- The hypotheses of `C107_strictly_az` are met: every chunk starts at azimuth 10. -/
theorem turning_maps (size : Nat) (hs : 0 < size) : GivesMaps (world turning)
    ⟨fun t => t / 1 + 0, fun t => ![1, 10 + ((if t < 2 then t else t - 2 : Nat) : ℝ) * 3 / 1, 45,
      (t : ℝ) / 1 + 0], fun _ => 0, alpha, fun _ => false⟩ Whole.o 3 beams size (inst ()) := by
  refine C107_strictly_az (world turning) turning ⟨rfl, rfl⟩ rfl rfl rfl 45 10 3 (by norm_num) rfl
    one_ne_zero _ _ _ _ _ (prepared turning () _ _) rfl (fun _ => rfl) (fun _ => rfl) ?_ beams size hs
  intro c hc k hk
  simp only [chunks, List.mem_cons, List.not_mem_nil, or_false] at hc
  rcases hc with rfl | rfl
  · have hk' : k < 2 := hk
    show ![1, 10 + ((if 0 + k < 2 then 0 + k else _ : Nat) : ℝ) * 3 / 1, 45, _] = ![1, 10 + (k : ℝ) * 3 / 1, 45, _]
    rw [if_pos (by omega), Nat.zero_add]
    rfl
  · have hk' : k < 1 := hk
    show ![1, 10 + ((if 2 + k < 2 then _ else 2 + k - 2 : Nat) : ℝ) * 3 / 1, 45, _] = ![1, 10 + (k : ℝ) * 3 / 1, 45, _]
    rw [if_neg (by omega), Nat.add_sub_cancel_left]
    rfl

/-- Two scans at different elevations, two samples and one. -/
def ces : List Schedule.Ces := [⟨0, 2, 0, 10, 45⟩, ⟨5, 6, 20, 30, 50⟩]

def scheduled : Strategy Unit :=
  { own with
    ctimeFunc := Strategies.scheduleCtime 1 (Schedule.partitionSchedule 3 1 none ces)
    boreFunc := Strategies.scheduleScan site.azel2bore 1 5 (Schedule.partitionSchedule 3 1 none ces) }

theorem ces_chunks : (Schedule.partitionSchedule 3 1 none ces).map (·.chunk) = chunks := by
  decide +kernel

/-- The hypotheses of `C107_schedule_partial` are met. -/
example : ∃ time bore, ∀ (beams : List Pair) (size : Nat), 0 < size → GivesMaps (world scheduled)
    ⟨time, bore, fun _ => 0, alpha, fun _ => false⟩ Whole.o 3 beams size (inst ()) := by
  obtain ⟨time, bore, -, h⟩ := C107_schedule_partial (world scheduled) scheduled ⟨rfl, rfl⟩ rfl rfl 3 1 5
    none ces one_pos (by norm_num) (by norm_num) (by decide +kernel) site.azel2bore rfl rfl Whole.o 3
    (inst ()) rfl (fun _ => 0) alpha (by rw [ces_chunks]; exact fun _ _ => prepared scheduled () _ _)
  exact ⟨time, bore, h⟩

/-- Longitude, latitude and so on can be read off the quaternion. -/
def flying : Strategy Satellite.State where
  extPoint := true
  useL2 := false
  useStrictlyAz := false
  ctimeFunc := Strategies.plainCtime 1 0
  boreFunc := Strategies.satelliteScan (fun a _ l la _ => ![1, a, l, la]) slow
  site := site
  so := so

/-- The hypotheses of `C107_satellite_partial` are met: two chunks, with a detector on each of two
ranks. -/
theorem flying_maps : ∃ bore, GivesMaps (world flying)
    ⟨fun t => t / 1 + 0, bore, fun _ => 0, alpha, fun _ => false⟩ Whole.o 3 beams 2
      (inst ⟨none, none⟩) := by
  have e0 : Satellite.startAt (none : Option ℝ) = 0 := rfl
  refine ⟨fun t => if t < 2 then
      ![1, Strategies.orbitAz slow t, Strategies.orbitLon slow 0 2 t, Strategies.orbitLat slow 0 t]
    else ![1, Strategies.orbitAz slow (t - 2),
      Strategies.orbitLon slow (Strategies.orbitLon slow 0 2 1) 1 (t - 2),
      Strategies.orbitLat slow (Strategies.orbitLat slow 0 1) (t - 2)],
    C107_satellite_partial (world flying) flying ⟨rfl, rfl⟩ rfl rfl
      (fun a _ l la _ => ![1, a, l, la]) slow one_ne_zero rfl rfl _ _ _ _ _
      (prepared flying _ _ _) (fun _ => rfl) (fun _ => rfl) ?_ beams 2 two_pos (by decide)⟩
  show Strategies.Orbit _ _ _ (Satellite.startAt none) (Satellite.startAt none) _
  rw [e0]
  refine ⟨fun k hk => ?_, fun k hk => ?_, trivial⟩
  · have hk' : k < 2 := hk
    interval_cases k <;> rfl
  · have hk' : k < 1 := hk
    interval_cases k
    rfl

/-- The hypotheses of `C107_satellite_violation` are met. -/
example : ∃ p e1 e2 p' e3, (world flying).implement ⟨⟨[], [], none, none, none, none⟩, none, none⟩
      ⟨0, 2, some 0, false, none⟩ false false = .ok (p, e1) ∧
      (world flying).resetEl e1 = .ok e2 ∧
      (world flying).implement e2 ⟨0, 2, some 0, false, none⟩ false true = .ok (p', e3) ∧
      p.ctime = p'.ctime ∧ p.bore[0]? ≠ p'.bore[0]? :=
  C107_satellite_violation (world flying) flying ⟨rfl, rfl⟩ rfl rfl (fun a _ l la _ => ![1, a, l, la])
    (fun _ _ _ _ _ _ _ h => by simpa using congrFun h 2) one_ne_zero rfl rfl _ rfl

/-- A scan at L2. -/
def far : Strategy Unit :=
  { own with
    extPoint := false, useL2 := true, ctimeFunc := Strategies.plainCtime 1 0
    boreFunc := Strategies.l2Scan (fun ra dec psi => ![1, ra, dec, psi]) 45 50 1 1 1 0 }

/-- The hypotheses of `C107_l2_violation` are met. -/
example : scanAll (world far) Whole.o beams true 2 (inst ()) = .error .nameError := by
  refine C107_l2_violation (world far) far ⟨rfl, rfl⟩ rfl one_ne_zero rfl
    (fun ra dec psi => ![1, ra, dec, psi]) 45 50 1 1 1 0 rfl _ 3 _ _ mission_ok (by decide) _ rfl beams (by decide) ?_ 2 two_pos
  intro p hp
  obtain ⟨sm, h⟩ := ideal_maps Whole.w one_pos Conv.Y (Whole.ideal p hp)
  exact ⟨1, sm, h.1⟩

/-- The hypotheses of `C107_l2_single_partial` are met, at time 0. -/
example : ∃ ra dec psi e', Strategies.implement far (inst ()).el { start := 0, stop := 1 } false false =
    .ok (⟨[0], [![1, ra, dec, psi]], none, some [false]⟩, e') := by
  obtain ⟨phi, -, h⟩ := C107_l2_single_partial far rfl one_ne_zero rfl
    (fun ra dec psi => ![1, ra, dec, psi]) 45 50 1 1 1 0 rfl (inst ()).el { start := 0, stop := 1 } rfl
    false false
  have e0 : ((0 : Int) : ℝ) / far.so.fsamp + far.so.ctime0 = 0 := by norm_num [far, own, so]
  dsimp only at h
  rw [e0] at h
  obtain ⟨ra, dec, psi, e', -, h⟩ := h (by
    rw [boresight, (postRot_ecl _ _ _ _).2.2, Angles.preVec_ecl]
    have e : (3 / 2 * Real.pi) = Real.pi / 2 + Real.pi := by ring
    simp [e, Real.cos_add_pi])
  exact ⟨ra, dec, psi, e', h⟩

/-- The hypotheses of `C107_ground_violation` are met. -/
example : ∃ p e', Strategies.implement own (inst ()).el { start := 0, stop := 2, cidx := some 0 } true
    false = .ok (p, e') ∧ p.ground = none := by
  refine ⟨_, _, rfl, ?_⟩
  refine (C107_ground_violation own (.inl ⟨rfl, rfl⟩) ?_ (inst ()).el _ rfl _ false _ rfl).1
  intro a b c e q e' h
  cases h
  rfl

end Ways

end Verif.Props
