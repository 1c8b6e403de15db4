import Verif.Lemmas.Schedule
import Verif.Model.Data

/-!
# C52, C53, C82, C83: observing schedules
-/

namespace Verif.Props

open Verif.Spec Verif.Schedule

/-! ## C52: chunks of a schedule -/

/-- **C52.** For every schedule of scans of positive duration, every mission length and chunk size:
the chunks follow each other without gap or overlap from sample 0 on, within the mission and the
schedule; the index of each chunk is its position; each chunk lies within the samples of one scan,
has the azimuths, elevation and times of this scan, and starts at the time of the schedule.  No
chunk is longer than the chunk size. -/
theorem C52_contiguous (nsamp : Int) (fsamp : Rat) (cs : Option Nat) (ces : List Ces)
    (hf : 0 < fsamp) (hn : 0 ≤ nsamp) (hx : ∀ x ∈ ces, x.t0 < x.t1) (l : List Entry)
    (hl : l = partitionSchedule nsamp fsamp cs ces) :
    (∃ E, Covers 0 E (spans l) ∧ E ≤ min nsamp ⌊offset fsamp ces ces.length⌋) ∧
    (∀ (i : Nat) e, l[i]? = some e → e.chunk.cidx = some (i : Int)) ∧
    (∀ e ∈ l, Belongs fsamp ces e) ∧
    ∀ c : Nat, 1 ≤ c → cs = some c → ∀ e ∈ l, e.chunk.stop - e.chunk.start ≤ c := by
  subst hl
  obtain ⟨E, L⟩ := loop_spec nsamp fsamp cs hf hn ces hx 0 le_rfl (by exact_mod_cast hn) 0
  refine ⟨⟨E, by simpa [partitionSchedule] using L.cov, by simpa using L.le⟩, fun i e h => by simpa using L.idx i e h,
    fun e he => ?_, L.size⟩
  obtain ⟨i, h⟩ := L.bel e he
  exact ⟨i, by simpa using h⟩

/-- **C52.** So with the index of a chunk, `schedule_ctime` and `schedule_scan` find its own entry. -/
theorem C52_lookup (nsamp : Int) (fsamp : Rat) (cs : Option Nat) (ces : List Ces)
    (hf : 0 < fsamp) (hn : 0 ≤ nsamp) (hx : ∀ x ∈ ces, x.t0 < x.t1) (e : Entry)
    (he : e ∈ partitionSchedule nsamp fsamp cs ces) :
    ∃ c, e.chunk.cidx = some c ∧ pyGet (partitionSchedule nsamp fsamp cs ces) c = .ok e ∧
      Data.scheduleCtime fsamp
        (some ((partitionSchedule nsamp fsamp cs ces).map fun e => e.ctimeStart)) c
        e.chunk.start e.chunk.stop
        = .ok ((List.range (e.chunk.stop - e.chunk.start).toNat).map fun (i : Nat) =>
            e.ctimeStart + (i : Rat) / fsamp) := by
  obtain ⟨i, hi⟩ := List.getElem?_of_mem he
  have h := (C52_contiguous nsamp fsamp cs ces hf hn hx _ rfl).2.1 i e hi
  have hg : ∀ {α : Type} (a : List α) (x : α), a[i]? = some x → pyGet a (i : Int) = .ok x := by
    intro α a x hx
    unfold pyGet
    simp only [if_neg (show ¬ ((i : Int) < 0) by omega), Int.toNat_natCast, hx]
  refine ⟨i, h, hg _ _ hi, ?_⟩
  unfold Data.scheduleCtime
  dsimp only
  rw [hg _ e.ctimeStart (by rw [List.getElem?_map, hi]; rfl)]
  simp only [bind, Except.bind, pure, Except.pure]
  rw [if_neg hf.ne']

/-- **C52, a part.** The chunks cover the mission or the schedule, whichever is shorter, if no chunk
size is given or the number of samples of every scan is a multiple of it.  Missing: other chunk
sizes, where up to one chunk size of samples can be lost (`C52_missing_samples`,
`C52_violation_coverage`). -/
theorem C52_coverage_partial (nsamp : Int) (fsamp : Rat) (cs : Option Nat) (ces : List Ces)
    (hf : 0 < fsamp) (hn : 0 ≤ nsamp) (hx : ∀ x ∈ ces, x.t0 < x.t1)
    (hc : ∀ c, cs = some c → c ≠ 0 → ∀ x ∈ ces, ∃ k : Nat, (x.t1 - x.t0) * fsamp = k * c) :
    Covers 0 (min nsamp ⌊offset fsamp ces ces.length⌋)
      (spans (partitionSchedule nsamp fsamp cs ces)) := by
  obtain ⟨E, L⟩ := loop_spec nsamp fsamp cs hf hn ces hx 0 le_rfl (by exact_mod_cast hn) 0
  have he := L.exact_ fun x h => by
    have hN : 0 < fullSamp fsamp x := mul_pos (by linarith [hx x h]) hf
    have h1 : ((1 : Int) : Rat) * (pyInt (fullSamp fsamp x) : Rat) ≤ fullSamp fsamp x := by
      rw [pyInt_floor hN.le]
      simpa using Int.floor_le (fullSamp fsamp x)
    cases cs with
    | none => exact h1
    | some c =>
      unfold cesChunks
      dsimp only
      split
      · exact h1
      · rename_i h2
        push Not at h2
        obtain ⟨k, hk⟩ := hc c rfl h2.1 x h
        have hcq : (c : Rat) ≠ 0 := by exact_mod_cast h2.1
        show (⌈fullSamp fsamp x / (c : Rat)⌉ : Rat) * ((c : Int) : Rat) ≤ fullSamp fsamp x
        have hk' : fullSamp fsamp x = k * c := hk
        rw [hk', mul_div_cancel_right₀ _ hcq]
        simp
  have := L.cov
  rw [he] at this
  simpa [partitionSchedule] using this

/-- **C52.** With any chunk size at most that number of samples is missing at the end. -/
theorem C52_missing_samples (nsamp : Int) (fsamp : Rat) (c : Nat) (hc : 1 ≤ c) (ces : List Ces)
    (hf : 0 < fsamp) (hn : 0 ≤ nsamp) (hx : ∀ x ∈ ces, x.t0 < x.t1) :
    ∃ E, Covers 0 E (spans (partitionSchedule nsamp fsamp (some c) ces)) ∧
      min nsamp ⌊offset fsamp ces ces.length⌋ - E ≤ c := by
  obtain ⟨E, L⟩ := loop_spec nsamp fsamp (some c) hf hn ces hx 0 le_rfl (by exact_mod_cast hn) 0
  exact ⟨E, by simpa [partitionSchedule] using L.cov, by simpa using L.miss c hc rfl⟩

/-- **C52, a part.** No chunk is empty if the scans have integer numbers of samples.  Missing: other
scans, where a chunk can be empty (`C52_violation_empty`). -/
theorem C52_tiles_partial (nsamp : Int) (fsamp : Rat) (cs : Option Nat) (ces : List Ces)
    (hf : 0 < fsamp) (hn : 0 ≤ nsamp) (hx : ∀ x ∈ ces, x.t0 < x.t1)
    (hi : ∀ x ∈ ces, ∃ k : Int, (x.t1 - x.t0) * fsamp = k) :
    ∃ E, Tiles 0 E (spans (partitionSchedule nsamp fsamp cs ces)) := by
  obtain ⟨E, L⟩ := loop_spec nsamp fsamp cs hf hn ces hx 0 le_rfl (by exact_mod_cast hn) 0
  refine ⟨E, covers_tiles (by simpa [partitionSchedule] using L.cov) ?_⟩
  intro p hp
  obtain ⟨e, he, rfl⟩ := List.mem_map.1 hp
  exact L.pos ⟨0, by simp⟩ hi e he

/-- **C52 is false for some chunk sizes.**  Two scans of 10 samples, a mission of 11 samples and
chunks of 4: the last sample of the mission is in no chunk. -/
theorem C52_violation_coverage :
    spans (partitionSchedule 11 1 (some 4) [⟨0, 10, 0, 20, 45⟩, ⟨10, 20, 30, 60, 45⟩])
      = [(0, 4), (4, 8), (8, 10)] := by
  decide +kernel

/-- **C52 is false for scans with fractional numbers of samples.**  A scan of 8.5 s at 1 Hz with chunks
of 4 has an empty chunk. -/
theorem C52_violation_empty :
    spans (partitionSchedule 100 1 (some 4) [⟨0, 17 / 2, 0, 20, 45⟩])
      = [(0, 4), (4, 8), (8, 8)] := by
  decide +kernel

/-- **C52 is false if the schedule contains a scan of zero duration.**  The chunk of the last scan has
index 2, but there are only two entries: its parameters cannot be looked up. -/
theorem C52_violation_index :
    ∃ e, e ∈ partitionSchedule 100 1 none [⟨0, 10, 0, 20, 45⟩, ⟨10, 10, 20, 30, 45⟩,
        ⟨10, 20, 30, 60, 45⟩] ∧ e.chunk.cidx = some 2 ∧
      pyGet (partitionSchedule 100 1 none [⟨0, 10, 0, 20, 45⟩, ⟨10, 10, 20, 30, 45⟩,
        ⟨10, 20, 30, 60, 45⟩]) 2 = .error .indexError := by
  refine ⟨⟨⟨10, 20, some 2, false, none⟩, 10, ⟨10, 20, 30, 60, 45⟩⟩, ?_, rfl, ?_⟩ <;> decide +kernel

/-- The hypotheses can be met: two scans at 2 Hz, chunks of 7 samples. -/
example : (∀ x ∈ [(⟨0, 10, 0, 20, 45⟩ : Ces), ⟨12, 20, 350, 10, 50⟩], x.t0 < x.t1) ∧
    spans (partitionSchedule 30 2 (some 7) [⟨0, 10, 0, 20, 45⟩, ⟨12, 20, 350, 10, 50⟩])
      = [(0, 7), (7, 14), (14, 20), (20, 27), (27, 30)] := by
  refine ⟨?_, ?_⟩ <;> decide +kernel

/-! ## C53: azimuths -/

/-- **C53, a part.** If the first azimuth of a scan is below the second one, the azimuths of a chunk are
all in this interval, one for every sample, and follow a triangle wave between its ends; a chunk at
the beginning of the scan starts at the first azimuth.  Missing: intervals that contain north
(`C53_violation`). -/
theorem C53_triangle_partial (fsamp speed : Rat) (x : Ces) (t : Rat) (ts : List Rat)
    (hs : 0 < speed) (haz : x.az0 < x.az1) (n : Nat) (hn1 : 1 ≤ n)
    (hn : ⌊(x.az1 - x.az0) / speed * fsamp⌋ = n) :
    ∃ az phase, azimuths fsamp speed x (t :: ts) = .ok az ∧ az.length = (t :: ts).length ∧
      (∀ i, i < (t :: ts).length → az[i]? = some
        (triangle x.az0 x.az1 n (((i : Int) - phase) % (2 * (n : Int) - 1)).toNat)) ∧
      (t = x.t0 → phase = 0) ∧ ∀ a ∈ az, x.az0 ≤ a ∧ a ≤ x.az1 := by
  have hthr : azThrow x = x.az1 - x.az0 := by
    unfold azThrow
    rw [if_neg (by linarith)]
  have hpos : 0 ≤ (x.az1 - x.az0) / speed * fsamp := by
    have : (0 : Int) ≤ ⌊(x.az1 - x.az0) / speed * fsamp⌋ := by rw [hn]; omega
    exact Int.floor_nonneg.1 this
  have hper : perScan fsamp speed x = n := by
    unfold perScan
    rw [hthr, pyInt_floor hpos, hn]
  obtain ⟨az, e, hl, hi⟩ := azimuths_spec fsamp speed x t ts n (by rw [hthr]; linarith) hs.ne' hper hn1
  refine ⟨az, phaseIdx fsamp (t - x.t0) (2 * n - 1), e, hl, hi, fun h => ?_, fun a ha => ?_⟩
  · rw [h, sub_self]
    simp [phaseIdx, npRemainder]
  · obtain ⟨i, hia⟩ := List.getElem?_of_mem ha
    have hlt : i < (t :: ts).length := by
      rw [← hl]
      exact (List.getElem?_eq_some_iff.1 hia).1
    rw [hi i hlt] at hia
    obtain rfl := Option.some.inj hia
    refine triangle_between haz.le n _ hn1 ?_
    have := Int.emod_lt_of_pos ((i : Int) - phaseIdx fsamp (t - x.t0) (2 * n - 1))
      (show (0 : Int) < 2 * (n : Int) - 1 by omega)
    omega

/-- The triangle wave starts at one end, turns at the other and comes back. -/
theorem C53_triangle_ends (a b : Rat) (n : Nat) (hn : 2 ≤ n) :
    triangle a b n 0 = a ∧ triangle a b n (n - 1) = b ∧ triangle a b n (2 * n - 2) = a ∧
      ∀ j, j + 1 < 2 * n - 1 →
        |triangle a b n (j + 1) - triangle a b n j| = |b - a| / ((n - 1 : Nat) : Rat) := by
  have hp : (0 : Rat) < ((n - 1 : Nat) : Rat) := by
    have : 0 < n - 1 := by omega
    exact_mod_cast this
  have habs : |(b - a) / ((n - 1 : Nat) : Rat)| = |b - a| / ((n - 1 : Nat) : Rat) := by
    rw [abs_div, abs_of_pos hp]
  unfold triangle
  refine ⟨?_, ?_, ?_, fun j hj => ?_⟩
  · rw [if_pos (by omega)]
    simp
  · rw [if_neg (by omega), if_neg (by omega)]
    simp
  · rw [if_neg (by omega), if_neg (by omega), show 2 * n - 2 - (n - 1) = n - 1 by omega,
      mul_div_cancel₀ _ hp.ne']
    ring
  · by_cases h1 : j + 1 < n - 1
    · rw [if_pos h1, if_pos (by omega), ← habs]
      congr 1
      push_cast
      ring
    · by_cases h2 : j < n - 1
      · have hj' : j + 1 = n - 1 := by omega
        rw [if_neg h1, if_neg (by omega), if_pos h2, ← habs, hj']
        congr 1
        have e : (j : Rat) = ((n - 1 : Nat) : Rat) - 1 := by
          rw [← hj']
          push_cast
          ring
        rw [e]
        simp only [Nat.sub_self, Nat.cast_zero, zero_mul, sub_zero]
        field_simp
        ring
      · rw [if_neg h1, if_neg (by omega), if_neg h2, if_neg (by omega), ← habs, ← abs_neg]
        congr 1
        have e : j + 1 - (n - 1) = (j - (n - 1)) + 1 := by omega
        rw [e]
        push_cast
        ring

/-- **C53 is false for intervals that contain north.**  A scan from 350 to 10 degrees (20 degrees through
north) sweeps through the south: its second sample is at 237 degrees, its third one at 123. -/
theorem C53_violation : azimuths 1 5 ⟨0, 100, 350, 10, 45⟩ [0, 1, 2, 3] =
    .ok [350, 710 / 3, 370 / 3, 10] := by
  decide +kernel

/-- **C53, pointing of a chunk.** Each non-empty chunk of a schedule whose scan does not contain north is
pointed with qpoint at the elevation of its own scan, at the times of its own samples, and at azimuths
of the triangle between the azimuths of its own scan. -/
theorem C53_pointing_partial {Q : Type} (azel2bore : Rat → Rat → Rat → Q) (nsamp : Int)
    (fsamp speed : Rat) (cs : Option Nat) (ces : List Ces)
    (hf : 0 < fsamp) (hn : 0 ≤ nsamp) (hx : ∀ x ∈ ces, x.t0 < x.t1) (e : Entry)
    (he : e ∈ partitionSchedule nsamp fsamp cs ces) (hne : e.chunk.start < e.chunk.stop)
    (hs : 0 < speed) (haz : e.ces.az0 < e.ces.az1) (n : Nat) (hn1 : 1 ≤ n)
    (hnn : ⌊(e.ces.az1 - e.ces.az0) / speed * fsamp⌋ = n) :
    ∃ c t q, e.chunk.cidx = some c ∧ e.ces ∈ ces ∧
      Data.scheduleCtime fsamp
        (some ((partitionSchedule nsamp fsamp cs ces).map fun e => e.ctimeStart)) c
        e.chunk.start e.chunk.stop = .ok t ∧
      scheduleScan azel2bore fsamp speed (partitionSchedule nsamp fsamp cs ces) c t = .ok q ∧
      q.length = (e.chunk.stop - e.chunk.start).toNat ∧
      ∃ phase : Int, ∀ i : Nat, i < q.length →
        q[i]? = some (azel2bore
          (triangle e.ces.az0 e.ces.az1 n (((i : Int) - phase) % (2 * (n : Int) - 1)).toNat)
          e.ces.el (e.ctimeStart + (i : Rat) / fsamp)) := by
  obtain ⟨c, hc, hg, ht⟩ := C52_lookup nsamp fsamp cs ces hf hn hx e he
  have hb := (C52_contiguous nsamp fsamp cs ces hf hn hx _ rfl).2.2.1 e he
  have hmem : e.ces ∈ ces := by
    obtain ⟨i, h, -⟩ := hb
    exact List.mem_of_getElem? h
  obtain ⟨m, hm⟩ : ∃ m, (e.chunk.stop - e.chunk.start).toNat = m + 1 :=
    ⟨(e.chunk.stop - e.chunk.start).toNat - 1, by omega⟩
  have hcons : ((List.range (e.chunk.stop - e.chunk.start).toNat).map fun (i : Nat) =>
      e.ctimeStart + (i : Rat) / fsamp) = (e.ctimeStart + ((0 : Nat) : Rat) / fsamp) ::
      ((List.range m).map fun (i : Nat) => e.ctimeStart + ((i + 1 : Nat) : Rat) / fsamp) := by
    rw [hm, List.range_succ_eq_map, List.map_cons, List.map_map]
    rfl
  obtain ⟨az, phase, ha, hl, hv, -, -⟩ := C53_triangle_partial fsamp speed e.ces
    (hs := hs) (haz := haz) (n := n) (hn1 := hn1) (hn := hnn) (t := e.ctimeStart + ((0 : Nat) : Rat) / fsamp)
    (ts := (List.range m).map fun (i : Nat) => e.ctimeStart + ((i + 1 : Nat) : Rat) / fsamp)
  rw [← hcons] at ha hl hv
  generalize hT : ((List.range (e.chunk.stop - e.chunk.start).toNat).map fun (i : Nat) =>
      e.ctimeStart + (i : Rat) / fsamp) = T at *
  have hTl : T.length = (e.chunk.stop - e.chunk.start).toNat := by
    rw [← hT]
    simp
  refine ⟨c, T, (az.zip T).map fun p => azel2bore p.1 e.ces.el p.2, hc, hmem, ht, ?_, ?_, phase,
    fun i hi => ?_⟩
  · unfold scheduleScan
    rw [hg]
    simp only [bind, Except.bind]
    rw [ha]
    rfl
  · simp [hl, hTl]
  · have hi : i < (e.chunk.stop - e.chunk.start).toNat := by simpa [hl, hTl] using hi
    have h1 := hv i (by omega)
    have h2 : T[i]? = some (e.ctimeStart + (i : Rat) / fsamp) := by
      rw [← hT, List.getElem?_map, List.getElem?_range hi]
      rfl
    have h3 := (List.getElem?_zip_eq_some (l₁ := az) (l₂ := T) (i := i) (z := (_, _))).2 ⟨h1, h2⟩
    rw [List.getElem?_map, h3]
    rfl

/-! ## C82: azimuths and chunks -/

/-- **C82, a part.** If every chunk is a whole scan (no chunk size), the azimuth of a sample is determined
by its position in the scan.  Missing: chunks that start within a scan (`C82_violation`). -/
theorem C82_whole_scans_partial (fsamp speed : Rat) (x : Ces) (ts ts' : List Rat)
    (hs : 0 < speed) (haz : x.az0 < x.az1) (n : Nat) (hn1 : 1 ≤ n)
    (hn : ⌊(x.az1 - x.az0) / speed * fsamp⌋ = n) :
    ∃ az az', azimuths fsamp speed x (x.t0 :: ts) = .ok az ∧
      azimuths fsamp speed x (x.t0 :: ts') = .ok az' ∧
      ∀ i, i < (x.t0 :: ts).length → i < (x.t0 :: ts').length → az[i]? = az'[i]? := by
  obtain ⟨az, p, e, -, h, hp, -⟩ := C53_triangle_partial fsamp speed x x.t0 ts hs haz n hn1 hn
  obtain ⟨az', p', e', -, h', hp', -⟩ := C53_triangle_partial fsamp speed x x.t0 ts' hs haz n hn1 hn
  exact ⟨az, az', e, e', fun i hi hi' => by rw [h i hi, h' i hi', hp rfl, hp' rfl]⟩

/-- **C82 is false.**  A scan of 8 samples at 2 Hz between 0 and 6 degrees in one chunk, and its second
half as a chunk of its own: the samples 4 to 7 have other azimuths. -/
theorem C82_violation :
    azimuths 2 2 ⟨0, 4, 0, 6, 45⟩ [0, 1 / 2, 1, 3 / 2, 2, 5 / 2, 3, 7 / 2] =
      .ok [0, 6 / 5, 12 / 5, 18 / 5, 24 / 5, 6, 24 / 5, 18 / 5] ∧
    azimuths 2 2 ⟨0, 4, 0, 6, 45⟩ [2, 5 / 2, 3, 7 / 2] = .ok [0, 6 / 5, 12 / 5, 18 / 5] := by
  constructor <;> decide +kernel

/-! ## C83: schedule files -/

/-- **C83, a part.** Of a schedule file with two or more lines of at least five numbers, each line is
a scan with start and end time (converted from MJD to unix time), azimuth limits and elevation.
Missing: files with one line (`C83_violation`). -/
theorem C83_parse_partial (rows : List (List Rat)) (h2 : 2 ≤ rows.length)
    (h5 : ∀ r ∈ rows, 5 ≤ r.length) :
    ∃ ces, parseScheduleFile rows = .ok ces ∧ ces.length = rows.length ∧
      ∀ (i : Nat) r (x : Ces), rows[i]? = some r → ces[i]? = some x →
        r[0]? = some (x.t0 / 86400 + 40587) ∧ r[1]? = some (x.t1 / 86400 + 40587) ∧
        r[2]? = some x.az0 ∧ r[3]? = some x.az1 ∧ r[4]? = some x.el := by
  have key : ∀ rows : List (List Rat), (∀ r ∈ rows, 5 ≤ r.length) →
      ∃ ces, rows.mapM parseRow = .ok ces ∧ ces.length = rows.length ∧
      ∀ (i : Nat) r (x : Ces), rows[i]? = some r → ces[i]? = some x →
        r[0]? = some (x.t0 / 86400 + 40587) ∧ r[1]? = some (x.t1 / 86400 + 40587) ∧
        r[2]? = some x.az0 ∧ r[3]? = some x.az1 ∧ r[4]? = some x.el := by
    intro rows
    induction rows with
    | nil => intro _; exact ⟨[], rfl, rfl, fun i r x h => by simp at h⟩
    | cons r rest ih =>
      intro h
      obtain ⟨ces, e, hl, hi⟩ := ih fun r hr => h r (List.mem_cons_of_mem _ hr)
      match r, h _ List.mem_cons_self with
      | a :: b :: c :: d :: f :: more, _ =>
        refine ⟨⟨mjd2ctime a, mjd2ctime b, c, d, f⟩ :: ces, ?_, by simp [hl], ?_⟩
        · rw [List.mapM_cons, e]
          rfl
        · intro i r x hr hx
          match i, hr, hx with
          | 0, hr, hx =>
            obtain rfl := Option.some.inj hr
            obtain rfl := Option.some.inj hx
            refine ⟨?_, ?_, rfl, rfl, rfl⟩
            · simp [mjd2ctime]
            · simp [mjd2ctime]
          | i + 1, hr, hx => exact hi i r x (by simpa using hr) (by simpa using hx)
  unfold parseScheduleFile
  rw [if_neg (by omega)]
  exact key rows h5

/-- **C83 is false for a file with a single line**: reading it is an error. -/
theorem C83_violation (r : List Rat) : parseScheduleFile [r] = .error .indexError := by
  simp [parseScheduleFile]

example : parseScheduleFile [[58000, 58001, 10, 20, 50], [58001, 58002, 30, 50, 45]] =
    .ok [⟨1504483200, 1504569600, 10, 20, 50⟩, ⟨1504569600, 1504656000, 30, 50, 45⟩] := by
  decide +kernel

end Verif.Props
