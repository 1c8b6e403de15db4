import Verif.Model.Satellite
import Verif.Lemmas.Hwp
import Mathlib.Tactic.Linarith
import Mathlib.Tactic.FieldSimp
import Mathlib.Tactic.Ring
import Mathlib.Tactic.NormNum

/-!
# C54, C84, C85: the simple satellite scan
-/

noncomputable section

namespace Verif.Props

open Real Verif.Satellite

theorem last_of {l : List ℝ} {n : Nat} (hl : l.length = n) (hn : 1 ≤ n) :
    ∃ x, pyGet l (-1) = .ok x ∧ l[n - 1]? = some x := by
  obtain ⟨x, h, h'⟩ := Hwp.pyGet_last l (n - 1) (by omega)
  exact ⟨x, h', h⟩

theorem startAt_some (x : ℝ) : startAt (some x) = x := by
  show (if x ≠ 0 then x else 0) = x
  by_cases h : x = 0
  · rw [if_neg (not_not.mpr h), h]
  · rw [if_pos h]

/-- The precession angle per sample. -/
def precession (o : Opts) : ℝ := 2 * π / (o.fsamp * o.alphaPeriod)

theorem lat_get (o : Opts) (s : State) (n i : Nat) (h : i < n) :
    (lat o s n)[i]? = some (sin (arcsin (startAt s.lat / o.alpha) + i * precession o) * o.alpha) := by
  unfold lat Hwp.linspace precession
  rw [List.getElem?_map, List.getElem?_map, List.getElem?_range h]
  simp only [Option.map_some]
  congr 3
  have hn : (n : ℝ) ≠ 0 := by
    have : n ≠ 0 := by omega
    exact_mod_cast this
  rw [add_sub_cancel_right]
  field_simp

theorem lon_get (o : Opts) (s : State) (n i : Nat) (h : i < n) :
    (lon o s n)[i]? = some (Hwp.npMod (-(startAt s.lon +
      i * ((n : ℝ) / o.fsamp / 86400 * 360.9863 / ((n : ℝ) - 1)))) 360) := by
  unfold lon linspaceClosed
  rw [List.getElem?_map, List.getElem?_map, List.getElem?_range h]
  simp only [Option.map_some]
  by_cases h1 : n = 1
  · have hi : i = 0 := by omega
    rw [if_pos h1, hi]
    simp
  · rw [if_neg h1]
    congr 3
    rw [add_sub_cancel_right]
    norm_num

theorem scan_ok (o : Opts) (s : State) (n : Nat) (hn : 1 ≤ n) :
    ∃ lo la, scan o s n =
        .ok ((az o n, List.replicate n o.beta, lon o s n, lat o s n), ⟨some lo, some la⟩) ∧
      (lon o s n)[n - 1]? = some lo ∧ (lat o s n)[n - 1]? = some la := by
  obtain ⟨lo, e1, h1⟩ := last_of (l := lon o s n) (n := n) (by simp [lon, linspaceClosed]) hn
  obtain ⟨la, e2, h2⟩ := last_of (l := lat o s n) (n := n) (by simp [lat, Hwp.linspace]) hn
  refine ⟨lo, la, ?_, h1, h2⟩
  unfold scan
  rw [e1, e2]
  rfl

/-! ## C54 -/

/-- **C54, a part.** For every two successive chunks, from every state and for every `alpha` that is
not zero, the latitude at the first sample of the second chunk is that at the last sample of the
first chunk.  Missing: it does not go on in the same direction (`C54_violation_direction`), and the
longitude does not continue at all (`C54_longitude`, `C54_violation`). -/
theorem C54_latitude_partial (o : Opts) (s : State) (n m : Nat) (hn : 1 ≤ n) (hm : 1 ≤ m)
    (ha : o.alpha ≠ 0) :
    ∃ p s' q s'', scan o s n = .ok (p, s') ∧ scan o s' m = .ok (q, s'') ∧
      p.2.2.2.length = n ∧ q.2.2.2.length = m ∧ q.2.2.2[0]? = p.2.2.2[n - 1]? := by
  obtain ⟨lo, la, e, -, h2⟩ := scan_ok o s n hn
  obtain ⟨lo', la', e', -, -⟩ := scan_ok o ⟨some lo, some la⟩ m hm
  refine ⟨_, _, _, _, e, e', by simp [lat, Hwp.linspace], by simp [lat, Hwp.linspace], ?_⟩
  dsimp only
  rw [lat_get _ _ _ _ (by omega), h2]
  congr 1
  rw [lat_get _ _ _ _ (by omega)] at h2
  obtain rfl := Option.some.inj h2
  dsimp only
  rw [startAt_some, mul_div_assoc, div_self ha, mul_one]
  simp only [Nat.cast_zero, zero_mul, add_zero]
  rw [sin_arcsin (neg_one_le_sin _) (sin_le_one _)]

/-- **C54, what the code does.** The longitude at the first sample of a chunk is *minus* that at the
last sample of the previous chunk. -/
theorem C54_longitude (o : Opts) (s : State) (n m : Nat) (hn : 1 ≤ n) (hm : 1 ≤ m) :
    ∃ p s' q s'' x, scan o s n = .ok (p, s') ∧ scan o s' m = .ok (q, s'') ∧
      p.2.2.1[n - 1]? = some x ∧ q.2.2.1[0]? = some (Hwp.npMod (-x) 360) := by
  obtain ⟨lo, la, e, h1, -⟩ := scan_ok o s n hn
  obtain ⟨lo', la', e', -, -⟩ := scan_ok o ⟨some lo, some la⟩ m hm
  refine ⟨_, _, _, _, lo, e, e', h1, ?_⟩
  dsimp only
  rw [lon_get _ _ _ _ (by omega)]
  congr 2
  rw [startAt_some]
  simp

/-- A scan with two samples per day. -/
def slow : Opts := ⟨50, 50, 5400, 600, 2 / 86400⟩

theorem npMod_of {x y : ℝ} (h0 : 0 ≤ y) (h1 : y < 360) (k : ℤ) (hk : x = y + k * 360) :
    Hwp.npMod x 360 = y := by
  have hf : ⌊x / 360⌋ = k := by
    rw [Int.floor_eq_iff, hk]
    constructor
    · rw [le_div_iff₀ (by norm_num)]
      linarith
    · rw [div_lt_iff₀ (by norm_num)]
      linarith
  unfold Hwp.npMod
  rw [hf, hk]
  ring

theorem slow_lon : lon slow ⟨none, none⟩ 2 = [0, 359.0137] := by
  apply List.ext_getElem?
  intro i
  match i with
  | 0 =>
    rw [lon_get _ _ _ _ (by omega), npMod_of (y := 0) (k := 0)]
    · rfl
    · norm_num
    · norm_num
    · simp [startAt]
  | 1 =>
    rw [lon_get _ _ _ _ (by omega), npMod_of (y := 359.0137) (k := -2)]
    · rfl
    · norm_num
    · norm_num
    · norm_num [startAt, slow]
  | i + 2 => simp [lon, linspaceClosed]

/-- **C54 is false for the longitude.**  Two samples per day: the longitude goes backwards by about one
degree, from 0 to 359.0137; the next chunk of two samples starts at 0.9863 instead. -/
theorem C54_violation : ∃ p s' q s'', scan slow ⟨none, none⟩ 2 = .ok (p, s') ∧
    scan slow s' 2 = .ok (q, s'') ∧ p.2.2.1 = [0, 359.0137] ∧ q.2.2.1[0]? = some (0.9863 : ℝ) := by
  obtain ⟨p, s', q, s'', x, e, e', h, h'⟩ := C54_longitude slow ⟨none, none⟩ 2 2 (by omega) (by omega)
  obtain ⟨lo, la, e2, -, -⟩ := scan_ok slow ⟨none, none⟩ 2 (by omega)
  have hp : p.2.2.1 = [0, 359.0137] := by
    rw [e2] at e
    injection e with e
    rw [← (Prod.mk.inj e).1]
    exact slow_lon
  refine ⟨p, s', q, s'', e, e', hp, ?_⟩
  rw [hp] at h
  obtain rfl : (359.0137 : ℝ) = x := Option.some.inj h
  rw [h', npMod_of (y := 0.9863) (k := -1)]
  · norm_num
  · norm_num
  · norm_num

/-- **C54 is false for the direction of the precession.**  With eight samples per precession period, the
latitude after the first four samples is descending, and in one chunk of eight samples that of
sample 4 is 0; in chunks of four samples, the second sample after the fourth is at the maximum
`alpha`, in one chunk it is negative. -/
theorem C54_violation_direction (o : Opts) (ha : 0 < o.alpha) (hf : o.fsamp * o.alphaPeriod = 8) :
    ∃ p s' q s'' whole s3, scan o ⟨none, none⟩ 4 = .ok (p, s') ∧ scan o s' 4 = .ok (q, s'') ∧
      scan o ⟨none, none⟩ 8 = .ok (whole, s3) ∧ q.2.2.2[1]? = some o.alpha ∧
      ∃ x, whole.2.2.2[5]? = some x ∧ x < 0 := by
  have hpr : precession o = π / 4 := by
    unfold precession
    rw [hf]
    ring
  obtain ⟨lo, la, e, -, h2⟩ := scan_ok o ⟨none, none⟩ 4 (by omega)
  obtain ⟨lo', la', e', -, -⟩ := scan_ok o ⟨some lo, some la⟩ 4 (by omega)
  obtain ⟨lo3, la3, e3, -, -⟩ := scan_ok o ⟨none, none⟩ 8 (by omega)
  refine ⟨_, _, _, _, _, _, e, e', e3, ?_, ?_⟩
  · dsimp only
    rw [lat_get _ _ _ _ (by omega)]
    congr 1
    rw [lat_get _ _ _ _ (by omega)] at h2
    obtain rfl := Option.some.inj h2
    dsimp only
    rw [startAt_some, mul_div_assoc, div_self ha.ne', mul_one, hpr]
    have h0 : startAt none = 0 := rfl
    rw [h0, zero_div, arcsin_zero]
    have e1 : sin (0 + ((4 - 1 : Nat) : ℝ) * (π / 4)) = sin (π / 4) := by
      rw [← sin_pi_sub (π / 4)]
      congr 1
      push_cast
      ring
    rw [e1, arcsin_sin (by linarith [pi_pos]) (by linarith [pi_pos])]
    have e2 : π / 4 + ((1 : Nat) : ℝ) * (π / 4) = π / 2 := by
      push_cast
      ring
    rw [e2, sin_pi_div_two, one_mul]
  · dsimp only
    refine ⟨_, lat_get _ _ _ _ (by omega), ?_⟩
    have h0 : startAt none = 0 := rfl
    dsimp only
    rw [h0, zero_div, arcsin_zero, hpr]
    apply mul_neg_of_neg_of_pos _ ha
    have e1 : (0 : ℝ) + ((5 : Nat) : ℝ) * (π / 4) = π / 4 + π := by
      push_cast
      ring
    rw [e1, sin_add_pi]
    have : 0 < sin (π / 4) := sin_pos_of_pos_of_lt_pi (by linarith [pi_pos]) (by linarith [pi_pos])
    linarith

example : ∃ o : Opts, 0 < o.alpha ∧ o.fsamp * o.alphaPeriod = 8 :=
  ⟨⟨50, 50, 5400, 600, 8 / 5400⟩, by norm_num, by norm_num⟩

/-! ## C84: the spin -/

/-- The spin angle `t` samples after the start of the mission, in degrees. -/
def spinAngle (o : Opts) (t : Nat) : ℝ := Hwp.npMod (t * 360 / (o.fsamp * o.betaPeriod)) 360

theorem az_get (o : Opts) (n i : Nat) (h : i < n) : (az o n)[i]? = some (spinAngle o i) := by
  unfold az spinAngle
  rw [List.getElem?_map, List.getElem?_range h]
  simp only [Option.map_some]
  congr 2
  field_simp

/-- **C84, a part.** If a chunk that starts at sample `a` of the mission starts after a whole number of
spin periods, all its azimuths are those of the spin since the start of the mission.  Missing: other
chunks (`C84_violation`). -/
theorem C84_whole_periods_partial (o : Opts) (s : State) (n a : Nat) (hn : 1 ≤ n) (k : Int)
    (hp : o.fsamp * o.betaPeriod ≠ 0) (ha : (a : ℝ) = k * (o.fsamp * o.betaPeriod)) :
    ∃ p s', scan o s n = .ok (p, s') ∧ p.1.length = n ∧
      ∀ i, i < n → p.1[i]? = some (spinAngle o (a + i)) := by
  obtain ⟨lo, la, e, -, -⟩ := scan_ok o s n hn
  refine ⟨_, _, e, by simp [az], fun i hi => ?_⟩
  dsimp only
  rw [az_get o n i hi]
  congr 1
  unfold spinAngle Hwp.npMod
  push_cast
  rw [ha]
  generalize o.fsamp * o.betaPeriod = P at *
  have e1 : ((k : ℝ) * P + i) * 360 / P / 360
      = i * 360 / P / 360 + k := by
    field_simp
    ring
  rw [e1, Int.floor_add_intCast]
  push_cast
  have e2 : ((k : ℝ) * P + i) * 360 / P
      = i * 360 / P + k * 360 := by
    field_simp
    ring
  rw [e2]
  ring

/-- **C84 is false.**  Every chunk starts with azimuth 0: with a spin period of four samples and chunks
of two, the third sample of the mission has azimuth 0 instead of 180. -/
theorem C84_violation (o : Opts) (hp : o.fsamp * o.betaPeriod = 4) :
    ∃ p s' q s'', scan o ⟨none, none⟩ 2 = .ok (p, s') ∧ scan o s' 2 = .ok (q, s'') ∧
      q.1[0]? = some 0 ∧ spinAngle o 2 = 180 := by
  obtain ⟨lo, la, e, -, -⟩ := scan_ok o ⟨none, none⟩ 2 (by omega)
  obtain ⟨lo', la', e', -, -⟩ := scan_ok o ⟨some lo, some la⟩ 2 (by omega)
  refine ⟨_, _, _, _, e, e', ?_, ?_⟩
  · dsimp only
    rw [az_get _ _ _ (by omega)]
    congr 1
    unfold spinAngle
    rw [npMod_of (y := 0) (k := 0)] <;> norm_num
  · unfold spinAngle
    rw [hp, npMod_of (y := 180) (k := 0)] <;> norm_num

example : ∃ o : Opts, o.fsamp * o.betaPeriod = 4 :=
  ⟨⟨50, 50, 5400, 600, 4 / 600⟩, by norm_num⟩

/-! ## C85: passes -/

/-- **C85, a part.** Azimuth and elevation of a chunk are the same in all passes.  Missing: longitude
and latitude (`C85_violation`). -/
theorem C85_azel_partial (o : Opts) (s s' : State) (n : Nat) (hn : 1 ≤ n) :
    ∃ p q t t', scan o s n = .ok (p, t) ∧ scan o s' n = .ok (q, t') ∧ p.1 = q.1 ∧ p.2.1 = q.2.1 := by
  obtain ⟨lo, la, e, -, -⟩ := scan_ok o s n hn
  obtain ⟨lo', la', e', -, -⟩ := scan_ok o s' n hn
  exact ⟨_, _, _, _, e, e', rfl, rfl⟩

/-- **C85 is false.**  The same chunk of two samples in the passes for the first and the second pair of
detectors: the longitude of the first sample is 0 in the first one and 0.9863 in the second one. -/
theorem C85_violation : ∃ p s1 q s2, pass slow [2] ⟨none, none⟩ = .ok ([p], s1) ∧
    pass slow [2] s1 = .ok ([q], s2) ∧ p.2.2.1[0]? = some (0 : ℝ) ∧
    q.2.2.1[0]? = some (0.9863 : ℝ) := by
  obtain ⟨p, s', q, s'', e, e', hp, hq⟩ := C54_violation
  refine ⟨p, s', q, s'', ?_, ?_, by rw [hp]; rfl, hq⟩
  · unfold pass
    rw [e]
    rfl
  · unfold pass
    rw [e']
    rfl

/-- **C85.** Jitter moves the elevation and nothing else: sample `i` of a chunk is higher by `amp`
times a new normal deviate, which no other sample uses. -/
theorem C85_jitter (o : Opts) (amp : ℝ) (rng : Nat → ℝ) (s : State) (drawn n : Nat) (hn : 1 ≤ n)
    (ha : amp ≠ 0) :
    ∃ p t q, scan o s n = .ok (p, t) ∧ scanJitter o amp rng s drawn n = .ok (q, t, drawn + n) ∧
      q.1 = p.1 ∧ q.2.2 = p.2.2 ∧ q.2.1.length = n ∧
      ∀ i x, q.2.1[i]? = some x → p.2.1[i]? = some (x - amp * rng (drawn + i)) := by
  obtain ⟨lo, e1, h1⟩ := last_of (l := lon o s n) (n := n) (by simp [lon, linspaceClosed]) hn
  obtain ⟨la, e2, h2⟩ := last_of (l := lat o s n) (n := n) (by simp [lat, Hwp.linspace]) hn
  refine ⟨(az o n, List.replicate n o.beta, lon o s n, lat o s n), ⟨some lo, some la⟩,
    (az o n, elJitter o amp rng drawn n, lon o s n, lat o s n), ?_, ?_, rfl, rfl, ?_, ?_⟩
  · unfold scan
    rw [e1, e2]
    rfl
  · unfold scanJitter
    rw [e1, e2, if_pos ha]
    rfl
  · simp [elJitter, ha]
  · intro i x hx
    simp only [elJitter, ne_eq, ha, not_false_eq_true, if_true, List.getElem?_map,
      Option.map_eq_some_iff] at hx
    obtain ⟨j, hj, rfl⟩ := hx
    obtain ⟨hlt, rfl⟩ := List.getElem?_eq_some_iff.1 hj
    rw [List.length_range] at hlt
    simp [hlt]

/-- **C85.** Without jitter nothing is drawn and the scan is the plain one. -/
theorem C85_no_jitter (o : Opts) (rng : Nat → ℝ) (s : State) (drawn n : Nat) :
    scanJitter o 0 rng s drawn n = (scan o s n).map fun r => (r.1, r.2, drawn) := by
  unfold scanJitter scan
  cases pyGet (lon o s n) (-1) with
  | error e => rfl
  | ok a =>
    cases pyGet (lat o s n) (-1) with
    | error e => rfl
    | ok b => simp [elJitter, bind, Except.bind, pure, Except.pure, Except.map]

/-- **C85 is false with jitter.** Two passes over the same chunk, for two pairs of detectors, see
each sample at different elevations unless the normal deviates repeat themselves: the jitter is not
that of the telescope, every pair of detectors has its own. -/
theorem C85_violation_jitter (o : Opts) (amp : ℝ) (ha : amp ≠ 0) (rng : Nat → ℝ) (s : State)
    (n i : Nat) (hi : i < n) (hr : rng i ≠ rng (n + i)) :
    ∃ p t d q t' d' x y, scanJitter o amp rng s 0 n = .ok (p, t, d) ∧
      scanJitter o amp rng t d n = .ok (q, t', d') ∧ p.2.1[i]? = some x ∧ q.2.1[i]? = some y ∧
      x ≠ y := by
  obtain ⟨p0, t, p, e0, e1, -, -, l1, f1⟩ := C85_jitter o amp rng s 0 n (by omega) ha
  obtain ⟨q0, t', q, g0, g1, -, -, l2, f2⟩ := C85_jitter o amp rng t (0 + n) n (by omega) ha
  have hp : p.2.1[i]? = some (p.2.1[i]'(by omega)) := List.getElem?_eq_getElem _
  have hq : q.2.1[i]? = some (q.2.1[i]'(by omega)) := List.getElem?_eq_getElem _
  refine ⟨p, t, 0 + n, q, t', _, _, _, e1, g1, hp, hq, fun hxy => hr ?_⟩
  have h1 := f1 i _ hp
  have h2 := f2 i _ hq
  obtain ⟨_, _, e, _, _⟩ := scan_ok o s n (by omega)
  obtain ⟨_, _, g, _, _⟩ := scan_ok o t n (by omega)
  rw [e0] at e
  rw [g0] at g
  have ep := congrArg (fun r => r.1.2.1) (Except.ok.inj e)
  have gp := congrArg (fun r => r.1.2.1) (Except.ok.inj g)
  simp only at ep gp
  rw [ep] at h1
  rw [gp, h1] at h2
  have h3 := Option.some.inj h2
  rw [hxy, Nat.zero_add, Nat.zero_add] at h3
  have h4 : amp * rng i = amp * rng (n + i) := by linarith
  exact mul_left_cancel₀ ha h4

/-- The deviates 0, 1, 2, … do not repeat. -/
example : (fun k : Nat => (k : ℝ)) 1 ≠ (fun k : Nat => (k : ℝ)) (3 + 1) := by norm_num

end Verif.Props
