import Verif.Lemmas.Double
import Mathlib.Algebra.BigOperators.Group.List.Basic

/-!
# Properties C111 to C114: what double precision does to counts, times and sums
-/

namespace Verif.Props

open Verif.Double

/-! ## The rounding -/

/-- The rounding of the model is that of IEEE 754: the result is a double, and no double is nearer. -/
theorem C111_rounding (x : ℚ) : Nearest x (fl x) := fl_nearest x

/-- Of two nearest doubles it takes the one with the even mantissa, here 2^53 + 1 to 2^53 and 2^53 + 3 to
2^53 + 4. -/
theorem C111_ties : fl (2 ^ 53 + 1) = 2 ^ 53 ∧ fl (2 ^ 53 + 3) = 2 ^ 53 + 4 := by
  have h1 : ⌊(4503599627370496 : ℚ) + 1 / 2⌋ = 4503599627370496 := by
    rw [Int.floor_eq_iff]
    norm_num
  constructor
  · rw [fl_eq (e := 1) (by norm_num [abs_of_pos]) (by norm_num [abs_of_pos])]
    norm_num [nearEven]
  · rw [fl_eq (e := 1) (by norm_num [abs_of_pos]) (by norm_num [abs_of_pos])]
    norm_num [nearEven]

/-! ## C111: integers through floats -/

/-- **C111.** `int(np.ceil(a / float(b)))`, by which the code counts chunks, rotation periods, HWP and
elevation steps, elevation checks and passes over the detectors, is the exact quotient rounded up,
for all integers below 2^53. -/
theorem C111_ceil (a b : ℤ) (ha : |a| < 2 ^ 53) (hb : 0 < b) (hb' : b ≤ 2 ^ 53) :
    ceilDivF a b = ⌈(a : ℚ) / b⌉ ∧ ceilDivF a b = ceilDiv a b :=
  ⟨(ceilDivF_eq ha hb hb').trans (ceilDiv_eq a b hb), ceilDivF_eq ha hb hb'⟩

/-- **C111.** So `partition_mission` makes in double precision the chunks of the exact calculation
(C01, C02), for every mission of less than 2^53 samples and every chunk size. -/
theorem C111_partition (nsamp : ℤ) (h0 : 0 ≤ nsamp) (h : nsamp < 2 ^ 53) (chunksize : Option ℚ)
    (hc : ∀ c, chunksize = some c → 0 ≤ c) :
    partitionMissionF nsamp chunksize = Chunks.partitionMission nsamp chunksize := by
  unfold partitionMissionF Chunks.partitionMission
  dsimp only
  split
  · rfl
  rename_i hne
  have hcs : 0 ≤ Chunks.effChunksize nsamp chunksize ∧ Chunks.effChunksize nsamp chunksize ≤ nsamp := by
    unfold Chunks.effChunksize
    cases chunksize with
    | none => exact ⟨h0, le_refl _⟩
    | some c =>
      have hc0 := hc c rfl
      dsimp only
      split
      · exact ⟨h0, le_refl _⟩
      · rename_i hh
        push Not at hh
        rw [pyInt_nonneg hc0]
        refine ⟨Int.floor_nonneg.2 hc0, ?_⟩
        have : ((⌊c⌋ : ℤ) : ℚ) < nsamp := (Int.floor_le c).trans_lt hh.2
        have : ⌊c⌋ < nsamp := by exact_mod_cast this
        exact this.le
  rw [ceilDivF_eq (by rw [abs_of_nonneg h0]; exact h) (by omega) (by omega)]

/-- **C111 (violation).** Above 2^53 samples are lost: 2^53 + 1 samples in chunks of one sample. -/
theorem C111_violation : ceilDivF (2 ^ 53 + 1) 1 = 2 ^ 53 ∧ ceilDiv (2 ^ 53 + 1) 1 = 2 ^ 53 + 1 := by
  constructor
  · unfold ceilDivF
    have h1 : fl ((1 : ℤ) : ℚ) = 1 := by
      have := fl_int (n := 1) (by norm_num)
      exact_mod_cast this
    have h2 : fl ((2 ^ 53 + 1 : ℤ) : ℚ) = 2 ^ 53 := by
      have := C111_ties.1
      norm_num at this ⊢
      exact this
    rw [h1, h2, div_one]
    have h3 : ((2 : ℚ) ^ 53) = ((2 ^ 53 : ℤ) : ℚ) := by push_cast; rfl
    rw [h3, fl_int (by norm_num), Int.ceil_intCast]
  · decide

/-- The hypotheses of `C111_partition` are met by a day of samples at 200 Hz in chunks of an hour. -/
example : partitionMissionF 17280000 (some 720000) = Chunks.partitionMission 17280000 (some 720000) :=
  C111_partition _ (by norm_num) (by norm_num) _ (by rintro c h; cases h; norm_num)

/-! ## C112: counts from durations and rates -/

/-- **C112.** `int(duration * sample_rate)`, `int(period * fsamp)`, `int(check_interval * fsamp)` and
`int(ndet * killfrac)`: if the exact product of the two doubles is an integer below 2^53, it is the
result. -/
theorem C112_exact (a b : ℚ) (n : ℤ) (h : a * b = n) (hn : |n| ≤ 2 ^ 53) : intMul a b = n := by
  unfold intMul
  rw [h, fl_int hn, pyInt_int]

/-- **C112.** In general the result is the exact product rounded down, or one more, and that only if the
product is within rounding of the next integer. -/
theorem C112_within (a b : ℚ) (h0 : 0 ≤ a * b) (h : a * b < 2 ^ 53) :
    ⌊a * b⌋ ≤ intMul a b ∧ intMul a b ≤ ⌊a * b⌋ + 1 ∧
      (a * b + u * (a * b) < ⌊a * b⌋ + 1 → intMul a b = ⌊a * b⌋) := by
  unfold intMul
  rw [pyInt_nonneg (fl_nonneg h0)]
  obtain ⟨h1, h2⟩ := floor_fl h0 h
  refine ⟨h1, h2, fun h3 => ?_⟩
  have h4 := fl_err (a * b)
  rw [abs_of_nonneg h0, abs_le] at h4
  have h5 : ⌊fl (a * b)⌋ < ⌊a * b⌋ + 1 := by
    rw [Int.floor_lt]
    push_cast
    linarith [h4.2]
  omega

/-- `d` is the double nearest to `n / r`. -/
theorem lost_at_most_one {n : ℕ} {r : ℚ} (hr : 0 < r) (hn : n < 2 ^ 52) :
    intMul (fl (n / r)) r = n ∨ intMul (fl (n / r)) r = n - 1 := by
  have h0 : (0 : ℚ) ≤ n / r := by positivity
  have he := fl_err ((n : ℚ) / r)
  rw [abs_of_nonneg h0, abs_le] at he
  have hn' : (n : ℚ) < 2 ^ 52 := by exact_mod_cast hn
  have hu : u * n ≤ 1 / 2 := by
    unfold u
    linarith
  have e1 : fl ((n : ℚ) / r) * r ≤ n + 1 / 2 := by
    have : fl ((n : ℚ) / r) ≤ n / r + u * (n / r) := by linarith [he.2]
    have := mul_le_mul_of_nonneg_right this hr.le
    have e : ((n : ℚ) / r + u * (n / r)) * r = n + u * n := by field_simp
    linarith
  have e2 : (n : ℚ) - 1 / 2 ≤ fl ((n : ℚ) / r) * r := by
    have : (n : ℚ) / r - u * (n / r) ≤ fl ((n : ℚ) / r) := by linarith [he.1]
    have := mul_le_mul_of_nonneg_right this hr.le
    have e : ((n : ℚ) / r - u * (n / r)) * r = n - u * n := by field_simp
    linarith
  have d1 : fl ((n : ℚ) + 1 / 2) = n + 1 / 2 := by
    apply fl_of_double
    refine ⟨2 * n + 1, -1, ?_, ?_⟩
    · rw [abs_of_nonneg (by omega)]
      omega
    · rw [zpow_neg_one]
      push_cast
      ring
  have d2 : fl ((n : ℚ) - 1) = n - 1 := by
    have := fl_int (n := (n : ℤ) - 1) (by
      rw [abs_le]
      constructor <;> omega)
    push_cast at this
    exact this
  have f1 := fl_mono e1
  rw [d1] at f1
  have f2 : fl ((n : ℚ) - 1) ≤ fl (fl ((n : ℚ) / r) * r) := fl_mono (by linarith)
  rw [d2] at f2
  have hp : 0 ≤ fl (fl ((n : ℚ) / r) * r) := fl_nonneg (mul_nonneg (fl_nonneg h0) hr.le)
  unfold intMul
  rw [pyInt_nonneg hp]
  have g1 : ⌊fl (fl ((n : ℚ) / r) * r)⌋ < (n : ℤ) + 1 := by
    rw [Int.floor_lt]
    push_cast
    linarith
  have g2 : (n : ℤ) - 1 ≤ ⌊fl (fl ((n : ℚ) / r) * r)⌋ := by
    rw [Int.le_floor]
    push_cast
    exact f2
  omega

theorem params_mlen {n : ℕ} {r : ℚ} (hr : 0 < r) (hn : n < 2 ^ 52) :
    initParamsF none (some r) (some n) = .ok ⟨r, fl (n / r), n⟩ := by
  have hfl : fl ((n : ℤ) : ℚ) = n := by
    have := fl_int (n := (n : ℤ)) (by rw [abs_of_nonneg (by omega)]; omega)
    rw [this]
    push_cast
    rfl
  unfold initParamsF resolveParamsF
  dsimp only
  rw [if_neg (not_le.2 hr), if_neg (by simp)]
  dsimp only
  rw [if_neg hr.ne', hfl]
  rfl

/-- **C112.** A strategy made from a rate and a number of samples, made again from its own `mlen` and
`fsamp`, has as many samples or one less. -/
theorem C112_again_partial (n : ℕ) (r : ℚ) (hr : 0 < r) (hn0 : 0 < n) (hn : n < 2 ^ 52) :
    ∃ p p', initParamsF none (some r) (some n) = .ok p ∧ p.nsamp = n ∧
      initParamsF (some p.mlen) (some p.fsamp) none = .ok p' ∧
        (p'.nsamp = n ∨ p'.nsamp = n - 1) ∧ p'.fsamp = p.fsamp ∧ p'.mlen = p.mlen := by
  refine ⟨_, ⟨r, fl (n / r), intMul (fl (n / r)) r⟩, params_mlen hr hn, rfl, ?_,
    lost_at_most_one hr hn, rfl, rfl⟩
  unfold initParamsF resolveParamsF
  dsimp only
  have hpos : fl ((n : ℚ) / r) ≠ 0 := by
    have h0 : (0 : ℚ) < n / r := by
      have : (0 : ℚ) < n := by exact_mod_cast hn0
      positivity
    intro h
    have he := fl_err ((n : ℚ) / r)
    rw [h, zero_sub, abs_neg, abs_of_pos h0] at he
    have : u < 1 := by unfold u; norm_num
    nlinarith
  rw [if_neg (not_le.2 hr), if_neg (by simpa using hpos)]
  rfl

/-- **C112.** It has as many samples if the duration `n / r` is a double, e.g. if the rate is a power of
two or the duration a whole number of seconds. -/
theorem C112_again_exact (n : ℕ) (r : ℚ) (hr : 0 < r) (hn : n < 2 ^ 52) (hd : IsDouble (n / r)) :
    intMul (fl (n / r)) r = n := by
  rw [fl_of_double hd]
  refine C112_exact _ _ n ?_ ?_
  · rw [div_mul_cancel₀ _ hr.ne']
    push_cast
    rfl
  · rw [abs_of_nonneg (by omega)]
    omega

theorem fl_029 : fl (29 / 100) = 5224175567749775 / 2 ^ 54 := by
  rw [fl_eq (e := -54) (by norm_num [abs_of_pos]) (by norm_num [abs_of_pos])]
  norm_num [nearEven]

theorem fl_029_100 : fl (5224175567749775 / 2 ^ 54 * 100) = 8162774324609023 / 2 ^ 48 := by
  rw [fl_eq (e := -48) (by norm_num [abs_of_pos]) (by norm_num [abs_of_pos])]
  norm_num [nearEven]

theorem int_029 : intMul (fl (29 / 100)) 100 = 28 := by
  unfold intMul
  rw [fl_029, fl_029_100, pyInt_nonneg (by norm_num), Int.floor_eq_iff]
  norm_num

/-- **C112 (violation).** A mission of 29 samples at 100 Hz lasts 0.29 s, but a mission of 0.29 s at 100 Hz
has 28 samples, and asking for 0.29 s, 100 Hz and 29 samples is refused.  With a boresight period or check
interval of 0.29 s the steps are of 28 samples, and of 100 detectors a fraction of 0.29 is 28. -/
theorem C112_violation :
    initParamsF none (some 100) (some 29) = .ok ⟨100, fl (29 / 100), 29⟩ ∧
    initParamsF (some (fl (29 / 100))) (some 100) none = .ok ⟨100, fl (29 / 100), 28⟩ ∧
    initParamsF (some (fl (29 / 100))) (some 100) (some 29) = .error .valueError ∧
    intMul (fl (29 / 100)) 100 = 28 := by
  have hne : fl (29 / 100) ≠ 0 := by
    rw [fl_029]
    norm_num
  have h1 := params_mlen (n := 29) (r := 100) (by norm_num) (by norm_num)
  push_cast at h1
  refine ⟨h1, ?_, ?_, int_029⟩
  · unfold initParamsF resolveParamsF
    dsimp only
    rw [if_neg (by norm_num), if_neg (by simpa using hne)]
    dsimp only
    rw [int_029]
    rfl
  · unfold initParamsF resolveParamsF
    dsimp only
    rw [if_neg (by norm_num), if_neg (by simpa using hne)]
    dsimp only
    rw [int_029, if_pos (by norm_num)]

/-- **C112 (violation).** A plate that steps with 0.1 Hz at 19.7 samples per second steps after 196 samples
instead of 197. -/
theorem C112_step_violation : intDiv (fl (197 / 10)) (fl (1 / 10)) = 196 := by
  have h1 : fl (1 / 10) = 3602879701896397 / 2 ^ 55 := by
    rw [fl_eq (e := -56) (by norm_num [abs_of_pos]) (by norm_num [abs_of_pos])]
    norm_num [nearEven]
  have h2 : fl (197 / 10) = 5545057041199923 / 2 ^ 48 := by
    rw [fl_eq (e := -48) (by norm_num [abs_of_pos]) (by norm_num [abs_of_pos])]
    norm_num [nearEven]
  have h3 : fl (5545057041199923 / 2 ^ 48 / (3602879701896397 / 2 ^ 55)) = 6931321301499903 / 2 ^ 45 := by
    rw [fl_eq (e := -45) (by norm_num [abs_of_pos]) (by norm_num [abs_of_pos])]
    norm_num [nearEven]
  unfold intDiv
  rw [h1, h2, h3, pyInt_nonneg (by norm_num), Int.floor_eq_iff]
  norm_num

/-- The hypotheses of `C112_exact`, `C112_within` and `C112_again_exact` are met: 10 s at 12.5 Hz, and
a product that is not an integer. -/
example : intMul 10 (25 / 2) = 125 ∧ intMul (3 / 2) (3 / 2) = 2 ∧ IsDouble ((125 : ℕ) / (25 / 2)) := by
  refine ⟨C112_exact _ _ _ (by norm_num) (by norm_num), ?_, 10, 0, by norm_num, by norm_num⟩
  have hf : ⌊(3 / 2 : ℚ) * (3 / 2)⌋ = 2 := by
    rw [Int.floor_eq_iff]
    norm_num
  have h := (C112_within (3 / 2) (3 / 2) (by norm_num) (by norm_num)).2.2 (by
    rw [hf]
    unfold u
    norm_num)
  rw [h, hf]

/-! ## C113: times -/

/-- **C113.** The time of a sample does not depend, not even in the last bit, on how the mission is cut
into chunks. -/
theorem C113_chunks (fsamp ctime0 : ℚ) (a b c : ℤ) (hab : a ≤ b) (hbc : b ≤ c) (hf : fsamp ≠ 0) :
    ∃ t t', ctimesF fsamp ctime0 a b = .ok t ∧ ctimesF fsamp ctime0 b c = .ok t' ∧
      ctimesF fsamp ctime0 a c = .ok (t ++ t') := by
  unfold ctimesF
  rw [if_neg hf, if_neg hf, if_neg hf]
  refine ⟨_, _, rfl, rfl, ?_⟩
  rw [← List.map_append]
  congr 2
  unfold intRange
  have h : (c - a).toNat = (b - a).toNat + (c - b).toNat := by omega
  rw [h, List.range_add, List.map_append, List.map_map]
  congr 1
  apply List.map_congr_left
  intro k _
  simp only [Function.comp]
  push_cast
  omega

/-- **C113.** Times never decrease. -/
theorem C113_monotone (fsamp ctime0 : ℚ) (hf : 0 < fsamp) (i j : ℤ) (h : i ≤ j) :
    timeF fsamp ctime0 i ≤ timeF fsamp ctime0 j := by
  unfold timeF
  apply fl_mono
  have : fl ((i : ℚ)) ≤ fl j := fl_mono (by exact_mod_cast h)
  have := fl_mono (div_le_div_of_nonneg_right this hf.le)
  linarith

/-- **C113.** They are right up to two roundings. -/
theorem C113_accuracy (fsamp ctime0 : ℚ) (i : ℤ) (hi : |i| ≤ 2 ^ 53) :
    |timeF fsamp ctime0 i - (i / fsamp + ctime0)| ≤
      u * ((1 + u) * |(i : ℚ) / fsamp| + |(i : ℚ) / fsamp + ctime0|) := by
  unfold timeF
  rw [fl_int hi]
  have hu := u_pos
  generalize (i : ℚ) / fsamp = a
  have h1 := fl_err a
  have h2 := fl_err (fl a + ctime0)
  have h3 := abs_add_le (fl (fl a + ctime0) - (fl a + ctime0)) (fl a - a)
  have h4 := abs_add_le (a + ctime0) (fl a - a)
  have e1 : fl (fl a + ctime0) - (a + ctime0) = (fl (fl a + ctime0) - (fl a + ctime0)) + (fl a - a) := by
    ring
  have e2 : fl a + ctime0 = (a + ctime0) + (fl a - a) := by ring
  rw [← e2] at h4
  rw [e1]
  have h5 : u * |fl a + ctime0| ≤ u * (|a + ctime0| + u * |a|) :=
    mul_le_mul_of_nonneg_left (by linarith) hu.le
  nlinarith

/-- **C113.** Times of different samples differ, if the time (in seconds, since 1970) times the sample
rate is below 2^53 / 5. -/
theorem C113_increasing_partial (fsamp ctime0 : ℚ) (hf : 0 < fsamp) (h0 : 0 ≤ ctime0) (i : ℤ)
    (hi : 0 ≤ i) (hi' : i < 2 ^ 53) (hlim : ((i + 1 : ℤ) / fsamp + ctime0) * fsamp < 2 ^ 53 / 5) :
    timeF fsamp ctime0 i < timeF fsamp ctime0 (i + 1) := by
  have a1 := C113_accuracy fsamp ctime0 i (by rw [abs_of_nonneg hi]; omega)
  have a2 := C113_accuracy fsamp ctime0 (i + 1) (by rw [abs_of_nonneg (by omega)]; omega)
  have hi0 : (0 : ℚ) ≤ i := by exact_mod_cast hi
  have p1 : (0 : ℚ) ≤ (i : ℚ) / fsamp := by positivity
  have p2 : ((i + 1 : ℤ) : ℚ) / fsamp = i / fsamp + 1 / fsamp := by
    push_cast
    rw [add_div]
  have p3 : (0 : ℚ) < 1 / fsamp := by positivity
  rw [p2] at a2 hlim
  rw [abs_of_nonneg p1, abs_of_nonneg (show (0 : ℚ) ≤ i / fsamp + ctime0 by linarith)] at a1
  rw [abs_of_nonneg (show (0 : ℚ) ≤ i / fsamp + 1 / fsamp by linarith),
    abs_of_nonneg (show (0 : ℚ) ≤ i / fsamp + 1 / fsamp + ctime0 by linarith)] at a2
  have p4 : (i : ℚ) / fsamp + 1 / fsamp + ctime0 < 2 ^ 53 / 5 * (1 / fsamp) := by
    rw [mul_one_div, lt_div_iff₀ hf]
    exact hlim
  generalize (i : ℚ) / fsamp = a at *
  generalize 1 / fsamp = s at *
  rw [abs_le] at a1 a2
  have hu : u * (5 * (a + s + ctime0)) < s := by
    unfold u
    linarith
  have hu1 : u ≤ 1 / 2 := by
    unfold u
    norm_num
  have hu0 := u_pos
  have k1 : u * ((1 + u) * a + (a + ctime0)) + u * ((1 + u) * (a + s) + (a + s + ctime0)) ≤
      u * (5 * (a + s + ctime0)) := by
    rw [← mul_add]
    apply mul_le_mul_of_nonneg_left _ hu0.le
    nlinarith
  linarith [a1.2, a2.1]

/-- **C113 (violation).** At 10 MHz successive samples have the same time. -/
theorem C113_violation : timeF 10000000 1500000000 1 = timeF 10000000 1500000000 0 := by
  have h0 : timeF 10000000 1500000000 0 = 1500000000 := by
    unfold timeF
    have e : fl ((1500000000 : ℤ) : ℚ) = 1500000000 := by
      rw [fl_int (by norm_num)]
      norm_num
    rw [Int.cast_zero, fl_zero, zero_div, fl_zero, zero_add]
    exact_mod_cast e
  have h1 : fl ((1 : ℤ) : ℚ) = 1 := by
    rw [fl_int (by norm_num)]
    norm_num
  have h2 : fl (1 / 10000000) = 7555786372591432 / 2 ^ 76 := by
    rw [fl_eq (e := -76) (by norm_num [abs_of_pos]) (by norm_num [abs_of_pos])]
    norm_num [nearEven]
  rw [h0]
  unfold timeF
  rw [h1, h2, fl_eq (e := -22) (by norm_num [abs_of_pos]) (by norm_num [abs_of_pos])]
  norm_num [nearEven]

/-- The hypotheses of `C113_increasing_partial` are met by a sample in 2027 at 200 Hz. -/
example : timeF 200 1800000000 12345 < timeF 200 1800000000 12346 :=
  C113_increasing_partial 200 1800000000 (by norm_num) (by norm_num) 12345 (by norm_num) (by norm_num)
    (by norm_num)

/-! ## C114: sums -/

/-- **C114.** Hits are exact: as long as there are at most 2^53 of them in a pixel, their sum over samples,
detectors and ranks is their number, in whatever order and grouping they are added. -/
theorem C114_hits (s : Sum) (h : ∀ x ∈ s.terms, x = 1) (hn : s.terms.length ≤ 2 ^ 53) :
    s.eval = s.terms.length := by
  have h1 : s.terms = List.replicate s.terms.length 1 := List.eq_replicate_iff.2 ⟨rfl, h⟩
  have h2 : s.terms.sum = s.terms.length := by
    conv_lhs => rw [h1]
    simp
  rw [(sum_int s (fun x hx => ⟨1, by rw [h x hx]; simp⟩) ?_).1, h2]
  conv_lhs => rw [h1]
  simp
  exact_mod_cast hn

/-- **C114.** The number of ranks, the cutting into chunks and the order of the detectors change a sum of
`n` numbers by at most 2 ((1 + u)^(n-1) - 1) times the sum of their absolute values; both sums are as near
to the exact one as half of that. -/
theorem C114_order_partial (s t : Sum) (h : s.terms.Perm t.terms) :
    |s.eval - s.terms.sum| ≤ ((1 + u) ^ (s.terms.length - 1) - 1) * (s.terms.map (|·|)).sum ∧
    |s.eval - t.eval| ≤ 2 * (((1 + u) ^ (s.terms.length - 1) - 1) * (s.terms.map (|·|)).sum) := by
  have h1 := sum_err s
  have h2 := sum_err t
  rw [← h.sum_eq, ← h.length_eq, ← (h.map _).sum_eq] at h2
  refine ⟨h1, ?_⟩
  have h3 := abs_sub_abs_le_abs_sub (s.eval - s.terms.sum) (t.eval - s.terms.sum)
  have h4 := abs_sub (s.eval - s.terms.sum) (t.eval - s.terms.sum)
  rw [sub_sub_sub_cancel_right] at h4
  linarith

/-- **C114 (violation).** The sums themselves do depend on the grouping, and so maps on the number of ranks:
0.1, 0.2 and 0.3. -/
theorem C114_violation : ∃ a b c, IsDouble a ∧ IsDouble b ∧ IsDouble c ∧
    (Sum.add (.add (.one a) (.one b)) (.one c)).eval ≠ (Sum.add (.one a) (.add (.one b) (.one c))).eval := by
  have h1 : fl (1 / 10) = 3602879701896397 / 2 ^ 55 := by
    rw [fl_eq (e := -56) (by norm_num [abs_of_pos]) (by norm_num [abs_of_pos])]
    norm_num [nearEven]
  have h2 : fl (2 / 10) = 3602879701896397 / 2 ^ 54 := by
    rw [fl_eq (e := -55) (by norm_num [abs_of_pos]) (by norm_num [abs_of_pos])]
    norm_num [nearEven]
  have h3 : fl (3 / 10) = 5404319552844595 / 2 ^ 54 := by
    rw [fl_eq (e := -54) (by norm_num [abs_of_pos]) (by norm_num [abs_of_pos])]
    norm_num [nearEven]
  refine ⟨_, _, _, fl_double (1 / 10), fl_double (2 / 10), fl_double (3 / 10), ?_⟩
  simp only [Sum.eval]
  rw [h1, h2, h3]
  have e1 : fl (3602879701896397 / 2 ^ 55 + 3602879701896397 / 2 ^ 54) = 1351079888211149 / 2 ^ 52 := by
    rw [fl_eq (e := -54) (by norm_num [abs_of_pos]) (by norm_num [abs_of_pos])]
    norm_num [nearEven]
  have e2 : fl (3602879701896397 / 2 ^ 54 + 5404319552844595 / 2 ^ 54) = 1 / 2 := by
    rw [fl_eq (e := -53) (by norm_num [abs_of_pos]) (by norm_num [abs_of_pos])]
    norm_num [nearEven]
  rw [e1, e2]
  have e3 : fl (1351079888211149 / 2 ^ 52 + 5404319552844595 / 2 ^ 54) = 5404319552844596 / 2 ^ 53 := by
    rw [fl_eq (e := -53) (by norm_num [abs_of_pos]) (by norm_num [abs_of_pos])]
    norm_num [nearEven]
  have e4 : fl (3602879701896397 / 2 ^ 55 + 1 / 2) = 5404319552844595 / 2 ^ 53 := by
    rw [fl_eq (e := -53) (by norm_num [abs_of_pos]) (by norm_num [abs_of_pos])]
    norm_num [nearEven]
  rw [e3, e4]
  norm_num

/-- The hypotheses of `C114_hits` are met: three hits of one rank and two of another. -/
example : (Sum.add (.add (.add (.one 1) (.one 1)) (.one 1)) (.add (.one 1) (.one 1))).eval = 5 := by
  have := C114_hits (Sum.add (.add (.add (.one 1) (.one 1)) (.one 1)) (.add (.one 1) (.one 1)))
    (by simp [Sum.terms]) (by simp [Sum.terms])
  rw [this]
  norm_num [Sum.terms]

end Verif.Props
