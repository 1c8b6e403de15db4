import Verif.Lemmas.Signal

/-!
# Properties C27 - C30: cross-talk, filter window, HWP bandpass, azimuth profiles
-/

namespace Verif.Props

open Verif.Signal Verif.Hwp

/-! ## C27 -/

private theorem crossTalk_eq {K : Type} [CommRing K] (a b : List K) (c : K)
    (h : a.length = b.length) :
    crossTalk a b c = .ok (List.zipWith (fun x y => x + c * y) a b,
      List.zipWith (fun x y => x + c * y) b a) := by
  unfold crossTalk
  rw [if_neg (by simpa using h)]
  simp only [Except.ok.injEq, Prod.mk.injEq]
  constructor <;>
  · apply List.ext_getElem?
    intro i
    simp only [List.getElem?_zipWith, List.getElem?_map]
    rcases ha : a[i]? with _ | x <;> rcases hb : b[i]? with _ | y <;>
      simp only [Option.map_some, Option.map_none]
    congr 1
    ring

/-- **C27.** `cross_talk` turns the timelines `(a, b)` into `(a + c b, b + c a)`, sample by sample,
for every `c` (any commutative ring of sample values) and every pair of equal-sized timelines. -/
theorem C27_cross_talk {K : Type} [CommRing K] (a b : List K) (c : K) (h : a.length = b.length) :
    ∃ a' b', crossTalk a b c = .ok (a', b') ∧ a'.length = a.length ∧ b'.length = b.length ∧
      ∀ (i : Nat) (x y : K), a[i]? = some x → b[i]? = some y →
        a'[i]? = some (x + c * y) ∧ b'[i]? = some (y + c * x) := by
  refine ⟨_, _, crossTalk_eq a b c h, by simp [h], by simp [h], ?_⟩
  intro i x y hx hy
  simp [List.getElem?_zipWith, hx, hy]

/-- **C27 (symmetry).** Swapping the detectors swaps the results. -/
theorem C27_cross_talk_swap {K : Type} [CommRing K] (a b a' b' : List K) (c : K)
    (h : crossTalk a b c = .ok (a', b')) : crossTalk b a c = .ok (b', a') := by
  by_cases hl : a.length = b.length
  · rw [crossTalk_eq a b c hl] at h
    rw [crossTalk_eq b a c hl.symm]
    cases h
    rfl
  · simp [crossTalk, hl] at h

/-- **C27 (undo).** Cross-talk with `-c` afterwards gives back the timelines times `1 - c²`. -/
theorem C27_cross_talk_undo {K : Type} [CommRing K] (a b a' b' : List K) (c : K)
    (h : crossTalk a b c = .ok (a', b')) :
    crossTalk a' b' (-c) = .ok (a.map (· * (1 - c ^ 2)), b.map (· * (1 - c ^ 2))) := by
  by_cases hl : a.length = b.length
  · rw [crossTalk_eq a b c hl] at h
    cases h
    rw [crossTalk_eq _ _ (-c) (by simp [hl])]
    simp only [Except.ok.injEq, Prod.mk.injEq]
    constructor
    all_goals
      apply List.ext_getElem?
      intro i
      simp only [List.getElem?_zipWith, List.getElem?_map]
      have hn : a[i]? = none ↔ b[i]? = none := by
        rw [List.getElem?_eq_none_iff, List.getElem?_eq_none_iff, hl]
      rcases ha : a[i]? with _ | x <;> rcases hb : b[i]? with _ | y <;>
        simp_all
      ring
  · simp [crossTalk, hl] at h

/-- **C27.** Timelines of different size are rejected. -/
theorem C27_cross_talk_size_mismatch {K : Type} [CommRing K] (a b : List K) (c : K)
    (h : a.length ≠ b.length) : crossTalk a b c = .error .valueError := by
  simp [crossTalk, h]

example : crossTalk [1, 2, 3] [10, 20, (30 : ℤ)] 2 = .ok ([21, 42, 63], [12, 24, 36]) := by decide

/-! ## C28 -/

/-- **C28 (partial).** For every `n ≥ 2` the window has `n` samples, is symmetric, vanishes at
both ends, lies in [0, 1], and equals 1 wherever both distances to the window's (virtual) end
points are at least a quarter of `n + 1`.  Also `n = 0` gives an empty window.
Missing: `n = 1`, for which the function raises, see `C28_tukey_window_violation`. -/
theorem C28_tukey_window_partial :
    tukeyWindow 0 = .ok [] ∧
    ∀ n : Nat, 2 ≤ n → ∃ w, tukeyWindow n = .ok w ∧ w.length = n ∧
      (∀ i, i < n → w[i]? = w[n - 1 - i]?) ∧
      w[0]? = some 0 ∧ w[n - 1]? = some 0 ∧
      (∀ x ∈ w, 0 ≤ x ∧ x ≤ 1) ∧
      (∀ i, i < n → n + 1 ≤ 4 * i → n + 1 ≤ 4 * (n - 1 - i) → w[i]? = some 1) ∧
      (∀ i : Nat, 2 * i < n → 4 * i ≤ n + 1 →
        w[i]? = some (1 / 2 - 1 / 2 * Real.cos (4 * Real.pi * i / (n + 1)))) := by
  constructor
  · simp [tukeyWindow, subHead, pyAssign, pySlice, pyClip, setRange, bind, Except.bind]
  intro n hn
  obtain ⟨w, h1, h2, h3⟩ := tukey_get n hn
  refine ⟨w, h1, h2, ?_, ?_, ?_, ?_, ?_, ?_⟩
  · intro i hi
    rw [h3 i hi, h3 (n - 1 - i) (by omega)]
    congr 1
    by_cases ha : n - n / 2 ≤ i
    · rw [if_pos ha, if_neg (by omega)]
    · rw [if_neg ha]
      by_cases hb : n - n / 2 ≤ n - 1 - i
      · rw [if_pos hb]
        congr 1; omega
      · rw [if_neg hb]
        congr 1; omega
  · rw [h3 0 (by omega), if_neg (by omega), T_zero]
  · rw [h3 (n - 1) (by omega), if_pos (by omega)]
    have : n - 1 - (n - 1) = 0 := by omega
    rw [this, T_zero]
  · intro x hx
    obtain ⟨i, hi, rfl⟩ := List.getElem_of_mem hx
    have := h3 i (by omega)
    rw [List.getElem?_eq_getElem hi, Option.some.injEq] at this
    rw [this]
    split <;> exact T_bounds _ _
  · intro i hi ha hb
    rw [h3 i hi]
    split
    · rw [T_one _ _ (by omega)]
    · rw [T_one _ _ (by omega)]
  · intro i hi h4
    rw [h3 i (by omega), if_neg (by omega)]
    unfold T
    rw [if_pos (by omega)]
    congr 1
    have : 2 * Real.pi * (i:ℝ) / (1 / 2) / ((n:ℝ) + 1) = 4 * Real.pi * i / (n + 1) := by ring
    rw [this]; ring

/-- **C28 (violation).** A window of one sample cannot be made: `tukey_window(1)` raises
ValueError (`window[-0:] = window[:0]`). -/
theorem C28_tukey_window_violation : tukeyWindow 1 = .error .valueError := by
  simp [tukeyWindow, subHead, pyAssign, pySlice, pyClip, bind, Except.bind]

/-! ## C29 -/

/-- **C29 (partial).** If the band `[center - h, center + h]` (`h = width div 2`) does not start
below index zero and its part inside the array does not consist of a single mode, every mode
outside the band becomes zero and mode `i` inside is multiplied by entry `i - (center - h)` of the
window of the size of the band (clipped to the array).
Missing: bands that start below zero or contain one mode, see `C29_negative_left_violation` and
`C29_single_mode_violation`. -/
theorem C29_filter_ft_hwp_partial (fd : List ℂ) (center width : Nat)
    (hleft : width / 2 ≤ center) (m : Nat)
    (hm : m = min (center + width / 2 + 1) fd.length - min (center - width / 2) fd.length)
    (hm1 : m ≠ 1) :
    ∃ w out, tukeyWindow m = .ok w ∧ w.length = m ∧
      filterFtHwp fd center width = .ok out ∧ out.length = fd.length ∧
      ∀ (i : Nat) (z : ℂ), fd[i]? = some z →
        if center - width / 2 ≤ i ∧ i ≤ center + width / 2 then
          ∃ x : ℝ, w[i - (center - width / 2)]? = some x ∧ out[i]? = some (z * x)
        else out[i]? = some 0 := by
  obtain ⟨w, hw1, hw2⟩ : ∃ w, tukeyWindow m = .ok w ∧ w.length = m := by
    rcases Nat.lt_or_ge m 2 with h | h
    · have : m = 0 := by omega
      subst this
      exact ⟨[], C28_tukey_window_partial.1, rfl⟩
    · obtain ⟨w, a, b, _⟩ := tukey_get m h
      exact ⟨w, a, b⟩
  set h := width / 2 with hh
  set l := min (center - h) fd.length with hl
  set r := min (center + h + 1) fd.length with hr
  have hlr : l ≤ r := by omega
  have hrn : r ≤ fd.length := by omega
  -- python slices with these bounds
  have clipL : pyClip fd.length ((center:Int) - (h:Int)) = l := by
    have : ((center:Int) - (h:Int)) = ((center - h : Nat) : Int) := by omega
    rw [this, pyClip_ofNat]
  have clipR : pyClip fd.length ((center:Int) + (h:Int) + 1) = r := by
    have : ((center:Int) + (h:Int) + 1) = ((center + h + 1 : Nat) : Int) := by omega
    rw [this, pyClip_ofNat]
  have hslice : pySlice fd ((center:Int) - (h:Int)) ((center:Int) + (h:Int) + 1)
      = (fd.drop l).take (r - l) := by
    unfold pySlice
    rw [clipL, clipR]
  have hslen : ((fd.drop l).take (r - l)).length = m := by simp; omega
  have hassign : ∀ (a v : List ℂ) (i j : Int) (s e : Nat), a.length = fd.length →
      pyClip fd.length i = s → pyClip fd.length j = e → s ≤ e → e ≤ fd.length → v.length = e - s →
      ∃ b, pyAssign a i j v = .ok b ∧ b.length = fd.length ∧
        ∀ k, b[k]? = if s ≤ k ∧ k < e then v[k - s]? else a[k]? := by
    intro a v i j s e ha hs he hse hen hv
    obtain ⟨b, b1, b2, b3⟩ := getElem?_pyAssign_nat a v s e hse (by omega) hv
    refine ⟨b, ?_, by omega, b3⟩
    rw [← b1]
    unfold pyAssign
    rw [ha, hs, he, pyClip_ofNat, pyClip_ofNat, Nat.min_eq_left (by omega), Nat.min_eq_left hen]
  obtain ⟨f1, a1, a2, a3⟩ := hassign fd
    (List.zipWith (fun z (x : ℝ) => z * (x : ℂ)) ((fd.drop l).take (r - l)) w)
    ((center:Int) - (h:Int)) ((center:Int) + (h:Int) + 1) l r rfl clipL clipR hlr hrn
    (by rw [List.length_zipWith, hslen, hw2]; omega)
  have hs1 : pySlice f1 0 ((center:Int) - (h:Int)) = f1.take l := by
    unfold pySlice
    rw [a2, clipL, show (0:Int) = ((0:Nat):Int) from rfl, pyClip_ofNat]
    simp
  obtain ⟨f2, b1, b2, b3⟩ := hassign f1 ((f1.take l).map fun z => z * 0) 0
    ((center:Int) - (h:Int)) 0 l a2 (by rw [show (0:Int) = ((0:Nat):Int) from rfl, pyClip_ofNat]; simp)
    clipL (by omega) (by omega) (by simp; omega)
  have hs2 : pySlice f2 ((center:Int) + (h:Int) + 1) (f2.length:Int) = f2.drop r := by
    unfold pySlice
    rw [b2, clipR, pyClip_ofNat, Nat.min_self, ← b2, List.take_of_length_le (by simp)]
  obtain ⟨f3, c1, c2, c3⟩ := hassign f2 ((f2.drop r).map fun z => z * 0)
    ((center:Int) + (h:Int) + 1) (f2.length:Int) r fd.length b2 clipR
    (by rw [b2, pyClip_ofNat, Nat.min_self]) hrn (le_refl _) (by simp; omega)
  refine ⟨w, f3, hw1, hw2, ?_, c2, ?_⟩
  · unfold filterFtHwp
    have hd : (width : Int).tdiv 2 = (h : Int) := Int.ofNat_tdiv width 2 |>.symm
    simp only [hd]
    rw [hslice, hslen, hw1]
    simp only [bind, Except.bind, a1]
    unfold zeroSlice
    rw [hs1, b1]
    simp only
    rw [hs2, c1]
  · intro i z hz
    have hi : i < fd.length := by
      by_contra hcon
      rw [List.getElem?_eq_none (by omega)] at hz
      cases hz
    split
    · rename_i hin
      have hw : i - (center - h) < w.length := by omega
      refine ⟨w[i - (center - h)], List.getElem?_eq_getElem hw, ?_⟩
      rw [c3, if_neg (by omega), b3, if_neg (by omega), a3, if_pos (by omega),
        List.getElem?_zipWith, List.getElem?_take, if_pos (by omega), List.getElem?_drop]
      have e1 : l + (i - l) = i := by omega
      have e2 : i - l = i - (center - h) := by omega
      rw [e1, hz, e2, List.getElem?_eq_getElem hw]
    · rename_i hout
      rw [c3]
      by_cases hir : r ≤ i
      · rw [if_pos ⟨hir, hi⟩, List.getElem?_map, List.getElem?_drop]
        have : r + (i - r) = i := by omega
        rw [this, List.getElem?_eq_getElem (by omega)]
        simp
      · rw [if_neg (by omega), b3, if_pos (by omega), List.getElem?_map, List.getElem?_take,
          if_pos (by omega), List.getElem?_eq_getElem (by omega)]
        simp

/-- The hypotheses are met by the case of the unit test: ten modes, centre 4, width 4. -/
example : (4 : Nat) / 2 ≤ 4 ∧ min (4 + 4 / 2 + 1) 10 - min (4 - 4 / 2) 10 = 5 := by decide

/-- **C29 (violation, single mode).** A width of 0 or 1 raises ValueError for every centre inside
the array. -/
theorem C29_single_mode_violation (fd : List ℂ) (center width : Nat) (hc : center < fd.length)
    (hw : width ≤ 1) : filterFtHwp fd center width = .error .valueError := by
  have h0 : (width : Int).tdiv 2 = ((0 : Nat) : Int) := by
    rw [show (0 : Nat) = width / 2 by omega]
    exact (Int.ofNat_tdiv width 2).symm
  unfold filterFtHwp
  simp only [h0]
  have e : pySlice fd ((center:Int) - ((0:Nat):Int)) ((center:Int) + ((0:Nat):Int) + 1)
      = (fd.take (center + 1)).drop center := by
    have := pySlice_nat fd center (center + 1)
    rw [← this]
    congr 1
  have hlen : ((fd.take (center + 1)).drop center).length = 1 := by simp; omega
  rw [e, hlen, C28_tukey_window_violation]
  rfl

/-- If the slice that is to be kept ends before it starts nothing is kept. -/
theorem filterFt_lost (fd : List ℂ) (center width : Int)
    (h : pyClip fd.length (center + width.tdiv 2 + 1) ≤ pyClip fd.length (center - width.tdiv 2)) :
    filterFtHwp fd center width = .ok (List.replicate fd.length 0) := by
  have clipped : ∀ i, pyClip fd.length i ≤ fd.length := fun i => by
    unfold pyClip
    split
    · omega
    · exact min_le_right _ _
  unfold filterFtHwp
  dsimp only
  generalize hl : center - width.tdiv 2 = left at *
  generalize hr : center + width.tdiv 2 + 1 = right at *
  have hln := clipped left
  have hrn := clipped right
  have h0 : pyClip fd.length 0 = 0 := by simp [pyClip]
  have hn : pyClip fd.length (fd.length : Int) = fd.length := by rw [pyClip_ofNat, Nat.min_self]
  have hslice : pySlice fd left right = [] := by
    unfold pySlice
    rw [Nat.sub_eq_zero_of_le h]
    simp
  rw [hslice]
  simp only [List.length_nil, C28_tukey_window_partial.1, bind, Except.bind, List.zipWith_nil_right]
  have e1 : pyAssign fd left right [] = .ok fd := by
    unfold pyAssign
    simp [setRange, Nat.sub_eq_zero_of_le h]
  rw [e1]
  simp only
  set l := pyClip fd.length left with hl'
  set r := pyClip fd.length right with hr'
  obtain ⟨f2, b1, b2, b3⟩ := getElem?_pyAssign_nat fd ((fd.take l).map fun z => z * 0) 0 l
    (by omega) (by omega) (by simp; omega)
  have z1 : zeroSlice fd 0 left = .ok f2 := by
    rw [← b1]
    unfold zeroSlice pySlice pyAssign
    rw [← hl', show ((0 : Nat) : Int) = 0 from rfl, h0, pyClip_ofNat, Nat.min_eq_left hln]
    simp
  rw [z1]
  simp only
  obtain ⟨f3, c1, c2, c3⟩ := getElem?_pyAssign_nat f2 ((f2.drop r).map fun z => z * 0)
    r fd.length (by omega) (by omega) (by simp; omega)
  have z2 : zeroSlice f2 right (f2.length : Int) = .ok f3 := by
    rw [← c1]
    unfold zeroSlice pySlice pyAssign
    rw [b2, ← hr', hn, pyClip_ofNat, Nat.min_eq_left hrn, List.take_of_length_le (by simp; omega)]
  rw [z2]
  congr 1
  apply List.ext_getElem?
  intro i
  rw [c3, List.getElem?_replicate]
  by_cases hi : i < fd.length
  · rw [if_pos hi]
    by_cases hir : r ≤ i
    · rw [if_pos ⟨hir, hi⟩, List.getElem?_map, List.getElem?_drop]
      have : r + (i - r) = i := by omega
      rw [this, List.getElem?_eq_getElem (by omega)]
      simp
    · rw [if_neg (by omega), b3, if_pos (by omega), List.getElem?_map, List.getElem?_take,
        if_pos (by omega), List.getElem?_eq_getElem (by omega)]
      simp
  · rw [if_neg hi, if_neg (by omega), List.getElem?_eq_none (by omega)]

/-- **C29 (violation, negative start).** If the band starts below index zero (low frequencies) and
is not close to covering the whole array, everything is set to zero, the requested band
included. -/
theorem C29_negative_left_violation (fd : List ℂ) (center width : Nat)
    (hleft : center < width / 2) (hlong : width + 2 ≤ fd.length) :
    filterFtHwp fd center width = .ok (List.replicate fd.length 0) := by
  apply filterFt_lost
  have hd : (width : Int).tdiv 2 = ((width / 2 : Nat) : Int) := (Int.ofNat_tdiv width 2).symm
  rw [hd]
  unfold pyClip
  rw [if_neg (by omega), if_pos (by omega)]
  omega

/-- e.g. 100 modes, centre 3, width 20. -/
example : (3 : Nat) < 20 / 2 ∧ 20 + 2 ≤ 100 := by decide

/-! ## C30 -/

/-- **C30 (sawtooth).** For every positive throw, every speed and sample rate: the profile has one
value per sample, the value of sample `i` is `i * speed/fsamp` modulo the throw, shifted by half a
throw, so it stays in [-throw/2, throw/2); and it repeats after any number of samples in which the
telescope covers a whole number of throws. -/
theorem C30_sawtooth_profile {K : Type} [Field K] [LinearOrder K] [IsStrictOrderedRing K]
    [FloorRing K] (fsamp speed throw : K) (hth : 0 < throw) (N : Nat) :
    (sawtoothProfile fsamp speed throw N).length = N ∧
    (∀ i : Nat, i < N → ∃ (z : ℤ) (x : K), (sawtoothProfile fsamp speed throw N)[i]? = some x ∧
      x = i * (speed / fsamp) - throw / 2 + throw * z ∧ -(throw / 2) ≤ x ∧ x < throw / 2) ∧
    (∀ (i p : Nat) (k : ℤ), i + p < N → p * (speed / fsamp) = throw * k →
      (sawtoothProfile fsamp speed throw N)[i + p]? = (sawtoothProfile fsamp speed throw N)[i]?) := by
  have hget : ∀ i, i < N → (sawtoothProfile fsamp speed throw N)[i]?
      = some (npMod (i * (speed / fsamp)) throw - throw / 2) := by
    intro i hi
    simp only [sawtoothProfile, sawtoothWave, linspace, List.getElem?_map, List.getElem?_range hi,
      Option.map_some]
    congr 3
    have : (N : K) ≠ 0 := by
      have : 0 < N := by omega
      positivity
    field_simp
    ring
  refine ⟨by simp [sawtoothProfile, sawtoothWave, linspace], ?_, ?_⟩
  · intro i hi
    refine ⟨-⌊i * (speed / fsamp) / throw⌋, _, hget i hi, ?_, ?_, ?_⟩
    · rw [npMod_eq]; ring
    · have := npMod_nonneg (i * (speed / fsamp)) throw hth; linarith
    · have := npMod_lt (i * (speed / fsamp)) throw hth; linarith
  · intro i p k hip hk
    rw [hget _ hip, hget i (by omega)]
    congr 2
    push_cast
    rw [add_mul, hk]
    unfold npMod
    have : (i * (speed / fsamp) + throw * k) / throw = i * (speed / fsamp) / throw + (k : K) := by
      field_simp
    rw [this, Int.floor_add_intCast]
    push_cast
    ring

/-- A throw of 6 degrees at 2 degrees per sample. -/
example : sawtoothProfile (1 : ℚ) 2 6 5 = [-3, -1, 1, -3, -1] := by decide +kernel

/-- **C30 (triangle).** For every positive throw: the profile has one value per sample, all in
[-throw/2, throw/2]; it repeats after any number of samples that takes a whole number of scan
periods `2 throw/speed`, is mirrored after half a period, and in the first quarter of a period it
moves at exactly the requested speed. -/
theorem C30_triangle_profile (fsamp speed throw : ℝ) (hth : 0 < throw) (hs : 0 < speed)
    (hf : 0 < fsamp) (N : Nat) :
    (triangleProfile fsamp speed throw N).length = N ∧
    (∀ x ∈ triangleProfile fsamp speed throw N, -(throw / 2) ≤ x ∧ x ≤ throw / 2) ∧
    (∀ (i p k : Nat), i + p < N → p / fsamp = k * (2 * throw / speed) →
      (triangleProfile fsamp speed throw N)[i + p]?
        = (triangleProfile fsamp speed throw N)[i]?) ∧
    (∀ (i p : Nat), i + p < N → p / fsamp = throw / speed →
      (triangleProfile fsamp speed throw N)[i + p]?
        = (triangleProfile fsamp speed throw N)[i]?.map fun x => -x) ∧
    (∀ i : Nat, i < N → i / fsamp ≤ (throw / 2) / speed →
      (triangleProfile fsamp speed throw N)[i]? = some (speed * (i / fsamp))) := by
  have hπ := Real.pi_pos
  set φ : Nat → ℝ := fun i => (i : ℝ) * (2 * Real.pi / (2 * throw / speed) / fsamp) with hφ
  have hφe : ∀ i, φ i = Real.pi * (speed / throw) * (i / fsamp) := by
    intro i
    simp only [hφ]
    field_simp
  have hget : ∀ i, i < N → (triangleProfile fsamp speed throw N)[i]?
      = some (Real.arcsin (Real.sin (φ i)) * (throw / Real.pi)) := by
    intro i hi
    simp only [triangleProfile, List.getElem?_map, List.getElem?_range hi, Option.map_some, hφ]
  refine ⟨by simp [triangleProfile], ?_, ?_, ?_, ?_⟩
  · intro x hx
    obtain ⟨i, _, rfl⟩ := List.mem_map.1 hx
    set y := Real.sin ((i:ℝ) * (2 * Real.pi / (2 * throw / speed) / fsamp))
    have h1 := Real.neg_pi_div_two_le_arcsin y
    have h2 := Real.arcsin_le_pi_div_two y
    have e : throw / 2 = Real.pi / 2 * (throw / Real.pi) := by field_simp
    have hpos : 0 < throw / Real.pi := by positivity
    rw [e]
    constructor
    · rw [← neg_mul]
      exact mul_le_mul_of_nonneg_right h1 hpos.le
    · exact mul_le_mul_of_nonneg_right h2 hpos.le
  · intro i p k hip hk
    rw [hget _ hip, hget i (by omega)]
    have : φ (i + p) = φ i + k * (2 * Real.pi) := by
      rw [hφe, hφe]
      push_cast
      rw [add_div, hk]
      field_simp
    rw [this, Real.sin_add_nat_mul_two_pi]
  · intro i p hip hk
    rw [hget _ hip, hget i (by omega), Option.map_some]
    have : φ (i + p) = φ i + Real.pi := by
      rw [hφe, hφe]
      push_cast
      rw [add_div, hk]
      field_simp
    rw [this, Real.sin_add_pi, Real.arcsin_neg]
    congr 1; ring
  · intro i hi hq
    rw [hget i hi, hφe]
    have hle : Real.pi * (speed / throw) * (i / fsamp) ≤ Real.pi / 2 := by
      have h1 : Real.pi * (speed / throw) * (i / fsamp)
          ≤ Real.pi * (speed / throw) * (throw / 2 / speed) :=
        mul_le_mul_of_nonneg_left hq (by positivity)
      have h2 : Real.pi * (speed / throw) * (throw / 2 / speed) = Real.pi / 2 := by field_simp
      linarith
    have hge : -(Real.pi / 2) ≤ Real.pi * (speed / throw) * (i / fsamp) := by
      have : 0 ≤ Real.pi * (speed / throw) * (i / fsamp) := by positivity
      linarith
    rw [Real.arcsin_sin hge hle]
    congr 1
    field_simp

end Verif.Props
