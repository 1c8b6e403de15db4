import Verif.Lemmas.Filters
import Verif.Props.Signal
import Verif.Props.MapMaking

/-!
# Properties of filters (C91 - C93)
-/

noncomputable section

namespace Verif.Props

open Verif.Chunks Verif.Timeline Verif.MapMaking Verif.Filters Complex Finset

/-! ## Facts about filters in general -/

theorem mode_combine (a b : ℝ) (x y : List ℝ) (h : x.length = y.length) (l : Nat) :
    mode (combine a b x y) l = a * mode x l + b * mode y l := by
  have hl : (combine a b x y).length = x.length := by simp [combine, h]
  rw [mode_wave, mode_wave, mode_wave, hl, ← h, mul_sum, mul_sum, ← sum_add_distrib]
  apply sum_congr rfl
  intro j hj
  have hj := mem_range.1 hj
  unfold combine
  rw [List.getElem?_zipWith, List.getElem?_eq_getElem hj, List.getElem?_eq_getElem (h ▸ hj)]
  simp only [Option.getD_some]
  push_cast
  ring

theorem filtered_combine {g : Nat → ℝ} {x x' y y' : List ℝ} (hx : Filtered g x x')
    (hy : Filtered g y y') (h : x.length = y.length) (a b : ℝ) :
    Filtered g (combine a b x y) (combine a b x' y') := by
  have hl : (combine a b x y).length = x.length := by simp [combine, h]
  refine ⟨by simp [combine, hx.size, hy.size], ?_⟩
  intro l hlt
  rw [hl] at hlt
  rw [mode_combine a b x' y' (by rw [hx.size, hy.size, h]), mode_combine a b x y h, hl,
    hx.modes l hlt, hy.modes l (by omega), ← h]
  ring

theorem mode_offset (c : ℝ) (x : List ℝ) (l : Nat) (hl : l < x.length) :
    mode (offsetBy c x) l = mode x l + if l = 0 then (c : ℂ) * x.length else 0 := by
  have hlen : (offsetBy c x).length = x.length := by simp [offsetBy]
  have hn : 0 < x.length := by omega
  have h1 := orth x.length hn (-(l : Int))
  rw [mode_wave, mode_wave, hlen]
  have : ∀ j ∈ range x.length, (((offsetBy c x)[j]?).getD 0 : ℂ) * wave x.length (-((j : ℝ) * l)) =
      ((x[j]?).getD 0 : ℂ) * wave x.length (-((j : ℝ) * l)) +
        c * wave x.length ((j : ℝ) * (-(l : Int) : Int)) := by
    intro j hj
    have hj := mem_range.1 hj
    unfold offsetBy
    rw [List.getElem?_map, List.getElem?_eq_getElem hj]
    simp only [Option.map_some, Option.getD_some]
    push_cast
    rw [mul_neg]
    ring
  rw [sum_congr rfl this, sum_add_distrib, ← mul_sum, h1]
  congr 1
  by_cases h0 : l = 0
  · subst h0
    simp
  · rw [if_neg h0, if_neg, mul_zero]
    intro hd
    rw [Int.dvd_neg] at hd
    have := Int.le_of_dvd (by omega) hd
    omega

theorem filtered_offset {g : Nat → ℝ} {x y z : List ℝ} (h0 : g 0 = 0) (hx : Filtered g x y) (c : ℝ)
    (hz : Filtered g (offsetBy c x) z) : z = y := by
  have hlen : (offsetBy c x).length = x.length := by simp [offsetBy]
  apply filtered_unique (gain := g) (x := x) _ hx
  refine ⟨by rw [hz.size, hlen], ?_⟩
  intro l hl
  rw [hz.modes l (by omega), hlen, mode_offset c x l hl]
  split_ifs with h
  · subst h
    rw [Nat.zero_min, h0]
    simp
  · rw [add_zero]

theorem mode_sinusoid (n k : Nat) (A : ℂ) (l : Nat) (hl : l < n) (hk : 2 * k ≤ n) (h1 : l ≠ k)
    (h2 : l + k ≠ n) : mode (sinusoid n k A) l = 0 := by
  have hlen : (sinusoid n k A).length = n := by simp [sinusoid]
  have hn : 0 < n := by omega
  rw [mode_wave, hlen]
  have : ∀ j ∈ range n, (((sinusoid n k A)[j]?).getD 0 : ℂ) * wave n (-((j : ℝ) * l)) =
      A / 2 * wave n ((j : ℝ) * ((k : Int) - l : Int)) +
        (starRingEnd ℂ) A / 2 * wave n ((j : ℝ) * (-(k : Int) - l : Int)) := by
    intro j hj
    have hj := mem_range.1 hj
    unfold sinusoid
    rw [List.getElem?_map, List.getElem?_range hj]
    simp only [Option.map_some, Option.getD_some]
    have e : exp (2 * Real.pi * I * (j * k) / n) = wave n ((j : ℝ) * k) := by
      unfold wave
      push_cast
      rfl
    rw [e, re_eq_add_conj, map_mul, wave_conj]
    have e1 : (j : ℝ) * (((k : Int) - l : Int) : ℝ) = (j : ℝ) * k + -((j : ℝ) * l) := by
      push_cast; ring
    have e2 : (j : ℝ) * ((-(k : Int) - l : Int) : ℝ) = -((j : ℝ) * k) + -((j : ℝ) * l) := by
      push_cast; ring
    rw [e1, e2, wave_add, wave_add]
    ring
  rw [sum_congr rfl this, sum_add_distrib, ← mul_sum, ← mul_sum, orth n hn, orth n hn, if_neg,
    if_neg]
  · simp
  · intro hd
    obtain ⟨t, ht⟩ := hd
    have h3 : -(2 * (n : Int)) < (n : Int) * t := by rw [← ht]; omega
    have h4 : (n : Int) * t ≤ 0 := by rw [← ht]; omega
    have h5 : -2 < t := by nlinarith
    have h6 : t ≤ 0 := by nlinarith
    have : t = -1 ∨ t = 0 := by omega
    rcases this with rfl | rfl
    · omega
    · omega
  · intro hd
    have := Int.eq_zero_of_abs_lt_dvd hd (by rw [abs_lt]; omega)
    omega

/-! ## C91: the filter around four times the HWP frequency -/

theorem pyRound_near (x : ℝ) : |(pyRound x : ℝ) - x| ≤ 1 / 2 := by
  have h1 := Int.floor_le x
  have h2 := Int.lt_floor_add_one x
  unfold pyRound
  rw [abs_le]
  split_ifs <;> push_cast <;> constructor <;> linarith

theorem filter_hwp_spec (n : Nat) (fsamp f : ℝ) (hs : 0 < fsamp)
    (hrev : 1 / 2 < turns n fsamp f) (hny : 5 * turns n fsamp f + 3 / 2 ≤ (n : ℝ) / 2) :
    ∃ gain : Nat → ℝ, (∀ k, 0 ≤ gain k ∧ gain k ≤ 1) ∧
      (∀ k : Nat, turns n fsamp f + 3 / 2 < |(k : ℝ) - 4 * turns n fsamp f| → gain k = 0) ∧
      (∀ k : Nat, |(k : ℝ) - 4 * turns n fsamp f| ≤ turns n fsamp f / 2 - 5 / 4 → gain k = 1) ∧
      (∀ k : Nat, |(k : ℝ) - 4 * turns n fsamp f| < 1 / 2 → gain k = 1) ∧
      gain 0 = 0 ∧
      ∀ tod : List ℝ, tod.length = n → ∃ out, filterTodHwp tod fsamp f = .ok out ∧
        Filtered gain tod out := by
  set x := turns n fsamp f with hx
  have e4 : 4 * f / fsamp * (n : ℝ) = 4 * x := by rw [hx]; unfold turns; ring
  have e3 : 3 * f / fsamp * (n : ℝ) = 3 * x := by rw [hx]; unfold turns; ring
  have e5 : 5 * f / fsamp * (n : ℝ) = 5 * x := by rw [hx]; unfold turns; ring
  have r4 := abs_le.1 (pyRound_near (4 * x))
  have r3 := abs_le.1 (pyRound_near (3 * x))
  have r5 := abs_le.1 (pyRound_near (5 * x))
  obtain ⟨c, hc⟩ : ∃ c : Nat, pyRound (4 * x) = (c : Int) := by
    apply Int.eq_ofNat_of_zero_le
    have : (-1 : ℝ) < (pyRound (4 * x) : ℝ) := by linarith
    have : (-1 : Int) < pyRound (4 * x) := by exact_mod_cast this
    omega
  obtain ⟨w, hw⟩ : ∃ w : Nat, pyRound (5 * x) - pyRound (3 * x) + 1 = (w : Int) := by
    apply Int.eq_ofNat_of_zero_le
    have : (0 : ℝ) < (pyRound (5 * x) : ℝ) - (pyRound (3 * x) : ℝ) := by linarith
    have : (0 : Int) < pyRound (5 * x) - pyRound (3 * x) := by exact_mod_cast this
    omega
  have hcr : ((pyRound (4 * x) : Int) : ℝ) = (c : ℝ) := by rw [hc]; simp
  have hwr : (pyRound (5 * x) : ℝ) - (pyRound (3 * x) : ℝ) + 1 = (w : ℝ) := by
    have := congrArg (fun z : Int => (z : ℝ)) hw
    push_cast at this
    exact this
  rw [hcr] at r4
  set h := w / 2 with hh
  have hw2 : 2 ≤ w := by
    have : (1 : ℝ) < (w : ℝ) := by linarith
    have : 1 < w := by exact_mod_cast this
    omega
  have h2h : 2 * h ≤ w := by omega
  have h2h' : w ≤ 2 * h + 1 := by omega
  have h2hr : 2 * (h : ℝ) ≤ w := by exact_mod_cast h2h
  have h2hr' : (w : ℝ) ≤ 2 * h + 1 := by exact_mod_cast h2h'
  have hle : (h : ℝ) ≤ x + 1 := by linarith
  have hge : x - 1 / 2 ≤ (h : ℝ) := by linarith
  have hch : h + 1 ≤ c := by
    have : (h : ℝ) < c := by linarith
    have : h < c := by exact_mod_cast this
    omega
  have htop : c + h ≤ n / 2 := by
    have : ((c + h : Nat) : ℝ) ≤ (n : ℝ) / 2 := by push_cast; linarith
    have : 2 * ((c + h : Nat) : ℝ) ≤ (n : ℝ) := by linarith
    have : 2 * (c + h) ≤ n := by exact_mod_cast this
    omega
  have h1 : 1 ≤ h := by omega
  obtain ⟨win, t1, t2, _, _, _, t3, t4, _⟩ := C28_tukey_window_partial.2 (2 * h + 1) (by omega)
  refine ⟨fun k => if c - h ≤ k ∧ k ≤ c + h then (win[k - (c - h)]?).getD 0 else 0, ?_, ?_, ?_, ?_,
    ?_, ?_⟩
  · intro k
    dsimp only
    split_ifs with hk
    · rw [List.getElem?_eq_getElem (by omega)]
      exact t3 _ (List.getElem_mem _)
    · norm_num
  · intro k hk
    dsimp only
    rw [if_neg]
    rintro ⟨a, b⟩
    have a' : (c : ℝ) ≤ k + h := by exact_mod_cast (by omega : c ≤ k + h)
    have b' : (k : ℝ) ≤ c + h := by exact_mod_cast b
    have : |(k : ℝ) - 4 * x| ≤ x + 3 / 2 := by
      rw [abs_le]
      constructor <;> linarith
    linarith
  · intro k hk
    dsimp only
    have hk := abs_le.1 hk
    have a' : 2 * (c : ℝ) + 1 ≤ 2 * k + h := by linarith
    have b' : 2 * (k : ℝ) + 1 ≤ 2 * c + h := by linarith
    have a : 2 * c + 1 ≤ 2 * k + h := by exact_mod_cast a'
    have b : 2 * k + 1 ≤ 2 * c + h := by exact_mod_cast b'
    rw [if_pos (by omega), t4 _ (by omega) (by omega) (by omega)]
    rfl
  · intro k hk
    dsimp only
    have hk := abs_lt.1 hk
    have a' : (c : ℝ) < k + 1 := by linarith
    have b' : (k : ℝ) < c + 1 := by linarith
    have a : c < k + 1 := by exact_mod_cast a'
    have b : k < c + 1 := by exact_mod_cast b'
    rw [if_pos (by omega), t4 _ (by omega) (by omega) (by omega)]
    rfl
  · dsimp only
    rw [if_neg (by omega)]
  · intro tod hn
    obtain ⟨fd, f1, f2, f3⟩ := rfft_spec tod (by omega)
    have hm : 2 * h + 1 = min (c + w / 2 + 1) fd.length - min (c - w / 2) fd.length := by omega
    obtain ⟨win', out, o1, o2, o3, o4, o5⟩ := C29_filter_ft_hwp_partial fd c w (by omega) _ hm
      (by omega)
    obtain rfl := Except.ok.inj (t1.symm.trans o1)
    refine ⟨irfft out tod.length, ?_, ?_⟩
    · unfold filterTodHwp
      rw [f1]
      simp only [bind, Except.bind, pure, Except.pure]
      rw [if_neg hs.ne', hn, e3, e4, e5, hc, hw, o3]
    · apply irfft_gain tod (by omega)
      intro k hk
      have := o5 k _ (f3 k hk)
      split_ifs at this ⊢ with hb
      · obtain ⟨y, y1, y2⟩ := this
        rw [y1, y2]
        simp only [Option.getD_some]
        ring
      · rw [this]
        simp

/-- **C91.** For a timeline of `n` samples in which the plate turns `turns` times (more than half a
revolution; five times the HWP frequency below the Nyquist frequency), `filter_tod_hwp` multiplies
each Fourier mode by a fixed real gain between 0 and 1 that is 0 for modes further than one HWP
frequency (plus 3/2 modes) from 4f and 1 for modes closer than half of that; the mode nearest to 4f
is kept as it is and the mean is removed.  Missing: bands that reach beyond the Nyquist frequency, where the
window is cut off (`C91_violation`). -/
theorem C91_band_partial (n : Nat) (fsamp f : ℝ) (hs : 0 < fsamp)
    (hrev : 1 / 2 < turns n fsamp f) (hny : 5 * turns n fsamp f + 3 / 2 ≤ (n : ℝ) / 2) :
    ∃ gain : Nat → ℝ, (∀ k, 0 ≤ gain k ∧ gain k ≤ 1) ∧
      (∀ k : Nat, turns n fsamp f + 3 / 2 < |(k : ℝ) - 4 * turns n fsamp f| → gain k = 0) ∧
      (∀ k : Nat, |(k : ℝ) - 4 * turns n fsamp f| ≤ turns n fsamp f / 2 - 5 / 4 → gain k = 1) ∧
      (∀ k : Nat, |(k : ℝ) - 4 * turns n fsamp f| < 1 / 2 → gain k = 1) ∧
      gain 0 = 0 ∧
      ∀ tod : List ℝ, tod.length = n → ∃ out, filterTodHwp tod fsamp f = .ok out ∧
        Filtered gain tod out := filter_hwp_spec n fsamp f hs hrev hny

/-- The hypotheses are met: 1000 samples at 100 Hz, 1 Hz: ten revolutions. -/
example : (1 : ℝ) / 2 < turns 1000 100 1 ∧ 5 * turns 1000 100 1 + 3 / 2 ≤ ((1000 : Nat) : ℝ) / 2 := by
  unfold turns
  norm_num

/-- **C91.** The filter is linear. -/
theorem C91_linear (n : Nat) (fsamp f : ℝ) (hs : 0 < fsamp)
    (hrev : 1 / 2 < turns n fsamp f) (hny : 5 * turns n fsamp f + 3 / 2 ≤ (n : ℝ) / 2)
    (x y : List ℝ) (hx : x.length = n) (hy : y.length = n) (a b : ℝ) :
    ∃ x' y', filterTodHwp x fsamp f = .ok x' ∧ filterTodHwp y fsamp f = .ok y' ∧
      filterTodHwp (combine a b x y) fsamp f = .ok (combine a b x' y') := by
  obtain ⟨g, _, _, _, _, _, h⟩ := filter_hwp_spec n fsamp f hs hrev hny
  obtain ⟨x', hx1, hx2⟩ := h x hx
  obtain ⟨y', hy1, hy2⟩ := h y hy
  obtain ⟨z, hz1, hz2⟩ := h (combine a b x y) (by simp [combine, hx, hy])
  refine ⟨x', y', hx1, hy1, ?_⟩
  rw [hz1, filtered_unique hz2 (filtered_combine hx2 hy2 (by omega) a b)]

/-- **C91.** A signal at exactly four times the HWP frequency, with any amplitude and phase, passes
unchanged; one with `k` periods further away than the band disappears. -/
theorem C91_sinusoid (n : Nat) (fsamp f : ℝ) (hs : 0 < fsamp)
    (hrev : 1 / 2 < turns n fsamp f) (hny : 5 * turns n fsamp f + 3 / 2 ≤ (n : ℝ) / 2)
    (k : Nat) (hk : 2 * k ≤ n) (A : ℂ) :
    ((k : ℝ) = 4 * turns n fsamp f →
      filterTodHwp (sinusoid n k A) fsamp f = .ok (sinusoid n k A)) ∧
    (turns n fsamp f + 3 / 2 < |(k : ℝ) - 4 * turns n fsamp f| →
      filterTodHwp (sinusoid n k A) fsamp f = .ok (List.replicate n 0)) := by
  obtain ⟨g, _, g1, _, g2, _, h⟩ := filter_hwp_spec n fsamp f hs hrev hny
  have hlen : (sinusoid n k A).length = n := by simp [sinusoid]
  obtain ⟨y, hy1, hy2⟩ := h (sinusoid n k A) hlen
  constructor
  · intro he
    rw [hy1]
    congr 1
    apply filtered_unique hy2
    refine ⟨rfl, ?_⟩
    intro l hl
    rw [hlen] at hl ⊢
    by_cases hb : l ≠ k ∧ l + k ≠ n
    · rw [mode_sinusoid n k A l hl hk hb.1 hb.2, mul_zero]
    · have : min l (n - l) = k := by omega
      rw [this, g2 k (by rw [he, sub_self, abs_zero]; norm_num)]
      simp
  · intro he
    rw [hy1]
    congr 1
    apply filtered_unique hy2
    refine ⟨by rw [hlen, List.length_replicate], ?_⟩
    intro l hl
    rw [hlen] at hl ⊢
    have hz : mode (List.replicate n (0 : ℝ)) l = 0 := by
      rw [mode_wave]
      apply sum_eq_zero
      intro j hj
      rw [List.getElem?_replicate]
      split_ifs <;> simp
    rw [hz]
    by_cases hb : l ≠ k ∧ l + k ≠ n
    · rw [mode_sinusoid n k A l hl hk hb.1 hb.2, mul_zero]
    · have : min l (n - l) = k := by omega
      rw [this, g1 k he]
      simp

/-- **C91, violated.** If five times the HWP frequency is above the Nyquist frequency, the window is
cut off at the end of the spectrum and is no longer centred on 4f: with 2 Hz sampled at 17 Hz for
one second the 4f mode (the highest one) is removed although it is below the Nyquist frequency. -/
theorem C91_violation (tod : List ℝ) (hn : tod.length = 17) :
    ∃ gain out, filterTodHwp tod 17 2 = .ok out ∧ Filtered gain tod out ∧ gain 8 = 0 := by
  have e4 : pyRound (4 * 2 / 17 * ((17 : Nat) : ℝ)) = 8 := by
    have : (4 * 2 / 17 * ((17 : Nat) : ℝ)) = ((8 : Int) : ℝ) := by norm_num
    rw [this]
    unfold pyRound
    rw [Int.floor_intCast]
    norm_num
  have e3 : pyRound (3 * 2 / 17 * ((17 : Nat) : ℝ)) = 6 := by
    have : (3 * 2 / 17 * ((17 : Nat) : ℝ)) = ((6 : Int) : ℝ) := by norm_num
    rw [this]
    unfold pyRound
    rw [Int.floor_intCast]
    norm_num
  have e5 : pyRound (5 * 2 / 17 * ((17 : Nat) : ℝ)) = 10 := by
    have : (5 * 2 / 17 * ((17 : Nat) : ℝ)) = ((10 : Int) : ℝ) := by norm_num
    rw [this]
    unfold pyRound
    rw [Int.floor_intCast]
    norm_num
  obtain ⟨fd, f1, f2, f3⟩ := rfft_spec tod (by omega)
  rw [hn] at f2 f3
  obtain ⟨win, out, o1, o2, o3, o4, o5⟩ := C29_filter_ft_hwp_partial fd 8 5 (by norm_num) 3
    (by rw [f2]; decide) (by norm_num)
  obtain ⟨win', t1, t2, _, _, t5, _⟩ := C28_tukey_window_partial.2 3 (by norm_num)
  obtain rfl := Except.ok.inj (t1.symm.trans o1)
  refine ⟨fun k => if 6 ≤ k then (win'[k - 6]?).getD 0 else 0, irfft out tod.length, ?_, ?_, ?_⟩
  · unfold filterTodHwp
    rw [f1]
    simp only [bind, Except.bind, pure, Except.pure]
    rw [if_neg (by norm_num), hn, e3, e4, e5]
    have o3' : Signal.filterFtHwp fd 8 (10 - 6 + 1) = .ok out := o3
    rw [o3']
  · apply irfft_gain tod (by omega)
    intro k hk
    rw [hn] at hk
    have := o5 k _ (f3 k hk)
    split_ifs at this ⊢ with hb hb'
    · obtain ⟨y, y1, y2⟩ := this
      have e : k - (8 - 5 / 2) = k - 6 := by omega
      rw [e] at y1
      rw [y1, y2]
      simp only [Option.getD_some]
      ring
    · omega
    · omega
    · rw [this]
      simp
  · show (if 6 ≤ 8 then (win'[8 - 6]?).getD 0 else 0) = (0 : ℝ)
    have e : win'[8 - 6]? = some 0 := t5
    rw [if_pos (by norm_num), e]
    rfl

/-- **C91, violated.** For a plate that turns in the other direction (a negative frequency, which
`set_hwp_mod` takes) the filter sets every timeline to zero, with the signal at four times the HWP
frequency in it, once there are two revolutions. -/
theorem C91_backwards_violation (tod : List ℝ) (fsamp f : ℝ) (hs : 0 < fsamp)
    (hrev : turns tod.length fsamp f ≤ -2) :
    filterTodHwp tod fsamp f = .ok (List.replicate tod.length 0) := by
  have hn : tod.length ≠ 0 := by
    intro h
    unfold turns at hrev
    rw [h] at hrev
    norm_num at hrev
  obtain ⟨fd, f1, f2, -⟩ := rfft_spec tod (by omega)
  have e : ∀ k : ℝ, k * f / fsamp * (tod.length : ℝ) = k * turns tod.length fsamp f := fun k => by
    unfold turns
    ring
  unfold filterTodHwp
  rw [f1]
  simp only [bind, Except.bind, pure, Except.pure]
  rw [if_neg hs.ne', e, e, e]
  generalize turns tod.length fsamp f = x at hrev
  have r3 := abs_le.1 (pyRound_near (3 * x))
  have r4 := abs_le.1 (pyRound_near (4 * x))
  have r5 := abs_le.1 (pyRound_near (5 * x))
  generalize pyRound (3 * x) = a at *
  generalize pyRound (4 * x) = c at *
  generalize pyRound (5 * x) = b at *
  have h1 : b - a + 1 ≤ -2 := by
    have : ((b - a + 1 : Int) : ℝ) ≤ ((-2 : Int) : ℝ) := by push_cast; linarith
    exact_mod_cast this
  have h2 : 2 * c - (b - a + 1) ≤ -1 := by
    have : ((2 * c - (b - a + 1) : Int) : ℝ) ≤ ((-1 : Int) : ℝ) := by push_cast; linarith
    exact_mod_cast this
  have hd : (b - a + 1).tdiv 2 = -(((a - b - 1).toNat / 2 : Nat) : Int) := by
    have : b - a + 1 = -((a - b - 1).toNat : Int) := by omega
    rw [this, Int.neg_tdiv]
    exact congrArg _ (Int.ofNat_tdiv _ 2).symm
  have hz := filterFt_lost fd c (b - a + 1) (by
    rw [hd]
    unfold pyClip
    rw [if_pos (by omega), if_pos (by omega)]
    omega)
  rw [hz]
  simp only [Except.ok.injEq]
  have hh : ∀ l, hermitian tod.length (List.replicate fd.length 0) l = 0 := by
    intro l
    unfold hermitian
    simp only [List.getElem?_replicate]
    split_ifs <;> simp
  unfold irfft
  simp only [hh, zero_mul, Finset.sum_const_zero, mul_zero, Complex.zero_re]
  rw [List.map_const', List.length_range]

/-- The hypothesis is met, by a timeline of which nothing would be lost with the other direction: 1000
samples at 100 Hz, a signal at 4 Hz and a plate that turns with 1 Hz. -/
example (A : ℂ) : turns (sinusoid 1000 40 A).length 100 (-1) ≤ -2 ∧
    filterTodHwp (sinusoid 1000 40 A) 100 1 = .ok (sinusoid 1000 40 A) := by
  refine ⟨by simp [turns, sinusoid]; norm_num, ?_⟩
  exact (C91_sinusoid 1000 100 1 (by norm_num) (by unfold turns; norm_num) (by unfold turns; norm_num) 40
    (by norm_num) A).1 (by unfold turns; norm_num)

/-- **C91, violated.** In a timeline in which the plate makes less than a tenth of a revolution (such as the
last chunk of a mission that is a few samples longer than a multiple of the size of chunks) the filter
raises ValueError. -/
theorem C91_short_violation (tod : List ℝ) (hn : tod ≠ []) (fsamp f : ℝ) (hs : 0 < fsamp) (hf : 0 ≤ f)
    (hrev : turns tod.length fsamp f < 1 / 10) :
    filterTodHwp tod fsamp f = .error .valueError := by
  have hn' : 0 < tod.length := List.length_pos_iff.2 hn
  obtain ⟨fd, f1, f2, -⟩ := rfft_spec tod hn'
  have e : ∀ k : ℝ, k * f / fsamp * (tod.length : ℝ) = k * turns tod.length fsamp f := fun k => by
    unfold turns
    ring
  have h0 : 0 ≤ turns tod.length fsamp f := by
    unfold turns
    positivity
  unfold filterTodHwp
  rw [f1]
  simp only [bind, Except.bind, pure, Except.pure]
  rw [if_neg hs.ne', e, e, e]
  generalize turns tod.length fsamp f = x at hrev h0
  have z : ∀ y : ℝ, 0 ≤ y → y < 1 / 2 → pyRound y = 0 := by
    intro y h1 h2
    have : ⌊y⌋ = 0 := Int.floor_eq_iff.2 ⟨by simpa using h1, by norm_num; linarith⟩
    unfold pyRound
    rw [this, if_pos (by simpa using h2)]
  rw [z _ (by linarith) (by linarith), z _ (by linarith) (by linarith), z _ (by linarith) (by linarith)]
  have := C29_single_mode_violation fd 0 1 (by omega) le_rfl
  have h : Signal.filterFtHwp fd 0 (0 - 0 + 1) = .error .valueError := this
  rw [h]

/-- The hypotheses are met: nine samples at 100 Hz and 1 Hz. -/
example : turns [1, 2, 3, 4, 5, 6, 7, 8, (9 : ℝ)].length 100 1 < 1 / 10 := by
  unfold turns
  norm_num

/-! ## C92: the high-pass filter -/

theorem highpass_spec (tod : List ℝ) (h0 : 0 < tod.length) (fsamp : ℝ) (hs : 0 < fsamp) (wc : ℝ)
    (m : Nat) (g : Nat → ℝ)
    (hg : ∀ k, k ≤ tod.length / 2 → butterworth fsamp wc m tod.length k = some (g k)) :
    ∃ out, filterTodHighpass tod fsamp wc m = .ok (some out) ∧ Filtered g tod out := by
  obtain ⟨fd, f1, f2, f3⟩ := rfft_spec tod h0
  have e : highpassModes fsamp wc m tod.length fd =
      some ((List.range fd.length).map fun (k : Nat) => gained fd k (g k)) := by
    have : ∀ l : List Nat, (∀ k ∈ l, k ≤ tod.length / 2) → (l.mapM fun (k : Nat) =>
        (butterworth fsamp wc m tod.length k).map (gained fd k)) =
        some (l.map fun (k : Nat) => gained fd k (g k)) := by
      intro l hl
      induction l with
      | nil => rfl
      | cons k l ih =>
        rw [List.mapM_cons, hg k (hl k List.mem_cons_self),
          ih fun k hk => hl k (List.mem_cons_of_mem _ hk)]
        rfl
    apply this
    intro k hk
    have := List.mem_range.1 hk
    omega
  refine ⟨irfft ((List.range fd.length).map fun (k : Nat) => gained fd k (g k)) tod.length,
    ?_, ?_⟩
  · unfold filterTodHighpass
    rw [f1]
    simp only [bind, Except.bind, pure, Except.pure]
    rw [if_neg hs.ne', e]
    rfl
  · apply irfft_gain tod h0
    intro k hk
    rw [List.getElem?_map, List.getElem?_range (by omega)]
    simp only [Option.map_some, Option.getD_some]
    unfold gained
    rw [f3 k hk]
    simp only [Option.getD_some]
    ring

/-- **C92 (partial).** With a cutoff other than zero and an order of at least one the filter
multiplies the mode of frequency `k fsamp / n` with the gain of a Butterworth filter and removes the
mean.  Missing: cutoff zero, for which the timeline becomes NaN (`C92_violation`). -/
theorem C92_butterworth_partial (tod : List ℝ) (h0 : 0 < tod.length) (fsamp : ℝ) (hs : 0 < fsamp)
    (wc : ℝ) (hw : wc ≠ 0) (m : Nat) (hm : 0 < m) :
    ∃ out, filterTodHighpass tod fsamp wc m = .ok (some out) ∧
      Filtered (fun k => if k = 0 then 0 else butter wc m (k * fsamp / tod.length)) tod out := by
  apply highpass_spec tod h0 fsamp hs
  intro k _
  unfold butterworth butter
  dsimp only
  split_ifs with h1 h2
  · omega
  · rfl
  · congr 1
    rw [Real.sqrt_div zero_le_one, Real.sqrt_one]

/-- **C92.** The gain grows with frequency, from 0 to 1, and is `1/√2` at the cutoff. -/
theorem C92_profile (wc : ℝ) (hw : 0 < wc) (m : Nat) (hm : 0 < m) :
    butter wc m wc = 1 / Real.sqrt 2 ∧
    (∀ v, 0 < v → 0 < butter wc m v ∧ butter wc m v < 1) ∧
    (∀ u v, 0 < u → u < v → butter wc m u < butter wc m v) ∧
    (∀ e > 0, ∃ u > 0, ∀ v, 0 < v → v < u → butter wc m v < e) ∧
    (∀ e > 0, ∃ u > 0, ∀ v, u < v → 1 - e < butter wc m v) := by
  have hpos : ∀ v, 0 < v → 0 < (wc / v) ^ (2 * m) := fun v hv => by positivity
  have hone : ∀ v, 0 < v → v < wc → 1 / butter wc m v > wc / v := by
    intro v hv hvw
    unfold butter
    rw [one_div_one_div]
    have h1 : 1 < wc / v := by rw [lt_div_iff₀ hv]; linarith
    have h2 : (wc / v) ^ 2 ≤ (wc / v) ^ (2 * m) := pow_le_pow_right₀ h1.le (by omega)
    apply Real.lt_sqrt_of_sq_lt
    linarith
  refine ⟨?_, ?_, ?_, ?_, ?_⟩
  · unfold butter
    rw [div_self hw.ne', one_pow]
    norm_num
  · intro v hv
    have h := hpos v hv
    unfold butter
    constructor
    · positivity
    · rw [div_lt_one (by positivity)]
      apply Real.lt_sqrt_of_sq_lt
      linarith
  · intro u v hu huv
    unfold butter
    have hv0 : 0 < v := hu.trans huv
    have h : (wc / v) ^ (2 * m) < (wc / u) ^ (2 * m) := by
      apply pow_lt_pow_left₀ _ (by positivity) (by omega)
      exact div_lt_div_of_pos_left hw hu huv
    have hv := hpos v (hu.trans huv)
    exact one_div_lt_one_div_of_lt (by positivity)
      (Real.sqrt_lt_sqrt (by positivity) (by linarith))
  · intro e he
    refine ⟨min wc (wc * e), lt_min hw (mul_pos hw he), ?_⟩
    intro v hv hvu
    have h1 : v < wc := lt_of_lt_of_le hvu (min_le_left _ _)
    have h2 : v < wc * e := lt_of_lt_of_le hvu (min_le_right _ _)
    have hb : 0 < butter wc m v := by
      have h := hpos v hv
      unfold butter
      positivity
    have h3 := hone v hv h1
    have h4 : butter wc m v < v / wc := by
      rw [gt_iff_lt, lt_div_iff₀ hb] at h3
      rw [lt_div_iff₀ hw]
      rw [div_mul_eq_mul_div, div_lt_one hv] at h3
      linarith
    have h5 : v / wc < e := by
      rw [div_lt_iff₀ hw]
      linarith
    linarith
  · intro e he
    refine ⟨max wc (wc / e), lt_of_lt_of_le hw (le_max_left _ _), ?_⟩
    intro v hv
    have h1 : wc < v := lt_of_le_of_lt (le_max_left _ _) hv
    have h2 : wc / e < v := lt_of_le_of_lt (le_max_right _ _) hv
    have hv0 : 0 < v := hw.trans h1
    have h3 : wc / v < e := by
      rw [div_lt_iff₀ hv0]
      rw [div_lt_iff₀ he] at h2
      linarith
    set r := wc / v with hr
    have hr0 : 0 < r := by positivity
    have hr1 : r < 1 := by rw [hr, div_lt_one hv0]; exact h1
    have h4 : r ^ (2 * m) ≤ r := by
      have := pow_le_pow_of_le_one hr0.le hr1.le (by omega : 1 ≤ 2 * m)
      simpa using this
    unfold butter
    rw [← hr]
    have h5 : Real.sqrt (1 + r ^ (2 * m)) ≤ 1 + r := by
      rw [Real.sqrt_le_left (by linarith)]
      nlinarith
    have h6 : 1 - r ≤ 1 / (1 + r) := by
      rw [le_div_iff₀ (by linarith)]
      nlinarith
    have h7 : 1 / (1 + r) ≤ 1 / Real.sqrt (1 + r ^ (2 * m)) :=
      one_div_le_one_div_of_le (by positivity) h5
    linarith

/-- The hypotheses are met by 0.1 Hz, first order. -/
example : (0 : ℝ) < 0.1 ∧ 0 < 1 := by norm_num

/-- **C92, violated.** With cutoff 0, which keeps all frequencies, all samples become NaN. -/
theorem C92_violation (tod : List ℝ) (h0 : 0 < tod.length) (fsamp : ℝ) (hs : 0 < fsamp) (m : Nat)
    (hm : 0 < m) : filterTodHighpass tod fsamp 0 m = .ok none := by
  obtain ⟨fd, f1, f2, f3⟩ := rfft_spec tod h0
  have e : highpassModes fsamp 0 m tod.length fd = none := by
    unfold highpassModes
    rw [f2, List.range_succ_eq_map, List.mapM_cons]
    have : butterworth fsamp 0 m tod.length 0 = none := by
      unfold butterworth
      rw [if_pos rfl, if_neg (by omega), if_pos rfl]
    rw [this]
    rfl
  unfold filterTodHighpass
  rw [f1]
  simp only [bind, Except.bind, pure, Except.pure]
  rw [if_neg hs.ne', e]
  rfl

theorem mean_spec (tod : List ℝ) (h0 : 0 < tod.length) :
    Filtered (fun k => if k = 0 then 0 else 1) tod (subtractMean tod) := by
  have e : subtractMean tod = offsetBy (-(tod.sum / tod.length)) tod := by
    unfold subtractMean offsetBy
    apply List.map_congr_left
    intro x _
    ring
  rw [e]
  refine ⟨by simp [offsetBy], ?_⟩
  intro l hl
  rw [mode_offset _ tod l hl]
  by_cases h : l = 0
  · subst h
    rw [if_pos rfl, Nat.zero_min, if_pos rfl]
    have hm : mode tod 0 = (tod.sum : ℂ) := by
      rw [mode_wave]
      have : ∀ j ∈ range tod.length, ((tod[j]?).getD 0 : ℂ) *
          wave tod.length (-((j : ℝ) * (0 : Nat))) = (((tod[j]?).getD 0 : ℝ) : ℂ) := by
        intro j _
        rw [Nat.cast_zero, mul_zero, neg_zero, wave_zero, mul_one]
      rw [sum_congr rfl this, ← ofReal_sum]
      congr 1
      have h2 : ∑ j ∈ range tod.length, (tod[j]?).getD 0 = tod.sum := by
        rw [Finset.sum_range]
        have : ∀ i : Fin tod.length, (tod[(i : Nat)]?).getD 0 = tod[i] := by
          intro i
          rw [List.getElem?_eq_getElem i.2]
          rfl
        simp only [this]
        rw [← List.sum_ofFn]
        congr 1
        exact List.ofFn_getElem
      exact h2
    rw [hm]
    have : (tod.length : ℂ) ≠ 0 := by exact_mod_cast h0.ne'
    push_cast
    field_simp
    ring
  · rw [if_neg h, if_neg (by omega)]
    simp

/-- **C92.** Without settings (`set_filter_dict` was not called) the mean is removed and all other
modes are kept. -/
theorem C92_mean (tod : List ℝ) (h0 : 0 < tod.length) (o : FilterOpts) (hh : o.highpass = true)
    (hd : o.dict = none) : ∃ out, highpassStep o tod = .ok (some out) ∧
      Filtered (fun k => if k = 0 then 0 else 1) tod out := by
  refine ⟨subtractMean tod, ?_, mean_spec tod h0⟩
  unfold highpassStep
  rw [if_pos hh, hd]

/-! ## C93: filters in `bin_tod` -/

/-- Some filter is switched on and it is set up properly for timelines of `n` samples. -/
structure FilterOk (o : FilterOpts) (n : Nat) : Prop where
  fsamp : 0 < o.fsamp
  on : o.filter4f = true ∨ o.highpass = true
  hwp : o.filter4f = true → o.mode = .continuous ∧ 1 / 2 < turns n o.fsamp o.hwpFreq ∧
    5 * turns n o.fsamp o.hwpFreq + 3 / 2 ≤ (n : ℝ) / 2
  high : o.highpass = true → ∀ wc m, o.dict = some (wc, m) → wc ≠ 0 ∧ 0 < m

theorem filter4f_spec (o : FilterOpts) (n : Nat) (h : FilterOk o n) :
    ∃ g : Nat → ℝ, (o.filter4f = true → g 0 = 0) ∧ ∀ tod : List ℝ, tod.length = n →
      ∃ out, filter4fStep o tod = .ok out ∧ Filtered g tod out := by
  cases h4 : o.filter4f with
  | false =>
    refine ⟨fun _ => 1, by simp, fun tod _ => ⟨tod, ?_, rfl, ?_⟩⟩
    · unfold filter4fStep
      rw [if_neg (by simp [h4])]
    · intro l _
      simp
  | true =>
    obtain ⟨h1, h2, h3⟩ := h.hwp h4
    obtain ⟨g, _, _, _, _, g0, hg⟩ := filter_hwp_spec n o.fsamp o.hwpFreq h.fsamp h2 h3
    refine ⟨g, fun _ => g0, fun tod ht => ?_⟩
    unfold filter4fStep
    rw [if_pos h4, if_pos h1]
    exact hg tod ht

theorem highpassStep_spec (o : FilterOpts) (n : Nat) (hn : 0 < n) (h : FilterOk o n) :
    ∃ g : Nat → ℝ, (o.highpass = true → g 0 = 0) ∧ ∀ tod : List ℝ, tod.length = n →
      ∃ out, highpassStep o tod = .ok (some out) ∧ Filtered g tod out := by
  cases hh : o.highpass with
  | false =>
    refine ⟨fun _ => 1, by simp, fun tod _ => ⟨tod, ?_, rfl, ?_⟩⟩
    · unfold highpassStep
      rw [if_neg (by simp [hh])]
    · intro l _
      simp
  | true =>
    cases hd : o.dict with
    | none =>
      exact ⟨_, fun _ => if_pos rfl, fun tod ht => C92_mean tod (by omega) o hh hd⟩
    | some p =>
      obtain ⟨wc, m⟩ := p
      obtain ⟨h1, h2⟩ := h.high hh wc m hd
      refine ⟨fun k => if k = 0 then 0 else butter wc m (k * o.fsamp / n), fun _ => if_pos rfl,
        fun tod ht => ?_⟩
      unfold highpassStep
      rw [if_pos hh, hd]
      subst ht
      exact C92_butterworth_partial tod hn o.fsamp h.fsamp wc h1 m h2

theorem filterTod_spec (o : FilterOpts) (n : Nat) (hn : 0 < n) (h : FilterOk o n) :
    ∃ g : Nat → ℝ, g 0 = 0 ∧ ∀ tod : List ℝ, tod.length = n →
      ∃ out, filterTod o tod = .ok (some out) ∧ Filtered g tod out := by
  obtain ⟨g1, a1, b1⟩ := filter4f_spec o n h
  obtain ⟨g2, a2, b2⟩ := highpassStep_spec o n hn h
  refine ⟨fun k => g2 k * g1 k, ?_, ?_⟩
  · rcases h.on with h | h
    · simp [a1 h]
    · simp [a2 h]
  · intro tod ht
    obtain ⟨x, x1, x2⟩ := b1 tod ht
    obtain ⟨y, y1, y2⟩ := b2 x (by rw [x2.size, ht])
    refine ⟨y, ?_, by rw [y2.size, x2.size], ?_⟩
    · unfold filterTod
      rw [x1]
      exact y1
    · intro l hl
      rw [y2.modes l (by rw [x2.size]; exact hl), x2.modes l hl, x2.size]
      push_cast
      ring

theorem binFiltered_eq (q : QExt) (mission : List Chunk) (su : Setup) (st : State) (off : Quat.Q)
    (polang : ℝ) (o : FilterOpts) (tod : List ℝ) (flag : FlagArg) (s : Sub) (i n : Nat)
    (h : BinOk mission su st s i n) (maps : Maps) :
    binFiltered q mission su st off polang o tod flag s maps = (do
      let r ← filterTod o tod
      match r with
      | some tod => do
        let maps ← binTod q mission su st off polang tod flag s maps
        return some (tod, maps)
      | none => return none) := by
  obtain ⟨c, hc1, hc2, hc3⟩ := h.sub.chunk
  obtain ⟨hw, hhw⟩ := Option.ne_none_iff_exists'.1 h.hwp
  unfold binFiltered
  rw [hhw]
  simp only [bind, Except.bind]
  unfold Chunks.chunk2idx
  rw [hc1]
  simp only [bind, Except.bind, pure, Except.pure]
  cases filterTod o tod with
  | error e => rfl
  | ok v => cases v <;> rfl

/-- **C93.** With filters, `bin_tod` bins the filtered timeline: each mode multiplied by the product
of the gains of the filters. -/
theorem C93_maps (q : QExt) (hq : PixOk q) (mission : List Chunk) (su : Setup)
    (hns : 0 < su.nsideOut) (st : State) (off : Quat.Q) (polang : ℝ) (s : Sub) (i n : Nat)
    (hn : 0 < n) (h : BinOk mission su st s i n) (o : FilterOpts) (ho : FilterOk o n) :
    ∃ gain : Nat → ℝ, gain 0 = 0 ∧ ∀ tod : List ℝ, tod.length = n →
      ∃ out m, binFiltered q mission su st off polang o tod .none s (allocateMaps su.nsideOut) =
          .ok (some (out, m)) ∧ Filtered gain tod out ∧
        Holds su.nsideOut m (observations q su st off polang i n fun k => (out[k]?).getD 0) := by
  obtain ⟨g, g0, hg⟩ := filterTod_spec o n hn ho
  refine ⟨g, g0, fun tod ht => ?_⟩
  obtain ⟨out, h1, h2⟩ := hg tod ht
  have e := binTod_spec q hq mission su hns st off polang s i n h out (by rw [h2.size, ht]) []
  rw [mapsOf_nil, List.nil_append] at e
  refine ⟨out, _, ?_, h2, holds_mapsOf _ _⟩
  rw [binFiltered_eq q mission su st off polang o tod .none s i n h, h1]
  simp only [bind, Except.bind]
  rw [e]
  rfl

/-- **C93.** Filtered maps are blind to the offset of the timeline. -/
theorem C93_offset (q : QExt) (mission : List Chunk) (su : Setup) (st : State) (off : Quat.Q)
    (polang : ℝ) (s : Sub) (i n : Nat) (hn : 0 < n) (h : BinOk mission su st s i n)
    (o : FilterOpts) (ho : FilterOk o n) (tod : List ℝ) (ht : tod.length = n) (c : ℝ)
    (flag : FlagArg) (maps : Maps) :
    binFiltered q mission su st off polang o (offsetBy c tod) flag s maps =
      binFiltered q mission su st off polang o tod flag s maps := by
  obtain ⟨g, g0, hg⟩ := filterTod_spec o n hn ho
  obtain ⟨out, h1, h2⟩ := hg tod ht
  obtain ⟨out', h1', h2'⟩ := hg (offsetBy c tod) (by simp [offsetBy, ht])
  rw [binFiltered_eq q mission su st off polang o tod flag s i n h,
    binFiltered_eq q mission su st off polang o _ flag s i n h, h1, h1',
    filtered_offset g0 h2 c h2']

/-- **C93.** Filters change neither the hits nor the matrices of the pixels. -/
theorem C93_hits (q : QExt) (hq : PixOk q) (mission : List Chunk) (su : Setup)
    (hns : 0 < su.nsideOut) (st : State) (off : Quat.Q) (polang : ℝ) (s : Sub) (i n : Nat)
    (hn : 0 < n) (h : BinOk mission su st s i n) (o : FilterOpts) (ho : FilterOk o n)
    (tod : List ℝ) (ht : tod.length = n) (maps : Maps) (hm : maps.length = 12 * su.nsideOut ^ 2) :
    ∃ out m m', binFiltered q mission su st off polang o tod .none s maps = .ok (some (out, m')) ∧
      binTod q mission su st off polang tod .none s maps = .ok m ∧
      m'.map (·.proj) = m.map (·.proj) := by
  obtain ⟨g, g0, hg⟩ := filterTod_spec o n hn ho
  obtain ⟨out, h1, h2⟩ := hg tod ht
  have key : ∀ t : List ℝ, t.length = n → binTod q mission su st off polang t .none s maps =
      .ok (List.zipWith (· + ·) maps (mapsOf (12 * su.nsideOut ^ 2)
        (observations q su st off polang i n fun k => (t[k]?).getD 0))) := by
    intro t ht
    unfold binTod
    rw [binLocal_spec q hq mission su hns st off polang s i n h t ht]
    simp only [bind, Except.bind]
    unfold iadd
    rw [if_pos (by simp [hm, mapsOf])]
  have hpr : ∀ a b b' : Maps, b.map (·.proj) = b'.map (·.proj) →
      (List.zipWith (· + ·) a b).map (·.proj) = (List.zipWith (· + ·) a b').map (·.proj) := by
    intro a b b' hb
    rw [List.map_zipWith, List.map_zipWith]
    have : ∀ d : Maps, List.zipWith (fun x y : Cell => (x + y).proj) a d =
        List.zipWith (fun (x : Cell) (y : Fin 6 → ℝ) => x.proj + y) a (d.map (·.proj)) := by
      intro d
      rw [List.zipWith_map_right]
      rfl
    rw [this, this, hb]
  refine ⟨out, _, List.zipWith (· + ·) maps (mapsOf (12 * su.nsideOut ^ 2)
    (observations q su st off polang i n fun k => (out[k]?).getD 0)), ?_, key tod ht, ?_⟩
  · rw [binFiltered_eq q mission su st off polang o tod .none s i n h, h1]
    simp only [bind, Except.bind]
    rw [key out (by rw [h2.size, ht])]
    rfl
  · apply hpr
    apply mapsOf_proj
    rw [observations_blank, observations_blank]

/-- **C93.** After `set_filter_dict(w_c, m)` the high-pass filter of `bin_tod` is the Butterworth
filter with this cutoff and order, whatever was set before; the timeline that is filtered in place and
the maps agree. -/
theorem C93_set_filter_dict (q : QExt) (hq : PixOk q) (mission : List Chunk) (su : Setup)
    (hns : 0 < su.nsideOut) (st : State) (off : Quat.Q) (polang : ℝ) (s : Sub) (i n : Nat)
    (hn : 0 < n) (h : BinOk mission su st s i n) (o : FilterOpts) (h4 : o.filter4f = false)
    (hh : o.highpass = true) (hf : 0 < o.fsamp) (wc : ℝ) (hw : wc ≠ 0) (m : Nat) (hm : 0 < m)
    (tod : List ℝ) (ht : tod.length = n) :
    ∃ out maps, binFiltered q mission su st off polang (o.setFilterDict wc m) tod .none s
        (allocateMaps su.nsideOut) = .ok (some (out, maps)) ∧
      Filtered (fun k => if k = 0 then 0 else butter wc m (k * o.fsamp / n)) tod out ∧
      Holds su.nsideOut maps
        (observations q su st off polang i n fun k => (out[k]?).getD 0) := by
  subst ht
  obtain ⟨out, h1, h2⟩ := C92_butterworth_partial tod hn o.fsamp hf wc hw m hm
  have e := binTod_spec q hq mission su hns st off polang s i _ h out h2.size []
  rw [mapsOf_nil, List.nil_append] at e
  refine ⟨out, _, ?_, h2, holds_mapsOf _ _⟩
  have hfil : filterTod (o.setFilterDict wc m) tod = .ok (some out) := by
    unfold filterTod filter4fStep
    rw [if_neg (by simp [FilterOpts.setFilterDict, h4])]
    simp only [bind, Except.bind]
    unfold highpassStep
    rw [if_pos (show (o.setFilterDict wc m).highpass = true from hh)]
    exact h1
  rw [binFiltered_eq q mission su st off polang _ tod .none s i _ h, hfil]
  simp only [bind, Except.bind]
  rw [e]
  rfl

/-- **C93.** The filter around 4f is refused unless the plate rotates continuously. -/
theorem C93_refused (q : QExt) (mission : List Chunk) (su : Setup) (st : State) (off : Quat.Q)
    (polang : ℝ) (s : Sub) (i n : Nat) (h : BinOk mission su st s i n)
    (o : FilterOpts) (h4 : o.filter4f = true) (hmode : o.mode ≠ .continuous) (tod : List ℝ)
    (flag : FlagArg) (maps : Maps) :
    binFiltered q mission su st off polang o tod flag s maps = .error .valueError := by
  rw [binFiltered_eq q mission su st off polang o tod flag s i n h]
  unfold filterTod filter4fStep
  rw [if_pos h4, if_neg hmode]
  rfl

/-- The hypotheses are met: both filters, ten revolutions in 1000 samples; for other modes the
options of `C93_refused`. -/
example : FilterOk ⟨true, true, .continuous, 1, 100, some (0.1, 2)⟩ 1000 ∧
    FilterOk ⟨false, true, .stepped, 1, 100, none⟩ 3 ∧ Hwp.Mode.stepped ≠ .continuous := by
  refine ⟨⟨by norm_num, Or.inl rfl, ?_, ?_⟩, ⟨by norm_num, Or.inr rfl, by simp, by simp⟩, by decide⟩
  · intro _
    refine ⟨rfl, ?_, ?_⟩ <;> unfold turns <;> norm_num
  · intro _ wc m h
    obtain ⟨rfl, rfl⟩ := Prod.mk.inj (Option.some.inj h)
    norm_num

/-- The three samples of the example for map-making, with their mean removed. -/
example : ∃ m, binFiltered Rec.qp Rec.mission Rec.job.su Rec.job.st ![1, 0, 0, 0] 0
      ⟨false, true, .stepped, 1, 100, none⟩ [1, 2, 6] .none Rec.job.s (allocateMaps 1) =
    .ok (some ([-2, -1, 3], m)) := by
  have e : filterTod ⟨false, true, .stepped, 1, 100, none⟩ [1, 2, 6] = .ok (some [-2, -1, 3]) := by
    show Except.ok (some (subtractMean [1, 2, 6])) = _
    unfold subtractMean
    norm_num
  rw [binFiltered_eq _ _ _ _ _ _ _ _ _ _ _ _ Rec.bin_ok, e]
  have := binTod_spec Rec.qp Rec.pix_ok Rec.mission Rec.job.su one_pos Rec.job.st ![1, 0, 0, 0] 0
    Rec.job.s 1 3 Rec.bin_ok [-2, -1, 3] rfl []
  rw [mapsOf_nil] at this
  have t2 : binTod Rec.qp Rec.mission Rec.job.su Rec.job.st ![1, 0, 0, 0] 0 [-2, -1, 3] .none
    Rec.job.s (allocateMaps 1) = _ := this
  simp only [bind, Except.bind]
  rw [t2]
  exact ⟨_, rfl⟩

end Verif.Props
