import Verif.Spec.Filters
import Mathlib.RingTheory.RootsOfUnity.Complex

/-!
# Lemmas for filters: the discrete Fourier transform
-/

noncomputable section

namespace Verif.Filters

open Complex Finset

theorem wave_add (n : Nat) (x y : ℝ) : wave n (x + y) = wave n x * wave n y := by
  unfold wave
  rw [← exp_add]
  congr 1
  push_cast
  ring

theorem wave_zero (n : Nat) : wave n 0 = 1 := by simp [wave]

theorem wave_conj (n : Nat) (x : ℝ) : (starRingEnd ℂ) (wave n x) = wave n (-x) := by
  unfold wave
  rw [← exp_conj]
  congr 1
  simp only [map_mul, map_div₀, conj_ofReal, conj_I, map_ofNat, map_natCast]
  push_cast
  ring

theorem wave_int (n : Nat) (hn : 0 < n) (k : Int) : wave n ((n : ℝ) * k) = 1 := by
  unfold wave
  have h : (n : ℂ) ≠ 0 := by exact_mod_cast hn.ne'
  have : 2 * (Real.pi : ℂ) * I * (((n : ℝ) * (k : ℝ) : ℝ) : ℂ) / (n : ℂ) = k * (2 * Real.pi * I) := by
    push_cast
    field_simp
  rw [this, exp_int_mul_two_pi_mul_I]

theorem wave_pow (n : Nat) (x : ℝ) (j : Nat) : wave n ((j : ℝ) * x) = wave n x ^ j := by
  unfold wave
  rw [← exp_nat_mul]
  congr 1
  push_cast
  ring

theorem wave_ne_one (n : Nat) (hn : 0 < n) (d : Int) (hd : ¬ (n : Int) ∣ d) : wave n (d : ℝ) ≠ 1 := by
  unfold wave
  intro h
  rw [exp_eq_one_iff] at h
  obtain ⟨k, hk⟩ := h
  apply hd
  refine ⟨k, ?_⟩
  have h1 : (n : ℂ) ≠ 0 := by exact_mod_cast hn.ne'
  have h2 : 2 * (Real.pi : ℂ) * I ≠ 0 := two_pi_I_ne_zero
  rw [div_eq_iff h1] at hk
  have : (2 * (Real.pi : ℂ) * I) * ((d : ℝ) : ℂ) = (2 * (Real.pi : ℂ) * I) * (n * k) := by
    rw [hk]; ring
  have := mul_left_cancel₀ h2 this
  push_cast at this
  exact_mod_cast this

/-- Orthogonality. -/
theorem orth (n : Nat) (hn : 0 < n) (d : Int) :
    ∑ j ∈ range n, wave n ((j : ℝ) * d) = if (n : Int) ∣ d then (n : ℂ) else 0 := by
  split_ifs with h
  · obtain ⟨k, rfl⟩ := h
    have : ∀ j ∈ range n, wave n ((j : ℝ) * ((n : Int) * k : Int)) = 1 := by
      intro j _
      have e : (j : ℝ) * (((n : Int) * k : Int) : ℝ) = (n : ℝ) * ((j * k : Int) : ℝ) := by
        push_cast; ring
      rw [e, wave_int n hn]
    rw [sum_congr rfl this]
    simp
  · have e : ∀ j ∈ range n, wave n ((j : ℝ) * d) = wave n (d : ℝ) ^ j := fun j _ => wave_pow n d j
    rw [sum_congr rfl e, geom_sum_eq (wave_ne_one n hn d h)]
    have : wave n (d : ℝ) ^ n = 1 := by
      rw [← wave_pow, wave_int n hn]
    rw [this, sub_self, zero_div]

theorem mode_wave (x : List ℝ) (l : Nat) :
    mode x l = ∑ j ∈ range x.length, ((x[j]?).getD 0 : ℂ) * wave x.length (-((j : ℝ) * l)) := by
  unfold mode wave
  apply sum_congr rfl
  intro j _
  congr 2
  push_cast
  ring

/-- Inverse transform. -/
theorem inverse (x : List ℝ) (j : Nat) (hj : j < x.length) :
    (1 / (x.length : ℂ)) * ∑ l ∈ range x.length, mode x l * wave x.length ((j : ℝ) * l) =
      ((x[j]?).getD 0 : ℂ) := by
  set n := x.length with hn
  have hn0 : 0 < n := by omega
  have e : ∀ l ∈ range n, mode x l * wave n ((j : ℝ) * l) =
      ∑ i ∈ range n, ((x[i]?).getD 0 : ℂ) * wave n ((l : ℝ) * ((j : Int) - (i : Int) : Int)) := by
    intro l _
    rw [mode_wave, sum_mul]
    apply sum_congr rfl
    intro i _
    rw [mul_assoc, ← hn, ← wave_add]
    congr 2
    push_cast
    ring
  rw [sum_congr rfl e, sum_comm]
  have e2 : ∀ i ∈ range n, ∑ l ∈ range n, ((x[i]?).getD 0 : ℂ) *
      wave n ((l : ℝ) * ((j : Int) - (i : Int) : Int)) =
      if i = j then (n : ℂ) * ((x[i]?).getD 0 : ℂ) else 0 := by
    intro i hi
    rw [← mul_sum, orth n hn0]
    have hi := mem_range.1 hi
    split_ifs with h1 h2 h2
    · ring
    · exfalso
      have := Int.eq_zero_of_abs_lt_dvd h1 (by rw [abs_lt]; omega)
      omega
    · subst h2; simp at h1
    · simp
  rw [sum_congr rfl e2, sum_ite_eq' , if_pos (mem_range.2 hj)]
  have : (n : ℂ) ≠ 0 := by exact_mod_cast hn0.ne'
  field_simp

theorem mode_inj {x y : List ℝ} (h : x.length = y.length)
    (hm : ∀ l, l < x.length → mode x l = mode y l) : x = y := by
  apply List.ext_getElem h
  intro j h1 h2
  have a := inverse x j h1
  have b := inverse y j h2
  rw [← h] at b
  rw [sum_congr rfl fun l hl => by rw [hm l (mem_range.1 hl)], b] at a
  have := ofReal_injective a
  rw [List.getElem?_eq_getElem h1, List.getElem?_eq_getElem h2] at this
  exact this.symm

/-- `c` gives the modes of a timeline with values `f`. -/
theorem modes_of {n : Nat} (hn : 0 < n) (c : Nat → ℂ) (y : List ℝ) (hy : y.length = n)
    (h : ∀ j, j < n → ((y[j]?).getD 0 : ℂ) = 1 / n * ∑ l ∈ range n, c l * wave n ((j : ℝ) * l))
    (l : Nat) (hl : l < n) : mode y l = c l := by
  rw [mode_wave, hy]
  have e : ∀ j ∈ range n, ((y[j]?).getD 0 : ℂ) * wave n (-((j : ℝ) * l)) =
      ∑ k ∈ range n, (1 / n * c k) * wave n ((j : ℝ) * ((k : Int) - (l : Int) : Int)) := by
    intro j hj
    rw [h j (mem_range.1 hj), mul_sum, sum_mul]
    apply sum_congr rfl
    intro k _
    rw [mul_assoc, mul_assoc, ← wave_add, ← mul_assoc]
    congr 2
    push_cast
    ring
  rw [sum_congr rfl e, sum_comm]
  have e2 : ∀ k ∈ range n, ∑ j ∈ range n, (1 / n * c k) *
      wave n ((j : ℝ) * ((k : Int) - (l : Int) : Int)) = if k = l then c k else 0 := by
    intro k hk
    rw [← mul_sum, orth n hn]
    have hk := mem_range.1 hk
    have : (n : ℂ) ≠ 0 := by exact_mod_cast hn.ne'
    split_ifs with h1 h2 h2
    · field_simp
    · exfalso
      have := Int.eq_zero_of_abs_lt_dvd h1 (by rw [abs_lt]; omega)
      omega
    · subst h2; simp at h1
    · simp
  rw [sum_congr rfl e2, sum_ite_eq', if_pos (mem_range.2 hl)]

/-- Modes of real data: `X(n - l)` is the conjugate of `X(l)`. -/
theorem mode_conj (x : List ℝ) (l : Nat) (h1 : l ≤ x.length) :
    mode x (x.length - l) = star (mode x l) := by
  rw [mode_wave, mode_wave]
  show _ = (starRingEnd ℂ) _
  rw [map_sum]
  apply sum_congr rfl
  intro j hj
  have hn0 : 0 < x.length := by
    have := mem_range.1 hj
    omega
  rw [map_mul, conj_ofReal, wave_conj]
  congr 1
  have : -((j : ℝ) * ((x.length - l : Nat) : ℝ)) =
      (x.length : ℝ) * ((-(j : Int) : Int) : ℝ) + - -((j : ℝ) * l) := by
    rw [Nat.cast_sub h1]
    push_cast
    ring
  rw [this, wave_add, wave_int _ hn0, one_mul]

theorem mode_zero_real (x : List ℝ) : mode x 0 = ((mode x 0).re : ℂ) := by
  rw [mode_wave]
  have : (∑ j ∈ range x.length, ((x[j]?).getD 0 : ℂ) * wave x.length (-((j : ℝ) * (0 : Nat)))) =
      ((∑ j ∈ range x.length, (x[j]?).getD 0 : ℝ) : ℂ) := by
    push_cast
    apply sum_congr rfl
    intro j _
    rw [mul_zero, neg_zero, wave_zero, mul_one]
  rw [this, ofReal_re]

theorem mode_half_real (x : List ℝ) (l : Nat) (h : 2 * l = x.length) :
    mode x l = ((mode x l).re : ℂ) := by
  have := mode_conj x l (by omega)
  have e : x.length - l = l := by omega
  rw [e] at this
  have := congrArg Complex.im this
  apply Complex.ext
  · simp
  · simp at this ⊢
    linarith

theorem star_real_mul (g : ℝ) (z : ℂ) : star ((g : ℂ) * z) = (g : ℂ) * star z := by
  show (starRingEnd ℂ) _ = _ * (starRingEnd ℂ) _
  rw [map_mul, conj_ofReal]

/-- The spectrum that `irfft` uses when the modes of `x` have been multiplied by real numbers. -/
theorem hermitian_gain (x : List ℝ) (gain : Nat → ℝ) (fd : List ℂ)
    (hfd : ∀ k, k ≤ x.length / 2 → (fd[k]?).getD 0 = (gain k : ℂ) * mode x k) (l : Nat)
    (hl : l < x.length) :
    hermitian x.length fd l = (gain (min l (x.length - l)) : ℂ) * mode x l := by
  unfold hermitian
  split_ifs with h1 h2 h3
  · subst h1
    rw [hfd 0 (by omega), Nat.zero_min, mode_zero_real]
    rw [← ofReal_mul, ofReal_re]
  · rw [hfd l (by omega), Nat.min_eq_left (by omega)]
  · rw [hfd l (by omega), Nat.min_eq_left (by omega), mode_half_real x l h3]
    rw [← ofReal_mul, ofReal_re]
  · rw [hfd _ (by omega), Nat.min_eq_right (by omega), star_real_mul, ← mode_conj x _ (by omega)]
    congr 2
    omega

theorem sum_reflect (n : Nat) (f : Nat → ℂ) (h : f n = f 0) :
    ∑ l ∈ range n, f (n - l) = ∑ l ∈ range n, f l := by
  have a : ∑ l ∈ range n, f (n - l) + f 0 = ∑ l ∈ range (n + 1), f (n - l) := by
    rw [sum_range_succ, Nat.sub_self]
  have b : ∑ l ∈ range n, f l + f n = ∑ l ∈ range (n + 1), f l := by
    rw [sum_range_succ]
  have c : ∑ l ∈ range (n + 1), f (n - l) = ∑ l ∈ range (n + 1), f l := by
    have := sum_range_reflect f (n + 1)
    rw [← this]
    apply sum_congr rfl
    intro l _
    congr 1
  rw [h] at b
  exact add_right_cancel (a.trans (c.trans b.symm))

/-- `irfft` of modes that have been multiplied by real numbers. -/
theorem irfft_gain (x : List ℝ) (hx : 0 < x.length) (gain : Nat → ℝ) (fd : List ℂ)
    (hfd : ∀ k, k ≤ x.length / 2 → (fd[k]?).getD 0 = (gain k : ℂ) * mode x k) :
    Filtered gain x (irfft fd x.length) := by
  have hlen : (irfft fd x.length).length = x.length := by simp [irfft]
  refine ⟨hlen, ?_⟩
  set n := x.length with hn
  apply modes_of hx _ _ hlen
  intro j hj
  have hs : ∑ l ∈ range n, hermitian n fd l * wave n ((j : ℝ) * l) =
      ∑ l ∈ range n, (gain (min l (n - l)) : ℂ) * mode x l * wave n ((j : ℝ) * l) := by
    apply sum_congr rfl
    intro l hl
    rw [hermitian_gain x gain fd hfd l (mem_range.1 hl)]
  have hget : ((irfft fd n)[j]?).getD 0 =
      (1 / n * ∑ l ∈ range n, hermitian n fd l * wave n ((j : ℝ) * l)).re := by
    unfold irfft
    rw [List.getElem?_map, List.getElem?_range hj]
    rfl
  rw [hget, hs]
  -- the sum is real
  have hreal : (starRingEnd ℂ) (∑ l ∈ range n, (gain (min l (n - l)) : ℂ) * mode x l *
      wave n ((j : ℝ) * l)) = ∑ l ∈ range n, (gain (min l (n - l)) : ℂ) * mode x l *
      wave n ((j : ℝ) * l) := by
    rw [map_sum]
    have e : ∀ l ∈ range n, (starRingEnd ℂ) ((gain (min l (n - l)) : ℂ) * mode x l *
        wave n ((j : ℝ) * l)) = (fun l : Nat => (gain (min l (n - l)) : ℂ) * mode x l *
        wave n ((j : ℝ) * l)) (n - l) := by
      intro l hl
      have hl := mem_range.1 hl
      dsimp only
      rw [map_mul, map_mul, conj_ofReal, wave_conj, hn, mode_conj x l (by omega), ← hn]
      have e1 : min (n - l) (n - (n - l)) = min l (n - l) := by omega
      rw [e1]
      congr 1
      have : (j : ℝ) * ((n - l : Nat) : ℝ) = (n : ℝ) * ((j : Int) : ℝ) + -((j : ℝ) * l) := by
        rw [Nat.cast_sub hl.le]
        push_cast
        ring
      rw [this, wave_add, wave_int n hx, one_mul]
    rw [sum_congr rfl e, sum_reflect n (fun l : Nat => (gain (min l (n - l)) : ℂ) * mode x l *
        wave n ((j : ℝ) * l))]
    have h0 : mode x n = mode x 0 := by
      have := mode_conj x 0 (by omega)
      rw [Nat.sub_zero, mode_zero_real] at this
      rw [hn, this, mode_zero_real]
      show (starRingEnd ℂ) _ = _
      rw [conj_ofReal]
      simp
    have e1 : min n (n - n) = min 0 (n - 0) := by omega
    rw [h0, e1]
    congr 1
    have : (j : ℝ) * (n : ℝ) = (n : ℝ) * ((j : Int) : ℝ) := by push_cast; ring
    rw [this, wave_int n hx]
    simp [wave_zero]
  have hre : ∀ z : ℂ, (starRingEnd ℂ) z = z → (z.re : ℂ) = z := fun z hz => conj_eq_iff_re.1 hz
  apply hre
  rw [map_mul, hreal]
  congr 1
  simp

theorem filtered_unique {gain : Nat → ℝ} {x y z : List ℝ} (hy : Filtered gain x y)
    (hz : Filtered gain x z) : y = z := by
  apply mode_inj (hy.size.trans hz.size.symm)
  intro l hl
  rw [hy.modes l (by rw [← hy.size]; exact hl), hz.modes l (by rw [← hy.size]; exact hl)]

theorem filtered_congr {g g' : Nat → ℝ} {x y : List ℝ} (hy : Filtered g x y)
    (h : ∀ k, k ≤ x.length / 2 → g k = g' k) : Filtered g' x y := by
  refine ⟨hy.size, ?_⟩
  intro l hl
  rw [hy.modes l hl, h _ (by omega)]

theorem rfft_spec (x : List ℝ) (hx : 0 < x.length) :
    ∃ fd, rfft x = .ok fd ∧ fd.length = x.length / 2 + 1 ∧
      ∀ k, k ≤ x.length / 2 → fd[k]? = some (mode x k) := by
  refine ⟨_, by unfold rfft; rw [if_neg (by omega)], by simp, ?_⟩
  intro k hk
  rw [List.getElem?_map, List.getElem?_range (by omega), mode_wave]
  rfl

end Verif.Filters
