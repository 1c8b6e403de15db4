import Verif.Props.Filters

/-! # Lemmas: the 4f filter for any frequency of the plate -/

noncomputable section

namespace Verif.Filters

open Verif.Signal Verif.Spec Verif.Props

/-- `fd[i:j] *= w`: each mode is multiplied by a number. -/
theorem assign_weights (a : List ℂ) (i j : Int) (w : List ℝ)
    (hw : w.length = (pySlice a i j).length) :
    ∃ r, pyAssign a i j (List.zipWith (fun z (x : ℝ) => z * (x : ℂ)) (pySlice a i j) w) = .ok r ∧
      r.length = a.length ∧ ∀ (k : Nat) (z : ℂ), a[k]? = some z → r[k]? = some (z *
        ((if pyClip a.length i ≤ k ∧ k < pyClip a.length j then (w[k - pyClip a.length i]?).getD 0 else 1 : ℝ) : ℂ)) := by
  have hc : ∀ i : Int, pyClip a.length i ≤ a.length ∨ 0 ≤ i := by
    intro i
    unfold pyClip
    split
    · left; omega
    · right; omega
  have hle : ∀ i : Int, pyClip a.length i ≤ a.length := by
    intro i
    rcases hc i with h | h
    · exact h
    · unfold pyClip
      rw [if_neg (by omega)]
      omega
  have hi := hle i
  have hj := hle j
  unfold pySlice at hw ⊢
  unfold pyAssign
  generalize pyClip a.length i = s at *
  generalize pyClip a.length j = e at *
  have hn : ((a.drop s).take (e - s)).length = e - s := by simp; omega
  rw [hn] at hw
  have hz : (List.zipWith (fun z (x : ℝ) => z * (x : ℂ)) ((a.drop s).take (e - s)) w).length = e - s := by
    simp [hw]; omega
  dsimp only
  rw [if_pos hz]
  refine ⟨_, rfl, length_setRange _ _ _ (by omega), ?_⟩
  intro k z hk
  have hlt : k < a.length := (List.getElem?_eq_some_iff.1 hk).1
  rw [getElem?_setRange _ _ _ _ (by omega), hz]
  by_cases h : s ≤ k ∧ k < e
  · rw [if_pos (by omega), if_pos h, List.getElem?_zipWith, List.getElem?_take,
      if_pos (by omega), List.getElem?_drop, show s + (k - s) = k by omega, hk,
      List.getElem?_eq_getElem (show k - s < w.length by omega)]
    rfl
  · rw [if_neg (by omega), if_neg h, hk]
    simp

theorem zero_weights (a : List ℂ) (i j : Int) :
    ∃ r, zeroSlice a i j = .ok r ∧ r.length = a.length ∧
      ∀ (k : Nat) (z : ℂ), a[k]? = some z → r[k]? = some (z *
        ((if pyClip a.length i ≤ k ∧ k < pyClip a.length j then 0 else 1 : ℝ) : ℂ)) := by
  obtain ⟨r, r1, r2, r3⟩ := assign_weights a i j (List.replicate (pySlice a i j).length 0) (by simp)
  refine ⟨r, ?_, r2, ?_⟩
  · rw [← r1]
    unfold zeroSlice
    congr 1
    apply List.ext_getElem (by simp)
    intro k h1 h2
    simp
  · intro k z hk
    rw [r3 k z hk]
    congr 3
    split_ifs
    · cases hx : (List.replicate (pySlice a i j).length (0 : ℝ))[k - pyClip a.length i]? with
      | none => rfl
      | some x => exact List.eq_of_mem_replicate (List.mem_of_getElem? hx)
    · rfl

/-- `filter_ft_hwp` multiplies each mode by a number that does not depend on the modes, or raises
ValueError for all arrays of this size. -/
theorem ft_mask (n : Nat) (c w : Int) :
    (∀ fd : List ℂ, fd.length = n → filterFtHwp fd c w = .error .valueError) ∨
    ∃ g : Nat → ℝ, (∀ k, 0 ≤ g k ∧ g k ≤ 1) ∧ ∀ fd : List ℂ, fd.length = n →
      ∃ r, filterFtHwp fd c w = .ok r ∧ r.length = n ∧
        ∀ (k : Nat) (z : ℂ), fd[k]? = some z → r[k]? = some (z * (g k : ℂ)) := by
  set left := c - w.tdiv 2 with hl
  set right := c + w.tdiv 2 + 1 with hr
  have hlen : ∀ fd : List ℂ, fd.length = n → (pySlice fd left right).length =
      min (pyClip n right - pyClip n left) (n - pyClip n left) := by
    intro fd h
    unfold pySlice
    rw [h]
    simp [h]
  generalize hm : min (pyClip n right - pyClip n left) (n - pyClip n left) = m at hlen
  by_cases h1 : m = 1
  · left
    intro fd h
    unfold filterFtHwp
    dsimp only
    rw [← hl, ← hr, hlen fd h, h1, C28_tukey_window_violation]
    rfl
  right
  obtain ⟨win, w1, w2, w3⟩ : ∃ win, tukeyWindow m = .ok win ∧ win.length = m ∧
      ∀ x ∈ win, 0 ≤ x ∧ x ≤ 1 := by
    by_cases h0 : m = 0
    · exact ⟨[], by rw [h0]; exact C28_tukey_window_partial.1, by simp [h0], by simp⟩
    · obtain ⟨win, t1, t2, -, -, -, t3, -⟩ := C28_tukey_window_partial.2 m (by omega)
      exact ⟨win, t1, t2, t3⟩
  refine ⟨fun k => (if pyClip n left ≤ k ∧ k < pyClip n right then
      (win[k - pyClip n left]?).getD 0 else 1) *
    (if pyClip n 0 ≤ k ∧ k < pyClip n left then 0 else 1) *
    (if pyClip n right ≤ k ∧ k < pyClip n n then 0 else 1), ?_, ?_⟩
  · intro k
    have h : 0 ≤ (win[k - pyClip n left]?).getD 0 ∧ (win[k - pyClip n left]?).getD 0 ≤ 1 := by
      cases hx : win[k - pyClip n left]? with
      | none => simp
      | some x => exact w3 x (List.mem_of_getElem? hx)
    dsimp only
    split_ifs <;> simp [h.1, h.2]
  · intro fd h
    obtain ⟨r1, a1, a2, a3⟩ := assign_weights fd left right win (by rw [hlen fd h, w2])
    obtain ⟨r2, b1, b2, b3⟩ := zero_weights r1 0 left
    obtain ⟨r3, c1, c2, c3⟩ := zero_weights r2 right r2.length
    refine ⟨r3, ?_, by omega, ?_⟩
    · unfold filterFtHwp
      dsimp only
      rw [← hl, ← hr, hlen fd h, w1]
      simp only [bind, Except.bind]
      rw [a1]
      dsimp only
      rw [b1]
      exact c1
    · intro k z hk
      have e1 := a3 k z hk
      have e2 := b3 k _ e1
      have e3 := c3 k _ e2
      rw [e3]
      have h2 : r2.length = n := by omega
      have h1 : r1.length = n := by omega
      rw [h, h1, h2]
      push_cast
      ring_nf

/-- `filter_tod_hwp` for any frequency of the plate. -/
theorem hwp_any (n : Nat) (hn : 0 < n) (fsamp f : ℝ) (hs : fsamp ≠ 0) :
    (∀ tod : List ℝ, tod.length = n → filterTodHwp tod fsamp f = .error .valueError) ∨
    ∃ g : Nat → ℝ, (∀ k, 0 ≤ g k ∧ g k ≤ 1) ∧ ∀ tod : List ℝ, tod.length = n →
      ∃ out, filterTodHwp tod fsamp f = .ok out ∧ Filtered g tod out := by
  rcases ft_mask (n / 2 + 1) (pyRound (4 * f / fsamp * n))
    (pyRound (5 * f / fsamp * n) - pyRound (3 * f / fsamp * n) + 1) with h | ⟨g, g1, h⟩
  · left
    intro tod ht
    obtain ⟨fd, f1, f2, -⟩ := rfft_spec tod (by omega)
    unfold filterTodHwp
    rw [f1]
    simp only [bind, Except.bind, pure, Except.pure]
    rw [if_neg hs, ht, h fd (by omega)]
  · right
    refine ⟨g, g1, fun tod ht => ?_⟩
    obtain ⟨fd, f1, f2, f3⟩ := rfft_spec tod (by omega)
    obtain ⟨r, r1, r2, r3⟩ := h fd (by omega)
    refine ⟨irfft r tod.length, ?_, ?_⟩
    · unfold filterTodHwp
      rw [f1]
      simp only [bind, Except.bind, pure, Except.pure]
      rw [if_neg hs, ht, r1]
    · apply irfft_gain tod (by omega)
      intro k hk
      rw [r3 k _ (f3 k hk), Option.getD_some, mul_comm]

end Verif.Filters
