import Verif.Lemmas.FilterAny

/-!
# Properties: filters for any setting (C151)

Gains, combinations of timelines: see `Verif.Spec.Filters`.
-/

noncomputable section

namespace Verif.Props

open Verif.Filters Complex Finset

/-- Parseval's theorem. -/
theorem parseval (x : List ℝ) :
    ∑ l ∈ range x.length, normSq (mode x l) =
      x.length * ∑ j ∈ range x.length, ((x[j]?).getD 0) ^ 2 := by
  by_cases h0 : x.length = 0
  · rw [h0]
    simp
  have hn : (x.length : ℂ) ≠ 0 := by exact_mod_cast h0
  have e : ∀ j ∈ range x.length, (((x[j]?).getD 0 : ℝ) : ℂ) * ((x[j]?).getD 0 : ℝ) =
      ∑ l ∈ range x.length, (1 / (x.length : ℂ)) *
        (((x[j]?).getD 0 : ℝ) * (mode x l * wave x.length ((j : ℝ) * l))) := by
    intro j hj
    have := inverse x j (mem_range.1 hj)
    nth_rewrite 2 [← this]
    rw [mul_sum, mul_sum]
    apply sum_congr rfl
    intro l _
    ring
  have e2 : ∀ l ∈ range x.length, ∑ j ∈ range x.length, (1 / (x.length : ℂ)) *
      ((((x[j]?).getD 0 : ℝ) : ℂ) * (mode x l * wave x.length ((j : ℝ) * l))) =
      (1 / (x.length : ℂ)) * (normSq (mode x l) : ℂ) := by
    intro l _
    rw [← mul_sum]
    congr 1
    rw [← mul_conj]
    nth_rewrite 3 [mode_wave]
    rw [map_sum, mul_sum]
    apply sum_congr rfl
    intro j _
    rw [map_mul, conj_ofReal, wave_conj, neg_neg]
    ring
  have key : ((∑ j ∈ range x.length, ((x[j]?).getD 0) ^ 2 : ℝ) : ℂ) =
      (1 / (x.length : ℂ)) * ((∑ l ∈ range x.length, normSq (mode x l) : ℝ) : ℂ) := by
    push_cast
    rw [mul_sum, ← sum_congr rfl e2, sum_comm, ← sum_congr rfl e]
    apply sum_congr rfl
    intro j _
    ring
  have : ((∑ l ∈ range x.length, normSq (mode x l) : ℝ) : ℂ) =
      ((x.length * ∑ j ∈ range x.length, ((x[j]?).getD 0) ^ 2 : ℝ) : ℂ) := by
    rw [ofReal_mul, key, ofReal_natCast, ← mul_assoc, mul_one_div_cancel hn, one_mul]
  exact_mod_cast this

theorem range_sum (x : List ℝ) :
    ∑ j ∈ range x.length, ((x[j]?).getD 0) ^ 2 = (x.map (· ^ 2)).sum := by
  induction x with
  | nil => simp
  | cons a x ih =>
    rw [List.length_cons, sum_range_succ', List.map_cons, List.sum_cons, ← ih]
    simp [add_comm]

theorem filtered_energy {g : Nat → ℝ} (hg : ∀ k, 0 ≤ g k ∧ g k ≤ 1) {x y : List ℝ}
    (h : Filtered g x y) : (y.map (· ^ 2)).sum ≤ (x.map (· ^ 2)).sum := by
  by_cases h0 : x.length = 0
  · have hy : y.length = 0 := by rw [h.size, h0]
    rw [List.length_eq_zero_iff.1 h0, List.length_eq_zero_iff.1 hy]
  have hpos : (0 : ℝ) < x.length := by exact_mod_cast Nat.pos_of_ne_zero h0
  have a := parseval x
  have b := parseval y
  rw [h.size, ← h.size, range_sum, h.size] at b
  rw [range_sum] at a
  have : ∑ l ∈ range x.length, normSq (mode y l) ≤ ∑ l ∈ range x.length, normSq (mode x l) := by
    apply sum_le_sum
    intro l hl
    rw [h.modes l (mem_range.1 hl), normSq_mul, normSq_ofReal]
    obtain ⟨g1, g2⟩ := hg (min l (x.length - l))
    nlinarith [normSq_nonneg (mode x l), mul_nonneg g1 g1, mul_le_mul g2 g2 g1 zero_le_one]
  rw [a, b] at this
  exact le_of_mul_le_mul_left this hpos

theorem root_gain (u : ℝ) (hu : 0 ≤ u) : 0 ≤ Real.sqrt (1 / (1 + u)) ∧ Real.sqrt (1 / (1 + u)) ≤ 1 := by
  refine ⟨Real.sqrt_nonneg _, ?_⟩
  refine Real.sqrt_le_iff.2 ⟨zero_le_one, ?_⟩
  rw [one_pow, div_le_one (by linarith)]
  linarith


/-- `filter_tod_highpass` for a cutoff that is not zero, or order 0. -/
theorem highpass_gain (n : Nat) (hn : 0 < n) (fsamp : ℝ) (hs : 0 < fsamp) (wc : ℝ) (m : Nat)
    (h : ¬ (wc = 0 ∧ 0 < m)) :
    ∃ g : Nat → ℝ, (∀ k, 0 ≤ g k ∧ g k ≤ 1) ∧ ∀ tod : List ℝ, tod.length = n →
      ∃ out, filterTodHighpass tod fsamp wc m = .ok (some out) ∧ Filtered g tod out := by
  have hb : ∀ k, ∃ g : ℝ, (0 ≤ g ∧ g ≤ 1) ∧ butterworth fsamp wc m n k = some g := by
    intro k
    unfold butterworth
    dsimp only
    split_ifs with h1 h2 h3
    · exact ⟨_, root_gain 1 zero_le_one, rfl⟩
    · exact (h ⟨h3, by omega⟩).elim
    · exact ⟨0, by norm_num, rfl⟩
    · exact ⟨_, root_gain _ (by rw [pow_mul]; positivity), rfl⟩
  choose g g1 g2 using hb
  refine ⟨g, g1, fun tod ht => ?_⟩
  exact highpass_spec tod (by omega) fsamp hs wc m g fun k _ => by rw [ht, g2]

/-- `filter_tod_highpass` for any cutoff and order. -/
theorem highpass_any (n : Nat) (hn : 0 < n) (fsamp : ℝ) (hs : 0 < fsamp) (wc : ℝ) (m : Nat) :
    (∀ tod : List ℝ, tod.length = n → filterTodHighpass tod fsamp wc m = .ok none) ∨
    ∃ g : Nat → ℝ, (∀ k, 0 ≤ g k ∧ g k ≤ 1) ∧ ∀ tod : List ℝ, tod.length = n →
      ∃ out, filterTodHighpass tod fsamp wc m = .ok (some out) ∧ Filtered g tod out := by
  by_cases h : wc = 0 ∧ 0 < m
  · left
    obtain ⟨rfl, hm⟩ := h
    intro tod ht
    exact C92_violation tod (by omega) fsamp hs m hm
  · exact .inr (highpass_gain n hn fsamp hs wc m h)

/-- **C151.** For every sampling rate, plate frequency, cutoff and order, and every number of samples:
the filters of a scan raise the same error for all timelines, or make NaN of all timelines, or
multiply each frequency of all timelines by one and the same number between 0 and 1. -/
theorem C151_gain (o : FilterOpts) (hs : 0 < o.fsamp) (n : Nat) (hn : 0 < n) :
    (∀ tod : List ℝ, tod.length = n → filterTod o tod = .error .valueError) ∨
    (∀ tod : List ℝ, tod.length = n → filterTod o tod = .ok none) ∨
    ∃ gain : Nat → ℝ, (∀ k, 0 ≤ gain k ∧ gain k ≤ 1) ∧ ∀ tod : List ℝ, tod.length = n →
      ∃ out, filterTod o tod = .ok (some out) ∧ Filtered gain tod out := by
  have a : (∀ tod : List ℝ, tod.length = n → filter4fStep o tod = .error .valueError) ∨
      ∃ g : Nat → ℝ, (∀ k, 0 ≤ g k ∧ g k ≤ 1) ∧ ∀ tod : List ℝ, tod.length = n →
        ∃ out, filter4fStep o tod = .ok out ∧ Filtered g tod out := by
    unfold filter4fStep
    by_cases h1 : o.filter4f = true
    · by_cases h2 : o.mode = .continuous
      · simp only [h1, h2, if_true]
        exact hwp_any n hn o.fsamp o.hwpFreq hs.ne'
      · left
        intro tod _
        rw [if_pos h1, if_neg h2]
    · right
      refine ⟨fun _ => 1, by norm_num, fun tod _ => ⟨tod, by rw [if_neg h1], rfl, fun l _ => by simp⟩⟩
  have b : (∀ tod : List ℝ, tod.length = n → highpassStep o tod = .ok none) ∨
      ∃ g : Nat → ℝ, (∀ k, 0 ≤ g k ∧ g k ≤ 1) ∧ ∀ tod : List ℝ, tod.length = n →
        ∃ out, highpassStep o tod = .ok (some out) ∧ Filtered g tod out := by
    by_cases h1 : o.highpass = true
    · cases hd : o.dict with
      | none =>
        right
        refine ⟨fun k => if k = 0 then 0 else 1, fun k => by dsimp only; split_ifs <;> norm_num,
          fun tod ht => C92_mean tod (by omega) o h1 hd⟩
      | some p =>
        unfold highpassStep
        simp only [h1, hd, if_true]
        exact highpass_any n hn o.fsamp hs p.1 p.2
    · right
      refine ⟨fun _ => 1, by norm_num, fun tod _ => ⟨tod, ?_, rfl, fun l _ => by simp⟩⟩
      unfold highpassStep
      rw [if_neg h1]
  unfold filterTod
  rcases a with a | ⟨g, g1, g2⟩
  · left
    intro tod ht
    rw [a tod ht]
    rfl
  · right
    rcases b with b | ⟨g', g1', g2'⟩
    · left
      intro tod ht
      obtain ⟨x, x1, x2⟩ := g2 tod ht
      rw [x1]
      exact b x (by rw [x2.size, ht])
    · right
      refine ⟨fun k => g k * g' k, fun k => ⟨mul_nonneg (g1 k).1 (g1' k).1,
        mul_le_one₀ (g1 k).2 (g1' k).1 (g1' k).2⟩, fun tod ht => ?_⟩
      obtain ⟨x, x1, x2⟩ := g2 tod ht
      obtain ⟨y, y1, y2⟩ := g2' x (by rw [x2.size, ht])
      refine ⟨y, ?_, by rw [y2.size, x2.size], ?_⟩
      · rw [x1]
        exact y1
      · intro l hl
        rw [y2.modes l (by rw [x2.size]; exact hl), x2.modes l hl, x2.size]
        push_cast
        ring

theorem gain_of (o : FilterOpts) (hs : 0 < o.fsamp) (x x' : List ℝ) (hn : x ≠ [])
    (h : filterTod o x = .ok (some x')) :
    ∃ gain : Nat → ℝ, (∀ k, 0 ≤ gain k ∧ gain k ≤ 1) ∧ ∀ tod : List ℝ, tod.length = x.length →
      ∃ out, filterTod o tod = .ok (some out) ∧ Filtered gain tod out := by
  rcases C151_gain o hs x.length (List.length_pos_iff.2 hn) with e | e | e
  · rw [e x rfl] at h
    cases h
  · rw [e x rfl] at h
    cases h
  · exact e

/-- **C151.** No setting of the filters amplifies a timeline: the sum of the squares does not grow. -/
theorem C151_energy (o : FilterOpts) (hs : 0 < o.fsamp) (tod out : List ℝ) (hn : tod ≠ [])
    (h : filterTod o tod = .ok (some out)) :
    out.length = tod.length ∧ (out.map (· ^ 2)).sum ≤ (tod.map (· ^ 2)).sum := by
  obtain ⟨g, g1, g2⟩ := gain_of o hs tod out hn h
  obtain ⟨y, y1, y2⟩ := g2 tod rfl
  obtain rfl := Option.some.inj (Except.ok.inj (h.symm.trans y1))
  exact ⟨y2.size, filtered_energy g1 y2⟩

/-- **C151.** The filters are linear for any setting with which they return: if they do so for one
timeline they do for all of its length. -/
theorem C151_linear (o : FilterOpts) (hs : 0 < o.fsamp) (x x' : List ℝ) (hn : x ≠ [])
    (h : filterTod o x = .ok (some x')) (y : List ℝ) (hy : y.length = x.length) (a b : ℝ) :
    ∃ y', filterTod o y = .ok (some y') ∧
      filterTod o (combine a b x y) = .ok (some (combine a b x' y')) := by
  obtain ⟨g, -, g2⟩ := gain_of o hs x x' hn h
  obtain ⟨x'', h1, h2⟩ := g2 x rfl
  obtain rfl := Option.some.inj (Except.ok.inj (h.symm.trans h1))
  obtain ⟨y', k1, k2⟩ := g2 y hy
  obtain ⟨z, z1, z2⟩ := g2 (combine a b x y) (by simp [combine, hy])
  refine ⟨y', k1, ?_⟩
  rw [z1, filtered_unique z2 (filtered_combine h2 k2 hy.symm a b)]

/-- The three cases occur: mean subtraction works, a plate that does not turn is refused, cutoff zero
makes NaN. -/
example (tod : List ℝ) (h : tod.length = 5) :
    (∃ out, filterTod ⟨false, true, .stepped, 0, 1, none⟩ tod = .ok (some out)) ∧
    filterTod ⟨true, true, .stepped, 0, 1, none⟩ tod = .error .valueError ∧
    filterTod ⟨false, true, .stepped, 0, 1, some (0, 2)⟩ tod = .ok none :=
  ⟨⟨_, rfl⟩, rfl, C92_violation tod (by omega) 1 one_pos 2 two_pos⟩

/-- The hypotheses of `C151_energy` are met: 1, 2, 3 becomes -1, 0, 1. -/
example : filterTod ⟨false, true, .none, 0, 1, none⟩ [1, 2, 3] = .ok (some [-1, 0, 1]) := by
  show Except.ok (some (subtractMean [1, 2, 3])) = _
  norm_num [subtractMean]

end Verif.Props
