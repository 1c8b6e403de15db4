import Verif.Model.Step
import Verif.Spec.Tiling
import Verif.Lemmas.List
import Mathlib.Tactic.Ring
import Mathlib.Tactic.Linarith

/-! Helper lemmas for stepping (no claims). -/

set_option linter.unusedSectionVars false

namespace Verif.Step

open Verif.Spec

variable {K : Type} [Add K]

theorem addSlice_nat (arr : List K) (i j : Nat) (v : K) (h1 : i ≤ j) (h2 : j ≤ arr.length) :
    addSlice arr (i : Int) (j : Int) v
      = arr.take i ++ ((arr.take j).drop i).map (· + v) ++ arr.drop j := by
  unfold addSlice
  simp only [pyClip_ofNat]
  rw [Nat.min_eq_left (by omega), Nat.min_eq_left h2, Nat.max_eq_right h1]

theorem length_addSlice (arr : List K) (i j : Nat) (v : K) (h1 : i ≤ j) (h2 : j ≤ arr.length) :
    (addSlice arr (i : Int) (j : Int) v).length = arr.length := by
  rw [addSlice_nat arr i j v h1 h2]
  simp; omega

theorem getElem?_addSlice (arr : List K) (i j k : Nat) (v : K) (h1 : i ≤ j) (h2 : j ≤ arr.length) :
    (addSlice arr (i : Int) (j : Int) v)[k]?
      = if i ≤ k ∧ k < j then arr[k]?.map (· + v) else arr[k]? := by
  rw [addSlice_nat arr i j v h1 h2]
  have l1 : (arr.take i).length = i := by simp; omega
  have l2 : (((arr.take j).drop i).map (· + v)).length = j - i := by simp; omega
  rcases Nat.lt_or_ge k i with hk | hk
  · rw [List.append_assoc, List.getElem?_append_left (by omega), List.getElem?_take, if_pos hk,
      if_neg (by omega)]
  · rcases Nat.lt_or_ge k j with hk2 | hk2
    · rw [List.getElem?_append_left (by simp only [List.length_append]; omega),
        List.getElem?_append_right (by omega), l1, if_pos ⟨hk, hk2⟩, List.getElem?_map,
        List.getElem?_drop, List.getElem?_take]
      have : i + (k - i) = k := by omega
      rw [this, if_pos hk2]
    · rw [List.getElem?_append_right (by simp only [List.length_append]; omega), if_neg (by omega),
        List.getElem?_drop]
      congr 1
      simp only [List.length_append, l1, l2]; omega

omit [Add K] in
theorem gen_next (A : List K) (f : Nat → K) (hf : ∀ q, A[q % A.length]? = some (f q)) (q : Nat) :
    (⟨A, q % A.length⟩ : Gen K).next = .ok (f q, ⟨A, (q + 1) % A.length⟩) := by
  unfold Gen.next
  simp only
  rw [hf q]
  simp

theorem stepLoop_spec (A : List K) (f : Nat → K) (hf : ∀ q, A[q % A.length]? = some (f q))
    (n : Nat) (hn : 0 < n) (m : Nat) (s q : Nat) (ang : K) (arr : List K)
    (h : s + m * n ≤ arr.length) :
    ∃ arr' ang', stepLoop (n:Int) m (s:Int) ang arr ⟨A, q % A.length⟩
        = .ok (arr', ((s + m * n : Nat) : Int), ang', ⟨A, (q + m) % A.length⟩) ∧
      arr'.length = arr.length ∧
      ∀ i, arr'[i]? = if s ≤ i ∧ i < s + m * n then arr[i]?.map (· + f (q + (i - s) / n))
        else arr[i]? := by
  induction m generalizing s q ang arr with
  | zero =>
    refine ⟨arr, ang, by simp [stepLoop], rfl, ?_⟩
    intro i
    rw [if_neg (by omega)]
  | succ m ih =>
    have e : s + (m + 1) * n = s + n + m * n := by ring
    rw [e] at h
    have hs2 : s + n ≤ arr.length := by
      have := Nat.zero_le (m * n)
      omega
    have hlen := length_addSlice arr s (s + n) (f q) (by omega) hs2
    obtain ⟨arr', ang', h1, h2, h3⟩ := ih (s + n) (q + 1) (f q)
      (addSlice arr (s:Int) ((s + n : Nat):Int) (f q)) (by rw [hlen]; exact h)
    refine ⟨arr', ang', ?_, by rw [h2, hlen], ?_⟩
    · simp only [stepLoop, gen_next A f hf q, bind, Except.bind]
      push_cast at h1 ⊢
      rw [h1]
      have e1 : q + 1 + m = q + (m + 1) := by omega
      have e2 : (s:Int) + n + m * n = s + (m + 1) * n := by ring
      rw [e1, e2]
    · intro i
      rw [h3, e, getElem?_addSlice arr s (s + n) i (f q) (by omega) hs2]
      by_cases hi1 : s + n ≤ i ∧ i < s + n + m * n
      · rw [if_pos hi1, if_neg (show ¬ (s ≤ i ∧ i < s + n) by omega),
          if_pos (show s ≤ i ∧ i < s + n + m * n by omega)]
        have : q + (i - s) / n = q + 1 + (i - (s + n)) / n := by
          have : i - s = (i - (s + n)) + n := by omega
          rw [this, Nat.add_div_right _ hn]; omega
        rw [this]
      · rw [if_neg hi1]
        by_cases hi2 : s ≤ i ∧ i < s + n
        · rw [if_pos hi2, if_pos (show s ≤ i ∧ i < s + n + m * n by omega)]
          have : (i - s) / n = 0 := Nat.div_eq_of_lt (by omega)
          rw [this, Nat.add_zero]
        · rw [if_neg hi2, if_neg (by omega)]

/-- One call of `step_array`, for any value of the stored angle. `q` counts the steps taken from
the generator so far. -/
theorem stepArray_spec (A : List K) (f : Nat → K) (hf : ∀ q, A[q % A.length]? = some (f q))
    (n : Nat) (hn : 0 < n) (rem q : Nat) (hrem : rem < n ∨ rem ≤ n) (ang : K) (arr : List K) :
    ∃ arr' rem' q' ang', stepArray arr ⟨n, rem, ang⟩ ⟨A, q % A.length⟩
        = .ok (arr', ⟨n, (rem' : Nat), ang'⟩, ⟨A, q' % A.length⟩) ∧
      arr'.length = arr.length ∧
      (∀ i, arr'[i]? = arr[i]?.map (· + if i < rem then ang else f (q + (i - rem) / n))) ∧
      ((arr.length ≤ rem ∧ rem' = rem - arr.length ∧ q' = q ∧ ang' = ang) ∨
       (rem < arr.length ∧ q + 1 ≤ q' ∧ rem + (q' - q) * n = arr.length + rem' ∧ rem' < n ∧
          ang' = f (q' - 1))) := by
  unfold stepArray
  simp only
  rw [if_neg (by omega)]
  have hnI : (0:Int) < n := by omega
  have hge := ceilDiv_mul_ge ((arr.length:Int) - rem) n hnI
  have hlt := ceilDiv_mul_lt ((arr.length:Int) - rem) n hnI
  generalize ceilDiv ((arr.length:Int) - rem) n = c at *
  by_cases hc : c ≤ 1
  · have e1 : (if c < 1 then (1:Int) else c) = 1 := by split <;> omega
    rw [e1, if_pos rfl]
    have hcn : c * n ≤ n := by
      have := Int.mul_le_mul_of_nonneg_right hc (show (0:Int) ≤ n by omega)
      omega
    by_cases hr : (rem:Int) ≥ arr.length
    · rw [if_pos hr]
      refine ⟨addSlice arr (0:Nat) (arr.length:Nat) ang, rem - arr.length, q, ang, ?_,
        length_addSlice _ _ _ _ (by omega) (by omega), ?_, Or.inl ⟨by omega, rfl, rfl, rfl⟩⟩
      · rw [Nat.cast_sub (by omega)]; rfl
      · intro i
        rw [getElem?_addSlice arr 0 arr.length i ang (by omega) (by omega)]
        by_cases hi : i < arr.length
        · rw [if_pos (by omega), if_pos (by omega)]
        · rw [if_neg (by omega), List.getElem?_eq_none (by omega)]; rfl
    · rw [if_neg hr]
      have hr' : rem < arr.length := by omega
      rw [gen_next A f hf q]
      simp only [bind, Except.bind, pure, Except.pure]
      have hl1 : (addSlice arr (0:Int) (rem:Int) ang).length = arr.length :=
        length_addSlice arr 0 rem ang (by omega) (by omega)
      have hl2 : (addSlice (addSlice arr (0:Int) (rem:Int) ang) (rem:Int) (arr.length:Int)
          (f q)).length = arr.length := by
        rw [length_addSlice _ rem arr.length (f q) (by omega) (by omega), hl1]
      refine ⟨_, n - (arr.length - rem), q + 1, f q, ?_, hl2, ?_,
        Or.inr ⟨hr', by omega, ?_, by omega, by simp⟩⟩
      · rw [pySlice_nat, List.length_drop, List.length_take, hl2, Nat.min_self]
        congr 3
        · congr 1
          omega
      · intro i
        rw [getElem?_addSlice _ rem arr.length i (f q) (by omega) (by omega)]
        have h0 := getElem?_addSlice arr 0 rem i ang (by omega) (by omega)
        rw [show ((0:Nat):Int) = 0 from rfl] at h0
        rw [h0]
        by_cases hi : i < arr.length
        · by_cases hi2 : i < rem
          · rw [if_neg (by omega), if_pos (by omega), if_pos hi2]
          · rw [if_pos (by omega), if_neg (by omega), if_neg hi2]
            rw [Nat.div_eq_of_lt (by omega), Nat.add_zero]
        · rw [if_neg (by omega), if_neg (by omega), List.getElem?_eq_none (by omega)]; rfl
      · have : q + 1 - q = 1 := by omega
        rw [this]; omega
  · have e1 : (if c < 1 then (1:Int) else c) = c := by rw [if_neg (by omega)]
    rw [e1, if_neg (by omega)]
    obtain ⟨m, hm⟩ : ∃ m : Nat, c = (m:Int) + 1 := ⟨(c - 1).toNat, by omega⟩
    have hm1 : (c - 1).toNat = m := by omega
    rw [hm1]
    subst hm
    have em : ((m:Int) + 1) * n = m * n + n := by ring
    have em2 : ((m:Int) + 1 - 1) * n = m * n := by ring
    have hlt' : rem + m * n < arr.length := by
      have : (rem:Int) + m * n < arr.length := by omega
      exact_mod_cast this
    have hge' : arr.length ≤ rem + m * n + n := by
      have : (arr.length:Int) ≤ rem + m * n + n := by omega
      exact_mod_cast this
    have hmn : 0 ≤ m * n := Nat.zero_le _
    -- the optional first addition
    have harr0 : (if (rem:Int) ≠ 0 then addSlice arr 0 (rem:Int) ang else arr)
        = addSlice arr ((0:Nat):Int) (rem:Int) ang := by
      by_cases h0 : rem = 0
      · subst h0
        rw [if_neg (by simp), addSlice_nat arr 0 0 ang (by omega) (by omega)]
        simp
      · rw [if_pos (by omega)]; rfl
    rw [harr0]
    have hl1 : (addSlice arr ((0:Nat):Int) (rem:Int) ang).length = arr.length :=
      length_addSlice arr 0 rem ang (by omega) (by omega)
    obtain ⟨arr1, ang1, hs1, hs2, hs3⟩ := stepLoop_spec A f hf n hn m rem q ang
      (addSlice arr ((0:Nat):Int) (rem:Int) ang) (by omega)
    rw [hs1]
    simp only [bind, Except.bind, pure, Except.pure, gen_next A f hf (q + m)]
    have hl3 : (addSlice arr1 ((rem + m * n : Nat):Int) (arr.length:Int) (f (q + m))).length
        = arr.length := by
      rw [length_addSlice _ _ arr.length _ (by omega) (by omega), hs2, hl1]
    refine ⟨_, n - (arr.length - (rem + m * n)), q + m + 1, f (q + m), ?_, hl3, ?_,
      Or.inr ⟨by omega, by omega, ?_, by omega, by simp⟩⟩
    · rw [pySlice_nat, List.length_drop, List.length_take, hl3, Nat.min_self]
      congr 3
      · congr 1
        omega
    · intro i
      rw [getElem?_addSlice _ _ arr.length i _ (by omega) (by omega), hs3,
        getElem?_addSlice arr 0 rem i ang (by omega) (by omega)]
      by_cases hi : i < arr.length
      · by_cases hi1 : i < rem
        · rw [if_neg (by omega), if_neg (by omega), if_pos (by omega), if_pos hi1]
        · by_cases hi2 : i < rem + m * n
          · rw [if_neg (by omega), if_pos (by omega), if_neg (by omega), if_neg hi1]
          · rw [if_pos (by omega), if_neg (by omega), if_neg (by omega), if_neg hi1]
            have hd : (i - rem) / n = m := by
              apply Nat.div_eq_of_lt_le
              · omega
              · rw [Nat.succ_mul]; omega
            rw [hd]
      · rw [if_neg (by omega), if_neg (by omega), if_neg (by omega),
          List.getElem?_eq_none (by omega)]; rfl
    · have : q + m + 1 - q = m + 1 := by omega
      rw [this, Nat.succ_mul]; omega

end Verif.Step

namespace Verif.Step

open Verif.Spec

variable {K : Type} [Add K]

/-- State of the stepping after `t` samples: `q` steps were drawn, `rem` samples of the current
step are left; the stored angle matters only if some are left. -/
structure Inv (n : Nat) (A : List K) (f : Nat → K) (R : K → K → Prop) (t : Nat)
    (d : StepDict K) (g : Gen K) : Prop where
  ex : ∃ rem q : Nat, d.stepSize = n ∧ d.remainder = rem ∧ g = ⟨A, q % A.length⟩ ∧
    t + rem = q * n ∧ rem < n ∧ (0 < rem → 1 ≤ q ∧ R d.angle (f (q - 1)))

theorem stepArray_inv (A : List K) (f : Nat → K) (hf : ∀ q, A[q % A.length]? = some (f q))
    (n : Nat) (hn : 0 < n) (R : K → K → Prop) (hR : ∀ a, R a a) (t : Nat) (d : StepDict K)
    (g : Gen K) (arr : List K) (h : Inv n A f R t d g) :
    ∃ arr' d' g', stepArray arr d g = .ok (arr', d', g') ∧ arr'.length = arr.length ∧
      (∀ i x, arr[i]? = some x → ∃ a, arr'[i]? = some (x + a) ∧ R a (f ((t + i) / n)) ∧
        (i + 1 = arr.length → a = d'.angle)) ∧
      Inv n A f R (t + arr.length) d' g' := by
  obtain ⟨⟨rem, q, h1, h2, h3, h4, h5, h6⟩⟩ := h
  obtain ⟨ds, dr, da⟩ := d
  simp only at h1 h2 h6
  subst h1 h2 h3
  obtain ⟨arr', rem', q', ang', e1, e2, e3, e4⟩ :=
    stepArray_spec A f hf n hn rem q (Or.inl h5) da arr
  have hdiv : ∀ i, rem ≤ i → (t + i) / n = q + (i - rem) / n := by
    intro i hi
    have : t + i = (i - rem) + q * n := by omega
    rw [this, Nat.add_mul_div_right _ _ hn]; omega
  have hdiv0 : ∀ i, i < rem → 1 ≤ q ∧ (t + i) / n = q - 1 := by
    intro i hi
    have hq := (h6 (by omega)).1
    refine ⟨hq, ?_⟩
    obtain ⟨p, rfl⟩ : ∃ p, q = p + 1 := ⟨q - 1, by omega⟩
    have em : (p + 1) * n = p * n + n := by ring
    have : t + i = (n - rem + i) + p * n := by omega
    rw [this, Nat.add_mul_div_right _ _ hn, Nat.div_eq_of_lt (by omega)]; omega
  refine ⟨arr', _, _, e1, e2, ?_, ?_⟩
  · intro i x hx
    have hil : i < arr.length := by
      by_contra hcon
      rw [List.getElem?_eq_none (by omega)] at hx
      cases hx
    have hi := e3 i
    rw [hx, Option.map_some] at hi
    refine ⟨_, hi, ?_, ?_⟩
    · by_cases hlt : i < rem
      · rw [if_pos hlt, (hdiv0 i hlt).2]
        exact (h6 (by omega)).2
      · rw [if_neg hlt, hdiv i (by omega)]
        exact hR _
    · intro hlast
      simp only
      rcases e4 with ⟨c1, c2, c3, c4⟩ | ⟨c1, c2, c3, c4, c5⟩
      · rw [if_pos (by omega), c4]
      · rw [if_neg (by omega), c5]
        congr 1
        obtain ⟨p, rfl⟩ : ∃ p, q' = q + p + 1 := ⟨q' - q - 1, by omega⟩
        have : q + p + 1 - q = p + 1 := by omega
        rw [this] at c3
        have em : (p + 1) * n = p * n + n := by ring
        have hd : (i - rem) / n = p := by
          apply Nat.div_eq_of_lt_le
          · omega
          · rw [Nat.succ_mul]; omega
        rw [hd]; omega
  · rcases e4 with ⟨c1, c2, c3, c4⟩ | ⟨c1, c2, c3, c4, c5⟩
    · subst c2 c3 c4
      exact ⟨⟨rem - arr.length, q', rfl, rfl, rfl, by omega, by omega,
        fun hpos => h6 (by omega)⟩⟩
    · refine ⟨⟨rem', q', rfl, rfl, rfl, ?_, c4, fun _ => ⟨by omega, by rw [c5]; exact hR _⟩⟩⟩
      obtain ⟨p, rfl⟩ : ∃ p, q' = q + p := ⟨q' - q, by omega⟩
      have : q + p - q = p := by omega
      rw [this] at c3
      have em : (q + p) * n = q * n + p * n := by ring
      omega

omit [Add K] in
theorem exists_fun (A : List K) (hA : A ≠ []) :
    ∃ f : Nat → K, ∀ q, A[q % A.length]? = some (f q) := by
  have hpos : 0 < A.length := List.length_pos_iff.2 hA
  refine ⟨fun q => A[q % A.length]'(Nat.mod_lt _ hpos), fun q => ?_⟩
  rw [List.getElem?_eq_getElem (Nat.mod_lt _ hpos)]

theorem run_inv (A : List K) (f : Nat → K) (hf : ∀ q, A[q % A.length]? = some (f q))
    (n : Nat) (hn : 0 < n) (arrs : List (List K)) (t : Nat) (s : ElSteps K)
    (h : Inv n A f (· = ·) t s.dict s.gen) :
    ∃ outs s', s.run arrs = .ok (outs, s') ∧ outs.map List.length = arrs.map List.length ∧
      (∀ i x, arrs.flatten[i]? = some x → outs.flatten[i]? = some (x + f ((t + i) / n))) ∧
      s'.steps = s.steps ∧ s'.dict.stepSize = s.dict.stepSize := by
  induction arrs generalizing t s with
  | nil => exact ⟨[], s, rfl, rfl, by simp, rfl, rfl⟩
  | cons arr rest ih =>
    obtain ⟨arr', d', g', e1, e2, e3, e4⟩ :=
      stepArray_inv A f hf n hn (· = ·) (fun _ => rfl) t s.dict s.gen arr h
    obtain ⟨outs, s', r1, r2, r3, r4, r5⟩ :=
      ih (t + arr.length) { s with dict := d', gen := g' } e4
    refine ⟨arr' :: outs, s', ?_, by simp [e2, r2], ?_, r4, ?_⟩
    · simp [ElSteps.run, e1, r1, bind, Except.bind, pure, Except.pure]
    · intro i x hx
      rw [List.flatten_cons] at hx ⊢
      rcases Nat.lt_or_ge i arr.length with hi | hi
      · rw [List.getElem?_append_left hi] at hx
        obtain ⟨a, ha, hR, _⟩ := e3 i x hx
        rw [List.getElem?_append_left (by omega), ha, hR]
      · rw [List.getElem?_append_right hi] at hx
        have := r3 _ x hx
        rw [List.getElem?_append_right (by omega), e2, this]
        congr 4; omega
    · rw [r5]
      obtain ⟨⟨_, _, x1, _⟩⟩ := h
      obtain ⟨⟨_, _, y1, _⟩⟩ := e4
      simp only [x1, y1]

end Verif.Step
