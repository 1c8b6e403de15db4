import Verif.Model.Signal
import Verif.Lemmas.List
import Verif.Lemmas.Hwp

/-! Helper lemmas for the signal functions (no claims). -/

namespace Verif.Signal

open Verif.Hwp

/-- Left half of the window. -/
noncomputable def T (n i : Nat) : ℝ :=
  if i < (n + 1) / 4 + 1 then
    1 - (1 / 2 * Real.cos (2 * Real.pi * (i : ℝ) / (1 / 2) / ((n : ℝ) + 1)) + 1 / 2) else 1

theorem T_bounds (n i : Nat) : 0 ≤ T n i ∧ T n i ≤ 1 := by
  unfold T
  split
  · have h1 := Real.neg_one_le_cos (2 * Real.pi * (i : ℝ) / (1 / 2) / ((n : ℝ) + 1))
    have h2 := Real.cos_le_one (2 * Real.pi * (i : ℝ) / (1 / 2) / ((n : ℝ) + 1))
    constructor <;> linarith
  · constructor <;> norm_num

theorem T_zero (n : Nat) : T n 0 = 0 := by
  unfold T
  rw [if_pos (by omega)]
  norm_num

theorem T_one (n i : Nat) (h : n + 1 ≤ 4 * i) : T n i = 1 := by
  unfold T
  split
  · rename_i hi
    have h4 : 4 * i = n + 1 := by omega
    have : ((n : ℝ) + 1) = 4 * i := by exact_mod_cast h4.symm
    rw [this]
    have hi0 : (i : ℝ) ≠ 0 := by
      have : 0 < i := by omega
      positivity
    have e : 2 * Real.pi * (i : ℝ) / (1 / 2) / (4 * i) = Real.pi := by
      field_simp; norm_num
    rw [e, Real.cos_pi]; norm_num
  · rfl

theorem getElem?_pyAssign_nat {α : Type} (a v : List α) (i j : Nat) (hij : i ≤ j)
    (hj : j ≤ a.length) (hv : v.length = j - i) :
    ∃ r, pyAssign a (i : Int) (j : Int) v = .ok r ∧ r.length = a.length ∧
      ∀ k, r[k]? = if i ≤ k ∧ k < j then v[k - i]? else a[k]? := by
  refine ⟨setRange a i v, ?_, length_setRange a v i (by omega), ?_⟩
  · unfold pyAssign
    simp only [pyClip_ofNat]
    rw [Nat.min_eq_left (show i ≤ a.length by omega), Nat.min_eq_left hj, if_pos hv]
  · intro k
    rw [getElem?_setRange a v i k (by omega)]
    have : i + v.length = j := by omega
    rw [this]

theorem pyClip_neg (n h : Nat) (h0 : 0 < h) (hn : h ≤ n) : pyClip n (-(h : Int)) = n - h := by
  unfold pyClip
  rw [if_pos (by omega)]
  omega

theorem pyAssign_neg {α : Type} (a v : List α) (h : Nat) (h0 : 0 < h) (hn : h ≤ a.length)
    (j : Int) : pyAssign a (-(h:Int)) j v = pyAssign a ((a.length - h : Nat) : Int) j v := by
  unfold pyAssign
  rw [pyClip_neg _ _ h0 hn, pyClip_ofNat, Nat.min_eq_left (by omega)]

theorem tukey_get (n : Nat) (hn : 2 ≤ n) :
    ∃ w, tukeyWindow n = .ok w ∧ w.length = n ∧
      ∀ i, i < n → w[i]? = some (if n - n / 2 ≤ i then T n (n - 1 - i) else T n i) := by
  unfold tukeyWindow
  simp only
  have hk : (n + 1) / 4 + 1 ≤ n := by omega
  set k := (n + 1) / 4 + 1 with hkdef
  set v : List ℝ := ((List.range k).map fun (i : Nat) => (i : ℝ)).map fun x =>
    1 / 2 * Real.cos (2 * Real.pi * x / (1 / 2) / ((n:ℝ) + 1)) + 1 / 2 with hv
  have hvl : v.length = k := by simp [hv]
  obtain ⟨w1, hw1, hw1l, hw1g⟩ : ∃ w1, subHead (List.replicate n (1:ℝ)) v k = .ok w1 ∧
      w1.length = n ∧ ∀ i, i < n → w1[i]? = some (T n i) := by
    refine ⟨List.zipWith (· - ·) ((List.replicate n (1:ℝ)).take k) v ++
      (List.replicate n (1:ℝ)).drop k, ?_, ?_, ?_⟩
    · unfold subHead
      simp only [List.length_replicate]
      rw [Nat.min_eq_left hk, if_pos hvl]
    · simp [hvl]; omega
    · intro i hi
      have hzl : (List.zipWith (· - ·) ((List.replicate n (1:ℝ)).take k) v).length = k := by
        simp [hvl]; omega
      unfold T
      by_cases hik : i < k
      · rw [List.getElem?_append_left (by omega), if_pos hik, List.getElem?_zipWith]
        have e1 : ((List.replicate n (1:ℝ)).take k)[i]? = some 1 := by
          rw [List.getElem?_take, if_pos hik, List.getElem?_replicate, if_pos hi]
        have e2 : v[i]? = some (1 / 2 * Real.cos (2 * Real.pi * (i:ℝ) / (1 / 2) / ((n:ℝ) + 1)) + 1 / 2) := by
          simp only [hv, List.getElem?_map, List.getElem?_range hik, Option.map_some]
        rw [e1, e2]
      · rw [List.getElem?_append_right (by omega), if_neg hik, hzl, List.getElem?_drop,
          List.getElem?_replicate, if_pos (by omega)]
  rw [hw1]
  simp only [bind, Except.bind]
  rw [pyAssign_neg w1 _ (n / 2) (by omega) (by omega)]
  have hsl : pySlice w1 0 ((n / 2 : Nat) : Int) = w1.take (n / 2) := by
    have := pySlice_nat w1 0 (n / 2)
    simpa using this
  rw [hsl]
  obtain ⟨r, hr1, hr2, hr3⟩ := getElem?_pyAssign_nat w1 (w1.take (n / 2)).reverse
    (w1.length - n / 2) n (by omega) (by omega) (by simp; omega)
  refine ⟨r, hr1, by omega, ?_⟩
  intro i hi
  rw [hr3, hw1l]
  by_cases hh : n - n / 2 ≤ i
  · rw [if_pos ⟨hh, hi⟩, if_pos hh, List.getElem?_reverse (by simp; omega), List.getElem?_take,
      if_pos (by simp; omega)]
    have : (w1.take (n / 2)).length - 1 - (i - (n - n / 2)) = n - 1 - i := by simp; omega
    rw [this, hw1g _ (by omega)]
  · rw [if_neg (by omega), if_neg hh, hw1g i hi]

end Verif.Signal
