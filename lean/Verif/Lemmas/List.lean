import Verif.Py

/-! Helper lemmas on lists, slices and slice assignment (no claims). -/

namespace Verif

theorem pyClip_ofNat (n i : Nat) : pyClip n (i : Int) = min i n := by
  unfold pyClip
  rw [if_neg (by omega)]
  simp

theorem pySlice_nat {α : Type} (a : List α) (i j : Nat) :
    pySlice a (i : Int) (j : Int) = (a.take j).drop i := by
  simp only [pySlice, pyClip_ofNat]
  apply List.ext_getElem?
  intro k
  simp only [List.getElem?_take, List.getElem?_drop]
  split <;> split <;> grind

theorem length_setRange {α : Type} (a v : List α) (i : Nat) (h : i + v.length ≤ a.length) :
    (setRange a i v).length = a.length := by
  simp [setRange]; omega

theorem getElem?_setRange {α : Type} (a v : List α) (i k : Nat)
    (h : i + v.length ≤ a.length) :
    (setRange a i v)[k]? = if i ≤ k ∧ k < i + v.length then v[k - i]? else a[k]? := by
  unfold setRange
  have h1 : (a.take i).length = i := by simp; omega
  rcases Nat.lt_or_ge k i with hk | hk
  · rw [List.append_assoc, List.getElem?_append_left (by omega)]
    rw [if_neg (by omega), List.getElem?_take, if_pos hk]
  · rcases Nat.lt_or_ge k (i + v.length) with hk2 | hk2
    · rw [List.getElem?_append_left (by simp; omega), List.getElem?_append_right (by omega)]
      rw [if_pos ⟨hk, hk2⟩, h1]
    · rw [List.getElem?_append_right (by simp; omega), List.getElem?_drop]
      rw [if_neg (by omega)]
      congr 1
      simp; omega

theorem take_sum_succ (l : List Nat) (r : Nat) (h : r < l.length) :
    (l.take (r + 1)).sum = (l.take r).sum + l[r] := by
  have e : l.take (r + 1) = l.take r ++ [l[r]] := by simp
  rw [e, List.sum_append]
  simp

theorem ceilDiv_mul_ge (a b : Int) (hb : 0 < b) : a ≤ ceilDiv a b * b := by
  unfold ceilDiv
  rw [Int.fdiv_eq_ediv_of_nonneg _ (by omega : (0:Int) ≤ b)]
  have := Int.mul_ediv_add_emod (-a) b
  have := Int.emod_nonneg (-a) (show b ≠ 0 by omega)
  have h : -((-a) / b) * b = -(b * ((-a) / b)) := by
    rw [Int.neg_mul, Int.mul_comm]
  omega

theorem ceilDiv_mul_lt (a b : Int) (hb : 0 < b) : (ceilDiv a b - 1) * b < a := by
  unfold ceilDiv
  rw [Int.fdiv_eq_ediv_of_nonneg _ (by omega : (0:Int) ≤ b)]
  have := Int.mul_ediv_add_emod (-a) b
  have := Int.emod_lt_of_pos (-a) hb
  have h : (-((-a) / b) - 1) * b = -(b * ((-a) / b)) - b := by
    rw [Int.sub_mul, Int.neg_mul, Int.mul_comm]; omega
  omega

end Verif
