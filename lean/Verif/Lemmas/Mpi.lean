import Verif.Model.Mpi
import Verif.Lemmas.List
import Mathlib.Tactic.Ring
import Mathlib.Tactic.Linarith

/-! Helper lemmas for the MPI distribution (no claims). -/

namespace Verif.Mpi

theorem length_subSize (n size : Nat) : (subSize n size).length = size := by
  simp [subSize]

theorem getElem_subSize (n size r : Nat) (h : r < (subSize n size).length) :
    (subSize n size)[r] = n / size + (if r < n % size then 1 else 0) := by
  simp [subSize]

/-- Closed form of the start index. -/
theorem subStart_eq (n size r : Nat) (h : r ≤ size) :
    subStart n size r = r * (n / size) + min r (n % size) := by
  unfold subStart
  induction r with
  | zero => simp
  | succ r ih =>
    rw [take_sum_succ _ _ (by rw [length_subSize]; omega), ih (by omega), getElem_subSize]
    split
    · rw [Nat.succ_mul]; omega
    · rw [Nat.succ_mul]; omega

theorem subStart_size (n size : Nat) (h : 0 < size) : subStart n size size = n := by
  rw [subStart_eq _ _ _ (Nat.le_refl _), Nat.min_eq_right (Nat.le_of_lt (Nat.mod_lt _ h))]
  exact Nat.div_add_mod n size

theorem subStart_mono (n size r s : Nat) (h : r ≤ s) : subStart n size r ≤ subStart n size s := by
  unfold subStart
  have : (subSize n size).take s = ((subSize n size).take s).take r
      ++ ((subSize n size).take s).drop r := by simp
  rw [this, List.take_take, Nat.min_eq_left h, List.sum_append]
  omega

theorem subEnd_eq (n size r : Nat) (h : r < size) :
    subEnd n size r = .ok (subStart n size (r + 1)) := by
  unfold subEnd
  have hl : r < (subSize n size).length := by rw [length_subSize]; exact h
  rw [List.getElem?_eq_getElem hl]
  simp only [subStart]
  rw [take_sum_succ _ _ hl]

/-- what rank `r` holds, as a plain take/drop -/
theorem distributeArray_eq {α : Type} (arr : List α) (size r : Nat) (h : r < size) :
    distributeArray arr size r
      = .ok ((arr.take (subStart arr.length size (r + 1))).drop
          (subStart arr.length size r)) := by
  unfold distributeArray
  rw [subEnd_eq _ _ _ h]
  simp only [bind, Except.bind, pure, Except.pure]
  rw [pySlice_nat]

theorem subSize_eq_sections (n size : Nat) (h : 0 < size) :
    subSize n size = List.replicate (n % size) (n / size + 1)
      ++ List.replicate (size - n % size) (n / size) := by
  have hm := Nat.mod_lt n h
  apply List.ext_getElem?
  intro k
  unfold subSize
  rw [List.getElem?_map, List.getElem?_append]
  simp only [List.length_replicate, List.getElem?_replicate]
  rcases Nat.lt_or_ge k size with hk | hk
  · rw [List.getElem?_range hk]
    simp only [Option.map_some]
    split
    · rfl
    · rw [if_pos (by omega)]; rfl
  · rw [List.getElem?_eq_none (by simpa using hk)]
    rw [if_neg (by omega), if_neg (by omega)]; rfl

theorem length_go {α : Type} (xs : List α) (ks : List Nat) :
    (arraySplit.go xs ks).length = ks.length := by
  induction ks generalizing xs with
  | nil => simp [arraySplit.go]
  | cons k ks ih => simp [arraySplit.go, ih]

theorem go_getElem? {α : Type} (xs : List α) (ks : List Nat) (r : Nat) (h : r < ks.length) :
    (arraySplit.go xs ks)[r]? = some ((xs.take ((ks.take (r+1)).sum)).drop ((ks.take r).sum)) := by
  induction ks generalizing xs r with
  | nil => simp at h
  | cons k ks ih =>
    cases r with
    | zero => simp [arraySplit.go]
    | succ r =>
      simp only [arraySplit.go, List.getElem?_cons_succ]
      rw [ih _ _ (by simpa using h)]
      simp only [List.take_succ_cons, List.sum_cons, Option.some.injEq]
      rw [List.take_drop, List.drop_drop]

theorem scatterList_eq {α : Type} (l : List α) (size r : Nat) (h : r < size) :
    scatterList l size r
      = .ok ((l.take (subStart l.length size (r + 1))).drop (subStart l.length size r)) := by
  unfold scatterList arraySplit
  simp only
  rw [← subSize_eq_sections _ _ (by omega), go_getElem? _ _ _ (by rw [length_subSize]; exact h)]
  rfl

/-- concatenating the slices of the first `k` ranks gives the first `subStart k` elements -/
theorem flatMap_slices {α : Type} (l : List α) (size k : Nat) :
    (List.range k).flatMap (fun r => (l.take (subStart l.length size (r + 1))).drop
        (subStart l.length size r)) = l.take (subStart l.length size k) := by
  induction k with
  | zero => simp [subStart]
  | succ k ih =>
    rw [List.range_succ, List.flatMap_append, ih]
    simp only [List.flatMap_cons, List.flatMap_nil, List.append_nil]
    have hm := subStart_mono l.length size k (k+1) (by omega)
    generalize subStart l.length size k = a at *
    generalize subStart l.length size (k+1) = b at *
    have : l.take a = (l.take b).take a := by rw [List.take_take, Nat.min_eq_left hm]
    rw [this, List.take_append_drop]

theorem length_slice {α : Type} (l : List α) (size r : Nat) (h : r < size) :
    ((l.take (subStart l.length size (r + 1))).drop (subStart l.length size r)).length
      = l.length / size + (if r < l.length % size then 1 else 0) := by
  have hm : subStart l.length size (r+1) ≤ l.length := by
    have := subStart_mono l.length size (r+1) size (by omega)
    rw [subStart_size _ _ (by omega)] at this
    exact this
  rw [List.length_drop, List.length_take, Nat.min_eq_left hm]
  have hl : r < (subSize l.length size).length := by rw [length_subSize]; exact h
  have : subStart l.length size (r+1) = subStart l.length size r + _ :=
    take_sum_succ _ _ hl
  rw [getElem_subSize] at this
  generalize l.length / size = q at *
  omega

/-- the per-rank section length never exceeds the number of passes -/
theorem section_le_nmax (n size r : Nat) (h : r < size) :
    n / size + (if r < n % size then 1 else 0) ≤ nmax n size := by
  unfold nmax
  have h0 : (0 : Int) < size := by omega
  have h1 := ceilDiv_mul_ge (n : Int) size h0
  have hdm := Nat.div_add_mod n size
  have hdm' : (size : Int) * ((n / size : Nat) : Int) + ((n % size : Nat) : Int) = (n : Int) := by
    exact_mod_cast hdm
  generalize ceilDiv (n : Int) size = c at *
  generalize n / size = q at *
  generalize hR : n % size = R at *
  have hlt : ∀ q' : Int, (size : Int) * q' < c * size + 1 → q' ≤ c := by
    intro q' hq
    by_contra hc
    have : c + 1 ≤ q' := by omega
    have := Int.mul_le_mul_of_nonneg_left this (show (0:Int) ≤ size by omega)
    have e : (size : Int) * (c + 1) = c * size + size := by ring
    omega
  have hq : (q : Int) ≤ c := hlt q (by omega)
  split
  · have : (q : Int) + 1 ≤ c := by
      by_contra hc
      have : (q : Int) = c := by omega
      rw [this] at hdm'
      have e : (size : Int) * c = c * size := by ring
      omega
    omega
  · omega

theorem passes_filterMap {α : Type} (l : List α) (n : Nat) (h : l.length ≤ n) :
    (passes l n).filterMap id = l := by
  unfold passes
  induction n generalizing l with
  | zero => simp at h; subst h; simp
  | succ n ih =>
    rw [List.range_succ_eq_map]
    cases l with
    | nil =>
      simp only [List.map_cons, List.map_map]
      simp
    | cons x xs =>
      have := ih xs (by simpa using h)
      simp only [List.map_cons, List.map_map, List.getElem?_cons_zero, List.filterMap_cons, id]
      congr 1

end Verif.Mpi
