import Verif.Spec.Mpi
import Verif.Lemmas.Mpi
import Mathlib.Algebra.BigOperators.Group.List.Basic

/-!
# Properties C01 - C05: work distribution over MPI ranks
-/

namespace Verif.Props

open Verif.Mpi Verif.Spec

/-- **C01.** For every array and every number of ranks, the slices handed out by
`distribute_array` are an even split of the array. -/
theorem C01_distribute_array_even_split {α : Type} (arr : List α) (size : Nat) (h : 0 < size) :
    ∃ parts : List (List α), EvenSplit size arr parts ∧
      ∀ r, r < size → ∃ p, parts[r]? = some p ∧ distributeArray arr size r = .ok p := by
  refine ⟨(List.range size).map (fun r => (arr.take (subStart arr.length size (r + 1))).drop
        (subStart arr.length size r)), ⟨by simp, ?_, ?_⟩, ?_⟩
  · rw [← List.flatMap_def, flatMap_slices, subStart_size _ _ h, List.take_length]
  · intro p hp q hq
    simp only [List.mem_map, List.mem_range] at hp hq
    obtain ⟨r, hr, rfl⟩ := hp
    obtain ⟨s, hs, rfl⟩ := hq
    rw [length_slice _ _ _ hr, length_slice _ _ _ hs]
    split <;> split <;> omega
  · intro r hr
    exact ⟨_, by simp [hr], distributeArray_eq _ _ _ hr⟩

/-- 10 samples over 4 ranks: 3, 3, 2, 2. -/
example : (List.range 4).map (distributeArray (List.range 10) 4)
    = [.ok [0,1,2], .ok [3,4,5], .ok [6,7], .ok [8,9]] := by decide

/-- **C02.** `scatter_list` gives every rank exactly what `distribute_array` gives it
(and hence, with C01, an even split of the list). -/
theorem C02_scatter_list_eq_distribute {α : Type} (l : List α) (size r : Nat) (hr : r < size) :
    scatterList l size r = distributeArray l size r := by
  rw [scatterList_eq _ _ _ hr, distributeArray_eq _ _ _ hr]

/-- **C02.** Stated directly: the scattered lists are an even split. -/
theorem C02_scatter_list_even_split {α : Type} (l : List α) (size : Nat) (h : 0 < size) :
    ∃ parts : List (List α), EvenSplit size l parts ∧
      ∀ r, r < size → ∃ p, parts[r]? = some p ∧ scatterList l size r = .ok p := by
  obtain ⟨parts, h1, h2⟩ := C01_distribute_array_even_split l size h
  exact ⟨parts, h1, fun r hr => by rw [C02_scatter_list_eq_distribute _ _ _ hr]; exact h2 r hr⟩

example : (List.range 3).map (scatterList ["a", "b"] 3) = [.ok ["a"], .ok ["b"], .ok []] := by
  decide

/-- **C03.** With scattering, over all ranks the pass loop works on every detector pair
exactly once and in order, and every rank makes the same number of passes. -/
theorem C03_every_pair_scanned_once {α : Type} (beams : List α) (size : Nat) (h : 0 < size) :
    ∃ work : List (List (Option α)), work.length = size ∧
      (∀ r, r < size → (work[r]?).map Except.ok = some (scanPasses beams true size r)) ∧
      (work.map (fun w => w.filterMap id)).flatten = beams ∧
      (∀ w ∈ work, ∀ w' ∈ work, w.length = w'.length) := by
  refine ⟨(List.range size).map (fun r => passes ((beams.take
      (subStart beams.length size (r + 1))).drop (subStart beams.length size r))
      (nmax beams.length size)), by simp, ?_, ?_, ?_⟩
  · intro r hr
    simp only [List.getElem?_map, List.getElem?_range hr, Option.map_some]
    unfold scanPasses localBeams
    rw [if_pos rfl, scatterList_eq _ _ _ hr]
    rfl
  · rw [List.map_map]
    have : (List.range size).map ((fun w : List (Option α) => w.filterMap id) ∘ fun r =>
        passes ((beams.take (subStart beams.length size (r + 1))).drop
          (subStart beams.length size r)) (nmax beams.length size))
        = (List.range size).map (fun r => (beams.take (subStart beams.length size (r + 1))).drop
          (subStart beams.length size r)) := by
      apply List.map_congr_left
      intro r hr
      simp only [List.mem_range] at hr
      simp only [Function.comp]
      rw [passes_filterMap]
      rw [length_slice _ _ _ hr]
      exact section_le_nmax _ _ _ hr
    rw [this, ← List.flatMap_def, flatMap_slices, subStart_size _ _ h, List.take_length]
  · intro w hw w' hw'
    simp only [List.mem_map, List.mem_range] at hw hw'
    obtain ⟨r, _, rfl⟩ := hw
    obtain ⟨s, _, rfl⟩ := hw'
    simp [passes]

example : (List.range 3).map (scanPasses [10, 11, 12, 13] true 3)
    = [.ok [some 10, some 11], .ok [some 12, none], .ok [some 13, none]] := by decide

/-- **C03 (violation without scattering).** With `scatter=False` on more than one rank the
number of passes is still divided by the number of ranks, so there are detector pairs that
no rank ever works on. -/
theorem C03_violation_no_scatter :
    ∃ (beams : List Nat) (size : Nat), 0 < size ∧ ∃ b ∈ beams,
      ∀ r, ∀ w, scanPasses beams false size r = .ok w → some b ∉ w := by
  refine ⟨[0, 1], 2, by decide, 1, by decide, ?_⟩
  intro r w hw
  simp [scanPasses, localBeams, bind, Except.bind, pure, Except.pure] at hw
  subst hw
  decide

/-- **C04.** Evaluating the pointing in parallel over any number of ranks and gathering the
pieces gives on every rank exactly the serial result, whatever the receive buffer contained.
`f` is the per-sample conversion producing `width` numbers (4 for a quaternion). -/
theorem C04_parallel_pointing_eq_serial {α β : Type} (width : Nat) (f : α → List β)
    (hf : ∀ x, (f x).length = width) (inputs : List α) (size : Nat) (h : 0 < size)
    (buf : List β) (hbuf : buf.length = inputs.length * width) :
    parallelEval width f inputs size buf = .ok (inputs.flatMap f) := by
  have hlen : ∀ l : List α, (l.flatMap f).length = l.length * width := by
    intro l
    induction l with
    | nil => simp
    | cons a l ih => rw [List.flatMap_cons, List.length_append, ih, hf, List.length_cons,
        Nat.succ_mul]; omega
  unfold parallelEval
  simp only [pure, Except.pure]
  -- offsets are `width * subStart`
  have hoff : ∀ r, (((subSize inputs.length size).map (fun k => width * k)).take r).sum
      = width * subStart inputs.length size r := by
    intro r
    rw [← List.map_take]
    unfold subStart
    generalize (subSize inputs.length size).take r = l
    induction l with
    | nil => simp
    | cons a l ih => simp [ih, Nat.mul_add]
  -- invariant: after `r` ranks the buffer starts with the first `subStart r` samples
  have inv : ∀ r, r ≤ size → allgatherv buf
      (rankSend f inputs size)
      (fun r => (((subSize inputs.length size).map (fun k => width * k)).take r).sum) r
      = (inputs.take (subStart inputs.length size r)).flatMap f
        ++ buf.drop (width * subStart inputs.length size r) := by
    intro r
    induction r with
    | zero => intro _; simp [allgatherv, subStart]
    | succ r ih =>
      intro hr
      have hmono := subStart_mono inputs.length size r (r+1) (by omega)
      have hle : subStart inputs.length size (r+1) ≤ inputs.length := by
        have := subStart_mono inputs.length size (r+1) size hr
        rwa [subStart_size _ _ h] at this
      simp only [allgatherv]
      have hsend : rankSend f inputs size r = ((inputs.take (subStart inputs.length size (r+1))).drop
          (subStart inputs.length size r)).flatMap f := by
        unfold rankSend
        rw [subEnd_eq _ _ _ (by omega)]
        simp only
        rw [pySlice_nat]
      rw [ih (by omega), hoff, hsend]
      generalize subStart inputs.length size r = a at *
      generalize subStart inputs.length size (r+1) = b at *
      have hA : ((inputs.take a).flatMap f).length = width * a := by
        rw [hlen, List.length_take, Nat.min_eq_left (by omega), Nat.mul_comm]
      have hB : (((inputs.take b).drop a).flatMap f).length = width * (b - a) := by
        rw [hlen, List.length_drop, List.length_take, Nat.min_eq_left hle, Nat.mul_comm]
      have hsplit : (inputs.take b).flatMap f
          = (inputs.take a).flatMap f ++ ((inputs.take b).drop a).flatMap f := by
        rw [← List.flatMap_append]
        congr 1
        have : inputs.take a = (inputs.take b).take a := by
          rw [List.take_take, Nat.min_eq_left hmono]
        rw [this, List.take_append_drop]
      unfold setRange
      rw [← hA, List.take_left, hA, hB, hsplit, List.append_assoc, List.append_assoc]
      congr 2
      have e : width * a + width * (b - a) = width * b := by
        rw [← Nat.mul_add]; congr 1; omega
      rw [e, List.drop_append, hA]
      have e2 : ((inputs.take a).flatMap f).drop (width * b) = [] := by
        apply List.drop_eq_nil_of_le
        rw [hA]
        exact Nat.mul_le_mul_left _ hmono
      rw [e2, List.nil_append, List.drop_drop]
      congr 1
      have := Nat.mul_le_mul_left width hmono
      omega
  rw [inv size (Nat.le_refl _), subStart_size _ _ h, List.take_length]
  rw [List.drop_eq_nil_of_le (by rw [hbuf, Nat.mul_comm]), List.append_nil]

example : parallelEval 2 (fun x : Nat => [x, 10 * x]) [1, 2, 3, 4, 5] 3 (List.replicate 10 0)
    = .ok [1, 10, 2, 20, 3, 30, 4, 40, 5, 50] := by decide

/-- **C05.** The reduced maps (sum over ranks of what each rank accumulated in its passes)
equal the sum of the contributions of all detector pairs, so they do not depend on the number
of ranks.  `M` is any commutative additive monoid (the array of map pixels). -/
theorem C05_reduced_maps_rank_independent {α M : Type} [AddCommMonoid M] (contrib : α → M)
    (beams : List α) (size : Nat) (h : 0 < size) :
    ∃ acc : Nat → M,
      (∀ r, r < size → (scanPasses beams true size r).map (accumulate contrib) = .ok (acc r)) ∧
      reduceSum acc size = (beams.map contrib).sum := by
  have hacc : ∀ (ps : List (Option α)) (m : M), ps.foldl (addPair contrib) m = m + ((ps.filterMap id).map contrib).sum := by
    intro ps
    induction ps with
    | nil => simp
    | cons p ps ih =>
      intro m
      cases p with
      | none => simp [ih, addPair]
      | some b => simp [ih, addPair, add_assoc]
  refine ⟨fun r => (((beams.take (subStart beams.length size (r + 1))).drop
      (subStart beams.length size r)).map contrib).sum, ?_, ?_⟩
  · intro r hr
    unfold scanPasses localBeams
    rw [if_pos rfl, scatterList_eq _ _ _ hr]
    simp only [bind, Except.bind, pure, Except.pure, Except.map]
    unfold accumulate
    rw [hacc, zero_add, passes_filterMap]
    rw [length_slice _ _ _ hr]
    exact section_le_nmax _ _ _ hr
  · unfold reduceSum
    have hsum : ∀ k, (List.range k).foldl (fun acc r => acc +
        (((beams.take (subStart beams.length size (r + 1))).drop
          (subStart beams.length size r)).map contrib).sum) 0
        = ((beams.take (subStart beams.length size k)).map contrib).sum := by
      intro k
      rw [← flatMap_slices]
      induction k with
      | zero => simp
      | succ k ih => rw [List.range_succ, List.foldl_append, ih]; simp
    rw [hsum, subStart_size _ _ h, List.take_length]

example : ∀ size ∈ [1, 2, 3, 5], reduceSum (fun r => match scanPasses [3, 5, 7, 11] true size r with
      | .ok ps => accumulate (fun x : Nat => x * x) ps | .error _ => 0) size = 204 := by decide

end Verif.Props
