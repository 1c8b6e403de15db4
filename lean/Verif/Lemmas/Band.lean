import Verif.Spec.Band
import Mathlib.Tactic.Linarith
import Mathlib.Tactic.Ring
import Mathlib.Tactic.FieldSimp
import Mathlib.Algebra.BigOperators.Intervals

namespace Verif.Optics

open Classical in
theorem sortRows_perm (data : List (ℝ × ℝ)) : (sortRows data).Perm data :=
  List.mergeSort_perm _ _

theorem sortRows_mem (data : List (ℝ × ℝ)) (r : ℝ × ℝ) : r ∈ sortRows data ↔ r ∈ data :=
  (sortRows_perm data).mem_iff

theorem sortRows_sorted (data : List (ℝ × ℝ)) :
    (sortRows data).Pairwise fun a b => a.1 ≤ b.1 := by
  classical
  have := List.pairwise_mergeSort (le := fun (a b : ℝ × ℝ) => decide (a.1 ≤ b.1))
    (fun a b c h1 h2 => by
      simp only [decide_eq_true_eq] at *
      exact h1.trans h2)
    (fun a b => by
      simp only [Bool.or_eq_true, decide_eq_true_eq]
      exact le_total _ _) data
  unfold sortRows
  refine List.Pairwise.imp ?_ this
  intro a b h
  simpa using h

theorem interpSorted_onLine (l : List (ℝ × ℝ)) (hs : l.Pairwise fun a b => a.1 ≤ b.1) (f : ℝ)
    (a b : ℝ × ℝ) (ha : l.head? = some a) (hb : l.getLast? = some b) (h1 : a.1 ≤ f) (h2 : f ≤ b.1) :
    OnLine l f (interpSorted l f) := by
  induction l generalizing a with
  | nil => cases ha
  | cons r0 l ih =>
    obtain rfl := Option.some.inj ha
    cases l with
    | nil =>
      obtain rfl := Option.some.inj hb
      exact .inl ⟨r0, by simp, le_antisymm h1 h2, rfl⟩
    | cons r1 rs =>
      obtain ⟨hs0, hs'⟩ := List.pairwise_cons.1 hs
      unfold interpSorted
      split
      · rename_i h
        rcases ih hs' r1 rfl (by simpa using hb) h with ⟨r, hr, e⟩ | ⟨q0, m0, q1, m1, k1, k2, k3, k4⟩
        · exact .inl ⟨r, List.mem_cons_of_mem _ hr, e⟩
        · refine .inr ⟨q0, List.mem_cons_of_mem _ m0, q1, List.mem_cons_of_mem _ m1, k1, k2, ?_, k4⟩
          intro r hr
          rcases List.mem_cons.1 hr with rfl | hr
          · exact .inl (hs0 _ m0)
          · exact k3 r hr
      · rename_i h
        split
        · rename_i he
          exact .inl ⟨r0, by simp, he.symm, rfl⟩
        · rename_i he
          have hlt : r0.1 < f := lt_of_le_of_ne h1 fun e => he e.symm
          refine .inr ⟨r0, by simp, r1, by simp, hlt, not_le.1 h, ?_, ?_⟩
          · intro r hr
            rcases List.mem_cons.1 hr with rfl | hr
            · exact .inl le_rfl
            · rcases List.mem_cons.1 hr with rfl | hr
              · exact .inr le_rfl
              · exact .inr ((List.pairwise_cons.1 hs').1 r hr)
          · have : r1.1 - r0.1 ≠ 0 := by
              have := not_le.1 h
              intro e
              linarith
            field_simp
            ring

theorem OnLine.perm {l l' : List (ℝ × ℝ)} (h : ∀ r, r ∈ l ↔ r ∈ l') {f s : ℝ} (hl : OnLine l f s) :
    OnLine l' f s := by
  rcases hl with ⟨r, hr, e⟩ | ⟨q0, m0, q1, m1, k1, k2, k3, k4⟩
  · exact .inl ⟨r, (h r).1 hr, e⟩
  · exact .inr ⟨q0, (h _).1 m0, q1, (h _).1 m1, k1, k2, fun r hr => k3 r ((h r).2 hr), k4⟩

theorem interp1d_spec {data : List (ℝ × ℝ)} {f s : ℝ} (h : interp1d data f = .ok s) :
    OnLine data f s := by
  unfold interp1d at h
  split at h
  · rename_i a b ha hb
    split at h
    · cases h
    · rename_i hn
      rw [not_or, not_lt, not_lt] at hn
      cases h
      exact (interpSorted_onLine _ (sortRows_sorted data) f a b ha hb hn.1 hn.2).perm
        (sortRows_mem data)
  · cases h

private theorem head_le {l : List (ℝ × ℝ)} (hs : l.Pairwise fun a b => a.1 ≤ b.1) {a r : ℝ × ℝ}
    (ha : l.head? = some a) (hr : r ∈ l) : a.1 ≤ r.1 := by
  cases l with
  | nil => cases ha
  | cons x l =>
    obtain rfl := Option.some.inj ha
    rcases List.mem_cons.1 hr with rfl | hr
    · exact le_rfl
    · exact (List.pairwise_cons.1 hs).1 r hr

private theorem le_last {l : List (ℝ × ℝ)} (hs : l.Pairwise fun a b => a.1 ≤ b.1) {b r : ℝ × ℝ}
    (hb : l.getLast? = some b) (hr : r ∈ l) : r.1 ≤ b.1 := by
  induction l generalizing r with
  | nil => cases hb
  | cons x l ih =>
    cases l with
    | nil =>
      have hb' : x = b := by simpa using hb
      rw [List.mem_singleton.1 hr, hb']
    | cons y l =>
      have hb' : (y :: l).getLast? = some b := by simpa using hb
      obtain ⟨h1, h2⟩ := List.pairwise_cons.1 hs
      rcases List.mem_cons.1 hr with rfl | hr
      · exact (h1 y List.mem_cons_self).trans (ih h2 hb' List.mem_cons_self)
      · exact ih h2 hb' hr

/-- `interp1d` succeeds exactly in the range of the rows. -/
theorem interp1d_iff (data : List (ℝ × ℝ)) (f : ℝ) :
    (Covers data f → ∃ s, interp1d data f = .ok s) ∧
    (¬ Covers data f → interp1d data f = .error .valueError) := by
  have hmem := sortRows_mem data
  have hs := sortRows_sorted data
  unfold interp1d
  rcases ha : (sortRows data).head? with _ | a
  · have hnil : sortRows data = [] := List.head?_eq_none_iff.1 ha
    refine ⟨fun h => ?_, fun _ => rfl⟩
    obtain ⟨⟨r, hr, -⟩, -⟩ := h
    rw [← hmem, hnil] at hr
    cases hr
  · rcases hb : (sortRows data).getLast? with _ | b
    · rw [List.getLast?_eq_none_iff.1 hb] at ha
      cases ha
    · have ha' : a ∈ data := (hmem a).1 (List.mem_of_mem_head? ha)
      have hb' : b ∈ data := (hmem b).1 (List.mem_of_getLast? hb)
      dsimp only
      constructor
      · rintro ⟨⟨r, hr, h1⟩, ⟨q, hq, h2⟩⟩
        rw [if_neg]
        · exact ⟨_, rfl⟩
        · rw [not_or, not_lt, not_lt]
          exact ⟨(head_le hs ha ((hmem r).2 hr)).trans h1, h2.trans (le_last hs hb ((hmem q).2 hq))⟩
      · intro h
        rw [if_pos]
        by_contra hc
        rw [not_or, not_lt, not_lt] at hc
        exact h ⟨⟨a, ha', hc.1⟩, ⟨b, hb', hc.2⟩⟩

theorem OnLine.nonneg {data : List (ℝ × ℝ)} (h : ∀ r ∈ data, 0 ≤ r.2) {f s : ℝ}
    (hl : OnLine data f s) : 0 ≤ s := by
  rcases hl with ⟨r, hr, -, rfl⟩ | ⟨q0, m0, q1, m1, k1, k2, -, k4⟩
  · exact h r hr
  · have a := h q0 m0
    have b := h q1 m1
    have hd : 0 < q1.1 - q0.1 := by linarith
    by_contra hs
    push Not at hs
    have : s * (q1.1 - q0.1) = q1.2 * (f - q0.1) + q0.2 * (q1.1 - f) := by linarith
    have h1 : 0 ≤ q1.2 * (f - q0.1) := mul_nonneg b (by linarith)
    have h2 : 0 ≤ q0.2 * (q1.1 - f) := mul_nonneg a (by linarith)
    have h3 : s * (q1.1 - q0.1) < 0 := mul_neg_of_neg_of_pos hs hd
    linarith

/-! ### integrals -/

theorem trapz_range (x g : Nat → ℝ) (n : Nat) :
    trapz ((List.range n).map fun i => (x i, g i)) =
      ∑ i ∈ Finset.range (n - 1), (x (i + 1) - x i) * (g (i + 1) + g i) / 2 := by
  induction n generalizing x g with
  | zero => rfl
  | succ n ih =>
    cases n with
    | zero => rfl
    | succ n =>
      have := ih (fun i => x (i + 1)) (fun i => g (i + 1))
      rw [List.range_succ_eq_map, List.map_cons, List.map_map]
      rw [show ((fun i => (x i, g i)) ∘ Nat.succ) = fun i => (x (i + 1), g (i + 1)) from rfl]
      have e : (List.range (n + 1)).map (fun i => (x (i + 1), g (i + 1))) =
          (x 1, g 1) :: (List.range n).map (fun i => (x (i + 1 + 1), g (i + 1 + 1))) := by
        rw [List.range_succ_eq_map, List.map_cons, List.map_map]
        rfl
      rw [e, trapz, ← e, this, show n + 1 + 1 - 1 = n + 1 from rfl, Finset.sum_range_succ']
      simp only [Nat.add_sub_cancel, zero_add]
      ring

theorem trapz_uniform (a h : ℝ) (g : Nat → ℝ) (n : Nat) :
    trapz ((List.range n).map fun (i : Nat) => (a + i * h, g i)) =
      if n ≤ 1 then 0 else h * ∑ i ∈ Finset.range n, edge n i * g i := by
  rw [trapz_range]
  have : ∀ i : Nat, (a + ((i + 1 : Nat) : ℝ) * h - (a + i * h)) = h := by
    intro i
    push_cast
    ring
  simp only [this]
  split
  · rename_i hn
    rw [show n - 1 = 0 by omega]
    rfl
  · rename_i hn
    obtain ⟨k, rfl⟩ : ∃ k, n = k + 2 := ⟨n - 2, by omega⟩
    have e1 : ∑ i ∈ Finset.range (k + 2), edge (k + 2) i * g i =
        ∑ i ∈ Finset.range k, g (i + 1) + (g 0 + g (k + 1)) / 2 := by
      rw [Finset.sum_range_succ, Finset.sum_range_succ']
      have : ∀ i ∈ Finset.range k, edge (k + 2) (i + 1) * g (i + 1) = g (i + 1) := by
        intro i hi
        have := Finset.mem_range.1 hi
        rw [edge, if_neg (by omega), one_mul]
      rw [Finset.sum_congr rfl this, edge, edge, if_pos (by omega), if_pos (by omega)]
      ring
    rw [e1, show k + 2 - 1 = k + 1 from rfl]
    have e2 : ∑ i ∈ Finset.range (k + 1), h * (g (i + 1) + g i) / 2 =
        h / 2 * (∑ i ∈ Finset.range (k + 1), g (i + 1) + ∑ i ∈ Finset.range (k + 1), g i) := by
      rw [← Finset.sum_add_distrib, Finset.mul_sum]
      apply Finset.sum_congr rfl
      intro i _
      ring
    rw [e2, Finset.sum_range_succ (fun i => g (i + 1)), Finset.sum_range_succ' g]
    ring

theorem mapM_range {α β : Type} {l : List α} {f : α → PyM β} {r : List β} (h : l.mapM f = .ok r) :
    r.length = l.length ∧ ∀ i (h1 : i < l.length) (h2 : i < r.length), f l[i] = .ok r[i] := by
  induction l generalizing r with
  | nil =>
    cases h
    simp
  | cons a l ih =>
    rw [List.mapM_cons] at h
    rcases h1 : f a with e | b
    · rw [h1] at h
      cases h
    rcases h2 : l.mapM f with e | bs
    · rw [h1, h2] at h
      cases h
    rw [h1, h2] at h
    cases h
    obtain ⟨k1, k2⟩ := ih h2
    refine ⟨by simp [k1], fun i j1 j2 => ?_⟩
    cases i with
    | zero => exact h1
    | succ i => exact k2 i (by simpa using j1) (by simpa using j2)

theorem mapM_ok {α β : Type} (l : List α) (f : α → PyM β) (h : ∀ a ∈ l, ∃ b, f a = .ok b) :
    ∃ r, l.mapM f = .ok r := by
  induction l with
  | nil => exact ⟨[], rfl⟩
  | cons a l ih =>
    obtain ⟨b, hb⟩ := h a List.mem_cons_self
    obtain ⟨r, hr⟩ := ih fun x hx => h x (List.mem_cons_of_mem _ hx)
    rw [List.mapM_cons, hb, hr]
    exact ⟨_, rfl⟩

theorem bandFreqs_eq (a b : ℝ) (n : Nat) : bandFreqs a b n = (List.range n).map (freqAt a b n) := by
  unfold bandFreqs freqAt
  apply List.map_congr_left
  intro i _
  ring

theorem list_eq_range {α : Type} (l : List α) (d : α) :
    l = (List.range l.length).map fun i => (l[i]?).getD d := by
  apply List.ext_getElem (by simp)
  intro i h1 h2
  simp [h1]

theorem band_spec {s : Stack} {spectrum : List (ℝ × ℝ)} {a b : ℝ} {reflected : Bool}
    {pb : Option (List (ℝ × ℝ))} {inc : ℝ} {n : Nat} {rot n1 n3 : ℝ} {r : Option MR4}
    (h : bandAveragedMueller s spectrum a b reflected pb inc n rot n1 n3 = .ok r) :
    ∃ (S P : Nat → ℝ) (Ms : Nat → MR4),
      (∀ i < n, interp1d spectrum (freqAt a b n i) = .ok (S i) ∧
        Responds pb (freqAt a b n i) (P i) ∧
        mueller s (freqAt a b n i) inc rot n1 n3 reflected = .ok (Ms i)) ∧
      (r = none ↔ n ≤ 1 ∨ b = a ∨ ∑ i ∈ Finset.range n, edge n i * (S i * P i) = 0) ∧
      ∀ M, r = some M → M = (∑ i ∈ Finset.range n, edge n i * (S i * P i))⁻¹ •
        ∑ i ∈ Finset.range n, (edge n i * (S i * P i)) • Ms i := by
  unfold bandAveragedMueller at h
  rw [bandFreqs_eq] at h
  simp only [bind, Except.bind, pure, Except.pure] at h
  rcases h1 : ((List.range n).map (freqAt a b n)).mapM
    (fun f => mueller s f inc rot n1 n3 reflected) with e | ms
  · rw [h1] at h
    cases h
  rcases h2 : ((List.range n).map (freqAt a b n)).mapM (interp1d spectrum) with e | spec
  · rw [h1, h2] at h
    cases h
  rcases h3 : passBandOf ((List.range n).map (freqAt a b n)) pb with e | band
  · rw [h1, h2, h3] at h
    cases h
  rw [h1, h2, h3] at h
  dsimp only at h
  obtain ⟨l1, g1⟩ := mapM_range h1
  obtain ⟨l2, g2⟩ := mapM_range h2
  have hb : band.length = n ∧ ∀ i < n, Responds pb (freqAt a b n i) ((band[i]?).getD 0) := by
    cases pb with
    | none =>
      cases h3
      refine ⟨by simp, fun i hi => ?_⟩
      show _ = _
      simp [hi]
    | some data =>
      obtain ⟨l3, g3⟩ := mapM_range (show _ = _ from h3)
      rw [List.length_map, List.length_range] at l3
      refine ⟨l3, fun i hi => ?_⟩
      have := g3 i (by simpa using hi) (by omega)
      rw [List.getElem_map, List.getElem_range] at this
      rw [List.getElem?_eq_getElem (by omega)]
      exact interp1d_spec this
  obtain ⟨l3, g3⟩ := hb
  rw [List.length_map, List.length_range] at l1 l2
  set S : Nat → ℝ := fun i => (spec[i]?).getD 0 with hS
  set P : Nat → ℝ := fun i => (band[i]?).getD 0 with hP
  set Ms : Nat → MR4 := fun i => (ms[i]?).getD 0 with hMs
  have es : spec = (List.range n).map S := by rw [← l2]; exact list_eq_range spec 0
  have eb : band = (List.range n).map P := by rw [← l3]; exact list_eq_range band 0
  have em : ms = (List.range n).map Ms := by rw [← l1]; exact list_eq_range ms 0
  have htot : trapz (List.zip ((List.range n).map (freqAt a b n)) (List.zipWith (· * ·) spec band)) =
      if n ≤ 1 then 0 else (b - a) / n * ∑ i ∈ Finset.range n, edge n i * (S i * P i) := by
    rw [es, eb, List.zipWith_map, List.zipWith_self, List.zip_map', ]
    exact trapz_uniform a ((b - a) / n) (fun i => S i * P i) n
  have hint : ∀ i j, integrated ((List.range n).map (freqAt a b n)) spec band
      (ms.map fun M => M i j) =
      if n ≤ 1 then 0 else (b - a) / n *
        ∑ k ∈ Finset.range n, edge n k * (Ms k i j * S k * P k) := by
    intro i j
    unfold integrated
    rw [es, eb, em, List.map_map, List.zipWith_map, List.zipWith_self, List.zipWith_map,
      List.zipWith_self, List.zip_map']
    exact trapz_uniform a ((b - a) / n) (fun k => Ms k i j * S k * P k) n
  refine ⟨S, P, Ms, fun i hi => ⟨?_, g3 i hi, ?_⟩, ?_, ?_⟩
  · have := g2 i (by simpa using hi) (by omega)
    rw [List.getElem_map, List.getElem_range] at this
    rw [this, hS]
    dsimp only
    rw [List.getElem?_eq_getElem (by omega)]
    rfl
  · have := g1 i (by simpa using hi) (by omega)
    rw [List.getElem_map, List.getElem_range] at this
    rw [this, hMs]
    dsimp only
    rw [List.getElem?_eq_getElem (by omega)]
    rfl
  · have hz : (if n ≤ 1 then (0 : ℝ) else (b - a) / n * ∑ i ∈ Finset.range n, edge n i * (S i * P i))
        = 0 ↔ n ≤ 1 ∨ b = a ∨ ∑ i ∈ Finset.range n, edge n i * (S i * P i) = 0 := by
      split
      · rename_i hn
        simp [hn]
      · rename_i hn
        have : (n : ℝ) ≠ 0 := by
          have : n ≠ 0 := by omega
          exact_mod_cast this
        rw [mul_eq_zero, div_eq_zero_iff, sub_eq_zero]
        simp [hn, this]
    rw [← htot] at hz
    split at h
    · rename_i h0
      cases h
      exact ⟨fun _ => hz.1 h0, fun _ => rfl⟩
    · rename_i h0
      cases h
      simp only [reduceCtorEq, false_iff]
      exact fun hc => h0 (hz.2 hc)
  · intro M hM
    subst hM
    split at h
    · cases h
    · rename_i h0
      simp only [Except.ok.injEq, Option.some.injEq] at h
      rw [← h]
      rw [htot] at h0
      have hn : ¬ n ≤ 1 := fun hn => h0 (by rw [if_pos hn])
      rw [if_neg hn] at h0
      have hh : (b - a) / n ≠ 0 := left_ne_zero_of_mul h0
      have hsum := right_ne_zero_of_mul h0
      ext i j
      rw [Matrix.of_apply, hint, htot, if_neg hn, if_neg hn, Matrix.smul_apply, Matrix.sum_apply,
        mul_div_mul_left _ _ hh, smul_eq_mul, div_eq_inv_mul]
      congr 1
      apply Finset.sum_congr rfl
      intro k _
      rw [Matrix.smul_apply, smul_eq_mul]
      ring

end Verif.Optics
