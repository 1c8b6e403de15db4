import Verif.Lemmas.Band
import Verif.Props.HwpModels

/-!
# Property C104: Mueller matrices averaged over a band
-/

namespace Verif.Props

open Verif.Optics Real Matrix

private theorem spectral {s : Stack} {spectrum : List (ℝ × ℝ)} {a b : ℝ} {reflected : Bool}
    {pb : Option (List (ℝ × ℝ))} {inc : ℝ} {n : Nat} {rot n1 n3 : ℝ} {r : Option MR4}
    (h : bandAveragedMueller s spectrum a b reflected pb inc n rot n1 n3 = .ok r) :
    ∃ (S P : Nat → ℝ) (Ms : Nat → MR4),
      (∀ i < n, OnLine spectrum (freqAt a b n i) (S i) ∧ Responds pb (freqAt a b n i) (P i) ∧
        mueller s (freqAt a b n i) inc rot n1 n3 reflected = .ok (Ms i)) ∧
      (r = none ↔ n ≤ 1 ∨ b = a ∨ ∑ i ∈ Finset.range n, edge n i * (S i * P i) = 0) ∧
      ∀ M, r = some M → M = (∑ i ∈ Finset.range n, edge n i * (S i * P i))⁻¹ •
        ∑ i ∈ Finset.range n, (edge n i * (S i * P i)) • Ms i := by
  obtain ⟨S, P, Ms, h1, h2, h3⟩ := band_spec h
  exact ⟨S, P, Ms, fun i hi => ⟨interp1d_spec (h1 i hi).1, (h1 i hi).2⟩, h2, h3⟩

/-- **C104 (the average).** The matrix `BandAveragedMueller` returns is the average of the Mueller
matrices of the stack (transmission or reflection, as asked for) at `n` equidistant frequencies of the
band. The weights are spectrum times detector response, both interpolated linearly between the rows of
their files, in whatever order these come; the first and the last frequency count one half. There is
no (finite) result if and only if there are fewer than two frequencies, the band has no width, or the
weights add up to zero. The frequencies are `min + i (max - min) / n` for `i < n`, so the samples end
one step before the upper edge: this is what is missing from the integral over the whole band. -/
theorem C104_average_partial {s : Stack} {spectrum : List (ℝ × ℝ)} {a b : ℝ} {reflected : Bool}
    {pb : Option (List (ℝ × ℝ))} {inc : ℝ} {n : Nat} {rot n1 n3 : ℝ} {r : Option MR4}
    (h : bandAveragedMueller s spectrum a b reflected pb inc n rot n1 n3 = .ok r) :
    ∃ (S P : Nat → ℝ) (Ms : Nat → MR4),
      (∀ i < n, OnLine spectrum (freqAt a b n i) (S i) ∧ Responds pb (freqAt a b n i) (P i) ∧
        mueller s (freqAt a b n i) inc rot n1 n3 reflected = .ok (Ms i)) ∧
      (r = none ↔ n ≤ 1 ∨ b = a ∨ ∑ i ∈ Finset.range n, edge n i * (S i * P i) = 0) ∧
      ∀ M, r = some M → M = (∑ i ∈ Finset.range n, edge n i * (S i * P i))⁻¹ •
        ∑ i ∈ Finset.range n, (edge n i * (S i * P i)) • Ms i :=
  spectral h

/-- **C104 (refusals).** If the stack has a Mueller matrix at every sampled frequency, the call
succeeds exactly if the files have rows at both sides of every sampled frequency, and fails with
ValueError otherwise. -/
theorem C104_refused (s : Stack) (spectrum : List (ℝ × ℝ)) (a b : ℝ) (reflected : Bool)
    (pb : Option (List (ℝ × ℝ))) (inc : ℝ) (n : Nat) (rot n1 n3 : ℝ)
    (hM : ∀ i < n, ∃ M, mueller s (freqAt a b n i) inc rot n1 n3 reflected = .ok M) :
    ((∀ i < n, Covers spectrum (freqAt a b n i) ∧
        ∀ data, pb = some data → Covers data (freqAt a b n i)) →
      ∃ r, bandAveragedMueller s spectrum a b reflected pb inc n rot n1 n3 = .ok r) ∧
    (¬ (∀ i < n, Covers spectrum (freqAt a b n i) ∧
        ∀ data, pb = some data → Covers data (freqAt a b n i)) →
      bandAveragedMueller s spectrum a b reflected pb inc n rot n1 n3 = .error .valueError) := by
  have hm : ∃ ms, ((List.range n).map (freqAt a b n)).mapM
      (fun f => mueller s f inc rot n1 n3 reflected) = .ok ms := by
    apply mapM_ok
    intro f hf
    obtain ⟨i, hi, rfl⟩ := List.mem_map.1 hf
    exact hM i (List.mem_range.1 hi)
  obtain ⟨ms, hms⟩ := hm
  have key : ∀ data : List (ℝ × ℝ),
      ((∀ i < n, Covers data (freqAt a b n i)) →
        ∃ l, ((List.range n).map (freqAt a b n)).mapM (interp1d data) = .ok l) ∧
      (¬ (∀ i < n, Covers data (freqAt a b n i)) →
        ((List.range n).map (freqAt a b n)).mapM (interp1d data) = .error .valueError) := by
    intro data
    constructor
    · intro h
      apply mapM_ok
      intro f hf
      obtain ⟨i, hi, rfl⟩ := List.mem_map.1 hf
      exact (interp1d_iff data _).1 (h i (List.mem_range.1 hi))
    · intro h
      have : ∃ f ∈ (List.range n).map (freqAt a b n), ¬ Covers data f := by
        push Not at h
        obtain ⟨i, hi, hc⟩ := h
        exact ⟨_, List.mem_map.2 ⟨i, List.mem_range.2 hi, rfl⟩, hc⟩
      clear h hms hM
      generalize (List.range n).map (freqAt a b n) = l at this
      induction l with
      | nil => simp at this
      | cons f l ih =>
        rw [List.mapM_cons]
        by_cases hc : Covers data f
        · obtain ⟨y, hy⟩ := (interp1d_iff data f).1 hc
          rw [hy]
          obtain ⟨g, hg, hgc⟩ := this
          have hg' : g ∈ l := by
            rcases List.mem_cons.1 hg with rfl | hg
            · exact absurd hc hgc
            · exact hg
          simp only [bind, Except.bind]
          rw [ih ⟨g, hg', hgc⟩]
        · rw [(interp1d_iff data f).2 hc]
          rfl
  unfold bandAveragedMueller
  rw [bandFreqs_eq]
  simp only [bind, Except.bind, pure, Except.pure]
  rw [hms]
  dsimp only
  constructor
  · intro h
    obtain ⟨l, hl⟩ := (key spectrum).1 fun i hi => (h i hi).1
    rw [hl]
    dsimp only
    have : ∃ band, passBandOf ((List.range n).map (freqAt a b n)) pb = .ok band := by
      cases pb with
      | none => exact ⟨_, rfl⟩
      | some data => exact (key data).1 fun i hi => (h i hi).2 data rfl
    obtain ⟨band, hb⟩ := this
    rw [hb]
    dsimp only
    split <;> exact ⟨_, rfl⟩
  · intro h
    by_cases hs : ∀ i < n, Covers spectrum (freqAt a b n i)
    · obtain ⟨l, hl⟩ := (key spectrum).1 hs
      rw [hl]
      dsimp only
      cases pb with
      | none => exact absurd (fun i hi => ⟨hs i hi, fun _ h => by cases h⟩) h
      | some data =>
        have : passBandOf ((List.range n).map (freqAt a b n)) (some data) = .error .valueError := by
          apply (key data).2
          intro hd
          refine h fun i hi => ⟨hs i hi, ?_⟩
          rintro _ ⟨rfl⟩
          exact hd i hi
        rw [this]
    · rw [(key spectrum).2 hs]

theorem weights_nonneg {spectrum : List (ℝ × ℝ)} {pb : Option (List (ℝ × ℝ))}
    (hs : ∀ r ∈ spectrum, 0 ≤ r.2) (hp : ∀ data, pb = some data → ∀ r ∈ data, 0 ≤ r.2)
    {n i : Nat} {f S P : ℝ} (h1 : OnLine spectrum f S) (h2 : Responds pb f P) :
    0 ≤ edge n i * (S * P) := by
  have e : 0 ≤ edge n i := by
    unfold edge
    split <;> norm_num
  have p : 0 ≤ P := by
    cases pb with
    | none => rw [show P = 1 from h2]; exact zero_le_one
    | some data => exact OnLine.nonneg (hp data rfl) h2
  exact mul_nonneg e (mul_nonneg (h1.nonneg hs) p)

/-- **C104 (between the extremes).** With a non-negative spectrum and response, every linear function
of the Mueller matrix (an entry, the intensity coming out for a given input, …) that lies in an
interval at all sampled frequencies lies in it for the average. In particular a stack whose matrix
does not depend on frequency keeps its matrix. -/
theorem C104_between {s : Stack} {spectrum : List (ℝ × ℝ)} {a b : ℝ} {reflected : Bool}
    {pb : Option (List (ℝ × ℝ))} {inc : ℝ} {n : Nat} {rot n1 n3 : ℝ} {M : MR4}
    (h : bandAveragedMueller s spectrum a b reflected pb inc n rot n1 n3 = .ok (some M))
    (hs : ∀ r ∈ spectrum, 0 ≤ r.2) (hp : ∀ data, pb = some data → ∀ r ∈ data, 0 ≤ r.2)
    (g : MR4 →ₗ[ℝ] ℝ) (lo hi : ℝ)
    (hg : ∀ i < n, ∀ M', mueller s (freqAt a b n i) inc rot n1 n3 reflected = .ok M' →
      lo ≤ g M' ∧ g M' ≤ hi) :
    lo ≤ g M ∧ g M ≤ hi := by
  obtain ⟨S, P, Ms, h1, h2, h3⟩ := spectral h
  have hne : ∑ i ∈ Finset.range n, edge n i * (S i * P i) ≠ 0 := by
    intro h0
    have := h2.2 (.inr (.inr h0))
    cases this
  have hw : ∀ i ∈ Finset.range n, 0 ≤ edge n i * (S i * P i) := fun i hi =>
    weights_nonneg hs hp (h1 i (Finset.mem_range.1 hi)).1 (h1 i (Finset.mem_range.1 hi)).2.1
  have hpos : 0 < ∑ i ∈ Finset.range n, edge n i * (S i * P i) :=
    lt_of_le_of_ne (Finset.sum_nonneg hw) hne.symm
  rw [h3 M rfl, map_smul, map_sum]
  simp only [map_smul, smul_eq_mul]
  rw [← div_eq_inv_mul, le_div_iff₀ hpos, div_le_iff₀ hpos, Finset.mul_sum, Finset.mul_sum]
  constructor <;> apply Finset.sum_le_sum <;> intro i hin
  · rw [mul_comm lo]
    exact mul_le_mul_of_nonneg_left
      (hg i (Finset.mem_range.1 hin) _ (h1 i (Finset.mem_range.1 hin)).2.2).1 (hw i hin)
  · rw [mul_comm hi]
    exact mul_le_mul_of_nonneg_left
      (hg i (Finset.mem_range.1 hin) _ (h1 i (Finset.mem_range.1 hin)).2.2).2 (hw i hin)

private theorem interp_scale (k : ℝ) (l : List (ℝ × ℝ)) (f : ℝ) :
    interpSorted (l.map fun r => (r.1, k * r.2)) f = k * interpSorted l f := by
  induction l with
  | nil => simp [interpSorted]
  | cons r0 l ih =>
    cases l with
    | nil => rfl
    | cons r1 l =>
      simp only [List.map_cons] at ih ⊢
      unfold interpSorted
      dsimp only
      split
      · exact ih
      · split
        · rfl
        · ring

private theorem interp1d_scale (k : ℝ) (data : List (ℝ × ℝ)) (f : ℝ) :
    interp1d (data.map fun r => (r.1, k * r.2)) f = (interp1d data f).map (k * ·) := by
  classical
  have hsort : sortRows (data.map fun r => (r.1, k * r.2)) =
      (sortRows data).map fun r => (r.1, k * r.2) := by
    unfold sortRows
    rw [List.map_mergeSort]
    intro a _ b _
    rfl
  unfold interp1d
  rw [hsort, List.head?_map, List.getLast?_map]
  rcases (sortRows data).head? with _ | a
  · rfl
  rcases (sortRows data).getLast? with _ | b
  · rfl
  dsimp only [Option.map]
  split
  · rfl
  · rw [interp_scale]
    rfl

private theorem mapM_scale (k : ℝ) (data : List (ℝ × ℝ)) (l : List ℝ) :
    l.mapM (interp1d (data.map fun r => (r.1, k * r.2))) =
      (l.mapM (interp1d data)).map (List.map (k * ·)) := by
  induction l with
  | nil => rfl
  | cons f l ih =>
    rw [List.mapM_cons, List.mapM_cons, ih, interp1d_scale]
    rcases interp1d data f with e | y
    · rfl
    rcases l.mapM (interp1d data) with e | ys <;> rfl

private theorem trapz_scale (k : ℝ) (l : List (ℝ × ℝ)) :
    trapz (l.map fun r => (r.1, k * r.2)) = k * trapz l := by
  induction l with
  | nil => simp [trapz]
  | cons r0 l ih =>
    cases l with
    | nil => simp [trapz]
    | cons r1 l =>
      simp only [List.map_cons] at ih ⊢
      rw [trapz, ih, trapz]
      ring

private theorem zip_scale (k : ℝ) (fs u : List ℝ) :
    List.zip fs (u.map (k * ·)) = (List.zip fs u).map fun r => (r.1, k * r.2) := by
  rw [List.zip_map_right]
  rfl

private theorem zipWith_scale_left (k : ℝ) (u v : List ℝ) :
    List.zipWith (· * ·) (u.map (k * ·)) v = (List.zipWith (· * ·) u v).map (k * ·) := by
  rw [List.map_zipWith, List.zipWith_map_left]
  congr 1
  funext x y
  ring

private theorem zipWith_scale_right (k : ℝ) (u v : List ℝ) :
    List.zipWith (· * ·) u (v.map (k * ·)) = (List.zipWith (· * ·) u v).map (k * ·) := by
  rw [List.map_zipWith, List.zipWith_map_right]
  congr 1
  funext x y
  ring

/-- **C104 (normalisation).** Neither the units of the spectrum nor those of the detector response
matter: multiplying either of them by a non-zero number changes nothing, whatever the call returns or
raises. -/
theorem C104_scale (s : Stack) (spectrum : List (ℝ × ℝ)) (a b : ℝ) (reflected : Bool)
    (pb : Option (List (ℝ × ℝ))) (inc : ℝ) (n : Nat) (rot n1 n3 k k' : ℝ) (hk : k ≠ 0)
    (hk' : k' ≠ 0) :
    bandAveragedMueller s (spectrum.map fun r => (r.1, k * r.2)) a b reflected
        (pb.map fun data => data.map fun r => (r.1, k' * r.2)) inc n rot n1 n3 =
      bandAveragedMueller s spectrum a b reflected pb inc n rot n1 n3 := by
  have hsc : ∀ (fs sp bd : List ℝ) (ms : List MR4) (q : ℝ), q ≠ 0 → ∀ sp' bd' : List ℝ,
      (∀ u : List ℝ, List.zipWith (· * ·) (List.zipWith (· * ·) u sp') bd' =
        (List.zipWith (· * ·) (List.zipWith (· * ·) u sp) bd).map (q * ·)) →
      List.zipWith (· * ·) sp' bd' = (List.zipWith (· * ·) sp bd).map (q * ·) →
      (trapz (List.zip fs (List.zipWith (· * ·) sp' bd')) = 0 ↔
        trapz (List.zip fs (List.zipWith (· * ·) sp bd)) = 0) ∧
      ∀ u, integrated fs sp' bd' u / trapz (List.zip fs (List.zipWith (· * ·) sp' bd')) =
        integrated fs sp bd u / trapz (List.zip fs (List.zipWith (· * ·) sp bd)) := by
    intro fs sp bd ms q hq sp' bd' h1 h2
    rw [h2, zip_scale, trapz_scale]
    refine ⟨by simp [hq], fun u => ?_⟩
    unfold integrated
    rw [h1, zip_scale, trapz_scale, mul_div_mul_left _ _ hq]
  unfold bandAveragedMueller
  simp only [bind, Except.bind, pure, Except.pure]
  rw [mapM_scale]
  rcases (bandFreqs a b n).mapM (fun f => mueller s f inc rot n1 n3 reflected) with e | ms
  · rfl
  rcases (bandFreqs a b n).mapM (interp1d spectrum) with e | sp
  · rfl
  dsimp only [Except.map]
  have hb : ∃ q : ℝ, q ≠ 0 ∧ passBandOf (bandFreqs a b n)
      (pb.map fun data => data.map fun r => (r.1, k' * r.2)) =
      (passBandOf (bandFreqs a b n) pb).map (List.map (q * ·)) := by
    cases pb with
    | none =>
      refine ⟨1, one_ne_zero, ?_⟩
      simp [passBandOf, Except.map]
    | some data =>
      exact ⟨k', hk', mapM_scale k' data _⟩
  obtain ⟨q, hq, hb⟩ := hb
  rw [hb]
  rcases passBandOf (bandFreqs a b n) pb with e | bd
  · rfl
  dsimp only [Except.map]
  obtain ⟨e1, e2⟩ := hsc (bandFreqs a b n) sp bd ms (k * q) (mul_ne_zero hk hq) (sp.map (k * ·))
    (bd.map (q * ·))
    (fun u => by
      rw [zipWith_scale_right, zipWith_scale_right, zipWith_scale_left, List.map_map]
      congr 1
      funext x
      simp only [Function.comp]
      ring)
    (by
      rw [zipWith_scale_left, zipWith_scale_right, List.map_map]
      congr 1
      funext x
      simp only [Function.comp]
      ring)
  simp only [e1, e2]

private theorem mueller_jones {l : List Layer} {f r n1 n3 : ℝ} {jt jr : M2}
    (h : jones (ofLayers l) f 0 r n1 n3 = .ok (jt, jr)) (reflected : Bool) :
    mueller (ofLayers l) f 0 r n1 n3 reflected =
      .ok (jonesToMueller (if reflected then jr else jt)) := by
  unfold mueller
  unfold jones at h
  simp only [bind, Except.bind] at h ⊢
  rcases h0 : stackTransferMatrix (ofLayers l) f 0 r n1 n3 with e | tr
  · rw [h0] at h
    cases h
  · rw [h0] at h
    dsimp only at h ⊢
    rw [h]
    rfl

/-- The intensity coming out for a field `e` as a linear function of the Mueller matrix. -/
private noncomputable def intensity (e : Fin 2 → ℂ) : MR4 →ₗ[ℝ] ℝ where
  toFun M := M.mulVec (stokes e) 0
  map_add' M N := by rw [Matrix.add_mulVec]; rfl
  map_smul' k M := by rw [Matrix.smul_mulVec]; rfl

/-- **C104 (energy).** For every stack of passive layers at normal incidence and every non-negative
band: the call succeeds if the files cover the sampled frequencies; a finite result exists if there
are at least two frequencies in a band of non-zero width and some sampled frequency has a row of
positive power and a flat response; and no radiation comes out of the averaged matrix with more power
than it carried in. -/
theorem C104_passive (l : List Layer) (hne : l ≠ []) (hl : ∀ x ∈ l, Passive x)
    (spectrum : List (ℝ × ℝ)) (a b : ℝ) (ha : 0 ≤ a) (hab : a ≤ b) (reflected : Bool)
    (pb : Option (List (ℝ × ℝ))) (n : Nat) (rot n1 n3 : ℝ) (h1 : 0 < n1) (h3 : 0 < n3)
    (hs : ∀ r ∈ spectrum, 0 ≤ r.2) (hp : ∀ data, pb = some data → ∀ r ∈ data, 0 ≤ r.2)
    (hc : ∀ i < n, Covers spectrum (freqAt a b n i) ∧
      ∀ data, pb = some data → Covers data (freqAt a b n i)) :
    ∃ r, bandAveragedMueller (ofLayers l) spectrum a b reflected pb 0 n rot n1 n3 = .ok r ∧
      (a < b → 2 ≤ n → pb = none →
        (∃ i < n, ∀ S, OnLine spectrum (freqAt a b n i) S → 0 < S) → ∃ M, r = some M) ∧
      ∀ M, r = some M → ∀ e, 0 ≤ M.mulVec (stokes e) 0 ∧
        (if reflected then n1 else n3) * M.mulVec (stokes e) 0 ≤ n1 * stokes e 0 := by
  have hfreq : ∀ i, 0 ≤ freqAt a b n i := by
    intro i
    unfold freqAt
    have : 0 ≤ (b - a) / n := div_nonneg (by linarith) (Nat.cast_nonneg n)
    positivity
  have hJ : ∀ i, ∃ jt jr, jones (ofLayers l) (freqAt a b n i) 0 rot n1 n3 = .ok (jt, jr) ∧ ∀ e,
      n3 * power (jt.mulVec e) + n1 * power (jr.mulVec e) ≤ n1 * power e := by
    intro i
    obtain ⟨jt, jr, h, he⟩ := C65_energy l hne hl (freqAt a b n i) rot n1 n3 (hfreq i) h1 h3
    exact ⟨jt, jr, h, fun e => (he e).1⟩
  obtain ⟨r, hr⟩ := (C104_refused (ofLayers l) spectrum a b reflected pb 0 n rot n1 n3
    fun i _ => by
      obtain ⟨jt, jr, h, -⟩ := hJ i
      exact ⟨_, mueller_jones h reflected⟩).1 hc
  refine ⟨r, hr, ?_, ?_⟩
  · rintro hlt h2 rfl ⟨i, hi, hpos⟩
    obtain ⟨S, P, Ms, g1, g2, -⟩ := spectral hr
    cases r with
    | some M => exact ⟨M, rfl⟩
    | none =>
      rcases g2.1 rfl with h | h | h
      · omega
      · exact absurd h hlt.ne'
      · exfalso
        have hw : ∀ j ∈ Finset.range n, 0 ≤ edge n j * (S j * P j) := fun j hj =>
          weights_nonneg hs hp (g1 j (Finset.mem_range.1 hj)).1 (g1 j (Finset.mem_range.1 hj)).2.1
        have := (Finset.sum_eq_zero_iff_of_nonneg hw).1 h i (Finset.mem_range.2 hi)
        have hS := hpos _ (g1 i hi).1
        have hP : P i = 1 := (g1 i hi).2.1
        rw [hP, mul_one] at this
        have he : 0 < edge n i := by
          unfold edge
          split <;> norm_num
        exact absurd this (mul_pos he hS).ne'
  · rintro M rfl e
    have hst : ∀ d : Fin 2 → ℂ, stokes d 0 = power d := fun d => rfl
    have hpow : ∀ d : Fin 2 → ℂ, 0 ≤ power d := fun d => by unfold power; positivity
    have hq : 0 < (if reflected then n1 else n3) := by split <;> assumption
    have := C104_between hr hs hp (intensity e) 0 (n1 * stokes e 0 / (if reflected then n1 else n3))
      (by
        intro i hi M' hM'
        obtain ⟨jt, jr, h, he⟩ := hJ i
        rw [mueller_jones h] at hM'
        cases hM'
        show 0 ≤ (jonesToMueller _).mulVec (stokes e) 0 ∧ (jonesToMueller _).mulVec (stokes e) 0 ≤ _
        rw [C35_stokes, hst, hst]
        refine ⟨hpow _, ?_⟩
        rw [le_div_iff₀ hq, mul_comm]
        have a1 := mul_nonneg h3.le (hpow (jt.mulVec e))
        have a2 := mul_nonneg h1.le (hpow (jr.mulVec e))
        have := he e
        cases reflected
        · simp only [Bool.false_eq_true, if_false]
          linarith
        · simp only [if_true]
          linarith)
    rw [le_div_iff₀ hq, mul_comm (intensity e M)] at this
    exact this

/-! ### where the code falls short of its documentation -/

/-- **C104 (violation: the upper edge).** "The highest frequency to integrate over" is never looked
at, nor is anything above the last sample. A source that shines only in the upper half of the band has
a positive integral over it, but with two samples there is no finite result, for any stack. -/
theorem C104_violation_upper_edge (s : Stack) (reflected : Bool) (inc rot n1 n3 : ℝ) (r : Option MR4)
    (h : bandAveragedMueller s [(0, 0), (1, 0), (2, 2)] 0 2 reflected none inc 2 rot n1 n3 = .ok r) :
    r = none ∧ trapz [(0, 0), (1, 0), (2, 2)] = 1 := by
  obtain ⟨S, P, Ms, g1, g2, -⟩ := spectral h
  constructor
  · rw [g2]
    refine .inr (.inr ?_)
    have key : ∀ i < 2, S i = 0 := by
      intro i hi
      have f : freqAt 0 2 2 i = 0 ∨ freqAt 0 2 2 i = 1 := by
        interval_cases i <;> norm_num [freqAt]
      rcases (g1 i hi).1 with ⟨q, hq, e1, e2⟩ | ⟨q0, m0, q1, m1, k1, k2, k3, -⟩
      · simp only [List.mem_cons, List.not_mem_nil, or_false] at hq
        rcases hq with rfl | rfl | rfl
        · exact e2.symm
        · exact e2.symm
        · exfalso
          rcases f with f | f <;> rw [f] at e1 <;> norm_num at e1
      · exfalso
        have := k3 (0, 0) (by simp)
        have := k3 (1, 0) (by simp)
        rcases f with f | f <;> rw [f] at k1 k2 <;> grind
    rw [Finset.sum_range_succ, Finset.sum_range_succ, Finset.sum_range_zero, key 0 (by omega),
      key 1 (by omega)]
    ring
  · norm_num [trapz]

/-- **C104 (violation: units of the passband).** The documentation asks for the passband in GHz and
for everything else in Hz, but the code compares the two directly: for every band above 1 GHz and every
passband file with frequencies (in GHz) below a million, the call fails with ValueError. -/
theorem C104_violation_passband_units (s : Stack) (spectrum data : List (ℝ × ℝ)) (a b : ℝ) (reflected : Bool)
    (inc : ℝ) (n : Nat) (hn : 0 < n) (rot n1 n3 : ℝ) (ha : 1e9 ≤ a)
    (hM : ∀ i < n, ∃ M, mueller s (freqAt a b n i) inc rot n1 n3 reflected = .ok M)
    (hdata : ∀ r ∈ data, r.1 < 1e6) :
    bandAveragedMueller s spectrum a b reflected (some data) inc n rot n1 n3 =
      .error .valueError := by
  apply (C104_refused s spectrum a b reflected (some data) inc n rot n1 n3 hM).2
  intro h
  obtain ⟨-, q, hq, hle⟩ := (h 0 hn).2 data rfl
  have := hdata q hq
  have hf : freqAt a b n 0 = a := by simp [freqAt]
  rw [hf] at hle
  norm_num at this ha
  linarith

/-- Non-vacuity: a sapphire plate and a spectrum that rises and falls over 100 - 200 GHz, sampled at
four frequencies; the average exists. -/
example : ∃ M, bandAveragedMueller (ofLayers [(0.00375, ⟨3.019, 3.336, 2.3e-4, 1.25e-4⟩, 0)])
    [(200e9, 1), (100e9, 1), (150e9, 3)] 100e9 200e9 false none 0 4 0.3 1 1 = .ok (some M) ∧
    ∀ e, M.mulVec (stokes e) 0 ≤ stokes e 0 := by
  have hpos : ∀ r ∈ ([(200e9, 1), (100e9, 1), (150e9, 3)] : List (ℝ × ℝ)), (0 : ℝ) ≤ r.2 := by
    intro r hr
    simp only [List.mem_cons, List.not_mem_nil, or_false] at hr
    rcases hr with rfl | rfl | rfl <;> norm_num
  obtain ⟨r, h, h1, h2⟩ := C104_passive [(0.00375, ⟨3.019, 3.336, 2.3e-4, 1.25e-4⟩, 0)] (by simp)
    (by
      intro x hx
      simp at hx
      subst hx
      refine ⟨?_, ?_, ?_, ?_, ?_⟩ <;> norm_num)
    [(200e9, 1), (100e9, 1), (150e9, 3)] 100e9 200e9 (by norm_num) (by norm_num) false none 4 0.3 1 1
    one_pos one_pos hpos (by simp)
    (by
      intro i hi
      refine ⟨⟨⟨(100e9, 1), by simp, ?_⟩, ⟨(200e9, 1), by simp, ?_⟩⟩, by simp⟩ <;>
        interval_cases i <;> norm_num [freqAt])
  obtain ⟨M, rfl⟩ := h1 (by norm_num) (by norm_num) rfl ⟨0, by norm_num, fun S hS => by
    have f : freqAt 100e9 200e9 4 0 = 100e9 := by simp [freqAt]
    rw [f] at hS
    rcases hS with ⟨q, hq, e1, e2⟩ | ⟨q0, m0, q1, m1, k1, k2, k3, -⟩
    · rw [← e2]
      simp only [List.mem_cons, List.not_mem_nil, or_false] at hq
      rcases hq with rfl | rfl | rfl <;> norm_num
    · exfalso
      simp only [List.mem_cons, List.not_mem_nil, or_false] at m0
      rcases m0 with rfl | rfl | rfl <;> norm_num at k1⟩
  exact ⟨M, h, fun e => by simpa using (h2 M rfl e).2⟩

end Verif.Props
