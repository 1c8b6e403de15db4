import Verif.Spec.AlignedPlate
import Verif.Props.ThinFilm

/-!
# Lemmas: plates with aligned layers
-/

noncomputable section

namespace Verif.Props

open Verif.Optics Verif.Spec.ThinFilm Verif.Spec.AlignedPlate Real Matrix

namespace Films

/-- The layer as the code is given it. -/
def layerOf (x : Uniaxial) : Layer :=
  (x.thickness, ⟨x.ordinary, x.extra, x.ordinaryLoss, x.extraLoss⟩, x.angle)

theorem phaseO_film (m : Material) (t f nsin : ℝ) (hn : |nsin| < m.ordinaryIndex) :
    phaseO m t f nsin = Complex.I * phase f nsin ⟨t, m.ordinaryIndex, m.ordinaryLoss⟩ :=
  phase_eq (t, m, 0) f nsin hn

theorem phaseE_film (m : Material) (t f nsin r : ℝ) (h : 0 < extraEff m nsin r) :
    phaseE m t f nsin r = Complex.I * phase f nsin ⟨t, extraEff m nsin r, m.extraLoss⟩ := by
  unfold phaseE phase slope c
  rw [mul_comm ((extraEff m nsin r : ℂ) ^ 2), csqrt_loss h, cos_arcsin]
  push_cast
  ring

theorem twoMat_films (f nsin : ℝ) (a b : Film) :
    twoMat (a.index / cos (arcsin (nsin / a.index))) (b.index * cos (arcsin (nsin / b.index)))
      (Complex.I * phase f nsin a) (Complex.I * phase f nsin b) =
      blocks (film .tm f nsin a) (film .te f nsin b) := by
  have e1 : ∀ z : ℂ, Complex.sinh (Complex.I * z) = Complex.I * Complex.sin z := by
    intro z
    rw [mul_comm, Complex.sinh_mul_I, mul_comm]
  have e2 : ∀ z : ℂ, Complex.cosh (Complex.I * z) = Complex.cos z := by
    intro z
    rw [mul_comm, Complex.cosh_mul_I]
  unfold twoMat film
  rw [e1, e2, e1, e2]
  simp only [admittance, slope, cos_arcsin]
  ext i j
  fin_cases i <;> fin_cases j <;> simp [blocks] <;> ring

theorem along_eq {x : Uniaxial} (h : sin x.angle = 0) (nsin : ℝ) :
    extraEff (layerOf x).2.1 nsin x.angle = along nsin x := by
  have hc : cos x.angle ^ 2 = 1 := by
    have := sin_sq_add_cos_sq x.angle
    rw [h] at this
    linarith
  unfold extraEff along layerOf
  rw [hc, mul_one]

theorem extra_eq {x : Uniaxial} (h : cos x.angle = 0) (nsin : ℝ) :
    extraEff (layerOf x).2.1 nsin x.angle = x.extra := by
  unfold extraEff layerOf
  rw [h]
  simp

theorem aligned_layer {x : Uniaxial} {f nsin : ℝ} (h : Aligned nsin x) :
    layerMat f nsin 0 (layerOf x) = .ok (blocks (film .tm f nsin (inPlane nsin x)) (film .te f nsin (across x))) := by
  have hp : Physical (layerOf x).2.1 nsin := h.index
  have ha : (layerOf x).2.2 + 0 = x.angle := add_zero _
  unfold layerMat
  rw [ha]
  obtain ⟨-, hE, -⟩ := extraEff_sq (chi := x.angle) hp
  by_cases hs : sin x.angle = 0
  · rw [transferMatrix_plane hp _ _ hs, phaseE_film _ _ _ _ _ hE, phaseO_film _ _ _ _ hp.1, along_eq hs]
    unfold inPlane across
    rw [if_pos hs, if_pos hs]
    exact congrArg Except.ok (twoMat_films f nsin ⟨x.thickness, along nsin x, x.extraLoss⟩
      ⟨x.thickness, x.ordinary, x.ordinaryLoss⟩)
  · unfold inPlane across
    rw [if_neg hs, if_neg hs]
    rcases h.axis.resolve_left hs with hc | iso
    · rw [transferMatrix_perp hp _ _ hc, phaseE_film _ _ _ _ _ hE, phaseO_film _ _ _ _ hp.1, extra_eq hc]
      exact congrArg Except.ok (twoMat_films f nsin ⟨x.thickness, x.ordinary, x.ordinaryLoss⟩
        ⟨x.thickness, x.extra, x.extraLoss⟩)
    · have iso' : Isotropic (layerOf x).2.1 := iso
      rw [transferMatrix_iso iso' hp.1, phaseO_film _ _ _ _ hp.1, iso.1, iso.2]
      exact congrArg Except.ok (twoMat_films f nsin ⟨x.thickness, x.ordinary, x.ordinaryLoss⟩
        ⟨x.thickness, x.ordinary, x.ordinaryLoss⟩)

theorem aligned_stack (l : List Uniaxial) {f nsin : ℝ} (h : ∀ x ∈ l, Aligned nsin x) :
    ∃ Ts, (l.map layerOf).mapM (layerMat f nsin 0) = .ok Ts ∧ Ts.prod =
      blocks ((l.map (inPlane nsin)).map (film .tm f nsin)).prod
        ((l.map across).map (film .te f nsin)).prod := by
  induction l with
  | nil => exact ⟨[], rfl, by simpa using blocks_one.symm⟩
  | cons x l ih =>
    obtain ⟨Ts, h1, hp⟩ := ih (fun y hy => h y (List.mem_cons_of_mem x hy))
    refine ⟨blocks (film .tm f nsin (inPlane nsin x)) (film .te f nsin (across x)) :: Ts, ?_, ?_⟩
    · rw [List.map_cons, List.mapM_cons, h1, aligned_layer (h x List.mem_cons_self)]
      rfl
    · rw [List.prod_cons, hp, blocks_mul]
      simp

theorem aligned_fine {x : Uniaxial} {nsin : ℝ} (h : Aligned nsin x) :
    Fine nsin (inPlane nsin x) ∧ Fine nsin (across x) := by
  have hp : Physical (layerOf x).2.1 nsin := h.index
  unfold inPlane across
  by_cases hs : sin x.angle = 0
  · obtain ⟨-, hE, hlt⟩ := extraEff_sq (chi := x.angle) hp
    rw [along_eq hs] at hlt
    rw [if_pos hs, if_pos hs]
    exact ⟨⟨h.thickness, hlt, h.loss.2⟩, ⟨h.thickness, h.index.1, h.loss.1⟩⟩
  · rw [if_neg hs, if_neg hs]
    exact ⟨⟨h.thickness, h.index.1, h.loss.1⟩, ⟨h.thickness, h.index.2, h.loss.2⟩⟩

/-- The Jones matrix of aligned layers in air. -/
theorem aligned_jones (l : List Uniaxial) (hne : l ≠ []) (f i : ℝ) (hf : 0 ≤ f) (hi : |i| < π / 2)
    (h : ∀ x ∈ l, Aligned (sin i) x) :
    ∃ jr, jones (ofLayers (l.map layerOf)) f i 0 1 1 = .ok
      (!![(amplitudes f i l).1, 0; 0, (amplitudes f i l).2], jr) := by
  have c1 : 0 < cos i := cos_pos_of_mem_Ioo ⟨by linarith [(abs_lt.1 hi).1], (abs_lt.1 hi).2⟩
  have hs1 : |sin i| < 1 := by
    rw [← sq_lt_one_iff_abs_lt_one]
    nlinarith [sin_sq_add_cos_sq i]
  obtain ⟨Ts, hT, hprod⟩ := aligned_stack l (f := f) h
  have hlen : (ofLayers (l.map layerOf)).thicknesses.length ≠ 0 := by
    simpa [ofLayers] using hne
  have hst : stackTransferMatrix (ofLayers (l.map layerOf)) f i 0 1 1 =
      .ok ⟨Ts.prod, 1, 1, i, some (arcsin (sin i))⟩ := by
    unfold stackTransferMatrix
    simp only [bind, Except.bind, pure, Except.pure, mul_one, div_one]
    rw [stack_fold, hT]
    simp only [Except.map, if_neg hlen, Matrix.one_mul]
    rw [if_neg (by rintro (h | h); exacts [one_ne_zero h, by linarith])]
  have c3 : cos (arcsin (sin i)) = slope (sin i) 1 := by
    rw [cos_arcsin]
    unfold slope
    rw [div_one]
  have s1 : slope (sin i) 1 = cos i := by
    have := slope_front one_pos hi
    rwa [mul_one] at this
  have dTM := incoming_ne (admittance_pos .tm hs1) (admittance_pos .tm hs1)
    (carried_fields .tm (n3 := 1) hf (l.map (inPlane (sin i))) (fun x hx => by
      obtain ⟨y, hy, rfl⟩ := List.mem_map.1 hx
      exact (aligned_fine (h y hy)).1)).1
  have dTE := incoming_ne (admittance_pos .te hs1) (admittance_pos .te hs1)
    (carried_fields .te (n3 := 1) hf (l.map across) (fun x hx => by
      obtain ⟨y, hy, rfl⟩ := List.mem_map.1 hx
      exact (aligned_fine (h y hy)).2)).1
  have hj := jones_blocks (P := ((l.map (inPlane (sin i))).map (film .tm f (sin i))).prod)
    (S := ((l.map across).map (film .te f (sin i))).prod)
    (n1 := 1) (n3 := 1) (i := i) (t3 := arcsin (sin i)) one_pos c1 (by rw [c3, s1]; exact c1)
  rw [c3] at hj
  simp only [fields, admittance, s1] at dTM dTE
  simp only [s1] at hj
  have := hj dTM dTE
  unfold jones
  rw [hst, hprod]
  simp only [bind, Except.bind]
  rw [this]
  refine ⟨_, congrArg Except.ok (Prod.ext ?_ rfl)⟩
  simp only [amplitudes, transmission, fields, admittance, s1]
  rw [div_self c1.ne', Complex.ofReal_one, mul_one]

/-- The Mueller matrix of a diagonal Jones matrix. -/
theorem mueller_diag (p q : ℂ) : jonesToMueller !![p, 0; 0, q] = Matrix.of (waveplate p q) := by
  have hc : (!![p, 0; 0, q] : M2)ᴴ = !![star p, 0; 0, star q] := by
    ext a b
    fin_cases a <;> fin_cases b <;> simp [Matrix.conjTranspose_apply]
  ext i j
  simp only [jonesToMueller, muellerEntry, hc, Matrix.of_apply]
  fin_cases i <;> fin_cases j <;>
    simp [sigma, waveplate, Matrix.trace, Fin.sum_univ_two, Complex.normSq_apply] <;> ring

end Films

end Verif.Props
