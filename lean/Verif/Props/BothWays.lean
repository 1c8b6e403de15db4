import Verif.Lemmas.BothWays
import Verif.Props.AlignedPlate

/-!
# Property C147: light passes a stack the same way in both directions
-/

namespace Verif.Props

open Verif.Optics Verif.Spec.BothWays Verif.Spec.AlignedPlate Verif.Spec.ThinFilm Real Matrix

/-- The Jones matrix of light from the other side, from the exchanged transfer matrix. -/
private theorem tran_swap (m m' : M4) {n1 n3 : ℝ} (h1 : n1 ≠ 0) (h3 : n3 ≠ 0)
    (hm : m' = swapEH * mᵀ * swapEH) :
    (tranToJones ⟨m', n3, n1, 0, some 0⟩).map Prod.fst =
      (tranToJones ⟨m, n1, n3, 0, some 0⟩).map fun J => ((n3 : ℂ) / n1) • J.1ᵀ := by
  have e : ∀ (x : PyM (M2 × M2)) (g : M2 → M2), x.map (fun J => g J.1) = (x.map Prod.fst).map g := by
    intro x g
    cases x <;> rfl
  rw [e _ fun J => ((n3 : ℂ) / n1) • Jᵀ, tran_normal m h1, tran_normal m' h3]
  have hn1 : (n1 : ℂ) ≠ 0 := by exact_mod_cast h1
  have hn3 : (n3 : ℂ) ≠ 0 := by exact_mod_cast h3
  set X : M2 := !![m 0 0 + m 0 1 * n3 + (m 1 0 + m 1 1 * n3) / n1,
          m 0 2 + m 0 3 * n3 + (m 1 2 + m 1 3 * n3) / n1;
        m 2 0 + m 2 1 * n3 + (m 3 0 + m 3 1 * n3) / n1,
          m 2 2 + m 2 3 * n3 + (m 3 2 + m 3 3 * n3) / n1] with hX
  have hX' : (!![m' 0 0 + m' 0 1 * n1 + (m' 1 0 + m' 1 1 * n1) / n3,
          m' 0 2 + m' 0 3 * n1 + (m' 1 2 + m' 1 3 * n1) / n3;
        m' 2 0 + m' 2 1 * n1 + (m' 3 0 + m' 3 1 * n1) / n3,
          m' 2 2 + m' 2 3 * n1 + (m' 3 2 + m' 3 3 * n1) / n3] : M2) = ((n1 : ℂ) / n3) • Xᵀ := by
    ext i j
    fin_cases i <;> fin_cases j <;>
      simp [hm, hX, swapEH, Matrix.mul_apply, Matrix.vecMul, dotProduct, Fin.sum_univ_four] <;>
      field_simp <;> ring
  rw [hX']
  have hdet : (((n1 : ℂ) / n3) • Xᵀ).det = ((n1 : ℂ) / n3) ^ 2 * X.det := by
    rw [Matrix.det_smul, Matrix.det_transpose]
    simp
  have hq : ((n1 : ℂ) / n3) ^ 2 ≠ 0 := pow_ne_zero _ (div_ne_zero hn1 hn3)
  simp only [hdet]
  by_cases hd : X.det = 0
  · rw [if_pos (by rw [hd, mul_zero]), if_pos hd]
    rfl
  · rw [if_neg (mul_ne_zero hq hd), if_neg hd]
    simp only [Except.map, Except.ok.injEq]
    clear_value X
    ext i j
    fin_cases i <;> fin_cases j <;> simp <;> field_simp

/-- The Jones matrix of the mirrored stack. -/
private theorem tran_mirror (m : M4) {n1 n3 : ℝ} (h1 : n1 ≠ 0) :
    (tranToJones ⟨mirrorY * m * mirrorY, n1, n3, 0, some 0⟩).map Prod.fst =
      ((tranToJones ⟨m, n1, n3, 0, some 0⟩).map Prod.fst).map fun J =>
        !![J 0 0, -J 0 1; -J 1 0, J 1 1] := by
  rw [tran_normal m h1, tran_normal _ h1]
  set X : M2 := !![m 0 0 + m 0 1 * n3 + (m 1 0 + m 1 1 * n3) / n1,
          m 0 2 + m 0 3 * n3 + (m 1 2 + m 1 3 * n3) / n1;
        m 2 0 + m 2 1 * n3 + (m 3 0 + m 3 1 * n3) / n1,
          m 2 2 + m 2 3 * n3 + (m 3 2 + m 3 3 * n3) / n1] with hX
  set m' := mirrorY * m * mirrorY with hm
  have hX' : (!![m' 0 0 + m' 0 1 * n3 + (m' 1 0 + m' 1 1 * n3) / n1,
          m' 0 2 + m' 0 3 * n3 + (m' 1 2 + m' 1 3 * n3) / n1;
        m' 2 0 + m' 2 1 * n3 + (m' 3 0 + m' 3 1 * n3) / n1,
          m' 2 2 + m' 2 3 * n3 + (m' 3 2 + m' 3 3 * n3) / n1] : M2) =
      !![X 0 0, -X 0 1; -X 1 0, X 1 1] := by
    ext i j
    fin_cases i <;> fin_cases j <;>
      simp [hm, hX, mirrorY, Matrix.mul_apply, Matrix.vecMul, dotProduct, Fin.sum_univ_four] <;> ring
  rw [hX']
  have hdet : (!![X 0 0, -X 0 1; -X 1 0, X 1 1] : M2).det = X.det := by
    rw [Matrix.det_fin_two_of, Matrix.det_fin_two]
    ring
  simp only [hdet]
  by_cases hd : X.det = 0
  · rw [if_pos hd, if_pos hd]
    rfl
  · rw [if_neg hd, if_neg hd]
    simp only [Except.map, Except.ok.injEq]
    clear_value X m'
    ext i j
    fin_cases i <;> fin_cases j <;> simp <;> ring

/-- **C147.** At normal incidence every stack lets light from the other side pass as light from the front, with
the roles of incoming and outgoing polarization exchanged (directions in the same frame); between different
media the amplitudes differ by the ratio of the indices.  If one matrix does not exist then neither does the
other. -/
theorem C147_transmission (l : List Layer) (hne : l ≠ [])
    (hl : ∀ x ∈ l, 0 < x.2.1.ordinaryIndex ∧ 0 < x.2.1.extraIndex) (f r n1 n3 : ℝ) (h1 : n1 ≠ 0)
    (h3 : n3 ≠ 0) :
    (jones (ofLayers (fromBehind l)) f 0 r n3 n1).map Prod.fst =
      (jones (ofLayers l) f 0 r n1 n3).map fun J => ((n3 : ℂ) / n1) • J.1ᵀ := by
  obtain ⟨Ts, Ts', a, b, hp⟩ := stack_swap l hl f r
  unfold jones fromBehind
  rw [stack_normal l hne f r n1 n3 h3 a, stack_normal l.reverse (by simpa using hne) f r n3 n1 h1 b]
  exact tran_swap _ _ h1 h3 hp

/-- **C147, turned over.** A stack that is turned over about its x axis (which also turns its rotation round)
has the same matrix with the roles exchanged and the y direction reversed. -/
theorem C147_turned_over (l : List Layer) (hne : l ≠ [])
    (hl : ∀ x ∈ l, 0 < x.2.1.ordinaryIndex ∧ 0 < x.2.1.extraIndex) (f r n1 n3 : ℝ) (h1 : n1 ≠ 0)
    (h3 : n3 ≠ 0) :
    (jones (ofLayers (turnedOver l)) f 0 (-r) n3 n1).map Prod.fst =
      (jones (ofLayers l) f 0 r n1 n3).map fun J =>
        ((n3 : ℂ) / n1) • !![J.1 0 0, -J.1 1 0; -J.1 0 1, J.1 1 1] := by
  have hr : ∀ x ∈ l.reverse, 0 < x.2.1.ordinaryIndex ∧ 0 < x.2.1.extraIndex := fun x hx =>
    hl x (List.mem_reverse.1 hx)
  obtain ⟨Ts, Ts', a, b, hp⟩ := stack_mirror l.reverse hr f r
  have h := C147_transmission l hne hl f r n1 n3 h1 h3
  generalize jones (ofLayers l) f 0 r n1 n3 = y at h ⊢
  unfold jones fromBehind at h
  unfold jones turnedOver
  rw [stack_normal l.reverse (by simpa using hne) f r n3 n1 h1 a] at h
  rw [stack_normal (l.reverse.map fun x => (x.1, x.2.1, -x.2.2)) (by simpa using hne) f (-r) n3 n1 h1 b]
  simp only [bind, Except.bind] at h ⊢
  rw [hp, tran_mirror _ h3, h]
  cases y with
  | error e => rfl
  | ok J =>
    simp only [Except.map, Except.ok.injEq]
    ext i j
    fin_cases i <;> fin_cases j <;> simp

theorem sigma_transpose (i : Fin 4) : (sigma i)ᵀ = (if i = 3 then -1 else 1 : ℂ) • sigma i := by
  ext a b
  fin_cases i <;> fin_cases a <;> fin_cases b <;> simp [sigma]

/-- Reversal of the y component of a field. -/
private def mirror2 : M2 := !![1, 0; 0, -1]

theorem sigma_mirror (i : Fin 4) :
    mirror2 * sigma i * mirror2 = (if i = 2 ∨ i = 3 then -1 else 1 : ℂ) • sigma i := by
  ext a b
  fin_cases i <;> fin_cases a <;> fin_cases b <;>
    simp [sigma, mirror2, Matrix.mul_apply, Fin.sum_univ_two]

theorem entry_transpose (J : M2) (i j : Fin 4) :
    muellerEntry Jᵀ i j = (if i = 3 then -1 else 1) * (if j = 3 then -1 else 1) * muellerEntry J j i := by
  unfold muellerEntry
  have h : (sigma i * (Jᵀ * (sigma j * (Jᵀ)ᴴ)))ᵀ = Jᴴ * ((sigma j)ᵀ * (J * (sigma i)ᵀ)) := by
    simp only [Matrix.transpose_mul, Matrix.transpose_transpose, Matrix.mul_assoc]
    rfl
  rw [← Matrix.trace_transpose, h, Matrix.trace_mul_comm, sigma_transpose, sigma_transpose]
  simp only [Matrix.smul_mul, Matrix.mul_smul, Matrix.trace_smul, Matrix.mul_assoc, smul_eq_mul]
  ring

theorem entry_mirror (J : M2) (i j : Fin 4) :
    muellerEntry (mirror2 * J * mirror2) i j = (if i = 2 ∨ i = 3 then -1 else 1) *
      (if j = 2 ∨ j = 3 then -1 else 1) * muellerEntry J i j := by
  unfold muellerEntry
  have hh : mirror2ᴴ = mirror2 := by
    ext a b
    fin_cases a <;> fin_cases b <;> simp [mirror2]
  have h : (sigma i * (mirror2 * J * mirror2 * (sigma j * (mirror2 * J * mirror2)ᴴ))).trace =
      ((mirror2 * sigma i * mirror2) * (J * ((mirror2 * sigma j * mirror2) * Jᴴ))).trace := by
    simp only [Matrix.conjTranspose_mul, hh]
    rw [show sigma i * (mirror2 * J * mirror2 * (sigma j * (mirror2 * (Jᴴ * mirror2)))) =
      (sigma i * (mirror2 * (J * (mirror2 * (sigma j * (mirror2 * Jᴴ)))))) * mirror2 by
        simp only [Matrix.mul_assoc], Matrix.trace_mul_comm]
    simp only [Matrix.mul_assoc]
  rw [h, sigma_mirror, sigma_mirror]
  simp only [Matrix.smul_mul, Matrix.mul_smul, Matrix.trace_smul, smul_eq_mul]
  ring

theorem mueller_transpose (J : M2) : jonesToMueller Jᵀ = exchanged 3 (jonesToMueller J) := by
  ext i j
  simp only [jonesToMueller, exchanged, Matrix.of_apply, entry_transpose]
  split <;> split <;> simp

theorem mueller_over (J : M2) :
    jonesToMueller !![J 0 0, -J 1 0; -J 0 1, J 1 1] = exchanged 2 (jonesToMueller J) := by
  have e : (!![J 0 0, -J 1 0; -J 0 1, J 1 1] : M2) = mirror2 * Jᵀ * mirror2 := by
    ext a b
    fin_cases a <;> fin_cases b <;> simp [mirror2, Matrix.mul_apply, Matrix.vecMul, dotProduct, Fin.sum_univ_two]
  ext i j
  rw [e]
  simp only [jonesToMueller, exchanged, Matrix.of_apply, entry_mirror, entry_transpose]
  fin_cases i <;> fin_cases j <;> simp

private theorem compute_eq (l : List Layer) (freq : ℝ) :
    computeMueller (some (ofLayers l)) freq 0 =
      ((jones (ofLayers l) (1.0e9 * freq) 0 0 1 1).map Prod.fst).map jonesToMueller := by
  unfold computeMueller mueller jones
  simp only [bind, Except.bind]
  cases stackTransferMatrix (ofLayers l) (1.0e9 * freq) 0 0 1 1 with
  | error e => rfl
  | ok tr =>
    dsimp only
    cases tranToJones tr with
    | error e => rfl
    | ok J => rfl

/-- **C147, plates.** The Mueller matrix of a plate in air, at normal incidence, for light from the other side:
incoming and outgoing Stokes parameters exchange their roles, and V (which refers to the direction of the light)
counts with the other sign.  For the plate that is turned over about its x axis it is U instead. -/
theorem C147_plates (l : List Layer) (hne : l ≠ [])
    (hl : ∀ x ∈ l, 0 < x.2.1.ordinaryIndex ∧ 0 < x.2.1.extraIndex) (freq : ℝ) :
    computeMueller (some (ofLayers (fromBehind l))) freq 0 =
      (computeMueller (some (ofLayers l)) freq 0).map (exchanged 3) ∧
    computeMueller (some (ofLayers (turnedOver l))) freq 0 =
      (computeMueller (some (ofLayers l)) freq 0).map (exchanged 2) := by
  have h := C147_transmission l hne hl (1.0e9 * freq) 0 1 1 one_ne_zero one_ne_zero
  have h' := C147_turned_over l hne hl (1.0e9 * freq) 0 1 1 one_ne_zero one_ne_zero
  rw [neg_zero] at h'
  rw [compute_eq, compute_eq, compute_eq, h, h']
  cases jones (ofLayers l) (1.0e9 * freq) 0 0 1 1 with
  | error e => exact ⟨rfl, rfl⟩
  | ok J =>
    simp only [Except.map, Except.ok.injEq, Complex.ofReal_one, div_one, one_smul]
    exact ⟨mueller_transpose J.1, mueller_over J.1⟩

/-- **C147, reflection.** What a passive stack reflects from one polarization into the other is the same for
both (the first component of a reflected field counts with the other sign). -/
theorem C147_reflection (l : List Layer) (hne : l ≠ []) (hl : ∀ x ∈ l, Passive x) (f r n1 n3 : ℝ)
    (hf : 0 ≤ f) (h1 : 0 < n1) (h3 : 0 < n3) :
    ∃ jt jr, jones (ofLayers l) f 0 r n1 n3 = .ok (jt, jr) ∧ jr 0 1 = -jr 1 0 := by
  obtain ⟨Ts, hT, hfl⟩ := flux_stack l hl f r hf
  obtain ⟨jt, jr, hj, he⟩ := jones_fields h1 h3 fun v => (hfl v).1
  have hb := stack_back l (fun x hx => ⟨(hl x hx).2.1, (hl x hx).2.2.1⟩) f r hT
  refine ⟨jt, jr, ?_, ?_⟩
  · unfold jones
    rw [stack_normal l hne f r n1 n3 h3.ne' hT]
    exact hj
  · have hn1 : (n1 : ℂ) ≠ 0 := by exact_mod_cast h1.ne'
    have key : ∀ u v : Fin 4 → ℂ, (Ts.prod.mulVec u) ⬝ᵥ ((swapEH * flipH).mulVec (Ts.prod.mulVec v)) =
        u ⬝ᵥ ((swapEH * flipH).mulVec v) := by
      intro u v
      generalize swapEH * flipH = Q at hb
      conv_rhs => rw [← hb]
      rw [← Matrix.mulVec_mulVec, ← Matrix.mulVec_mulVec, Matrix.dotProduct_mulVec u,
        Matrix.vecMul_transpose]
    have k := key ![jt.mulVec ![1, 0] 0, n3 * jt.mulVec ![1, 0] 0, jt.mulVec ![1, 0] 1, n3 * jt.mulVec ![1, 0] 1]
      ![jt.mulVec ![0, 1] 0, n3 * jt.mulVec ![0, 1] 0, jt.mulVec ![0, 1] 1, n3 * jt.mulVec ![0, 1] 1]
    rw [he, he] at k
    simp [swapEH, flipH, Matrix.mulVec, dotProduct, Fin.sum_univ_four, Fin.sum_univ_two, Matrix.mul_apply] at k
    have : (n1 : ℂ) * (jr 0 1 + jr 1 0) = 0 := by linear_combination (-1 / 2 : ℂ) * k
    rcases mul_eq_zero.1 this with h | h
    · exact absurd h hn1
    · linear_combination h

private theorem films_reverse (p : Pol) (f nsin : ℝ) (films : List Film) :
    let m := (films.map (film p f nsin)).prod
    (films.reverse.map (film p f nsin)).prod = !![m 1 1, m 0 1; m 1 0, m 0 0] := by
  induction films with
  | nil =>
    ext i j
    fin_cases i <;> fin_cases j <;> simp
  | cons x films ih =>
    dsimp only at ih ⊢
    rw [List.reverse_cons, List.map_append, List.prod_append, ih, List.map_cons, List.prod_cons]
    ext i j
    fin_cases i <;> fin_cases j <;>
      simp [film, Matrix.mul_apply, Matrix.vecMul, dotProduct, Fin.sum_univ_two] <;> ring

private theorem transmission_reverse (p : Pol) (f nsin : ℝ) (films : List Film) :
    transmission p f nsin 1 1 films.reverse = transmission p f nsin 1 1 films := by
  unfold transmission fields
  rw [films_reverse]
  generalize (films.map (film p f nsin)).prod = m
  dsimp only
  congr 1
  simp [Matrix.mulVec, dotProduct, Fin.sum_univ_two]
  ring

/-- **C147, tilted plates.** A plate in air whose layers have their axes along or across one direction has the
same matrix for light from the other side, and when it is turned over, at every angle of incidence below 90
degrees. -/
theorem C147_tilted (l : List Uniaxial) (hne : l ≠ []) (freq i : ℝ) (hf : 0 ≤ freq) (hi : |i| < π / 2)
    (h : ∀ x ∈ l, Aligned (sin i) x) :
    computeMueller (some (stackOf l.reverse)) freq i = computeMueller (some (stackOf l)) freq i ∧
    computeMueller (some (stackOf (l.reverse.map fun x => { x with angle := -x.angle }))) freq i =
      computeMueller (some (stackOf l)) freq i := by
  have hr : ∀ x ∈ l.reverse, Aligned (sin i) x := fun x hx => h x (List.mem_reverse.1 hx)
  have ht : ∀ x ∈ l.reverse.map fun x : Uniaxial => { x with angle := -x.angle }, Aligned (sin i) x := by
    intro x hx
    obtain ⟨y, hy, rfl⟩ := List.mem_map.1 hx
    obtain ⟨a, b, c, d⟩ := hr y hy
    exact ⟨by simpa using a, b, c, d⟩
  have ea : ∀ x : Uniaxial, inPlane (sin i) { x with angle := -x.angle } = inPlane (sin i) x := by
    intro x
    simp [inPlane, along]
  have eb : ∀ x : Uniaxial, across { x with angle := -x.angle } = across x := by
    intro x
    simp [across]
  have e1 : amplitudes (1e9 * freq) i l.reverse = amplitudes (1e9 * freq) i l := by
    unfold amplitudes
    rw [List.map_reverse, List.map_reverse, transmission_reverse, transmission_reverse]
  have e2 : amplitudes (1e9 * freq) i (l.reverse.map fun x => { x with angle := -x.angle }) =
      amplitudes (1e9 * freq) i l := by
    rw [← e1]
    unfold amplitudes
    rw [List.map_map, List.map_map]
    congr 2
    · exact List.map_congr_left fun x _ => ea x
    · exact List.map_congr_left fun x _ => eb x
  rw [C131_matrix l hne freq i hf hi h, C131_matrix l.reverse (by simpa using hne) freq i hf hi hr,
    C131_matrix _ (by simpa using hne) freq i hf hi ht, e1, e2]
  exact ⟨rfl, rfl⟩

namespace BothWays

/-- A coating, a sapphire plate at an angle and another one across. -/
noncomputable def plates : List Layer :=
  [(0.0005, ⟨1.9, 1.9, 1e-3, 1e-3⟩, 0), (0.00375, ⟨3.019, 3.336, 2.3e-4, 1.25e-4⟩, 0.5),
    (0.00375, ⟨3.019, 3.336, 2.3e-4, 1.25e-4⟩, 1.2)]

theorem plates_passive : ∀ x ∈ plates, Passive x := by
  intro x hx
  simp [plates] at hx
  rcases hx with rfl | rfl | rfl <;> refine ⟨?_, ?_, ?_, ?_, ?_⟩ <;> norm_num

/-- Non-vacuity: such plates have matrices from both sides, and they differ only by the exchange. -/
example : ∃ M, computeMueller (some (ofLayers plates)) 150 0 = .ok M ∧
    computeMueller (some (ofLayers (fromBehind plates))) 150 0 = .ok (exchanged 3 M) ∧
    computeMueller (some (ofLayers (turnedOver plates))) 150 0 = .ok (exchanged 2 M) := by
  obtain ⟨jt, jr, h, -⟩ := C65_energy plates (by simp [plates]) plates_passive (1.0e9 * 150) 0 1 1 (by norm_num)
    one_pos one_pos
  obtain ⟨a, b⟩ := C147_plates plates (by simp [plates])
    (fun x hx => ⟨(plates_passive x hx).2.1, (plates_passive x hx).2.2.1⟩) 150
  have hM : computeMueller (some (ofLayers plates)) 150 0 = .ok (jonesToMueller jt) := by
    rw [compute_eq, h]
    rfl
  exact ⟨_, hM, by rw [a, hM]; rfl, by rw [b, hM]; rfl⟩

/-- The exchange is seen in the matrix: a polarizer at an angle followed by a quarter-wave plate makes circular
light out of natural light, but not the other way round. -/
example : exchanged 3 !![1, 0, 0, 0; 0, 0, 0, 0; 0, 0, 0, 0; 1, 0, 0, 0] =
    !![1, 0, 0, -1; 0, 0, 0, 0; 0, 0, 0, 0; 0, 0, 0, 0] := by
  ext i j
  fin_cases i <;> fin_cases j <;> simp [exchanged]

/-- Non-vacuity of the last theorem: a coated plate at 20 degrees. -/
example : ∀ x ∈ ([⟨0.0005, 1.9, 1.9, 1e-3, 1e-3, 0⟩, ⟨0.00375, 3.019, 3.336, 2.3e-4, 1.25e-4, 0⟩] :
    List Uniaxial), Aligned (sin (π / 9)) x := by
  have h : |sin (π / 9)| ≤ 1 := abs_sin_le_one _
  intro x hx
  simp at hx
  rcases hx with rfl | rfl
  · exact ⟨Or.inl sin_zero, by norm_num, ⟨lt_of_le_of_lt h (by norm_num), lt_of_le_of_lt h (by norm_num)⟩,
      by norm_num⟩
  · exact ⟨Or.inl sin_zero, by norm_num, ⟨lt_of_le_of_lt h (by norm_num), lt_of_le_of_lt h (by norm_num)⟩,
      by norm_num⟩

end BothWays

end Verif.Props
