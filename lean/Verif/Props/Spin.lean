import Mathlib.Data.Matrix.Reflection
import Mathlib.Tactic.LinearCombination
import Verif.Model.Spin
import Verif.Lemmas.Alm
import Verif.Lemmas.Spin
import Verif.Props.Alm

/-!
# Properties C22 - C25 (and C21 for E/B input): spin and Mueller conversions, HWP beams
-/

noncomputable section

namespace Verif.Props

open Verif.Alm Verif.Spec Verif.Spin Complex

/-! ## C22 -/

/-- **C22.** `spin2eb` (any even spin, 2 by default) undoes `eb2spin`, for all arrays of equal
size. -/
theorem C22_eb_roundtrip (e b : List ℂ) (h : e.length = b.length) (s : Int) (hs : Even s) :
    ∃ m p, eb2spin e b = .ok (m, p) ∧ spin2eb m p (s : Rat) = .ok (e, b) := by
  refine ⟨_, _, eb2spin_eq e b h, ?_⟩
  rw [spin2eb_eq _ _ (by simp) s, hs.neg_one_zpow]
  congr 2
  · apply zipWith_zipWith_left _ _ _ _ _ h
    intro x y; ring
  · apply zipWith_zipWith_right _ _ _ _ _ h
    intro x y
    linear_combination (-y) * Complex.I_sq

/-- **C22.** `eb2spin` undoes `spin2eb` for every even spin; for odd spin the first array comes
back with the opposite sign. -/
theorem C22_spin_roundtrip (m p : List ℂ) (h : m.length = p.length) (s : Int) :
    ∃ e b, spin2eb m p (s : Rat) = .ok (e, b) ∧
      eb2spin e b = .ok (m.map fun x => x * (-1) ^ s, p) := by
  refine ⟨_, _, spin2eb_eq m p h s, ?_⟩
  rw [eb2spin_eq _ _ (by simp)]
  generalize ((-1 : ℂ) ^ s) = c
  congr 2
  · apply List.ext_getElem?
    intro i
    simp only [List.getElem?_zipWith, List.getElem?_map]
    have hn : m[i]? = none ↔ p[i]? = none := by
      rw [List.getElem?_eq_none_iff, List.getElem?_eq_none_iff, h]
    rcases ha : m[i]? with _ | x <;> rcases hb : p[i]? with _ | y <;> simp_all
    linear_combination ((y - x * c) / 2) * Complex.I_sq
  · apply zipWith_zipWith_right _ _ _ _ _ h
    intro x y
    linear_combination (-(y - x * c) / 2) * Complex.I_sq

/-- **C22.** A spin that is not an integer is rejected. -/
theorem C22_non_integer_spin (m p : List ℂ) (s : Rat) (hs : ∀ k : Int, (k : Rat) ≠ s) :
    spin2eb m p s = .error .valueError := by
  unfold spin2eb
  rw [if_pos (hs _)]

example : ∀ k : Int, (k : Rat) ≠ 1 / 2 := by
  intro k h
  have : (2 * k : Rat) = 1 := by linarith
  have : 2 * k = 1 := by exact_mod_cast this
  omega

example : eb2spin [1, 2] [3, 4] = .ok ([-1 * (1 - I * 3), -1 * (2 - I * 4)],
    [-1 * (1 + I * 3), -1 * (2 + I * 4)]) := by
  rw [eb2spin_eq [1, 2] [3, 4] rfl]; rfl

/-! ## C21 with E/B input -/

private theorem realRow_spec (L : Nat) (x : List ℂ) (f : Nat → Nat → ℂ)
    (h : Represents L L x f) :
    ∃ y, realRow (L : Int) x = .ok y ∧
      Represents L L y (fun l m => if m = 0 then (((f l m).re : ℝ) : ℂ) else f l m) := by
  have hs := slice_row h 0 0
  have e0 : ((off L 0 + 0 : Nat) : Int) = 0 := rfl
  have e1 : ((off L (0 + 1) : Nat) : Int) = (L : Int) + 1 := by simp [off]
  rw [e0, e1] at hs
  obtain ⟨y, y1, y2⟩ := assign_row h 0 0 (by omega) (by omega)
    (fun l => (((f l 0).re : ℝ) : ℂ))
    (((List.range (L + 1 - 0 - 0)).map fun k => f (0 + 0 + k) 0).map fun z => ((z.re : ℝ) : ℂ))
    (by simp [List.map_map, Function.comp_def])
  rw [e0, e1] at y1
  refine ⟨y, ?_, represents_congr y2 ?_⟩
  · unfold realRow
    rw [hs]
    exact y1
  · intro m l _ _ _
    by_cases hm : m = 0
    · subst hm; simp
    · simp [hm]

/-- **C21 (E/B input).** With `eb=True` the E and B coefficients are converted to spin
coefficients, shifted as in `C21_shift_modes`, and converted back; in the `m = 0` row the real
part is taken. -/
theorem C21_shift_eb (L : Nat) (blmE blmB : List ℂ) (e b : Nat → Nat → ℂ)
    (hE : Represents L L blmE e) (hB : Represents L L blmB b) (s : Int) (hs : s ≤ L) :
    ∃ E' B' m2 p2 m2' p2', eb2spin blmE blmB = .ok (m2, p2) ∧
      shiftBlm m2 p2 s = .ok (m2', p2') ∧ shiftBlmEb blmE blmB s = .ok (E', B') ∧
      ∃ f g, Represents L L m2' f ∧ Represents L L p2' g ∧
        Represents L L E' (fun l m => if m = 0 then ((-(g l m + f l m) / 2).re : ℂ)
          else -(g l m + f l m) / 2) ∧
        Represents L L B' (fun l m => if m = 0 then ((I / 2 * (g l m - f l m)).re : ℂ)
          else I / 2 * (g l m - f l m)) := by
  have hlen : blmE.length = blmB.length := by rw [rep_length hE, rep_length hB]
  have hlm : getlmax blmE.length none = L := by rw [rep_length hE]; exact getlmax_none L
  have heb := eb2spin_eq blmE blmB hlen
  have hm := represents_zipWith (fun e b => -1 * (e - I * b)) hE hB
  have hp := represents_zipWith (fun e b => -1 * (e + I * b)) hE hB
  obtain ⟨m2', p2', h1, h2, h3⟩ := C21_shift_modes L _ _ _ _ hm hp s hs
  have hlen' : m2'.length = p2'.length := by rw [rep_length h2, rep_length h3]
  have h4 := spin2eb_eq m2' p2' hlen' 2
  have h5 := represents_zipWith (fun (m p : ℂ) => (p + m * (-1) ^ (2 : Int)) / (-2)) h2 h3
  have h6 := represents_zipWith (fun (m p : ℂ) => (p - m * (-1) ^ (2 : Int)) * (I / 2)) h2 h3
  obtain ⟨E', e1, e2⟩ := realRow_spec L _ _ h5
  obtain ⟨B', b1, b2⟩ := realRow_spec L _ _ h6
  refine ⟨E', B', _, _, m2', p2', heb, h1, ?_, _, _, h2, h3, represents_congr e2 ?_,
    represents_congr b2 ?_⟩
  · unfold shiftBlmEb
    rw [if_neg (by simpa using hlen)]
    simp only [hlm]
    rw [if_neg (by omega), heb]
    simp only [bind, Except.bind]
    rw [h1]
    simp only
    have : ((2 : Int) : Rat) = 2 := by norm_num
    rw [this] at h4
    rw [h4]
    simp only
    rw [e1]
    simp only
    rw [b1]
    rfl
  · intro m l _ _ _
    have hz : ((-1 : ℂ)) ^ (2 : Int) = 1 := by norm_num
    simp only [hz, mul_one]
    have : ∀ x y : ℂ, (x + y) / -2 = -(x + y) / 2 := fun x y => by ring
    simp only [this]
  · intro m l _ _ _
    have hz : ((-1 : ℂ)) ^ (2 : Int) = 1 := by norm_num
    simp only [hz, mul_one]
    have : ∀ x y : ℂ, (x - y) * (I / 2) = I / 2 * (x - y) := fun x y => by ring
    simp only [this]

/-- The real part taken in the `m = 0` row loses nothing when the shifted fields are consistent
(as they are after an even shift, `C21_shift_even`). -/
theorem C21_shift_eb_real (x y : ℂ) (h : x = star y) :
    (((-(y + x) / 2).re : ℝ) : ℂ) = -(y + x) / 2 ∧
    (((I / 2 * (y - x)).re : ℝ) : ℂ) = I / 2 * (y - x) := by
  subst h
  constructor <;> apply Complex.ext <;> simp

/-! ## C23 -/

/-- Explicit inverse of the change of basis. -/
private def tinv : Mat4 :=
  !![1, 0, 0, 0;
     0, 1 / (Real.sqrt 2 : ℂ), 1 / (Real.sqrt 2 : ℂ), 0;
     0, -I / (Real.sqrt 2 : ℂ), I / (Real.sqrt 2 : ℂ), 0;
     0, 0, 0, 1]

private theorem sqrt2_sq : ((Real.sqrt 2 : ℝ) : ℂ) ^ 2 = 2 := by
  have : (Real.sqrt 2) ^ 2 = 2 := Real.sq_sqrt (by norm_num)
  exact_mod_cast this

private theorem sqrt2_ne : ((Real.sqrt 2 : ℝ) : ℂ) ≠ 0 := by
  have : Real.sqrt 2 ≠ 0 := by positivity
  exact_mod_cast this

private theorem tmat_tinv : tmat * tinv = 1 := by
  have h2 := sqrt2_sq
  have hne := sqrt2_ne
  have hI := Complex.I_sq
  ext i j
  fin_cases i <;> fin_cases j <;>
    simp [tmat, tinv, Matrix.mul_apply, Fin.sum_univ_four] <;>
    field_simp <;> simp [h2] <;> norm_num

private theorem tinv_tmat : tinv * tmat = 1 := mul_eq_one_comm.1 tmat_tinv

private theorem tmat_inv : tmat⁻¹ = tinv := Matrix.inv_eq_right_inv tmat_tinv

/-- Stokes vector (I, Q, U, V) in the spin basis: (I, (Q+iU)/√2, (Q-iU)/√2, V). -/
def spinVec (v : Fin 4 → ℂ) : Fin 4 → ℂ :=
  ![v 0, (v 1 + I * v 2) / (Real.sqrt 2 : ℂ), (v 1 - I * v 2) / (Real.sqrt 2 : ℂ), v 3]

/-- **C23.** `mueller2spin` preserves identity and products and is injective. -/
theorem C23_representation :
    mueller2spin 1 = 1 ∧ (∀ m n, mueller2spin (m * n) = mueller2spin m * mueller2spin n) ∧
    (∀ m n, mueller2spin (m + n) = mueller2spin m + mueller2spin n) ∧
    Function.Injective mueller2spin := by
  unfold mueller2spin
  rw [tmat_inv]
  refine ⟨by rw [mul_one, tmat_tinv], ?_, ?_, ?_⟩
  · intro m n
    calc tmat * (m * n) * tinv = tmat * m * 1 * n * tinv := by simp [mul_assoc]
      _ = tmat * m * (tinv * tmat) * n * tinv := by rw [tinv_tmat]
      _ = tmat * m * tinv * (tmat * n * tinv) := by simp only [mul_assoc]
  · intro m n
    rw [mul_add, add_mul]
  · intro m n h
    have h : tmat * m * tinv = tmat * n * tinv := h
    calc m = (tinv * tmat) * m * (tinv * tmat) := by rw [tinv_tmat]; simp
      _ = tinv * (tmat * m * tinv) * tmat := by simp only [mul_assoc]
      _ = tinv * (tmat * n * tinv) * tmat := by rw [h]
      _ = (tinv * tmat) * n * (tinv * tmat) := by simp only [mul_assoc]
      _ = n := by rw [tinv_tmat]; simp

/-- **C23.** The converted matrix acts on (I, (Q+iU)/√2, (Q-iU)/√2, V) as the Mueller matrix acts
on (I, Q, U, V). -/
theorem C23_acts_on_spin_vector (m : Mat4) (v : Fin 4 → ℂ) :
    (mueller2spin m).mulVec (spinVec v) = spinVec (m.mulVec v) := by
  have hv : ∀ v, spinVec v = tmat.mulVec v := by
    intro v
    ext i
    fin_cases i <;> simp [spinVec, tmat, Matrix.mulVec, dotProduct, Fin.sum_univ_four] <;> ring
  rw [hv, hv, Matrix.mulVec_mulVec, Matrix.mulVec_mulVec]
  congr 1
  unfold mueller2spin
  rw [tmat_inv, mul_assoc, tinv_tmat, mul_one]

/-- **C23.** For a real Mueller matrix, swapping the two spin components conjugates the converted
matrix. -/
theorem C23_reality (m : Mat4) (hm : ∀ i j, (m i j).im = 0) (i j : Fin 4) :
    mueller2spin m (Equiv.swap 1 2 i) (Equiv.swap 1 2 j) = star (mueller2spin m i j) := by
  have hreal : ∀ i j, ∃ r : ℝ, m i j = (r : ℂ) := fun i j =>
    ⟨(m i j).re, Complex.ext rfl (by simp [hm i j])⟩
  choose r hr using hreal
  unfold mueller2spin
  rw [tmat_inv]
  fin_cases i <;> fin_cases j <;>
    simp [tmat, tinv, Matrix.mul_apply, Matrix.vecMul, dotProduct, Fin.sum_univ_four, hr,
      Equiv.swap_apply_def]

example : ∀ i j, ((Matrix.diagonal ![1, 1, -1, -1] : Mat4) i j).im = 0 := by
  intro i j; fin_cases i <;> fin_cases j <;> simp [Matrix.diagonal]

/-! ## C24 -/

/-- Stokes vector in the (I, P, P*, V) basis with P = Q + iU. -/
def ippvVec (v : Fin 4 → ℂ) : Fin 4 → ℂ := ![v 0, v 1 + I * v 2, v 1 - I * v 2, v 3]

private theorem ippvA_mul : ippvA * ippvAinv = 1 := by
  have hI := Complex.I_sq
  ext i j
  fin_cases i <;> fin_cases j <;>
    simp [ippvA, ippvAinv, Matrix.mul_apply, Fin.sum_univ_four] <;>
    first | linear_combination (1 / 2 : ℂ) * hI | linear_combination (-1 / 2 : ℂ) * hI

private theorem ippvAinv_mul : ippvAinv * ippvA = 1 := mul_eq_one_comm.1 ippvA_mul

private theorem ippvVec_eq (v : Fin 4 → ℂ) : ippvVec v = ippvA.mulVec v := by
  ext i
  fin_cases i <;> simp [ippvVec, ippvA, Matrix.mulVec, dotProduct, Fin.sum_univ_four]; ring

/-- **C24 (partial).** The two conversions are inverse to each other and respect products; and
it is `ippv2iquv` (not `iquv2ippv`) whose result acts on (I, P, P*, V) as the matrix acts on
(I, Q, U, V).
Missing: that `iquv2ippv` does, which is false, see `C24_iquv2ippv_violation`. -/
theorem C24_basis_change_partial :
    (∀ m, ippv2iquv (iquv2ippv m) = m) ∧ (∀ m, iquv2ippv (ippv2iquv m) = m) ∧
    (∀ m n, iquv2ippv (m * n) = iquv2ippv m * iquv2ippv n) ∧ iquv2ippv 1 = 1 ∧
    (∀ m v, (ippv2iquv m).mulVec (ippvVec v) = ippvVec (m.mulVec v)) := by
  unfold ippv2iquv iquv2ippv
  refine ⟨?_, ?_, ?_, ?_, ?_⟩
  · intro m
    calc ippvA * (ippvAinv * (m * ippvA) * ippvAinv)
        = (ippvA * ippvAinv) * m * (ippvA * ippvAinv) := by simp only [mul_assoc]
      _ = m := by rw [ippvA_mul]; simp
  · intro m
    calc ippvAinv * (ippvA * (m * ippvAinv) * ippvA)
        = (ippvAinv * ippvA) * m * (ippvAinv * ippvA) := by simp only [mul_assoc]
      _ = m := by rw [ippvAinv_mul]; simp
  · intro m n
    calc ippvAinv * (m * n * ippvA) = ippvAinv * m * 1 * (n * ippvA) := by simp [mul_assoc]
      _ = ippvAinv * m * (ippvA * ippvAinv) * (n * ippvA) := by rw [ippvA_mul]
      _ = ippvAinv * (m * ippvA) * (ippvAinv * (n * ippvA)) := by simp only [mul_assoc]
  · rw [one_mul, ippvAinv_mul]
  · intro m v
    rw [ippvVec_eq, ippvVec_eq, Matrix.mulVec_mulVec, Matrix.mulVec_mulVec]
    congr 1
    calc ippvA * (m * ippvAinv) * ippvA = ippvA * m * (ippvAinv * ippvA) := by
          simp only [mul_assoc]
      _ = ippvA * m := by rw [ippvAinv_mul, mul_one]

/-- **C24 (violation).** The matrix returned by `iquv2ippv` is not the Mueller matrix in the
(I, P, P*, V) basis: for the ideal half-wave plate diag(1,1,-1,-1) and the Stokes vector
(0, 1, 0, 0) it gives a result other than the converted transformed vector. -/
theorem C24_iquv2ippv_violation :
    (iquv2ippv (Matrix.diagonal ![1, 1, -1, -1])).mulVec (ippvVec ![0, 1, 0, 0])
      ≠ ippvVec ((Matrix.diagonal ![1, 1, -1, -1]).mulVec ![0, 1, 0, 0]) := by
  intro h
  have h1 := congrFun h 1
  have h2 := congrArg Complex.im h1
  simp [iquv2ippv, ippvA, ippvAinv, ippvVec, Matrix.mulVec, dotProduct, Fin.sum_univ_four,
    Matrix.mul_apply, Matrix.diagonal] at h2

/-! ## C25 -/

/-- Mueller matrix of an ideal half-wave plate. -/
def idealHwp : Mat4 := !![1, 0, 0, 0; 0, 1, 0, 0; 0, 0, -1, 0; 0, 0, 0, -1]

private theorem hwp_spin : mueller2spin idealHwp =
    !![1, 0, 0, 0; 0, 0, 1, 0; 0, 1, 0, 0; 0, 0, 0, -1] := by
  have h2 := sqrt2_sq
  have hne := sqrt2_ne
  have hI := Complex.I_sq
  unfold mueller2spin idealHwp
  rw [tmat_inv]
  ext i j
  fin_cases i <;> fin_cases j <;>
    simp [tmat, tinv, Matrix.mul_apply, Fin.sum_univ_four] <;>
    field_simp <;> (try rw [h2]) <;> (try simp) <;> (try norm_num)

private theorem pyGet012 (x y z : List ℂ) :
    pyGet [x, y, z] 0 = .ok x ∧ pyGet [x, y, z] 1 = .ok y ∧ pyGet [x, y, z] 2 = .ok z := by
  refine ⟨?_, ?_, ?_⟩ <;> simp [pyGet]

private theorem scale_zero_rep {L : Nat} {a : List ℂ} {f : Nat → Nat → ℂ}
    (h : Represents L L a f) : Represents L L (scale 0 a) (fun _ _ => 0) := by
  have := represents_map (fun x : ℂ => x * 0) h
  simpa [scale] using this

/-- **C25 (general co-polar beam).** For the ideal half-wave plate and the co-polar beam made by
`unpol2pol` from any real unpolarized beam `b` (`b(l,0)` real), the 4-alpha component has exactly
the co-polar coefficients `b(l, m-2)` and `b(l, m+2)`, except that the modes with `|m ∓ 4| > l`
are zero. -/
theorem C25_ideal_hwp_copolar (L : Nat) (hL : 4 ≤ L) (blmI : List ℂ) (b : Nat → Nat → ℂ)
    (hb : Represents L L blmI b) (hreal : ∀ l, l ≤ L → b l 0 = star (b l 0)) :
    ∃ m2 p2 a c, unpol2pol blmI = .ok (m2, p2) ∧
      blmxhwp [blmI, m2, p2] (mueller2spin idealHwp) "s2a4" false = .ok (.two a c) ∧
      Represents L L a (fun l m =>
        if |(m : Int) - 4| ≤ (l : Int) then extended b b l ((m : Int) - 2) else 0) ∧
      Represents L L c (fun l m => if m + 4 ≤ l then b l (m + 2) else 0) := by
  obtain ⟨m2, p2, h1, h2, h3⟩ := C20_unpol2pol L (by omega) blmI b hb
  obtain ⟨x, y, h4, h5, h6⟩ := C21_shift_modes L m2 p2 _ _ h2 h3 4 (by omega)
  obtain ⟨-, g1, g2⟩ := pyGet012 blmI m2 p2
  refine ⟨m2, p2, scale 1 y, scale 1 x, h1, ?_, ?_, ?_⟩
  · unfold blmxhwp
    simp only [g1, g2, bind, Except.bind]
    simp only [show ¬ ("s2a4" = "s0a0") by decide, show ¬ ("s2a4" = "s0a0_v") by decide, if_false,
      if_true]
    rw [h4, hwp_spin]
    simp [pure, Except.pure]
  · have hy : scale 1 y = y := by simp [scale]
    rw [hy]
    refine represents_congr h6 ?_
    intro m l hm hml hl
    split
    · rename_i hin
      rcases Nat.lt_or_ge m 4 with hm4 | hm4
      · have hl2 : 2 ≤ l := by
          rw [abs_le] at hin
          omega
        conv_lhs => unfold extended
        rw [if_neg (by omega)]
        simp only
        rw [if_neg (by omega)]
        have e1 : (((m : Int) - 4).natAbs : Int) - 2 = 2 - (m : Int) := by omega
        have e2 : (m : Int) - 2 = -(2 - (m : Int)) := by ring
        rw [e1, e2, ext_symm b b l (hreal l hl) (2 - (m : Int))]
        congr 1
        have hpar : ((m : Int) - 4).natAbs % 2 = (2 - (m : Int)).natAbs % 2 := by omega
        rw [neg_one_pow_eq_pow_mod_two, hpar, ← neg_one_pow_eq_pow_mod_two]
      · unfold extended
        rw [if_pos (by omega), if_pos (by omega)]
        simp only
        rw [if_pos (by omega)]
        congr 1
        omega
    · rfl
  · have hx : scale 1 x = x := by simp [scale]
    rw [hx]
    refine represents_congr h5 ?_
    intro m l hm hml hl
    have e : |(m : Int) + 4| = (m : Int) + 4 := abs_of_nonneg (by omega)
    rw [e]
    by_cases hin : m + 4 ≤ l
    · rw [if_pos (by omega), if_pos hin]
      unfold extended
      rw [if_pos (by omega)]
      simp only
      rw [if_neg (by omega), if_pos (by omega)]
      congr 1
      omega
    · rw [if_neg (by omega), if_neg hin]

/-- **C25.** For an azimuthally symmetric beam (`b(l,m) = 0` for `m > 0`, `b(l,0)` real) of any
band limit at least 4 and its co-polar spin coefficients, the ideal half-wave plate given as the
Mueller matrix diag(1,1,-1,-1) leaves the beam as it is: the 4-alpha component is the polarized
beam itself, the unpolarized one is the unpolarized beam, everything else vanishes. -/
theorem C25_ideal_hwp_symmetric (L : Nat) (hL : 4 ≤ L) (blmI : List ℂ) (b : Nat → Nat → ℂ)
    (hb : Represents L L blmI b) (hreal : ∀ l, l ≤ L → b l 0 = star (b l 0))
    (hsym : ∀ l m, 0 < m → b l m = 0) :
    ∃ m2 p2, unpol2pol blmI = .ok (m2, p2) ∧
      blmxhwp [blmI, m2, p2] (mueller2spin idealHwp) "s2a4" false = .ok (.two m2 p2) ∧
      blmxhwp [blmI, m2, p2] (mueller2spin idealHwp) "s0a0" false = .ok (.one blmI) ∧
      (∀ mode ∈ ["s0a2", "s0a2_v", "s2a2", "s2a0"], ∃ x y,
        blmxhwp [blmI, m2, p2] (mueller2spin idealHwp) mode false = .ok (.two x y) ∧
        Represents L L x (fun _ _ => 0) ∧ Represents L L y (fun _ _ => 0)) ∧
      ∃ x, blmxhwp [blmI, m2, p2] (mueller2spin idealHwp) "s0a0_v" false = .ok (.one x) ∧
        Represents L L x (fun _ _ => 0) := by
  obtain ⟨m2, p2, a, c, h1, h2, h3, h4⟩ := C25_ideal_hwp_copolar L hL blmI b hb hreal
  obtain ⟨m2', p2', h1', h5, h6⟩ := C20_unpol2pol L (by omega) blmI b hb
  rw [h1] at h1'
  cases h1'
  obtain ⟨g0, g1, g2⟩ := pyGet012 blmI m2 p2
  refine ⟨m2, p2, h1, ?_, ?_, ?_, ?_⟩
  · rw [h2]
    have e1 : a = m2 := by
      refine represents_inj h3 (represents_congr h5 ?_)
      intro m l hm hml hl
      unfold extended
      rcases Nat.lt_trichotomy m 2 with hlt | heq | hgt
      · have hk : 0 < ((m : Int) - 2).natAbs := by omega
        rw [if_neg (show ¬ (0 : Int) ≤ (m : Int) - 2 by omega), hsym l _ hk]
        simp
      · subst heq
        rw [if_neg (by omega)]
        norm_num
        omega
      · have hk : 0 < ((m : Int) - 2).toNat := by omega
        rw [if_pos (show (0 : Int) ≤ (m : Int) - 2 by omega), hsym l _ hk]
        simp
    have e2 : c = p2 := by
      refine represents_inj h4 (represents_congr h6 ?_)
      intro m l hm hml hl
      rw [hsym l (m + 2) (by omega)]
      simp
    rw [e1, e2]
  · unfold blmxhwp
    simp only [g0, bind, Except.bind, if_true]
    rw [hwp_spin]
    simp [scale, pure, Except.pure]
  · intro mode hmode
    obtain ⟨x, y, i1, i2, i3⟩ := C21_shift_modes L m2 p2 _ _ h5 h6 2 (by omega)
    obtain ⟨x', y', j1, j2, j3⟩ := C21_shift_modes L blmI blmI _ _ hb hb 2 (by omega)
    simp only [List.mem_cons, List.not_mem_nil, or_false] at hmode
    rcases hmode with rfl | rfl | rfl | rfl
    · refine ⟨scale 0 x, scale 0 y, ?_, scale_zero_rep i2, scale_zero_rep i3⟩
      unfold blmxhwp
      simp only [g1, g2, i1, bind, Except.bind, String.reduceEq, if_false, if_true, hwp_spin]
      simp [pure, Except.pure]
    · refine ⟨scale 0 x, scale 0 y, ?_, scale_zero_rep i2, scale_zero_rep i3⟩
      unfold blmxhwp
      simp only [g1, g2, i1, bind, Except.bind, String.reduceEq, if_false, if_true, hwp_spin]
      simp [pure, Except.pure]
    · refine ⟨scale 0 y', scale 0 x', ?_, scale_zero_rep j3, scale_zero_rep j2⟩
      unfold blmxhwp
      simp only [g0, j1, bind, Except.bind, String.reduceEq, if_false, if_true, hwp_spin]
      simp [pure, Except.pure]
    · refine ⟨scale 0 m2, scale 0 p2, ?_, scale_zero_rep h5, scale_zero_rep h6⟩
      unfold blmxhwp
      simp only [g1, g2, bind, Except.bind, String.reduceEq, if_false, if_true, hwp_spin]
      simp [pure, Except.pure]
  · refine ⟨scale 0 blmI, ?_, scale_zero_rep hb⟩
    unfold blmxhwp
    simp only [g0, bind, Except.bind, String.reduceEq, if_false, if_true, hwp_spin]
    simp [pure, Except.pure]

/-- **C25.** Below band limit 4 the Mueller matrix decomposition is rejected with ValueError
(the shift by 4 exceeds the band limit), for every Mueller matrix and beam. -/
theorem C25_small_band_limit_rejected (L : Nat) (hL : L < 4) (blmI m2 p2 : List ℂ)
    (f : Nat → Nat → ℂ) (h : Represents L L m2 f) (w : Mat4) :
    blmxhwp [blmI, m2, p2] w "s2a4" false = .error .valueError := by
  obtain ⟨-, g1, g2⟩ := pyGet012 blmI m2 p2
  unfold blmxhwp
  simp only [g1, g2, bind, Except.bind, String.reduceEq, if_false, if_true]
  rw [C21_shift_too_large L m2 p2 f h 4 (by omega)]

/-- **C25.** Unknown modes are rejected. -/
theorem C25_unknown_mode (blm : List (List ℂ)) (w : Mat4) (mode : String) (v : Bool)
    (h : mode ∉ ["s0a0", "s0a0_v", "s2a4", "s0a2", "s0a2_v", "s2a2", "s2a0"]) :
    blmxhwp blm w mode v = .error .valueError := by
  simp only [List.mem_cons, List.not_mem_nil, or_false, not_or] at h
  obtain ⟨a1, a2, a3, a4, a5, a6, a7⟩ := h
  unfold blmxhwp
  simp only [a1, a2, a3, a4, a5, a6, a7, if_false]

/-- A symmetric beam of band limit 4. -/
example : ∃ b : Nat → Nat → ℂ,
    Represents 4 4 ([1, 1 / 2, 1 / 3, 1 / 4, 1 / 5] ++ List.replicate 10 0) b ∧
    (∀ l, l ≤ 4 → b l 0 = star (b l 0)) ∧ ∀ l m, 0 < m → b l m = 0 := by
  refine ⟨fun l m => if m = 0 then 1 / ((l : ℂ) + 1) else 0, ?_, ?_, ?_⟩
  · simp [Represents, modes, List.range, List.range.loop, List.replicate]
    norm_num
  · intro l _; simp
  · intro l m hm; simp; omega

end Verif.Props
