import Verif.Model.Solve
import Verif.Spec.MapMaking
import Verif.Spec.MpiSetup
import Mathlib.Order.Bounds.Basic

/-!
# Specification: condition numbers
-/

noncomputable section

namespace Verif.Spec

open Verif.MapMaking Verif.Solve

/-- The values of `vᵀ A v` over the unit vectors. -/
def quotients (A : Matrix (Fin 3) (Fin 3) ℝ) : Set ℝ :=
  {x | ∃ v : Fin 3 → ℝ, dotProduct v v = 1 ∧ x = dotProduct v (A.mulVec v)}

/-- `k` is the condition number of a symmetric positive matrix: the largest eigenvalue (the largest
value of `vᵀ A v` over unit vectors) divided by the smallest. -/
def IsCond (A : Matrix (Fin 3) (Fin 3) ℝ) (k : ℝ) : Prop :=
  ∃ lo hi, 0 < lo ∧ k = hi / lo ∧ IsLeast (quotients A) lo ∧ IsGreatest (quotients A) hi

/-- qpoint's `proj_cond`: infinite for singular matrices, the condition number for positive ones. -/
structure CondOk (cond : (Fin 6 → ℝ) → Option ℝ) : Prop where
  singular : ∀ P, (sym P).det = 0 → cond P = none
  positive : ∀ P, (∀ v, v ≠ 0 → 0 < dotProduct v ((sym P).mulVec v)) →
    ∃ k, cond P = some k ∧ IsCond (sym P) k

/-- What the root returns when `os` are all observations: in every pixel the Stokes parameters that
solve its equations if it was seen under three angles, `fill` if it was not seen; the condition
number if it was seen under three angles, else `fill`; and, if asked for, the matrices, beginning
with the number of hits. -/
structure Solved (nside : Nat) (os : List Obs) (fill : ℝ) (returnProj : Bool) (r : Result) :
    Prop where
  maps : ∃ M, r.maps = some M ∧ M.length = 12 * nside ^ 2 ∧ ∀ p X, M[p]? = some X →
    (ThreeAngles (here p os) → (projAt os p).mulVec X = vecAt os p) ∧
    (here p os = [] → X = fun _ => fill)
  cond : ∃ C, r.cond = some C ∧ C.length = 12 * nside ^ 2 ∧ ∀ p k, C[p]? = some k →
    (ThreeAngles (here p os) → IsCond (projAt os p) k) ∧ (¬ ThreeAngles (here p os) → k = fill)
  proj : if returnProj then ∃ P, r.proj = some (some P) ∧ P.length = 12 * nside ^ 2 ∧
      ∀ p A, P[p]? = some A → sym A = projAt os p ∧ A 0 = (here p os).length
    else r.proj = none

end Verif.Spec
