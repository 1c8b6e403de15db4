import Verif.Model.MapMaking
import Verif.Model.MpiSetup

/-!
# Model: everything `solve_for_map` returns, on every process (instrument.py:4434-4485)

Simplifications: `proj_cond` of qpoint is an external function of the numbers of a pixel, `none`
for infinity; `vec` and `proj` are kept in one list of cells as in `Model/MapMaking`, so that the
two calls of `reduce_array` are one; exact arithmetic.
-/

noncomputable section

namespace Verif.Solve

open Verif.MapMaking Verif.MpiSetup

/-- What is returned: `maps` and `cond` (`None` on other ranks than the root) and, if it is
returned at all, `proj` (also `None` on other ranks). -/
structure Result where
  maps : Option (List (Fin 3 → ℝ))
  cond : Option (List ℝ)
  proj : Option (Option (List (Fin 6 → ℝ)))

/-- `cond[cond == np.inf] = fill` (instrument.py:4476). -/
def fillCond (fill : ℝ) : Option ℝ → ℝ
  | some k => k
  | none => fill

/-- `proj_cond` of the maps with infinity replaced (instrument.py:4475-4476). -/
def condMap (cond : (Fin 6 → ℝ) → Option ℝ) (maps : Maps) (fill : ℝ) : List ℝ :=
  maps.map fun c => fillCond fill (cond c.proj)

/-- The last part (instrument.py:4469-4485): `rank` of the process and the collected maps. -/
def finish (q : QExt) (cond : (Fin 6 → ℝ) → Option ℝ) (fill : ℝ) (returnProj : Bool) (rank : Nat)
    (maps : Option Maps) : PyM Result :=
  let proj := if returnProj then some (maps.map fun m => m.map (·.proj)) else none
  if rank = 0 then
    match maps with
    | some m => .ok ⟨some (solveForMap q m fill), some (condMap cond m fill), proj⟩
    | none => .error .typeError
  else .ok ⟨none, none, proj⟩

/-- `solve_for_map(fill, return_proj)` on process `p`, whose `vec` and `proj` are `maps p`; `m` is
what the set-up of MPI has given (instrument.py:4458-4485). -/
def solve (q : QExt) (cond : (Fin 6 → ℝ) → Option ℝ) (m : Option Comm) (maps : Nat → Maps)
    (fill : ℝ) (returnProj : Bool) (p : Nat) : PyM Result := do
  let collected ← reduceArray m maps p
  let rank ← mpiRank m p
  finish q cond fill returnProj rank collected

end Verif.Solve
