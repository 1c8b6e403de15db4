import Verif.Model.MpiSetup
import Mathlib.Algebra.BigOperators.Group.List.Basic

/-!
# Specification: when MPI is used (independent of the model's helpers)
-/

namespace Verif.Spec

open Verif.MpiSetup

/-- The program was started by `mpirun` of Open MPI, MPICH or Intel MPI: one of the two
environment variables is set to something. -/
def Launched (s : Surroundings) : Prop :=
  (∃ v, s.ompiSize = some v ∧ v ≠ "") ∨ (∃ v, s.pmiSize = some v ∧ v ≠ "")

/-- `total` is the elementwise sum of arrays of length `n`, one for each process in `l`. -/
def SumOf {α : Type} [AddMonoid α] (l : List Nat) (n : Nat) (arr : Nat → List α) (total : List α) :
    Prop :=
  total.length = n ∧ ∀ k, k < n → total[k]? = some ((l.map fun q => (arr q).getD k 0).sum)

end Verif.Spec
