import Verif.Spec.FocalScan
import Verif.Spec.WholeScans

/-!
# Specification: focal planes that lost detectors
-/

noncomputable section

namespace Verif.Losses

open Verif.Beam Verif.MapMaking Verif.ScanInstrument
open Verif.ScanObjects (ObjPair)

/-- The coefficients of a beam do not depend on whether it is dead (detector.py:218-246, 318-406). -/
def DeadFree (env : Env ℝ) : Prop :=
  ∀ a a' : Key → Option (Val ℝ), (∀ k, k ≠ .dead → a k = a' k) → env.loadBlm a = env.loadBlm a'

/-- The detector `q`, which is the object `r`, after the objects of `D` died. -/
def deadIn (D : List Ref) (r : Option Ref) (q : Option BinBeam) : Option BinBeam :=
  if ∃ x ∈ D, r = some x then q.map ScanInstrument.dead else q

/-- The pair `q` of detectors, which are the objects `p`, after the objects of `D` died. -/
def lose (D : List Ref) (p : ObjPair) (q : Pair) : Pair := (deadIn D p.1 q.1, deadIn D p.2 q.2)

/-- The pair `q` without the detectors of `D`. -/
def without (D : List Ref) (p : ObjPair) (q : Pair) : Pair :=
  (if ∃ x ∈ D, p.1 = some x then none else q.1, if ∃ x ∈ D, p.2 = some x then none else q.2)

end Verif.Losses
