import Verif.Model.Optics

/-!
# Specification: light that passes a plate from the other side
-/

namespace Verif.Spec.BothWays

open Verif.Optics

/-- The layers of a plate with their thickness, material and angle, as light meets them that comes from the
other side; directions are measured in the same frame. -/
def fromBehind (l : List (ℝ × Material × ℝ)) : List (ℝ × Material × ℝ) := l.reverse

/-- The layers of a plate that has been turned over about its x axis: the last one comes first, and every
angle has changed its sign. -/
def turnedOver (l : List (ℝ × Material × ℝ)) : List (ℝ × Material × ℝ) :=
  l.reverse.map fun x => (x.1, x.2.1, -x.2.2)

/-- The matrix of a plate with the roles of incoming and outgoing Stokes parameters exchanged, where parameter
`k` is counted with the other sign. -/
def exchanged (k : Fin 4) (M : MR4) : MR4 :=
  Matrix.of fun i j => (if i = k then -1 else 1) * (if j = k then -1 else 1) * M j i

end Verif.Spec.BothWays
