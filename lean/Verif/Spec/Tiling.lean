/-!
# Specification: contiguous tilings of an interval of samples
-/

namespace Verif.Spec

/-- `Tiles a b l`: the half-open intervals in `l` are non-empty, follow each other without
gap or overlap, start at `a` and end at `b`. -/
inductive Tiles : Int → Int → List (Int × Int) → Prop
  | nil (a : Int) : Tiles a a []
  | cons {a b c : Int} {l : List (Int × Int)} : a < b → Tiles b c l → Tiles a c ((a, b) :: l)

/-- The value that a cyclic schedule of `angles`, changing every `period` samples from sample
zero on, has at sample `t`. -/
def scheduled {K : Type} (period : Nat) (angles : List K) (t : Nat) : Option K :=
  angles[(t / period) % angles.length]?

end Verif.Spec
