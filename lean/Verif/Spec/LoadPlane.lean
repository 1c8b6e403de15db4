import Verif.Model.LoadPlane

/-!
# Which files make a focal plane, and what each of them makes
-/

namespace Verif.Spec.LoadPlane

open Verif.Beam Verif.FocalPlane Verif.LoadPlane

variable {K : Type}

/-- The files of a directory that a tag stands for: visible files `<…tag….pkl>`. -/
def Matching (dir : Dir K) (tag : String) (n : String) : Prop :=
  (∃ f, (n, f) ∈ dir) ∧ n.toList.head? ≠ some '.' ∧ '/' ∉ n.toList ∧
    ∃ x y, n = x ++ tag ++ y ++ ".pkl"

/-- The files that are loaded, in this order: the given ones that contain the tag, as often as they
are given; or all that match the tag, once. -/
def Chosen (dir : Dir K) (tag : Option String) (names : Option (List String)) (l : List String) : Prop :=
  l.Pairwise (· ≤ ·) ∧
  match names with
  | some (n :: ns) =>
    (∀ m ∈ l, ∃ f, (m, f) ∈ dir) ∧
    (∀ m ∈ l, ∃ m', m = m' ++ ".pkl") ∧
    ∀ m, ((∃ x y, m = x ++ tag.getD "" ++ y) → l.count (m ++ ".pkl") = (n :: ns).count m) ∧
      ((¬ ∃ x y, m = x ++ tag.getD "" ++ y) → l.count (m ++ ".pkl") = 0)
  | _ => l ≠ [] ∧ l.Nodup ∧ ∀ m, m ∈ l ↔ Matching dir (tag.getD "") m

/-- A file with options for both detectors in separate dictionaries, or for A alone. -/
inductive Plain : Pickle K → Dict K → Dict K → Prop
  | one (d : Dict K) : Plain (.dict d) d d
  | two (a b : Dict K) : Plain (.list [a, b]) a b

/-- An option as the detector gets it: the one of the call, else the one of the file, else nothing. -/
def given (kw d : Dict K) (k : Key) : Option (Val K) := (Dict.get? kw k).or (Dict.get? d k)

end Verif.Spec.LoadPlane
