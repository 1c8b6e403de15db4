/-!
# Specification: splitting work over ranks (independent of the model)
-/

namespace Verif.Spec

/-- `parts` (one per rank) is an even split of `whole`: there are `size` parts, put one
after the other they are `whole`, and their lengths differ by at most one. -/
structure EvenSplit {α : Type} (size : Nat) (whole : List α) (parts : List (List α)) : Prop where
  count : parts.length = size
  concat : parts.flatten = whole
  even : ∀ p ∈ parts, ∀ q ∈ parts, p.length ≤ q.length + 1

end Verif.Spec
