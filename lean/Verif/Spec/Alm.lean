import Mathlib.Algebra.Star.Basic

/-!
# Specification: harmonic coefficient arrays

A band-limited set of coefficients `f l m` (`0 ≤ m ≤ mmax`, `m ≤ l ≤ lmax`) is stored m-major:
first all `l` for `m = 0`, then all `l ≥ 1` for `m = 1`, and so on.
-/

namespace Verif.Spec

/-- The modes `(l, m)` in storage order. -/
def modes (lmax mmax : Nat) : List (Nat × Nat) :=
  (List.range (mmax + 1)).flatMap fun m => (List.range (lmax + 1 - m)).map fun k => (m + k, m)

/-- The array `a` holds the coefficients `f l m` up to `lmax`, `mmax`. -/
def Represents {α : Type} (lmax mmax : Nat) (a : List α) (f : Nat → Nat → α) : Prop :=
  a = (modes lmax mmax).map fun p => f p.1 p.2

/-- Coefficient of a field at a possibly negative azimuthal number `k`, given the coefficients
`same l m` for `m ≥ 0` and, through the conjugation symmetry
`x(l,-m) = (-1)^m conj(y(l,m))`, those of its partner field (`other = same` for a real scalar
field, the field of opposite spin otherwise). -/
def extended {K : Type} [CommRing K] [StarRing K] (same other : Nat → Nat → K) (l : Nat) (k : Int) :
    K :=
  if 0 ≤ k then same l k.toNat else (-1) ^ k.natAbs * star (other l k.natAbs)

end Verif.Spec
