import Verif.Model.Spinmaps
import Verif.Spec.Alm

/-!
# Specification: convolution of a sky with a beam

Fields on the sphere are given by their coefficients for all `-l ≤ m ≤ l`, written down with
`Spec.extended` from the stored ones with `m ≥ 0`.
-/

noncomputable section

namespace Verif.Spinmaps

open Verif.Spec Verif.Spin Complex

/-- The field of spin `s` with coefficients `A l m`: `sum_{l ≤ L} sum_{m=-l}^{l} A(l,m) sYlm`. -/
def synth (Y : Harmonics) (nside L : Nat) (s : Int) (A : Nat → Int → ℂ) (p : Nat) : ℂ :=
  ∑ l ∈ Finset.range (L + 1), ∑ m ∈ Finset.Icc (-(l : Int)) l, A l m * Y nside s l m p

/-- The symmetry of spin-weighted spherical harmonics under conjugation. -/
def Conjugation (Y : Harmonics) : Prop :=
  ∀ nside s l m p, star (Y nside s l m p) = (-1) ^ (s + m) * Y nside (-s) l (-m) p

/-- Harmonics of spin `s` exist for `l ≥ |s|` only. -/
def Vanishing (Y : Harmonics) : Prop :=
  ∀ nside s (l : Nat) m p, (l : Int) < |s| → Y nside s l m p = 0

/-- Beam coefficient with azimuthal number `s`, zero for `l < |s|`. -/
def beamMode (same other : Nat → Nat → ℂ) (s : Int) (l : Nat) : ℂ :=
  if (l : Int) < |s| then 0 else extended same other l s

/-- Coefficients of spin -2 and +2 from those of E and B. -/
def minus2 (e b : Nat → Nat → ℂ) : Nat → Nat → ℂ := fun l m => -(e l m - I * b l m)

def plus2 (e b : Nat → Nat → ℂ) : Nat → Nat → ℂ := fun l m => -(e l m + I * b l m)


/-- The first `k` rows of `x` represent the coefficients `a 0`, `a 1`, .... -/
def HasRows (L k : Nat) (x : List (List ℂ)) (a : Nat → Nat → Nat → ℂ) : Prop :=
  ∀ i, i < k → ∃ r, x[i]? = some r ∧ Represents L L r (a i)

/-- Three rows, or four with V. -/
def nrows (v : Bool) : Nat := if v then 4 else 3


/-- What the code needs of its input: complete rows of sky (band limit `Ls`) and beam (`Lb`), V rows
where they are asked for, spins within the common band limit; for a Mueller matrix a band limit of
at least 4. -/
structure InputOk (Ls Lb : Nat) (alm blm : List (List ℂ)) (a b : Nat → Nat → Nat → ℂ)
    (maxSpin : Int) (symmetric : Bool) (mueller : Option Mat4) (inputV beamV : Bool) : Prop where
  sky : HasRows Ls (nrows inputV) alm a
  beam : HasRows Lb (nrows beamV) blm b
  skyV : inputV = true → alm.length = 4
  beamV : beamV = true → blm.length = 4
  spin0 : 0 ≤ maxSpin
  spin : maxSpin ≤ (min Ls Lb : Nat)
  sym : symmetric = true → 2 ≤ min Ls Lb
  mueller : mueller ≠ none → 4 ≤ min Ls Lb

end Verif.Spinmaps
