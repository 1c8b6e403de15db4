import Verif.Spec.WholeScans

/-!
# Specification: which coefficients of sky and beams are used
-/

noncomputable section

namespace Verif.Spinmaps

open Verif.Spin Verif.ScanInstrument Verif.MapMaking

/-- The rows of coefficients that count: V only if it is asked for, otherwise 0. -/
def withV (v : Bool) (f : Nat → Nat → Nat → ℂ) (i : Nat) : Nat → Nat → ℂ :=
  if i = 3 ∧ v = false then fun _ _ => 0 else f i

/-- The same coefficients up to `l = L` and `m = K`. -/
def SameModes (L : Nat) (K : Int) (f f' : Nat → Nat → Nat → ℂ) : Prop :=
  ∀ i l m : Nat, i < 4 → l ≤ L → m ≤ l → (m : Int) ≤ K → f i l m = f' i l m

/-- Largest azimuthal number of the beam that is used: 2 for symmetric beams, `max_spin` otherwise, 4 more
behind a Mueller matrix. -/
def reach (symmetric : Bool) (maxSpin : Int) (mueller : Option Mat4) : Int :=
  (if symmetric then 2 else maxSpin) + if mueller.isSome then 4 else 0

/-- A sky as it is given to `scan_instrument_mpi`: arrays, with and without V, that have the band limit `Ls`
and represent `a`; and the options for V and `max_spin`. -/
structure Setting where
  alm : List (List ℂ)
  inputV : Bool
  beamV : Bool
  maxSpin : Int
  Ls : Nat
  a : Nat → Nat → Nat → ℂ

/-- A beam `g` in the setting `S` and a beam `g'` in the setting `S'` are complete, and have the same
coefficients of sky and beam up to their common band limit and up to the largest azimuthal number that is
used. -/
structure SameBeam (S S' : Setting) (g g' : BeamData) : Prop where
  symmetric : g.symmetric = g'.symmetric
  mueller : g.mueller = g'.mueller
  ghostIdx : g.ghostIdx = g'.ghostIdx
  spin : g.symmetric = false → min g.mmax S.maxSpin = min g'.mmax S'.maxSpin
  modes : ∃ (L L' : Nat) (b b' : Nat → Nat → Nat → ℂ),
    InputOk S.Ls L S.alm g.blm S.a b (min g.mmax S.maxSpin) g.symmetric g.mueller S.inputV S.beamV ∧
    InputOk S'.Ls L' S'.alm g'.blm S'.a b' (min g'.mmax S'.maxSpin) g'.symmetric g'.mueller S'.inputV
      S'.beamV ∧
    min S.Ls L = min S'.Ls L' ∧
    SameModes (min S.Ls L) (min S.Ls L : Nat) (withV S.inputV S.a) (withV S'.inputV S'.a) ∧
    SameModes (min S.Ls L) (reach g.symmetric (min g.mmax S.maxSpin) g.mueller)
      (withV S.beamV b) (withV S'.beamV b')

end Verif.Spinmaps
