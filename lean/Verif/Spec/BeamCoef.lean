import Verif.Model.BeamCoef
import Verif.Spec.Convolution

/-!
# Specification: beam coefficients
-/

noncomputable section

namespace Verif.Spec

open Verif.BeamCoef Verif.Spinmaps

/-- The first coefficient of the first row, `(l, m) = (0, 0)` of the unpolarized beam. -/
def Monopole (rows : List (List ℂ)) (c : ℂ) : Prop := ∃ r, rows[0]? = some r ∧ r[0]? = some c

/-- The factor `sqrt(4 pi / (2 l + 1))` of `deconv_q`. -/
def deconvFactor (deconvQ : Bool) (l : Nat) : ℝ :=
  if deconvQ then Real.sqrt (4 * Real.pi / (2 * l + 1)) else 1

/-- What `deconv_q` and `normalize` make of coefficients: `deconv_q` first, then division by the
monopole of the unpolarized beam `u`. -/
def scaled (normalize deconvQ : Bool) (u f : Nat → Nat → ℂ) (l m : Nat) : ℂ :=
  f l m * deconvFactor deconvQ l / (if normalize then u 0 0 * deconvFactor deconvQ 0 else 1)

/-- Co-polar coefficients of spin -2 for an unpolarized beam `b`. -/
def copolMinus (b : Nat → Nat → ℂ) (l m : Nat) : ℂ :=
  if l < 2 then 0 else extended b b l ((m : Int) - 2)

/-- Co-polar coefficients of spin +2 for an unpolarized beam `b`. -/
def copolPlus (b : Nat → Nat → ℂ) (l m : Nat) : ℂ := if m + 2 ≤ l then b l (m + 2) else 0

/-- The name of the file: `.npy` is added to names without extension. -/
def fileName (name : String × String) : String :=
  name.1 ++ if name.2 = "" then ".npy" else name.2

/-- An .npy file with `k` rows of coefficients `f 0`, `f 1`, ... with band limit `L`. -/
def NpyFile (fs : Files) (name : String × String) (L k : Nat) (f : Nat → Nat → Nat → ℂ) : Prop :=
  ∃ rows : List (List ℂ), rows.length = k ∧ HasRows L k rows f ∧
    (fs (fileName name) = some (.npy (.two rows)) ∨
      ∃ a, rows = [a] ∧ fs (fileName name) = some (.npy (.one a)))

/-- A .fits file with `k` tables of coefficients `f 0`, `f 1`, ... with band limits `L` and
`M ≤ L`. -/
def FitsFile (fs : Files) (name : String × String) (L M k : Nat) (f : Nat → Nat → Nat → ℂ) : Prop :=
  ∃ hdus : List Hdu, hdus.length = k ∧ fs (fileName name) = some (.fits hdus) ∧ M ≤ L ∧
    ∀ i, i < k → ∃ h, hdus[i]? = some h ∧ h.mmax = M ∧ Represents L M h.alm (f i)

/-- The beam reads its coefficients from this file. -/
def UsesFile (o : Attrs) (name : String × String) : Prop :=
  (o.btype = "PO" ∧ o.poFile = some name) ∨ (o.btype = "EG" ∧ o.egFile = some name)

/-- The number of rows that are used of a .fits file with `k` tables. -/
def fitsRows (k : Nat) : Nat := if k < 3 then 1 else if k = 4 then 4 else 3

/-- The file of a beam gives `k` rows of coefficients `f 0`, `f 1`, ... with band limit `L`, and the
beam has the azimuthal band limit `mm` afterwards: an .npy file leaves it, a .fits file with a lower
one reduces it.  Coefficients that a .fits file does not contain are zero. -/
def BeamFile (fs : Files) (o : Attrs) (name : String × String) (L k : Nat)
    (f : Nat → Nat → Nat → ℂ) (mm : Int) : Prop :=
  (NpyFile fs name L k f ∧ mm = o.mmax) ∨
  ∃ M j g, FitsFile fs name L M j g ∧ 1 ≤ j ∧ k = fitsRows j ∧
    (f = fun i l m => if m ≤ M then g i l m else 0) ∧ mm = min (M : Int) o.mmax

/-- The standard deviation in radians that belongs to a FWHM in arcmin. -/
def sigma (fwhm : ℝ) : ℝ := fwhm / 60 * (Real.pi / 180) / Real.sqrt (8 * Real.log 2)

end Verif.Spec
