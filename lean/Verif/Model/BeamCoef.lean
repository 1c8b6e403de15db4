import Mathlib.Analysis.SpecialFunctions.Log.Basic
import Verif.Model.Spinmaps

/-!
# Model: beam coefficients (tools.py:67-154, 319-394, detector.py:212-254, 269-406)

Arrays of complex numbers are lists, and a two-dimensional array is the list of its rows.  Exact
arithmetic: `x / 0`, which numpy turns into `nan` or `inf` with a warning, is 0 here, so theorems
about normalization ask for a monopole that is not zero.  `hp.gauss_beam`, `hp.almxfl` and
`hp.read_alm` are modelled from healpy's documentation.
-/

noncomputable section

namespace Verif.BeamCoef

open Verif.Alm Verif.Spinmaps

/-- What a caller can pass as coefficients: a one- or two-dimensional array or a list or tuple of
arrays. -/
inductive Arr where
  | one (a : List ℂ)
  | two (rows : List (List ℂ))
  | seq (rows : List (List ℂ))

/-- `np.atleast_2d`.  A list or tuple of arrays is copied into a new array; rows of unequal length
raise ValueError. -/
def Arr.rows : Arr → PyM (List (List ℂ))
  | .one a => .ok [a]
  | .two r => .ok r
  | .seq r => if r.all fun a => decide (a.length = (r.headD []).length) then .ok r
    else .error .valueError

/-- The argument after `np.atleast_2d(x)` was changed in place to `rows`: arrays share memory with
the result, lists and tuples do not. -/
def Arr.written (rows : List (List ℂ)) : Arr → Arr
  | .one _ => .one (rows.headD [])
  | .two _ => .two rows
  | .seq r => .seq r

/-- `qell = 2 * np.sqrt(np.pi / (2. * ell + 1))` (tools.py:142). -/
def qell (l : Nat) : ℝ := 2 * Real.sqrt (Real.pi / (2 * l + 1))

/-- `hp.almxfl(blm[i], qell, inplace=True)` for all rows (tools.py:136-137, 141-144). -/
def deconv (rows : List (List ℂ)) (lmax : Int) : List (List ℂ) :=
  rows.map fun a => almxfl a ((List.range (lmax + 1).toNat).map fun (l : Nat) => (qell l : ℂ))

/-- `blm /= blm[0,0]` (tools.py:145-146). -/
def divide (rows : List (List ℂ)) : PyM (List (List ℂ)) := do
  let r ← pyGet rows 0
  let c ← pyGet r 0
  return rows.map fun a => a.map fun x => x / c

/-- `blm[0]` of one row, else all rows (tools.py:148-151). -/
def unwrap (rows : List (List ℂ)) : Arr :=
  match rows with
  | [a] => .one a
  | r => .two r

/-- The loops of `scale_blm` over the rows (tools.py:138-146). -/
def scaleRows (rows : List (List ℂ)) (normalize deconvQ : Bool) : PyM (List (List ℂ)) := do
  let r ← pyGet rows 0
  let rows := if deconvQ then deconv rows (getlmax r.length none) else rows
  if normalize then divide rows else return rows

/-- `scale_blm` (tools.py:113-154): the result, and the argument afterwards. -/
def scaleBlm (x : Arr) (normalize deconvQ : Bool) : PyM (Arr × Arr) :=
  if normalize = false ∧ deconvQ = false then .ok (x, x)
  else do
    let rows ← x.rows
    let rows ← scaleRows rows normalize deconvQ
    return (unwrap rows, x.written rows)

/-- `hp.gauss_beam(fwhm, lmax, pol=False)`, `fwhm` in radians (healpy). -/
def gaussBeam (fwhm : ℝ) (lmax : Int) : List ℂ :=
  (List.range (lmax + 1).toNat).map fun (l : Nat) =>
    ((Real.exp (-(1 / 2) * (l * (l + 1)) * (fwhm / Real.sqrt (8 * Real.log 2)) ^ 2) : ℝ) : ℂ)

/-- `np.radians(fwhm / 60.)`. -/
def arcmin (fwhm : ℝ) : ℝ := fwhm / 60 * Real.pi / 180

/-- `gauss_blm` with `pol=False` (tools.py:97-104, 110-111). -/
def gaussBlm (fwhm : ℝ) (lmax : Int) : PyM (List ℂ) := do
  let blm : List ℂ ← npZeros (getsize lmax (some lmax))
  pyAssign blm 0 (lmax + 1) (gaussBeam (arcmin fwhm) lmax)

/-- `gauss_blm` with `pol=True` (tools.py:97-109): spin 0 and spin -2. -/
def gaussBlmPol (fwhm : ℝ) (lmax : Int) : PyM (List ℂ × List ℂ) := do
  let blm : List ℂ ← npZeros (getsize lmax (some lmax))
  let bell := gaussBeam (arcmin fwhm) lmax
  let b ← pyAssign blm 0 (lmax + 1) bell
  let m2 ← pyAssign blm (2 * lmax + 1) (3 * lmax) (bell.drop 2)
  return (b, m2)

/-- The factor for `c2_fwhm` (tools.py:350-352). -/
def expSig (c2 : ℝ) : ℝ :=
  Real.exp (2 * (arcmin c2 / (2 * Real.sqrt (2 * Real.log 2))) ^ 2)

/-- `if c2_fwhm:` (tools.py:349): `None` and 0 are false. -/
def isSet : Option ℝ → Bool
  | none => false
  | some c => decide (c ≠ 0)

/-- `blmm2 *= expsig2` or `blmp2 *= expsig2` when `c2_fwhm` is set (tools.py:349-354). -/
def sharpen (c2 : Option ℝ) (a : List ℂ) : List ℂ :=
  if isSet c2 then a.map fun x => x * (expSig (c2.getD 0) : ℂ) else a

/-- The caller's array after a function used it as a one-dimensional array. -/
def flat : Arr → PyM (List ℂ)
  | .one a => .ok a
  | _ => .error .valueError

/-- `get_copol_blm` (tools.py:319-357) for a one-dimensional array: the result, and the argument
afterwards.  The returned unpolarized array is the caller's own, changed or not. -/
def getCopolBlm (blm : List ℂ) (c2 : Option ℝ) (normalize deconvQ : Bool) :
    PyM (List (List ℂ) × List ℂ) := do
  let (r, x) ← scaleBlm (.one blm) normalize deconvQ
  let r ← flat r
  let x ← flat x
  let (m2, p2) ← unpol2pol r
  return ([r, sharpen c2 m2, sharpen c2 p2], x)

/-- `get_pol_beam` (tools.py:359-394): spin -2 and +2, and the two arguments afterwards. -/
def getPolBeam (q u : List ℂ) (normalize deconvQ : Bool) :
    PyM ((List ℂ × List ℂ) × List ℂ × List ℂ) := do
  let (rq, xq) ← scaleBlm (.one q) normalize deconvQ
  let (ru, xu) ← scaleBlm (.one u) normalize deconvQ
  let rq ← flat rq
  let ru ← flat ru
  let xq ← flat xq
  let xu ← flat xu
  let (m2q, p2q) ← unpol2pol rq
  let (m2u, p2u) ← unpol2pol ru
  -- `blmm2_q + 1j * blmm2_u`: arrays of different size raise ValueError
  if m2q.length = m2u.length then
    return ((List.zipWith (fun x y => x + Complex.I * y) m2q m2u,
      List.zipWith (fun x y => x - Complex.I * y) p2q p2u), xq, xu)
  else .error .valueError

/-! ### `Beam.blm` -/

/-- A table of a .fits file: the coefficients and `mmax` that `hp.read_alm` returns. -/
structure Hdu where
  alm : List ℂ
  mmax : Int

/-- A file: an array written by `np.save` or a .fits file with its tables (`hdu=1`, ...). -/
inductive File where
  | npy (x : Arr)
  | fits (hdus : List Hdu)

/-- The files by name. -/
abbrev Files := String → Option File

/-- The attributes of a `Beam` that determine its coefficients (detector.py:92-119); a file name is
given as the pair that `os.path.splitext` makes of it. -/
structure Attrs where
  btype : String
  fwhm : ℝ
  lmax : Int
  mmax : Int
  amplitude : ℝ
  poFile : Option (String × String)
  egFile : Option (String × String)
  crossPol : Bool
  deconvQ : Bool
  normalize : Bool

/-- `hp.read_alm(blm_file, hdu=k, return_mmax=True)`: a missing table is an IndexError. -/
def readHdu (hdus : List Hdu) (k : Nat) : PyM Hdu := pyGet hdus ((k : Int) - 1)

/-- `a = np.zeros(n); a[:read.size] = read` (detector.py:343-344, 353-357, 361-363). -/
def expand (n : Int) (read : List ℂ) : PyM (List ℂ) := do
  let z : List ℂ ← npZeros n
  pyAssign z 0 (read.length : Int) read

/-- The contents of a .fits file (detector.py:334-367) and `mmax` of the first table. -/
def readFits (hdus : List Hdu) : PyM (Arr × Int) := do
  let h1 ← readHdu hdus 1
  let lmax := getlmax h1.alm.length (some h1.mmax)
  let n := getsize lmax none
  let b0 ← expand n h1.alm
  if hdus.length ≥ 3 then
    let h2 ← readHdu hdus 2
    let h3 ← readHdu hdus 3
    if h1.mmax = h2.mmax ∧ h2.mmax = h3.mmax then
      let b1 ← expand n h2.alm
      let b2 ← expand n h3.alm
      if hdus.length = 4 then
        let h4 ← readHdu hdus 4
        let b3 ← expand n h4.alm
        return (.seq [b0, b1, b2, b3], h1.mmax)
      else return (.seq [b0, b1, b2], h1.mmax)
    else .error .valueError
  else return (.one b0, h1.mmax)

/-- `np.load`, else the .fits file (detector.py:318-373): the array and `self.mmax` afterwards.
`ext` is set to '.npy' before `np.load` fails, so the test `if not ext` in the handler is never
true.  Opening a file that does not exist raises an IOError in both places. -/
def readFile (fs : Files) (o : Attrs) (pname ext : String) : PyM (Arr × Int) :=
  let ext := if ext = "" then ".npy" else ext
  match fs (pname ++ ext) with
  | some (.npy x) => .ok (x, o.mmax)
  | none => .error .osError
  | some (.fits hdus) => do
    let (x, mmax) ← readFits hdus
    return (x, if mmax < o.mmax then min mmax o.lmax else o.mmax)

/-- `blm *= self.amplitude` if it is not 1 (detector.py:389-391, 400-402). -/
def amplify (amplitude : ℝ) (a : List ℂ) : List ℂ :=
  if amplitude ≠ 1 then a.map fun x => x * (amplitude : ℂ) else a

/-- `blm.shape[0] == 3 or blm.shape[0] == 4 and self.cross_pol` (detector.py:378). -/
def polarized (o : Attrs) (rows : List (List ℂ)) : Bool :=
  decide (rows.length = 3) || (decide (rows.length = 4) && o.crossPol)

/-- `load_blm` (detector.py:289-406): the value of the attribute `blm` and `self.mmax` afterwards.
The keyword arguments are `c2_fwhm`, `normalize` and `deconv_q`. -/
def loadBlm (fs : Files) (o : Attrs) (pname ext : String) (c2 : Option ℝ)
    (normalize deconvQ : Bool) : PyM (List (List ℂ) × Int) := do
  let (x, mmax) ← readFile fs o pname ext
  let rows ← x.rows
  if polarized o rows then
    let (r, _) ← scaleBlm (.two rows) normalize deconvQ
    let r ← r.rows
    return (r.map (amplify o.amplitude), mmax)
  else
    let a ← pyGet rows 0
    let (r, _) ← getCopolBlm (amplify o.amplitude a) c2 normalize deconvQ
    return (r, mmax)

/-- `gen_gaussian_blm` (detector.py:269-287). -/
def genGaussian (o : Attrs) : PyM (List (List ℂ)) := do
  let b ← gaussBlm o.fwhm o.lmax
  let (r, _) ← getCopolBlm (amplify o.amplitude b) (some o.fwhm) false false
  return r

/-- `load_blm(filename, deconv_q=self.deconv_q, normalize=self.normalize)`; without file name
`os.path.splitext` raises TypeError. -/
def loadNamed (fs : Files) (o : Attrs) : Option (String × String) → PyM (List (List ℂ) × Int)
  | none => .error .typeError
  | some (pname, ext) => loadBlm fs o pname ext none o.normalize o.deconvQ

/-- The property `blm` of a beam whose coefficients have not been read yet
(detector.py:212-246): the coefficients and `self.mmax` afterwards. -/
def blm (fs : Files) (o : Attrs) : PyM (List (List ℂ) × Int) :=
  if o.btype = "Gaussian" then do
    let r ← genGaussian o
    return (r, o.mmax)
  else if o.btype = "PO" then loadNamed fs o o.poFile
  else if o.btype = "EG" then loadNamed fs o o.egFile
  else .error .valueError

end Verif.BeamCoef
