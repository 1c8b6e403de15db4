import Mathlib.Algebra.Star.Basic
import Mathlib.Data.Nat.Sqrt
import Mathlib.Tactic.Ring
import Verif.Py

/-!
# Model: harmonic coefficient arrays

Arrays are lists.  The three healpy index functions are modelled from healpy's documented
formulas (`hp.Alm.getidx`, `getsize`, `getlmax`); they are outside /repo.
-/

namespace Verif.Alm

/-- `hp.Alm.getidx(lmax, l, m)` = `m * (2 * lmax + 1 - m) // 2 + l` (healpy).
`/` by 2 on `Int` is floor division. -/
def getidx (lmax l m : Int) : Int := m * (2 * lmax + 1 - m) / 2 + l

/-- `hp.Alm.getsize(lmax, mmax)` (healpy): missing, negative or too large `mmax` means `lmax`. -/
def getsize (lmax : Int) (mmax : Option Int) : Int :=
  let mm := match mmax with
    | none => lmax
    | some m => if m < 0 ∨ m > lmax then lmax else m
  mm * (2 * lmax + 1 - mm) / 2 + lmax + 1

/-- `hp.Alm.getlmax(s, mmax)` (healpy): `x = (-3 + sqrt(1 + 8 s)) / 2` or, for `mmax >= 0`,
`x = (2 s + mmax^2 - mmax - 2) / (2 mmax + 2)`; -1 when `x` is no integer.
Exact arithmetic: the float square root is exact on perfect squares below 2^53. -/
def getlmax (s : Nat) (mmax : Option Int) : Int :=
  let byRoot : Int :=
    let r := Nat.sqrt (1 + 8 * s)
    if r * r = 1 + 8 * s then ((r : Int) - 3) / 2 else -1
  match mmax with
  | none => byRoot
  | some m =>
    if m ≥ 0 then
      let num := 2 * (s : Int) + m ^ 2 - m - 2
      if num % (2 * m + 2) = 0 then num / (2 * m + 2) else -1
    else byRoot

/-- `np.zeros(n)`: a negative size raises ValueError. -/
def npZeros {α : Type} [Zero α] (n : Int) : PyM (List α) :=
  if n < 0 then .error .valueError else .ok (List.replicate n.toNat 0)

/-- `mmax_old` after `if mmax_old is None: mmax_old = lmax` (tools.py:41-42). -/
def mmaxOr (lmax : Int) : Option Int → Int
  | none => lmax
  | some m => m

/-- One iteration of the index loop of `trunc_alm` (tools.py:53-57); state
`(start, nstart, indices)`. -/
def truncStep (lmax lmaxNew : Int) (st : Int × Int × List Int) (m : Nat) :
    PyM (Int × Int × List Int) := do
  let (start, nstart, indices) := st
  let indices ← pyAssign indices nstart (nstart + lmaxNew + 1 - m)
    (intRange start (lmaxNew + 1 - m).toNat)
  return (start + (lmax + 1 - m), nstart + (lmaxNew + 1 - m), indices)

/-- The computation of `indices` in `trunc_alm` (tools.py:33-57) from the size of (the first)
array. -/
def truncIndices (size : Nat) (lmaxNew : Int) (mmaxOld : Option Int) : PyM (List Int) := do
  let lmax := getlmax size mmaxOld
  let mm := mmaxOr lmax mmaxOld
  if lmax < lmaxNew then .error .valueError
  else
    let indices ← npZeros (getsize lmaxNew (some (min lmaxNew mm)))
    let (_, _, indices) ← (List.range (min lmaxNew mm + 1).toNat).foldlM
      (truncStep lmax lmaxNew) (0, 0, indices)
    return indices

/-- `trunc_alm` for a single array (tools.py:5-65): `alm[indices]`. -/
def truncAlm {α : Type} (alm : List α) (lmaxNew : Int) (mmaxOld : Option Int) :
    PyM (List α) := do
  let indices ← truncIndices alm.length lmaxNew mmaxOld
  indices.mapM fun i => pyGet alm i

/-- `trunc_alm` for a sequence of arrays (tools.py:33-35, 62): the size is taken from the first
one; an empty sequence raises IndexError at `alm[0]`. -/
def truncAlmSeq {α : Type} (alms : List (List α)) (lmaxNew : Int) (mmaxOld : Option Int) :
    PyM (List (List α)) := do
  let a0 ← pyGet alms 0
  let indices ← truncIndices a0.length lmaxNew mmaxOld
  alms.mapM fun a => indices.mapM fun i => pyGet a i

/-- `blm2bl` (tools.py:674-719) for a one-dimensional array. -/
def blm2bl {α : Type} [Zero α] (blm : List α) (m : Int) (full : Bool) : PyM (List α) :=
  if m < 0 then .error .valueError
  else do
    let lmax := getlmax blm.length none
    let start := getidx lmax m m
    let stop := start + lmax + 1 - m
    let bell := pySlice blm start stop
    if full then
      let z : List α ← npZeros (lmax + 1)
      -- `bell_full[m:] = bell`
      pyAssign z m (z.length : Int) bell
    else .ok bell

variable {K : Type} [CommRing K] [StarRing K]

/-- The spin -2 / +2 part of one iteration of `unpol2pol` (tools.py:291-315) for the slice
`start:end` of row `m`. -/
def unpolRow (lmax : Int) (blm : List K) (m : Nat) (start stop : Int) (m2 p2 : List K) :
    PyM (List K × List K) :=
  if m = 0 then do
    let m2 ← pyAssign m2 (start + 2) stop
      ((pySlice blm (2 * lmax + 1) (3 * lmax)).map star)
    let p2 ← pyAssign p2 (start + 2) stop (pySlice blm (2 * lmax + 1) (3 * lmax))
    return (m2, p2)
  else if m = 1 then do
    let m2 ← pyAssign m2 (start + 1) stop
      ((pySlice blm (start + 1) stop).map fun x => -star x)
    let p2 ← pyAssign p2 (start + 2) stop (pySlice blm (3 * lmax) (4 * lmax - 2))
    return (m2, p2)
  else do
    let start0 := getidx lmax (m - 2) (m - 2)
    let end0 := getidx lmax (m - 1) (m - 1)
    let m2 ← pyAssign m2 start stop (pySlice blm (start0 + 2) end0)
    let startp0 := getidx lmax (m + 2) (m + 2)
    if (m : Int) + 2 > lmax then return (m2, p2)
    else
      let endp0 := getidx lmax (m + 3) (m + 3)
      let p2 ← pyAssign p2 (start + 2) stop (pySlice blm startp0 endp0)
      return (m2, p2)

/-- The bounds of row `m` (tools.py:283-290).  In the last row `start = end` uses the value of
`end` of the previous iteration: UnboundLocalError when there is none. -/
def unpolBounds (lmax : Int) (prevEnd : Option Int) (m : Nat) : PyM (Int × Int) :=
  let start := getidx lmax m m
  if (m : Int) < lmax then .ok (start, getidx lmax (m + 1) (m + 1))
  else match prevEnd with
    | none => .error .nameError
    | some e => if e + 1 = getsize lmax none then .ok (e, e + 1) else .error .assertionError

/-- One iteration of `unpol2pol` (tools.py:282-315). -/
def unpolStep (lmax : Int) (blm : List K) (st : Option Int × List K × List K) (m : Nat) :
    PyM (Option Int × List K × List K) := do
  let (prevEnd, m2, p2) := st
  let (start, stop) ← unpolBounds lmax prevEnd m
  let (m2, p2) ← unpolRow lmax blm m start stop m2 p2
  return (some stop, m2, p2)

/-- `unpol2pol` (tools.py:253-317). The unused table `lm` (276) is left out. -/
def unpol2pol (blm : List K) : PyM (List K × List K) := do
  let lmax := getlmax blm.length none
  let z := List.replicate blm.length (0 : K)
  let (_, m2, p2) ← (List.range (lmax + 1).toNat).foldlM (unpolStep lmax blm) (none, z, z)
  return (m2, p2)

/-- `bell_old` of `shift_blm` (tools.py:218-222, 237-241): the row `m_old` of `same`, or for
negative `m_old` the conjugated row of `other` times `(-1) ** m_old`. -/
def shiftBell (same other : List K) (mOld : Int) : PyM (List K) := do
  if mOld ≥ 0 then blm2bl same mOld true
  else
    let b ← blm2bl other |mOld| true
    return b.map fun x => star x * (-1) ^ mOld.natAbs

/-- One iteration of either loop of `shift_blm` (tools.py:208-225, 228-243), writing row `m`
of the array under construction from row `m_old`. -/
def shiftStep (lmax : Int) (same other : List K) (mOld : Nat → Int) (new : List K) (m : Nat) :
    PyM (List K) :=
  let start := getidx lmax m m
  let stop := start + lmax + 1 - m
  if |mOld m| > lmax then .ok new
  else do
    let bell ← shiftBell same other (mOld m)
    pyAssign new start stop (pySlice bell m (bell.length : Int))

/-- `shift_blm` with `eb=False` (tools.py:156-251): the arguments are the spin -2 and +2
coefficients. -/
def shiftBlm (blmm2 blmp2 : List K) (shift : Int) : PyM (List K × List K) := do
  if blmm2.length ≠ blmp2.length then .error .valueError
  else
    let lmax := getlmax blmm2.length none
    if shift > lmax then .error .valueError
    else
      let p2 ← (List.range (lmax + 1).toNat).foldlM
        (shiftStep lmax blmp2 blmm2 fun m => m - shift) (List.replicate blmp2.length 0)
      let m2 ← (List.range (lmax + 1).toNat).foldlM
        (shiftStep lmax blmm2 blmp2 fun m => m + shift) (List.replicate blmm2.length 0)
      return (m2, p2)

end Verif.Alm
