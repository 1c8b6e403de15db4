import Mathlib.LinearAlgebra.Matrix.NonsingularInverse
import Mathlib.Data.Complex.Basic
import Mathlib.Analysis.SpecialFunctions.Pow.Real
import Verif.Model.Alm

/-!
# Model: spin / E-B conversion, Mueller matrices in the spin basis, beam times HWP

Complex arrays are lists over `ℂ` (exact arithmetic instead of floating point).
-/

noncomputable section

namespace Verif.Spin

open Verif.Alm Complex

/-- Elementwise numpy operation on two one-dimensional arrays: equal sizes, or one of size one
(broadcasting); otherwise ValueError. -/
def npZip {α β γ : Type} (f : α → β → γ) (a : List α) (b : List β) : PyM (List γ) :=
  if a.length = b.length then .ok (List.zipWith f a b)
  else match a, b with
    | [x], _ => .ok (b.map (f x))
    | _, [y] => .ok (a.map fun x => f x y)
    | _, _ => .error .valueError

/-- `int(spin)` (truncation) compared with `spin`, and `(-1.) ** spin` for integers
(tools.py:434-440). -/
def spin2eb (almm2 almp2 : List ℂ) (spin : Rat) : PyM (List ℂ × List ℂ) :=
  if ((pyInt spin : Int) : Rat) ≠ spin then .error .valueError
  else do
    let sgn : ℂ := (-1) ^ (pyInt spin)
    let almE ← npZip (fun p m => p + m * sgn) almp2 almm2
    let almE := almE.map fun x => x / (-2)
    let almB ← npZip (fun p m => p - m * sgn) almp2 almm2
    let almB := almB.map fun x => x * (I / 2)
    return (almE, almB)

/-- `eb2spin` (tools.py:445-470). -/
def eb2spin (almE almB : List ℂ) : PyM (List ℂ × List ℂ) := do
  let almm2 ← npZip (fun e b => -1 * (e - I * b)) almE almB
  let almp2 ← npZip (fun e b => -1 * (e + I * b)) almE almB
  return (almm2, almp2)

/-- `x[:lmax+1] = np.real(x[:lmax+1])` (tools.py:247-249). -/
def realRow (lmax : Int) (x : List ℂ) : PyM (List ℂ) :=
  pyAssign x 0 (lmax + 1) ((pySlice x 0 (lmax + 1)).map fun z => ((z.re : ℝ) : ℂ))

/-- `shift_blm` with `eb=True` (tools.py:190-251).  The size and shift checks come before the
conversion, with the same outcome as in `shiftBlm`. -/
def shiftBlmEb (blmE blmB : List ℂ) (shift : Int) : PyM (List ℂ × List ℂ) :=
  if blmE.length ≠ blmB.length then .error .valueError
  else
    let lmax := getlmax blmE.length none
    if shift > lmax then .error .valueError
    else do
      let (m2, p2) ← eb2spin blmE blmB
      let (m2, p2) ← shiftBlm m2 p2 shift
      let (e, b) ← spin2eb m2 p2 2
      let e ← realRow lmax e
      let b ← realRow lmax b
      return (e, b)

/-- 4x4 complex matrices. -/
abbrev Mat4 := Matrix (Fin 4) (Fin 4) ℂ

/-- `tmat` of `mueller2spin` (tools.py:944-948). -/
def tmat : Mat4 :=
  !![1, 0, 0, 0;
     0, 1 / (Real.sqrt 2 : ℂ), I / (Real.sqrt 2 : ℂ), 0;
     0, 1 / (Real.sqrt 2 : ℂ), -I / (Real.sqrt 2 : ℂ), 0;
     0, 0, 0, 1]

/-- `mueller2spin` (tools.py:931-952); `np.linalg.inv` is the matrix inverse. -/
def mueller2spin (m : Mat4) : Mat4 := tmat * m * tmat⁻¹

/-- The matrix called `A` in `iquv2ippv` and `Ainv` in `ippv2iquv` (tools.py:781-784,
803-806). -/
def ippvA : Mat4 :=
  !![1, 0, 0, 0;
     0, 1, I, 0;
     0, 1, -I, 0;
     0, 0, 0, 1]

/-- The matrix called `Ainv` in `iquv2ippv` and `A` in `ippv2iquv` (tools.py:786-789,
808-811). -/
def ippvAinv : Mat4 :=
  !![1, 0, 0, 0;
     0, 1 / 2, 1 / 2, 0;
     0, -(I / 2), I / 2, 0;
     0, 0, 0, 1]

/-- `iquv2ippv` (tools.py:772-792): `matmul(Ainv, matmul(mueller_mat, A))`. -/
def iquv2ippv (m : Mat4) : Mat4 := ippvAinv * (m * ippvA)

/-- `ippv2iquv` (tools.py:794-814). -/
def ippv2iquv (m : Mat4) : Mat4 := ippvA * (m * ippvAinv)

/-- Return value of `blmxhwp`: an array or a pair of arrays. -/
inductive HwpBeam
  | one (a : List ℂ)
  | two (blmm2 blmp2 : List ℂ)

/-- `a *= c`. -/
def scale (c : ℂ) (a : List ℂ) : List ℂ := a.map fun x => x * c

/-- `a += b` for arrays: unlike `npZip` the left array cannot grow. -/
def npIadd (a b : List ℂ) : PyM (List ℂ) :=
  if a.length = b.length then .ok (List.zipWith (· + ·) a b)
  else match b with
    | [y] => .ok (a.map (· + y))
    | _ => .error .valueError

/-- `ScanStrategy.blmxhwp` (instrument.py:4092-4182). `blm` is the list of beam coefficient
arrays (I, -2, +2[, V]); indexing it may raise IndexError. -/
def blmxhwp (blm : List (List ℂ)) (w : Mat4) (mode : String) (beamV : Bool) : PyM HwpBeam :=
  let s2 : ℂ := (Real.sqrt 2 : ℂ)
  if mode = "s0a0" then do
    let b0 ← pyGet blm 0
    let r := scale (w 0 0) b0
    if beamV then
      let b3 ← pyGet blm 3
      let r ← npIadd r (scale (w 3 0) b3)
      return .one r
    else return .one r
  else if mode = "s0a0_v" then do
    let b0 ← pyGet blm 0
    let r := scale (w 0 3) b0
    if beamV then
      let b3 ← pyGet blm 3
      let r ← npIadd r (scale (w 3 3) b3)
      return .one r
    else return .one r
  else if mode = "s2a4" then do
    let b1 ← pyGet blm 1
    let b2 ← pyGet blm 2
    -- `blmp2, blmm2 = shift_blm(...)`: the names are switched
    let (p2, m2) ← shiftBlm b1 b2 4
    return .two (scale (w 1 2) m2) (scale (w 2 1) p2)
  else if mode = "s0a2" then do
    let b1 ← pyGet blm 1
    let b2 ← pyGet blm 2
    let (m2, p2) ← shiftBlm b1 b2 2
    return .two (scale (w 0 2 * s2) m2) (scale (w 2 0 * s2) p2)
  else if mode = "s0a2_v" then do
    let b1 ← pyGet blm 1
    let b2 ← pyGet blm 2
    let (m2, p2) ← shiftBlm b1 b2 2
    return .two (scale (w 3 2 * s2) m2) (scale (w 2 3 * s2) p2)
  else if mode = "s2a2" then do
    let b0 ← pyGet blm 0
    let (p2, m2) ← shiftBlm b0 b0 2
    let m2 := scale (w 0 2 * s2) m2
    let p2 := scale (w 0 1 * s2) p2
    if beamV then
      let b3 ← pyGet blm 3
      let (p2v, m2v) ← shiftBlm b3 b3 2
      let m2 ← npIadd m2 (scale (w 3 2 * s2) m2v)
      let p2 ← npIadd p2 (scale (w 3 1 * s2) p2v)
      return .two m2 p2
    else return .two m2 p2
  else if mode = "s2a0" then do
    let b1 ← pyGet blm 1
    let b2 ← pyGet blm 2
    return .two (scale (w 2 2) b1) (scale (w 1 1) b2)
  else .error .valueError

end Verif.Spin
