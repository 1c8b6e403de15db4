import Verif.Model.Hwp
import Mathlib.Analysis.SpecialFunctions.Trigonometric.Inverse

/-!
# Model: signal helpers of tools.py and azimuth profiles
-/

namespace Verif.Signal

open Verif.Hwp

/-- `tools.cross_talk` (tools.py:747-770), statement by statement; arrays of equal size
(numpy raises otherwise, `zipWith` would truncate, so the size check is explicit).
Returns the new contents of `tod_a`, `tod_b`. -/
def crossTalk {K : Type} [CommRing K] (todA todB : List K) (ctalk : K) : PyM (List K × List K) :=
  if todA.length ≠ todB.length then .error .valueError
  else
    let todC := todA
    let todC := List.zipWith (· + ·) todC todB
    let todC := todC.map (· * ctalk)
    let todA := todA.map (· * (1 - ctalk))
    let todB := todB.map (· * (1 - ctalk))
    let todA := List.zipWith (· + ·) todA todC
    let todB := List.zipWith (· + ·) todB todC
    .ok (todA, todB)

/-- `tools.sawtooth_wave(num_samp, scan_speed, period)` (tools.py:721-745). -/
def sawtoothWave {K : Type} [Field K] [LinearOrder K] [FloorRing K]
    (numSamp : Nat) (scanSpeed period : K) : List K :=
  let totDegrees := scanSpeed * numSamp
  (linspace 0 totDegrees numSamp).map fun x => npMod x period

/-- The sawtooth azimuth profile of `implement_scan` (instrument.py:2321-2326). -/
def sawtoothProfile {K : Type} [Field K] [LinearOrder K] [FloorRing K]
    (fsamp scanSpeed azThrow : K) (pLen : Nat) : List K :=
  let degPerSamp := scanSpeed / fsamp
  (sawtoothWave pLen degPerSamp azThrow).map fun x => x - azThrow / 2

/-- The triangle azimuth profile of `implement_scan` (instrument.py:2311-2319). -/
noncomputable def triangleProfile (fsamp scanSpeed azThrow : ℝ) (pLen : Nat) : List ℝ :=
  let scanPeriod := 2 * azThrow / scanSpeed
  (List.range pLen).map fun (i : Nat) =>
    Real.arcsin (Real.sin ((i : ℝ) * (2 * Real.pi / scanPeriod / fsamp))) * (azThrow / Real.pi)

/-- numpy in-place `a[:k] -= v`; a `v` of size one is broadcast, any other size mismatch raises
ValueError. -/
def subHead {K : Type} [Sub K] (a v : List K) (k : Nat) : PyM (List K) :=
  let n := min k a.length
  if v.length = n then .ok (List.zipWith (· - ·) (a.take n) v ++ a.drop n)
  else match v with
    | [x] => .ok ((a.take n).map (· - x) ++ a.drop n)
    | _ => .error .valueError

/-- `tools.tukey_window(n)` (tools.py:816-841); `alpha = 0.5`, so `int(alpha * L / 2.)` is
`(n + 1) div 4`, and `int(n / 2.)` is `n div 2`. -/
noncomputable def tukeyWindow (n : Nat) : PyM (List ℝ) :=
  let alpha : ℝ := 1 / 2
  let L : ℝ := n + 1
  let k := (n + 1) / 4 + 1
  let window := List.replicate n (1 : ℝ)
  let x := (List.range k).map fun (i : Nat) => (i : ℝ)
  do
    let window ← subHead window
      (x.map fun x => 1 / 2 * Real.cos (2 * Real.pi * x / alpha / L) + 1 / 2) k
    -- `window[-h:] = np.flip(window[:h])`; for `h = 0` the slice `[-0:]` is the whole array
    let h : Int := (n / 2 : Nat)
    pyAssign window (-h) n (pySlice window 0 h).reverse

/-- `fd[i:j] *= 0.` -/
def zeroSlice (fd : List ℂ) (i j : Int) : PyM (List ℂ) :=
  pyAssign fd i j ((pySlice fd i j).map fun z => z * 0)

/-- `tools.filter_ft_hwp(fd, center_idx, filter_width)` (tools.py:843-875); `int(filter_width / 2.)` is
`filter_width / 2` rounded towards zero.  Returns the new contents of `fd`. -/
noncomputable def filterFtHwp (fd : List ℂ) (centerIdx : Int) (filterWidth : Int) :
    PyM (List ℂ) :=
  let h : Int := filterWidth.tdiv 2
  let left := centerIdx - h
  let right := centerIdx + h + 1
  let arr := pySlice fd left right
  do
    let w ← tukeyWindow arr.length
    let fd ← pyAssign fd left right (List.zipWith (fun z (x : ℝ) => z * (x : ℂ)) arr w)
    let fd ← zeroSlice fd 0 left
    zeroSlice fd right fd.length

end Verif.Signal
