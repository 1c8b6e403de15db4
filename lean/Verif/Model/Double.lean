import Verif.Model.Chunks
import Verif.Model.Init
import Verif.Spec.Double
import Mathlib.Data.Int.Log
import Mathlib.Algebra.Order.Floor.Ring
import Mathlib.Data.Rat.Floor

/-!
# Model: numbers in double precision

The other models calculate with exact numbers.  Here those parts of the code that turn floats into
integers, times and sums are modelled once more with the rounding of IEEE 754: every operation gives the
exact result rounded to the nearest double, and of two nearest ones that with an even mantissa.
Exponents are not bounded (no overflow, no underflow).
-/

namespace Verif.Double

/-- The integer nearest to `x`, and of two of them the even one. -/
def nearEven (x : ℚ) : ℤ :=
  let f := ⌊x⌋
  if x - f < 1 / 2 then f
  else if 1 / 2 < x - f then f + 1
  else if f % 2 = 0 then f else f + 1

/-- The exponent of the last bit of the double nearest to `x`. -/
def lastBit (x : ℚ) : ℤ := Int.log 2 |x| - 52

/-- Rounding to double precision. -/
def fl (x : ℚ) : ℚ := nearEven (x / 2 ^ lastBit x) * 2 ^ lastBit x

/-- `int(np.ceil(a / float(b)))` for integers (instrument.py:1529, 1578-1580, 1844, 2086, 2262, 2872). -/
def ceilDivF (a b : ℤ) : ℤ := ⌈fl (fl a / fl b)⌉

/-- `partition_mission` (instrument.py:1504-1543); the loop calculates with integers. -/
def partitionMissionF (nsamp : Int) (chunksize : Option Rat) : PyM (List Chunks.Chunk) :=
  let cs := Chunks.effChunksize nsamp chunksize
  if cs = 0 then .error .zeroDivisionError
  else .ok (Chunks.partitionLoop nsamp cs (ceilDivF nsamp cs).toNat 0 0)

/-- `int(a * b)` for floats: `int(duration * sample_rate)` (instrument.py:1264), `int(period * fsamp)`
(1353, 1468), `int(check_interval * fsamp)` (2260), and `int(ndet * killfrac)` (971, 974), where `ndet`
is an integer. -/
def intMul (a b : ℚ) : ℤ := pyInt (fl (a * b))

/-- `int(fsamp / float(freq))` (instrument.py:1416). -/
def intDiv (a b : ℚ) : ℤ := pyInt (fl (a / b))

/-- The branches of `ScanStrategy.__init__` once the rate was checked (instrument.py:1247-1273); the
arguments are doubles. -/
def resolveParamsF (duration sampleRate : Option Rat) (numSamples : Option Int) : PyM Init.Params :=
  match duration with
  | none =>
    match numSamples with
    | none => .error .valueError
    | some n =>
      match sampleRate with
      | none => .error .valueError
      | some r => if r = 0 then .error .zeroDivisionError
        else .ok (Init.mkParams r (fl (fl n / r)) n)
  | some d =>
    match sampleRate with
    | none =>
      match numSamples with
      | none => .error .valueError
      | some n => if d = 0 then .error .zeroDivisionError
        else .ok (Init.mkParams (fl (fl n / d)) d n)
    | some r =>
      match numSamples with
      | some n => if intMul d r ≠ n then .error .valueError else .ok (Init.mkParams r d (intMul d r))
      | none => .ok (Init.mkParams r d (intMul d r))

/-- `ScanStrategy.__init__`, resolution of `duration`, `sample_rate`, `num_samples`
(instrument.py:1241-1273). -/
def initParamsF (duration sampleRate : Option Rat) (numSamples : Option Int) : PyM Init.Params :=
  match sampleRate with
  | some r =>
    if r ≤ 0 then .error .valueError
    else resolveParamsF duration (if duration = some 0 then some 0 else some r) numSamples
  | none => resolveParamsF duration (if duration = some 0 then some 0 else none) numSamples

/-- Time of sample `i`: `arange(start, end, dtype=float)`, `/= float(fsamp)`, `+= ctime0`
(instrument.py:2235-2237, 2243-2245, 2435-2437, 2544-2546). -/
def timeF (fsamp ctime0 : ℚ) (i : ℤ) : ℚ := fl (fl (fl i / fsamp) + ctime0)

/-- `ctime` of a chunk (same lines); `fsamp ≠ 0`, as in `Data.ctimes`. -/
def ctimesF (fsamp ctime0 : ℚ) (start stop : Int) : PyM (List ℚ) :=
  if fsamp = 0 then .error .zeroDivisionError
  else .ok ((intRange start (stop - start).toNat).map (timeF fsamp ctime0))

/-- The result of additions in the given order and grouping.  `qmap.from_tod` adds the samples of a pixel
one after the other, `bin_tod` (instrument.py:4413-4416) the maps of subchunks and detectors, and
`reduce_array` (180-209) those of the ranks, in an order that MPI chooses. -/
def Sum.eval : Sum → ℚ
  | .one x => x
  | .add a b => fl (a.eval + b.eval)

end Verif.Double
