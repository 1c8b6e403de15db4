import Verif.Model.Step
import Mathlib.Algebra.Order.Floor.Ring
import Mathlib.Algebra.Order.Field.Basic

/-!
# Model: half-wave plate modulation

Angles live in an arbitrary ordered field `K` with a floor function (the reals, or the rationals
for running examples); `π` is a parameter, of which the code only uses that it is positive.
-/

namespace Verif.Hwp

open Verif.Step

variable {K : Type} [Field K] [LinearOrder K] [IsStrictOrderedRing K] [FloorRing K]

/-- `np.mod(x, m)` for floats (result has the sign of `m`). -/
def npMod (x m : K) : K := x - m * ⌊x / m⌋

/-- `np.radians`. -/
def radians (π x : K) : K := x * (π / 180)

/-- `np.degrees`. -/
def degrees (π x : K) : K := x * (180 / π)

/-- Values of `hwp_dict['mode']`; `none` stands for None / False, `other` for any other string. -/
inductive Mode | none | continuous | stepped | other
  deriving DecidableEq, Repr

/-- `hwp_dict` and `hwp_angle_gen` (instrument.py:1413-1429). `freq = 0` also stands for None.
`dict.stepSize` is only set in stepped mode. -/
structure State (K : Type) where
  mode : Mode
  freq : K
  dict : StepDict K
  startAng : K
  varphi : K
  angles : List K
  gen : Gen K
  deriving DecidableEq, Repr

/-- `self.hwp_ang`: a number when the plate does not move, an array otherwise. -/
inductive Ang (K : Type)
  | scalar (x : K)
  | array (xs : List K)
  deriving DecidableEq, Repr

/-- `int(x)`: truncation towards zero. -/
def truncInt (x : K) : Int := if 0 ≤ x then ⌊x⌋ else ⌈x⌉

/-- `np.arange(start, stop, step)`: `ceil((stop - start)/step)` values. -/
def arange (start stop step : K) : List K :=
  (List.range (⌈(stop - start) / step⌉).toNat).map fun (i : Nat) => start + (i : K) * step

/-- The angle list used by `set_hwp_mod` (instrument.py:1422-1424). -/
def anglesOrDefault (startAng : K) : Option (List K) → List K
  | some a => a
  | none => (arange startAng (360 + startAng) (45 / 2)).map fun x => npMod x 360

/-- `set_hwp_mod` (instrument.py:1386-1429).  In stepped mode `fsamp / float(freq)` raises for
a zero frequency; (`freq=None` in stepped mode, a TypeError in Python, is the same error here). -/
def setHwpMod (fsamp : K) (mode : Mode) (freq startAng : K) (angles : Option (List K))
    (varphi : K) : PyM (State K) :=
  let angles := anglesOrDefault startAng angles
  if mode = .stepped ∧ freq = 0 then .error .zeroDivisionError
  else .ok
    { mode := mode, freq := freq,
      dict := { stepSize := if mode = .stepped then truncInt (fsamp / freq) else 0,
                remainder := 0, angle := startAng },
      startAng := startAng, varphi := varphi, angles := angles, gen := angleGen angles }

/-- `reset_hwp_mod` (instrument.py:1431-1439). -/
def State.reset (h : State K) : State K :=
  { h with gen := angleGen h.angles, dict := { h.dict with angle := h.startAng, remainder := 0 } }

/-- `np.linspace(start, stop, num=n, endpoint=False)`. -/
def linspace (start stop : K) (n : Nat) : List K :=
  (List.range n).map fun (i : Nat) => start + (i : K) * ((stop - start) / n)

/-- `rotate_hwp(hwpang=..., start=..., end=...)` (instrument.py:3095-3153): the new `self.hwp_ang`
(`none` if it is left untouched) and the new state. -/
def rotateHwp (π fsamp : K) (h : State K) (hwpang : Option K) (start stop : Int) :
    PyM (Option (Ang K) × State K) :=
  let chunkSize := stop - start
  if h.freq = 0 ∨ h.mode = .none then
    match hwpang with
    | some a =>
      if a ≠ 0 then .ok (some (.scalar (radians π a)), h)
      else .ok (some (.scalar (radians π h.dict.angle)), h)
    | none => .ok (some (.scalar (radians π h.dict.angle)), h)
  else
    let startAng := radians π h.dict.angle
    match h.mode with
    | .continuous =>
      if fsamp = 0 then .error .zeroDivisionError
      else if chunkSize < 0 then .error .valueError
      else do
        let ang := linspace startAng (startAng + 2 * π * (chunkSize : K) / (fsamp / h.freq))
          chunkSize.toNat
        let last ← pyGet ang (-1)
        return (some (.array ang),
          { h with dict := { h.dict with angle := degrees π (npMod last (2 * π)) } })
    | .stepped =>
      if chunkSize < 0 then .error .valueError
      else do
        let (ang, d, g) ← stepArray (List.replicate chunkSize.toNat (0 : K)) h.dict h.gen
        let ang := ang.map (radians π)
        let last ← pyGet ang (-1)
        return (some (.array ang),
          { h with dict := { d with angle := degrees π (npMod last (2 * π)) }, gen := g })
    | _ => .ok (none, h)

/-- `rotate_hwp` for a sequence of chunks (called for each subchunk at
instrument.py:1942). -/
def run (π fsamp : K) (h : State K) : List (Int × Int) → PyM (List (Option (Ang K)) × State K)
  | [] => .ok ([], h)
  | c :: rest => do
    let (a, h) ← rotateHwp π fsamp h none c.1 c.2
    let (out, h) ← run π fsamp h rest
    return (a :: out, h)

end Verif.Hwp
