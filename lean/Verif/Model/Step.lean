import Verif.Model.Gen

/-!
# Model: stepping of arrays (elevation steps, stepped HWP)
-/

namespace Verif.Step

/-- `arr[i:j] += v` (numpy in-place addition of a scalar to a slice). -/
def addSlice {K : Type} [Add K] (arr : List K) (i j : Int) (v : K) : List K :=
  let s := pyClip arr.length i
  let e := pyClip arr.length j
  arr.take s ++ ((arr.take e).drop s).map (· + v) ++ arr.drop (max s e)

/-- The keys of `step_dict` / `hwp_dict` that `step_array` uses. -/
structure StepDict (K : Type) where
  stepSize : Int
  remainder : Int
  angle : K
  deriving DecidableEq, Repr

/-- The loop over full steps (instrument.py:2111-2117).  Returns the array, the value of
`startidx` (equal to `endidx`) after the loop, the last angle and the generator. -/
def stepLoop {K : Type} [Add K] (stepSize : Int) :
    Nat → Int → K → List K → Gen K → PyM (List K × Int × K × Gen K)
  | 0, startidx, angle, arr, gen => .ok (arr, startidx, angle, gen)
  | k + 1, startidx, _, arr, gen => do
    let endidx := startidx + stepSize
    let (angle, gen) ← gen.next
    stepLoop stepSize k endidx angle (addSlice arr startidx endidx angle) gen

/-- `ScanStrategy.step_array` (instrument.py:2060-2126): returns the stepped array, the updated
dictionary and the advanced generator.  Division by `float(step_size)` raises for zero. -/
def stepArray {K : Type} [Add K] (arr : List K) (d : StepDict K) (gen : Gen K) :
    PyM (List K × StepDict K × Gen K) :=
  let chunkSize : Int := arr.length
  if d.stepSize = 0 then .error .zeroDivisionError
  else
    let nsteps := ceilDiv (chunkSize - d.remainder) d.stepSize
    let nsteps := if nsteps < 1 then 1 else nsteps
    if nsteps = 1 then
      if d.remainder ≥ chunkSize then
        .ok (addSlice arr 0 chunkSize d.angle, { d with remainder := d.remainder - chunkSize }, gen)
      else do
        let arr := addSlice arr 0 d.remainder d.angle
        let (angle, gen) ← gen.next
        let arr := addSlice arr d.remainder chunkSize angle
        let rem := d.stepSize - (pySlice arr d.remainder chunkSize).length
        return (arr, ⟨d.stepSize, rem, angle⟩, gen)
    else do
      let arr := if d.remainder ≠ 0 then addSlice arr 0 d.remainder d.angle else arr
      let (arr, endidx, _, gen) ←
        stepLoop d.stepSize (nsteps - 1).toNat d.remainder d.angle arr gen
      let (angle, gen) ← gen.next
      let arr := addSlice arr endidx chunkSize angle
      let rem := d.stepSize - (pySlice arr endidx chunkSize).length
      return (arr, ⟨d.stepSize, rem, angle⟩, gen)

/-- Elevation stepping state: `step_dict` with the list of steps, and `el_step_gen`. -/
structure ElSteps (K : Type) where
  steps : List K
  dict : StepDict K
  gen : Gen K
  deriving DecidableEq, Repr

/-- `set_el_steps(period, steps)` (instrument.py:1441-1471) with an explicit list;
`stepSize = int(fsamp * period)`.  `steps[0]` raises on an empty list. -/
def setElSteps {K : Type} (stepSize : Int) (steps : List K) : PyM (ElSteps K) := do
  let a ← pyGet steps 0
  return { steps := steps, dict := { stepSize := stepSize, remainder := 0, angle := a },
           gen := angleGen steps }

/-- `reset_el_steps` (instrument.py:1473-1484).  Note that the code stores the first step under
the key `'step'`, not `'angle'`, so `angle` keeps its old value. -/
def ElSteps.reset {K : Type} (s : ElSteps K) : PyM (ElSteps K) := do
  let _ ← pyGet s.steps 0
  return { s with gen := angleGen s.steps, dict := { s.dict with remainder := 0 } }

/-- Stepping of the elevation arrays of successive chunks (instrument.py:2340-2342, called for
each chunk from line 1910). -/
def ElSteps.run {K : Type} [Add K] (s : ElSteps K) : List (List K) → PyM (List (List K) × ElSteps K)
  | [] => .ok ([], s)
  | arr :: rest => do
    let (arr', d, g) ← stepArray arr s.dict s.gen
    let (out, s') ← ElSteps.run { s with dict := d, gen := g } rest
    return (arr' :: out, s')

end Verif.Step
