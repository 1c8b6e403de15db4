import Mathlib.Analysis.SpecialFunctions.Trigonometric.Inverse
import Verif.Model.Hwp

/-!
# Model: the simple satellite scan (instrument.py:2550-2675)

Without MPI; jitter (`jitter_amp`, 0 by default) only in `scanJitter`, normal deviates coming from an
arbitrary sequence; see `Verif.Model.Mpi` for the parallel
computation of the same array.  Real numbers.  `np.arcsin` of a number outside [-1, 1] is `nan`, where
`Real.arcsin` is ±π/2: this happens only if a latitude larger than `alpha` was given to the
constructor.
-/

noncomputable section

namespace Verif.Satellite

open Real

/-- `self.lon` and `self.lat`: None for `location='space'` until the first chunk. -/
structure State where
  lon : Option ℝ
  lat : Option ℝ

/-- Keyword arguments of `satellite_scan` (instrument.py:2550-2552) and `fsamp`. -/
structure Opts where
  alpha : ℝ
  beta : ℝ
  alphaPeriod : ℝ
  betaPeriod : ℝ
  fsamp : ℝ

/-- `if self.lon: lon_0 = self.lon else: lon_0 = 0.` (instrument.py:2604-2614): None and 0 are
false. -/
def startAt : Option ℝ → ℝ
  | none => 0
  | some x => if x ≠ 0 then x else 0

/-- `np.linspace(a, b, n)`. -/
def linspaceClosed (a b : ℝ) (n : Nat) : List ℝ :=
  (List.range n).map fun (i : Nat) =>
    if n = 1 then a else a + (i : ℝ) * ((b - a) / ((n : ℝ) - 1))

/-- `az` (instrument.py:2593). -/
def az (o : Opts) (n : Nat) : List ℝ :=
  (List.range n).map fun (i : Nat) => Hwp.npMod ((i : ℝ) * (1 / o.fsamp) * 360 / o.betaPeriod) 360

/-- `lon` (instrument.py:2588-2591, 2617-2618). -/
def lon (o : Opts) (s : State) (n : Nat) : List ℝ :=
  let ndays := (n : ℝ) / o.fsamp / (24 * 3600)
  (linspaceClosed (startAt s.lon) (ndays * 360.9863 + startAt s.lon) n).map fun x =>
    Hwp.npMod (-x) 360

/-- `lat` (instrument.py:2620-2625). -/
def lat (o : Opts) (s : State) (n : Nat) : List ℝ :=
  let tStart := arcsin (startAt s.lat / o.alpha)
  (Hwp.linspace tStart (2 * π * (1 / o.fsamp) * (n : ℝ) / o.alphaPeriod + tStart) n).map fun x =>
    sin x * o.alpha

/-- `satellite_scan` for a chunk of `n` samples: azimuth, elevation, longitude and latitude, which go
through qpoint's `azel2bore` sample by sample, and the new state; `lon[-1]` of an empty chunk is an
IndexError. -/
def scan (o : Opts) (s : State) (n : Nat) :
    PyM ((List ℝ × List ℝ × List ℝ × List ℝ) × State) := do
  let lo ← pyGet (lon o s n) (-1)
  let la ← pyGet (lat o s n) (-1)
  return ((az o n, List.replicate n o.beta, lon o s n, lat o s n), ⟨some lo, some la⟩)

/-- A pass over chunks of given lengths (instrument.py:1892-1915): what each chunk gets, and the state
afterwards.  `scan_instrument_mpi` does not reset `self.lon` and `self.lat` between passes. -/
def pass (o : Opts) : List Nat → State →
    PyM (List (List ℝ × List ℝ × List ℝ × List ℝ) × State)
  | [], s => .ok ([], s)
  | n :: rest, s => do
    let (p, s) ← scan o s n
    let (ps, s) ← pass o rest s
    return (p :: ps, s)

/-- `el` (instrument.py:2595-2599): with jitter, `n` normal deviates are drawn, the first of them
being number `drawn` of the sequence. -/
def elJitter (o : Opts) (amp : ℝ) (rng : Nat → ℝ) (drawn n : Nat) : List ℝ :=
  if amp ≠ 0 then (List.range n).map fun i => o.beta + amp * rng (drawn + i)
  else List.replicate n o.beta

/-- `satellite_scan(jitter_amp=amp)` for a chunk of `n` samples: as `scan`, and the number of normal
deviates drawn so far. -/
def scanJitter (o : Opts) (amp : ℝ) (rng : Nat → ℝ) (s : State) (drawn n : Nat) :
    PyM ((List ℝ × List ℝ × List ℝ × List ℝ) × State × Nat) := do
  let lo ← pyGet (lon o s n) (-1)
  let la ← pyGet (lat o s n) (-1)
  return ((az o n, elJitter o amp rng drawn n, lon o s n, lat o s n), ⟨some lo, some la⟩,
    if amp ≠ 0 then drawn + n else drawn)

end Verif.Satellite
