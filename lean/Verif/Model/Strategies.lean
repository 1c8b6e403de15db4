import Verif.Model.ScanInstrument
import Verif.Model.Satellite
import Verif.Model.Schedule
import Verif.Model.Angles

/-!
# Model: the branches of `implement_scan` and the strategies that use them

`implement_scan` (instrument.py:2129-2415) on one rank.  `ctime_func` and `q_bore_func` are arguments of
the user: functions of their own or methods of the strategy (`satellite_scan`, `schedule_scan`,
`l2_scan`, `strictly_az`), which may read and set attributes.
-/

noncomputable section

namespace Verif.Strategies

open Verif.Chunks Verif.ScanInstrument

/-- Attributes: those of `Scan.State`, and those that only `q_bore_func` uses. -/
structure Att (A : Type) where
  st : Scan.State ℝ Quat.Q
  own : A

/-- `ctime_func(start=, end=, cidx=)`; without `cidx` the argument is `none`. -/
abbrev CtimeFunc := Int → Int → Option Int → PyM (List ℝ)

/-- `q_bore_func(start=, end=, cidx=, ground=)`; arguments that are not given are `none`. -/
abbrev BoreFunc (A : Type) := Int → Int → Option Int → Option Bool → Att A → PyM (List Quat.Q × Att A)

/-- Arguments of `implement_scan`, and `ext_point`. -/
structure Strategy (A : Type) where
  extPoint : Bool
  useL2 : Bool
  useStrictlyAz : Bool
  ctimeFunc : CtimeFunc
  boreFunc : BoreFunc A
  site : Scan.Site ℝ Quat.Q
  so : Scan.Opts ℝ

variable {A : Type}

/-- `self.ctime = ...`. -/
def setCtime (t : List ℝ) (e : Att A) : Att A := { e with st := { e.st with ctime := t } }

/-- `self.q_bore = ...`. -/
def setBore (q : List Quat.Q) (e : Att A) : Att A := { e with st := { e.st with qBore := q } }

/-- Both functions of the user (instrument.py:2218-2231): `ground` is not passed on, and `cidx` not for
L2. -/
def external (s : Strategy A) (start stop : Int) (cidx : Option Int) (e : Att A) : PyM (Att A) := do
  let t ← s.ctimeFunc start stop cidx
  let (q, e) ← s.boreFunc start stop cidx none (setCtime t e)
  return setBore q e

/-- The branch `use_strictly_az` (instrument.py:2233-2241). -/
def strictly (s : Strategy A) (start stop : Int) (ground : Bool) (e : Att A) : PyM (Att A) := do
  let t ← Data.ctimes s.so.fsamp s.so.ctime0 start stop
  let (q, e) ← s.boreFunc start stop none (some ground) (setCtime t e)
  return setBore q e

/-- The generic scan (instrument.py:2243-2415). -/
def generic (s : Strategy A) (start stop : Int) (ground pre : Bool) (e : Att A) : PyM (Att A) := do
  let st ← Scan.implementScan s.site { s.so with ground := ground } pre start stop e.st
  return { e with st := st }

/-- `implement_scan` (instrument.py:2129-2415). -/
def implementScan (s : Strategy A) (e : Att A) (c : Chunk) (ground pre : Bool) : PyM (Att A) :=
  if s.extPoint && !s.useL2 then external s c.start c.stop c.cidx e
  else if s.useL2 then external s c.start c.stop none e
  else if s.useStrictlyAz then strictly s c.start c.stop ground e
  else generic s c.start c.stop ground pre e

/-- `implement_scan` as the loop over chunks uses it. -/
def implement (s : Strategy A) (e : Att A) (c : Chunk) (ground pre : Bool) :
    PyM (Pointing × Att A) := do
  let e ← implementScan s e c ground pre
  return (⟨e.st.ctime, e.st.qBore, e.st.qGround, e.st.flag⟩, e)

/-- `reset_el_steps` (instrument.py:1473-1484). -/
def reset (e : Att A) : PyM (Att A) := do
  let st ← genericReset e.st
  return { e with st := st }

/-! ### functions of the strategies -/

/-- `l2_ctime` and `satellite_ctime` (instrument.py:2416-2439, 2526-2548). -/
def plainCtime (fsamp ctime0 : ℝ) : CtimeFunc := fun start stop _ => Data.ctimes fsamp ctime0 start stop

/-- `strictly_az` (instrument.py:2677-2782) without MPI. -/
def strictlyAz (site : Scan.Site ℝ Quat.Q) (fsamp el0 az0 scanSpeed : ℝ) : BoreFunc A :=
  fun start stop _ ground e =>
    let speed := if scanSpeed = 0 then 1 / 10 ^ 12 else scanSpeed
    let n := (stop - start).toNat
    let az := (List.range n).map fun (i : Nat) => (i : ℝ) * speed / fsamp + az0
    let el := (List.range n).map fun (_ : Nat) => 0 + el0
    .ok (Scan.bore site az el e.st.ctime,
      { e with st := { e.st with
          qGround := if ground.getD false then some (List.zipWith site.ground az el) else e.st.qGround
          flag := some (az.map fun _ => false) } })

/-- The rational times of a chunk (`schedule_ctime`, instrument.py:2923-2949). -/
def scheduleTimes (fsamp : ℚ) (entries : List Schedule.Entry) (start stop : Int) :
    Option Int → PyM (List ℚ)
  | none => .error .typeError
  | some c => Data.scheduleCtime fsamp (some (entries.map (·.ctimeStart))) c start stop

/-- `schedule_ctime` (instrument.py:2923-2949). -/
def scheduleCtime (fsamp : ℚ) (entries : List Schedule.Entry) : CtimeFunc := fun start stop cidx => do
  let t ← scheduleTimes fsamp entries start stop cidx
  return t.map fun (x : ℚ) => (x : ℝ)

/-- `schedule_scan` (instrument.py:2951-3093) without MPI and ground, after `schedule_ctime`: `self.ctime`
is what that function has returned.  Numbers of the schedule are rational (see `Verif.Model.Schedule`). -/
def scheduleScan (azel2bore : ℝ → ℝ → ℝ → Quat.Q) (fsamp speed : ℚ) (entries : List Schedule.Entry) :
    BoreFunc A := fun start stop cidx _ e => do
  let t ← scheduleTimes fsamp entries start stop cidx
  let q ← Schedule.scheduleScan (fun a el t => azel2bore a el t) fsamp speed entries (cidx.getD 0) t
  return (q, { e with st := { e.st with flag := some (t.map fun _ => false) } })

/-- `satellite_scan` (instrument.py:2550-2675) without MPI and jitter; `azel2bore` is qpoint's function of
azimuth, elevation, longitude, latitude and time. -/
def satelliteScan (azel2bore : ℝ → ℝ → ℝ → ℝ → ℝ → Quat.Q) (o : Satellite.Opts) :
    BoreFunc Satellite.State := fun _ _ _ _ e => do
  let ((az, el, lon, lat), own) ← Satellite.scan o e.own e.st.ctime.length
  return (List.zipWith (fun (a, b, c, d) t => azel2bore a b c d t)
      (az.zip (el.zip (lon.zip lat))) e.st.ctime,
    { st := { e.st with flag := some (az.map fun _ => false) }, own := own })

/-- `satellite_scan(jitter_amp=amp)` (instrument.py:2550-2675) without MPI.  Normal deviate number `j` is
`rng n drawn j` in a chunk of `n` samples that begins when `drawn` of them have been used: a generator
gives `fun _ _ j => seq j`. -/
def satelliteJitter (azel2bore : ℝ → ℝ → ℝ → ℝ → ℝ → Quat.Q) (o : Satellite.Opts) (amp : ℝ)
    (rng : Nat → Nat → Nat → ℝ) : BoreFunc (Satellite.State × Nat) := fun _ _ _ _ e => do
  let ((az, el, lon, lat), own) ←
    Satellite.scanJitter o amp (rng e.st.ctime.length e.own.2) e.own.1 e.own.2 e.st.ctime.length
  return (List.zipWith (fun (a, b, c, d) t => azel2bore a b c d t)
      (az.zip (el.zip (lon.zip lat))) e.st.ctime,
    { st := { e.st with flag := some (az.map fun _ => false) }, own := own })

/-- `l2_scan` (instrument.py:2441-2524) without MPI; `radecpa2quat` is qpoint's. -/
def l2Scan (radecpa2quat : ℝ → ℝ → ℝ → Quat.Q) (a b fa fb sr jit : ℝ) : BoreFunc A :=
  fun _ _ _ _ e => do
    let l ← Angles.l2Scan a b fa fb sr jit e.st.ctime
    return (l.map fun (ra, dec, psi) => radecpa2quat ra dec psi,
      { e with st := { e.st with flag := some (l.map fun _ => false) } })

end Verif.Strategies
