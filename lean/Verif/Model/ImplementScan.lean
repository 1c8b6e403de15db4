import Verif.Model.Step
import Verif.Model.Data

/-!
# Model: boresight pointing of the generic scan (`implement_scan`, `strictly_az`) on one rank

The splitting over ranks of the last step is in `Verif.Model.Mpi` (`parallelEval`).
-/

namespace Verif.Scan

open Verif.Step Verif.Signal

variable {K Q : Type}

/-! ### numpy operations -/

/-- `a[::k]` for `k > 0`. -/
def stride (k : Nat) (a : List K) : List K :=
  (List.range ((a.length + k - 1) / k)).filterMap fun (j : Nat) => a[j * k]?

/-- `old[mask] = new[mask]`, arrays of equal length. -/
def maskAssign (mask : List Bool) (old new : List K) : List K :=
  List.zipWith (fun (p : Bool × K) n => if p.1 then n else p.2) (mask.zip old) new

/-- `a.reshape(rows, cols)`: ValueError unless the sizes agree. -/
def reshape (rows cols : Nat) (a : List K) : PyM (List (List K)) :=
  if a.length = rows * cols then
    .ok ((List.range rows).map fun (r : Nat) => (a.drop (r * cols)).take cols)
  else .error .valueError

/-- `m += col[:, np.newaxis]`: the column has one entry per row, or one entry in all. -/
def addColumn [Add K] (m : List (List K)) (col : List K) : PyM (List (List K)) :=
  if m.length = col.length then .ok (List.zipWith (fun row c => row.map (· + c)) m col)
  else match col with
    | [c] => .ok (m.map fun row => row.map (· + c))
    | _ => .error .valueError

/-! ### the instrument -/

/-- External functions (qpoint), elementwise over times: `radec2azel(ra, dec, 0, lon, lat, t)`
gives (az, el); `azel2bore(az, el, None, None, lon, lat, t)` gives the boresight quaternion;
`ground az el` is the quaternion of instrument.py:2399-2404; `triangle fsamp speed throw n` is the
profile of 2311-2319 (`Signal.triangleProfile` over the reals). -/
structure Site (K Q : Type) where
  radec2azel : K → K → K → K × K
  azel2bore : K → K → K → Q
  ground : K → K → Q
  triangle : K → K → K → Nat → List K

/-- Azimuth profiles (`az_prf`). -/
inductive AzPrf | triangle | sawtooth | other
  deriving DecidableEq, Repr

/-- Keyword arguments of `implement_scan` (instrument.py:2129-2133) used by the generic scan, and
`fsamp`, `ctime0` of the strategy.  `checkLen` is `int(check_interval * self.fsamp)` (2260). -/
structure Opts (K : Type) where
  fsamp : K
  ctime0 : K
  ra0 : List K
  dec0 : List K
  azThrow : K
  scanSpeed : K
  azPrf : AzPrf
  checkLen : Int
  elMin : K
  cutElMin : Bool
  ground : Bool

/-- Attributes that `implement_scan` sets or uses: `ctime`, `q_bore`, `q_boreground`, `mmap`,
`flag`, and `step_dict` with `el_step_gen` (`none`: no period set). -/
structure State (K Q : Type) where
  ctime : List K
  qBore : List Q
  qGround : Option (List Q)
  mmap : Option (List Q)
  flag : Option (List Bool)
  el : Option (ElSteps K)

/-- The arrays `az0`, `el0`, `flag0`: one entry per elevation check. -/
structure Checks (K : Type) where
  az : List K
  el : List K
  flag : List Bool

/-- `el0 < el_min`. -/
def below [LT K] [DecidableLT K] (elMin : K) (el : List K) : List Bool :=
  el.map fun x => decide (x < elMin)

/-- The `while` loop over patches (instrument.py:2274-2300), with fuel; `none`: out of fuel.
`times` is `ctime[::check_len]`.  No NaNs. -/
def elLoop [LT K] [DecidableLT K] (site : Site K Q) (o : Opts K) (times : List K) :
    Nat → Nat → Checks K → Option (PyM (Checks K))
  | 0, _, _ => none
  | fuel + 1, n, s =>
    if (below o.elMin s.el).any id then
      if n < o.dec0.length then
        -- `ra0[n]`: IndexError if `ra0` is shorter than `dec0`
        match pyGet o.ra0 n, pyGet o.dec0 n with
        | .ok ra, .ok dec =>
          let elidx := below o.elMin s.el
          elLoop site o times fuel (n + 1)
            { s with
              el := maskAssign elidx s.el (times.map fun t => (site.radec2azel ra dec t).2)
              az := maskAssign elidx s.az (times.map fun t => (site.radec2azel ra dec t).1) }
        | .error e, _ => some (.error e)
        | _, .error e => some (.error e)
      else
        let elidx := below o.elMin s.el
        elLoop site o times fuel (n + 1)
          { s with
            el := maskAssign elidx s.el (s.el.map fun _ => o.elMin)
            flag := if o.cutElMin then maskAssign elidx s.flag (s.flag.map fun _ => true)
              else s.flag }
    else some (.ok s)

/-- The elevation check (instrument.py:2265-2300).  The fuel is enough (`C49_terminates`). -/
def elCheck [LT K] [DecidableLT K] (site : Site K Q) (o : Opts K) (times : List K) (fuel : Nat) :
    Option (PyM (Checks K)) :=
  match pyGet o.ra0 0, pyGet o.dec0 0 with
  | .ok ra, .ok dec =>
    elLoop site o times fuel 1
      { az := times.map fun t => (site.radec2azel ra dec t).1
        el := times.map fun t => (site.radec2azel ra dec t).2
        flag := times.map fun _ => false }
  | .error e, _ => some (.error e)
  | _, .error e => some (.error e)

/-- `elCheck` with enough fuel, as a Python call. -/
def elCheckM [LT K] [DecidableLT K] (site : Site K Q) (o : Opts K) (times : List K) :
    PyM (Checks K) :=
  match elCheck site o times (o.dec0.length + 2) with
  | some r => r
  | none => .error .assertionError  -- never, see `C49_terminates`

/-- The azimuth profile before adding the centres (instrument.py:2302-2326).  An unknown profile
leaves `az` unbound: UnboundLocalError at line 2330. -/
def azProfile [Field K] [LinearOrder K] [FloorRing K] (site : Site K Q) (o : Opts K)
    (chunkSize pLen : Nat) : PyM (List K) :=
  let speed := if o.scanSpeed = 0 then 1 / 10 ^ 12 else o.scanSpeed
  if o.azThrow = 0 then .ok (List.replicate chunkSize 0)
  else match o.azPrf with
    | .triangle => .ok (site.triangle o.fsamp speed o.azThrow pLen)
    | .sawtooth => .ok (sawtoothProfile o.fsamp speed o.azThrow pLen)
    | .other => .error .nameError

/-- Adding the centres and cutting to size (instrument.py:2328-2338), for `az` and `el`. -/
def centre [Add K] (nchecks checkLen chunkSize : Nat) (profile col : List K) : PyM (List K) := do
  let m ← reshape nchecks checkLen profile
  let m ← addColumn m col
  return m.flatten.take chunkSize

/-- `if self.step_dict.get('period'): el = self.step_array(...)` (instrument.py:2340-2342). -/
def stepEl [Add K] (el : List K) : Option (ElSteps K) → PyM (List K × Option (ElSteps K))
  | none => .ok (el, none)
  | some s => do
    let (el, d, g) ← stepArray el s.dict s.gen
    return (el, some { s with dict := d, gen := g })

/-- Boresight quaternions for the samples (serial version, instrument.py:2397-2407). -/
def bore (site : Site K Q) (az el ctime : List K) : List Q :=
  (az.zip (el.zip ctime)).map fun x => site.azel2bore x.1 x.2.1 x.2.2

/-- Lines 2259-2338 of instrument.py: azimuth and elevation before stepping. -/
def azel [Field K] [LinearOrder K] [FloorRing K] (site : Site K Q) (o : Opts K)
    (ctime : List K) : PyM (List K × List K) :=
  if o.checkLen = 0 then .error .zeroDivisionError
  -- `reshape` with a negative size
  else if o.checkLen < 0 then .error .valueError
  else do
    let chunkSize := ctime.length
    let checkLen := o.checkLen.toNat
    let nchecks := (ceilDiv chunkSize o.checkLen).toNat
    let c ← elCheckM site o (stride checkLen ctime)
    let prf ← azProfile site o chunkSize (checkLen * nchecks)
    let az ← centre nchecks checkLen chunkSize prf c.az
    let el ← centre nchecks checkLen chunkSize (List.replicate (nchecks * checkLen) 0) c.el
    return (az, el)

/-- `self.mmap[start:end] = self.q_bore`, if there is a memory map (instrument.py:2409-2412). -/
def storeMmap (start stop : Int) (q : List Q) : Option (List Q) → PyM (Option (List Q))
  | none => .ok none
  | some m => do
    let m ← pyAssign m start stop q
    return some m

/-- The computing branch of `implement_scan` (instrument.py:2259-2412). -/
def compute [Field K] [LinearOrder K] [FloorRing K] (site : Site K Q) (o : Opts K)
    (ctime : List K) (start stop : Int) (st : State K Q) : PyM (State K Q) := do
  let (az, el) ← azel site o ctime
  let (el, steps) ← stepEl el st.el
  let q := bore site az el ctime
  let mmap ← storeMmap start stop q st.mmap
  return { st with
    ctime := ctime
    qBore := q
    qGround := if o.ground then some (List.zipWith site.ground az el) else st.qGround
    mmap := mmap
    el := steps }

/-- `implement_scan` (instrument.py:2129-2415) for the generic scan (no external pointing, no L2,
no `strictly_az`), on one rank.  `usePre` is `use_precomputed`. -/
def implementScan [Field K] [LinearOrder K] [FloorRing K] (site : Site K Q) (o : Opts K)
    (usePre : Bool) (start stop : Int) (st : State K Q) : PyM (State K Q) := do
  let ctime ← Data.ctimes o.fsamp o.ctime0 start stop
  match usePre, st.mmap with
  | true, some m => return { st with ctime := ctime, qBore := pySlice m start stop }
  | _, _ => compute site o ctime start stop st

/-- `strictly_az` (instrument.py:2677-2782) as called by `implement_scan` (2233-2241), on one
rank.  `if scan_speed == 0: scan_speed = 1e-12`. -/
def strictlyAz [Field K] [DecidableEq K] (site : Site K Q) (fsamp ctime0 : K)
    (el0 az0 scanSpeed : K) (ground : Bool) (start stop : Int) (st : State K Q) :
    PyM (State K Q) := do
  let ctime ← Data.ctimes fsamp ctime0 start stop
  let speed := if scanSpeed = 0 then 1 / 10 ^ 12 else scanSpeed
  let n := (stop - start).toNat
  let az := (List.range n).map fun (i : Nat) => (i : K) * speed / fsamp + az0
  let el := (List.range n).map fun (_ : Nat) => 0 + el0
  return { st with
    ctime := ctime
    qBore := bore site az el ctime
    qGround := if ground then some (List.zipWith site.ground az el) else st.qGround
    flag := some (az.map fun _ => false) }

/-! ### the passes of `scan_instrument_mpi` -/

/-- Loop over chunks of one pass (instrument.py:1892-1910): the pointing (boresight and ground)
each chunk is scanned with. -/
def passPointing [Field K] [LinearOrder K] [FloorRing K] (site : Site K Q) (o : Opts K)
    (usePre : Bool) :
    List (Int × Int) → State K Q → PyM (List (List Q × Option (List Q)) × State K Q)
  | [], st => .ok ([], st)
  | c :: cs, st => do
    let st ← implementScan site o usePre c.1 c.2 st
    let (out, st') ← passPointing site o usePre cs st
    return ((st.qBore, st.qGround) :: out, st')

/-- `reset_el_steps` (instrument.py:1473-1484), doing nothing if no steps are set. -/
def resetEl : Option (ElSteps K) → PyM (Option (ElSteps K))
  | none => .ok none
  | some s => do
    let s ← s.reset
    return some s

/-- The passes after the first (instrument.py:1846-1910): elevation steps are reset and
`use_precomputed` is set. -/
def laterPasses [Field K] [LinearOrder K] [FloorRing K] (site : Site K Q) (o : Opts K)
    (chunks : List (Int × Int)) :
    Nat → State K Q → PyM (List (List (List Q × Option (List Q))) × State K Q)
  | 0, st => .ok ([], st)
  | k + 1, st => do
    let el ← resetEl st.el
    let (out, st) ← passPointing site o true chunks { st with el := el }
    let (outs, st) ← laterPasses site o chunks k st
    return (out :: outs, st)

/-- Pointing of all passes; `memmap` is `create_memmap` (a zero-filled file of `nsamp` rows,
instrument.py:1826-1833; `zero` is the zero quaternion). -/
def allPasses [Field K] [LinearOrder K] [FloorRing K] (site : Site K Q) (o : Opts K)
    (memmap : Bool) (zero : Q) (nsamp : Nat) (chunks : List (Int × Int)) (npasses : Nat)
    (st : State K Q) : PyM (List (List (List Q × Option (List Q))) × State K Q) :=
  let st := if memmap then { st with mmap := some (List.replicate nsamp zero) } else st
  match npasses with
  | 0 => .ok ([], st)
  | k + 1 => do
    let (out, st) ← passPointing site o false chunks st
    let (outs, st) ← laterPasses site o chunks k st
    return (out :: outs, st)

end Verif.Scan
