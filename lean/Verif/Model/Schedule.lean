import Mathlib.Algebra.Order.Floor.Ring
import Mathlib.Data.Rat.Floor
import Verif.Model.Chunks

/-!
# Model: observing schedules (instrument.py:2785-3093)

Numbers are rational: every float is one, and the arithmetic is exact here.  Printing is left out.
-/

namespace Verif.Schedule

open Verif.Chunks

/-- A line of a schedule file (instrument.py:2811-2824): times, azimuth limits and elevation of a
constant-elevation scan. -/
structure Ces where
  t0 : Rat
  t1 : Rat
  az0 : Rat
  az1 : Rat
  el : Rat
  deriving DecidableEq, Repr

/-- `mjd2ctime` (instrument.py:2811-2813). -/
def mjd2ctime (mjd : Rat) : Rat := (mjd - 40587) * 86400

/-- `parse_schedule_file` (instrument.py:2785-2824) for the rows of numbers that `np.loadtxt` reads.
A row with fewer than five columns is an IndexError; `loadtxt` itself asks for rows of equal
length.  (A file with a single row, or none, is read as a one-dimensional array, and `data[:, 0]` is an
IndexError.) -/
def parseRow : List Rat → PyM Ces
  | t0 :: t1 :: az0 :: az1 :: el :: _ =>
    .ok { t0 := mjd2ctime t0, t1 := mjd2ctime t1, az0 := az0, az1 := az1, el := el }
  | _ => .error .indexError

/-- See `parseRow`. -/
def parseScheduleFile (rows : List (List Rat)) : PyM (List Ces) :=
  if rows.length ≤ 1 then .error .indexError else rows.mapM parseRow

/-- What `partition_schedule_file` appends for one chunk (instrument.py:2884-2893): the chunk, the
value for `ctime_starts`, and the line of the schedule whose entries go to `az0s`, `az1s`, `els`,
`t0s` and `t1s`. -/
structure Entry where
  chunk : Chunk
  ctimeStart : Rat
  ces : Ces
  deriving DecidableEq, Repr

/-- `(t1 - t0) * self.fsamp` (instrument.py:2863). -/
def fullSamp (fsamp : Rat) (x : Ces) : Rat := (x.t1 - x.t0) * fsamp

/-- `chunksize2use` and `nchunks` (instrument.py:2864-2873).  `chunksize` is None or a number that
is not negative. -/
def cesChunks (n : Rat) : Option Nat → Int × Int
  | none => (pyInt n, 1)
  | some c => if c = 0 ∨ n ≤ (c : Rat) then (pyInt n, 1) else ((c : Int), ⌈n / (c : Rat)⌉)

/-- What the loop over the chunks of one scan does not change. -/
structure Scan where
  nsamp : Int
  fsamp : Rat
  ces : Ces
  samplenum : Rat
  full : Rat
  size : Int
  nchunks : Int
  chunknum : Int

/-- `end` (instrument.py:2878-2882). -/
def Scan.stop (s : Scan) (cidx : Int) (start : Rat) : Rat :=
  let e := if cidx = s.nchunks - 1 then s.samplenum + s.full else start + s.size
  if e ≥ s.nsamp then s.nsamp else e

/-- The entry for one chunk (instrument.py:2884-2893). -/
def Scan.entry (s : Scan) (cidx : Int) (start tstart : Rat) : Entry :=
  { chunk := { start := pyInt start, stop := pyInt (s.stop cidx start),
               cidx := some (s.chunknum + cidx) }, ctimeStart := tstart, ces := s.ces }

/-- `start` after the body of the loop (instrument.py:2883, 2895). -/
def Scan.next (s : Scan) (cidx : Int) (start : Rat) : Rat :=
  if s.stop cidx start ≠ start then start + s.size else start

/-- `tstart` after the body of the loop (instrument.py:2883, 2896). -/
def Scan.tnext (s : Scan) (cidx : Int) (start tstart : Rat) : Rat :=
  if s.stop cidx start ≠ start then tstart + (s.size : Rat) / s.fsamp else tstart

/-- The entries of one pass through the body of the loop. -/
def Scan.out (s : Scan) (cidx : Int) (start tstart : Rat) : List Entry :=
  if s.stop cidx start ≠ start then [s.entry cidx start tstart] else []

/-- The loop over the chunks of one scan (instrument.py:2875-2900): the entries, the last value of
`end`, and `done_chunking`.  The first argument is the number of passes after the present one. -/
def Scan.run (s : Scan) : Nat → Int → Rat → Rat → List Entry × Rat × Bool
  | 0, cidx, start, tstart =>
    (s.out cidx start tstart, s.stop cidx start, decide (s.next cidx start ≥ s.nsamp))
  | k + 1, cidx, start, tstart =>
    if s.next cidx start ≥ s.nsamp then (s.out cidx start tstart, s.stop cidx start, true)
    else
      let r := s.run k (cidx + 1) (s.next cidx start) (s.tnext cidx start tstart)
      (s.out cidx start tstart ++ r.1, r.2)

/-- The loop over the scans (instrument.py:2856-2909). -/
def partitionLoop (nsamp : Int) (fsamp : Rat) (chunksize : Option Nat) :
    List Ces → Rat → Int → List Entry
  | [], _, _ => []
  | x :: rest, samplenum, chunknum =>
    let n := fullSamp fsamp x
    let c := cesChunks n chunksize
    let s : Scan := { nsamp := nsamp, fsamp := fsamp, ces := x, samplenum := samplenum, full := n,
                      size := c.1, nchunks := c.2, chunknum := chunknum }
    let r := s.run (c.2 - 1).toNat 0 samplenum x.t0
    if r.2.2 then r.1
    else r.1 ++ partitionLoop nsamp fsamp chunksize rest r.2.1 (chunknum + c.2)

/-- `partition_schedule_file` (instrument.py:2827-2921) for the parsed schedule. -/
def partitionSchedule (nsamp : Int) (fsamp : Rat) (chunksize : Option Nat) (ces : List Ces) :
    List Entry := partitionLoop nsamp fsamp chunksize ces 0 0

/-! ### The scan -/

/-- `np.linspace(a, b, n, endpoint=False)`. -/
def linspaceOpen (a b : Rat) (n : Nat) : List Rat :=
  (List.range n).map fun (i : Nat) => a + (i : Rat) * ((b - a) / (n : Rat))

/-- `np.linspace(a, b, n)`. -/
def linspaceClosed (a b : Rat) (n : Nat) : List Rat :=
  (List.range n).map fun (i : Nat) =>
    if n = 1 then a else a + (i : Rat) * ((b - a) / ((n : Rat) - 1))

/-- `np.remainder(x, y)` for `y > 0`. -/
def npRemainder (x y : Rat) : Rat := x - y * ⌊x / y⌋

/-- `np.tile(a, n)`. -/
def tile (a : List Rat) (n : Nat) : List Rat := (List.replicate n a).flatten

/-- `np.roll(a, k)`: item `i` of the result is item `i - k` of the array, modulo its size. -/
def npRoll (a : List Rat) (k : Int) : List Rat :=
  (List.range a.length).map fun (i : Nat) => a.getD (((i : Int) - k) % (a.length : Int)).toNat 0

/-- `az_throw` (instrument.py:2993-2996). -/
def azThrow (x : Ces) : Rat := if x.az0 > x.az1 then (360 - x.az0) + x.az1 else x.az1 - x.az0

/-- `nsamp_per_scan` (instrument.py:3007-3008). -/
def perScan (fsamp scanSpeed : Rat) (x : Ces) : Int := pyInt (azThrow x / scanSpeed * fsamp)

/-- One full triangle (instrument.py:3021-3023), for `n ≥ 1` samples in one direction. -/
def azSingle (x : Ces) (n : Int) : List Rat :=
  linspaceOpen x.az0 x.az1 (n - 1).toNat ++ linspaceClosed x.az1 x.az0 n.toNat

/-- `phase_idx` (instrument.py:3014-3015), for `dt = self.ctime[0] - t0_ces`. -/
def phaseIdx (fsamp dt : Rat) (period : Int) : Int :=
  ⌈npRemainder (dt / fsamp) (period : Rat) * (period : Rat)⌉

/-- The azimuths of a chunk (instrument.py:2988-3026) for the profile 'triangle': `x` is the line of
the schedule that belongs to the chunk.  `scan_speed = 0` is a division by a float zero
(ZeroDivisionError here, as `az_throw` is a numpy number this gives `inf` and then OverflowError in
`int`). -/
def azimuths (fsamp scanSpeed : Rat) (x : Ces) (ctime : List Rat) : PyM (List Rat) := do
  let t ← pyGet ctime 0
  let dt := t - x.t0
  if azThrow x > 0 then
    if scanSpeed = 0 then .error .overflowError
    else
      let n := perScan fsamp scanSpeed x
      if n > 0 then
        let period := 2 * n - 1
        let nmult := ⌈(ctime.length : Rat) / (period : Rat)⌉
        let full := npRoll (tile (azSingle x n) nmult.toNat) (phaseIdx fsamp dt period)
        return pySlice full 0 (ctime.length : Int)
      else .error .assertionError
  else .error .assertionError

/-- `schedule_scan` in a run without MPI and without ground (instrument.py:2951-3093): the entry of
the chunk is looked up with `cidx`; `azel2bore` is qpoint's function for this site.  See
`Verif.Model.Mpi` for the parallel computation of the same array. -/
def scheduleScan {Q : Type} (azel2bore : Rat → Rat → Rat → Q) (fsamp scanSpeed : Rat)
    (entries : List Entry) (cidx : Int) (ctime : List Rat) : PyM (List Q) := do
  let e ← pyGet entries cidx
  let az ← azimuths fsamp scanSpeed e.ces ctime
  return (az.zip ctime).map fun p => azel2bore p.1 e.ces.el p.2

end Verif.Schedule
