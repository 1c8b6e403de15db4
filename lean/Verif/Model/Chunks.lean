import Verif.Model.Gen

/-!
# Model: mission chunks and instrument rotation
-/

namespace Verif.Chunks

/-- A chunk dictionary (instrument.py:1536, 1586-1622).  A missing `norot` key is read with
`.get('norot', False)` (1939), so it is `false`; `cidx` and `hwpang` are optional keys. -/
structure Chunk where
  start : Int
  stop : Int
  cidx : Option Int := none
  norot : Bool := false
  hwpang : Option Rat := none
  deriving DecidableEq, Repr

/-- `partition_mission` loop (instrument.py:1530-1537). `k` iterations remain. -/
def partitionLoop (nsamp chunksize : Int) : Nat → Int → Int → List Chunk
  | 0, _, _ => []
  | k + 1, cidx, start =>
    let stop := start + chunksize
    let stop := if stop ≥ nsamp then nsamp else stop
    { start := start, stop := stop, cidx := some cidx } ::
      partitionLoop nsamp chunksize k (cidx + 1) (start + chunksize)

/-- `if not chunksize or chunksize >= nsamp: chunksize = int(nsamp)` followed by
`chunksize = int(chunksize)` (instrument.py:1525-1528). -/
def effChunksize (nsamp : Int) : Option Rat → Int
  | none => nsamp
  | some c => if c = 0 ∨ c ≥ (nsamp : Rat) then nsamp else pyInt c

/-- `ScanStrategy.partition_mission` (instrument.py:1504-1543).  `nsamp` is the number of
samples; `chunksize` may be None or any number.  The creation of empty `_data` slots is left
out here (see `Verif.Model.Data`). -/
def partitionMission (nsamp : Int) (chunksize : Option Rat) : PyM (List Chunk) :=
  let cs := effChunksize nsamp chunksize
  -- `nsamp / float(chunksize)`
  if cs = 0 then .error .zeroDivisionError
  else .ok (partitionLoop nsamp cs (ceilDiv nsamp cs).toNat 0 0)

/-- `rot_dict` together with the generator `rot_angle_gen` (instrument.py:1351-1365).
`rotChunkSize = int(period * fsamp)` is only set when `period` is truthy. -/
structure Rot (K : Type) where
  /-- `None` and 0 are the same to the code, which only tests the truth of `period` -/
  period : Bool
  rotChunkSize : Int
  angle : K
  startAng : K
  remainder : Int
  angles : List K
  gen : Gen K

/-- `set_instr_rot` with an explicit list of angles (instrument.py:1351-1365). -/
def setInstrRot {K : Type} (rotChunkSize : Int) (startAng : K) (angles : List K) : Rot K :=
  { period := true, rotChunkSize := rotChunkSize, angle := startAng, startAng := startAng,
    remainder := 0, angles := angles, gen := angleGen angles }

/-- `reset_instr_rot` (instrument.py:1367-1375). -/
def Rot.reset {K : Type} (r : Rot K) : Rot K :=
  { r with gen := angleGen r.angles, angle := r.startAng, remainder := 0 }

/-- `rotate_instr` (instrument.py:1377-1384). -/
def Rot.rotate {K : Type} (r : Rot K) : PyM (Rot K) :=
  if r.period then do
    let (a, g) ← r.gen.next
    return { r with angle := a, gen := g }
  else .ok r

/-- The loop over full-sized rotation chunks of `subpart_chunk` (instrument.py:1613-1618):
returns the appended subchunks and the final `start`. -/
def fullSubchunks (rotChunkSize : Int) : Nat → Int → List Chunk × Int
  | 0, start => ([], start)
  | k + 1, start =>
    let stop := start + rotChunkSize
    let (rest, s) := fullSubchunks rotChunkSize k stop
    ({ start := start, stop := stop } :: rest, s)

/-- `subpart_chunk` after the `period` test (instrument.py:1571-1622), before the `cidx`
inheritance: subchunks and new remainder.  Division by `float(rot_chunk_size)` raises when
the rotation period is shorter than one sample. -/
def subpartCore (rotChunkSize remainder : Int) (chunk : Chunk) : PyM (List Chunk × Int) :=
  if rotChunkSize = 0 then .error .zeroDivisionError
  else
    let chunkSize := chunk.stop - chunk.start
    let start := chunk.start
    let n := ceilDiv (chunkSize - remainder) rotChunkSize
    let n := if n < 1 then 1 else n
    if n = 1 then
      if remainder ≥ chunkSize then
        .ok ([{ start := start, stop := chunk.stop }], remainder - chunkSize)
      else
        let stop := remainder + start
        let pre : List Chunk :=
          if remainder ≠ 0 then [{ start := start, stop := stop, norot := true }] else []
        .ok (pre ++ [{ start := stop, stop := chunk.stop }], rotChunkSize - (chunk.stop - stop))
    else
      let stop := remainder + start
      let pre : List Chunk :=
        if remainder ≠ 0 then [{ start := start, stop := stop, norot := true }] else []
      let start := if remainder ≠ 0 then stop else start
      let (full, start) := fullSubchunks rotChunkSize (n - 1).toNat start
      .ok (pre ++ full ++ [{ start := start, stop := chunk.stop }],
        rotChunkSize - (chunk.stop - start))

/-- `ScanStrategy.subpart_chunk` (instrument.py:1545-1630). -/
def subpartChunk {K : Type} (r : Rot K) (chunk : Chunk) : PyM (List Chunk × Rot K) :=
  if r.period then do
    let (subs, rem) ← subpartCore r.rotChunkSize r.remainder chunk
    let subs := match chunk.cidx with
      | some c => subs.map fun s => { s with cidx := some c }
      | none => subs
    return (subs, { r with remainder := rem })
  else .ok ([chunk], r)

/-- The loop over subchunks in `scan_instrument_mpi` as far as the instrument rotation goes
(instrument.py:1929-1940): rotate unless `norot`, then scan the subchunk at the current
boresight angle.  Returns each subchunk with the angle it is scanned at. -/
def rotLoop {K : Type} (r : Rot K) : List Chunk → PyM (List (Chunk × K) × Rot K)
  | [] => .ok ([], r)
  | s :: rest => do
    let r ← if s.norot then .ok r else r.rotate
    let (out, r') ← rotLoop r rest
    return ((s, r.angle) :: out, r')

/-- The chunk loop of `scan_instrument_mpi` (instrument.py:1892-1940) as far as instrument
rotation goes. -/
def chunkLoop {K : Type} (r : Rot K) : List Chunk → PyM (List (Chunk × K) × Rot K)
  | [] => .ok ([], r)
  | c :: rest => do
    let (subs, r) ← subpartChunk r c
    let (out, r) ← rotLoop r subs
    let (out', r) ← chunkLoop r rest
    return (out ++ out', r)

/-- `_chunk2idx` (instrument.py:1998-2036) for a subchunk carrying the key `cidx`; the chunk is
looked up by *position* in `self.chunks`. -/
def chunk2idx (chunks : List Chunk) (start stop cidx : Int) : PyM (Int × Int) := do
  let c ← pyGet chunks cidx
  return (start - c.start, stop - c.start)

end Verif.Chunks

namespace Verif.Chunks

/-- Successive calls of `subpart_chunk` for the chunks of a mission (the calls at
instrument.py:1927 inside the loop of line 1892). -/
def subpartAll {K : Type} (r : Rot K) : List Chunk → PyM (List (List Chunk) × Rot K)
  | [] => .ok ([], r)
  | c :: rest => do
    let (subs, r) ← subpartChunk r c
    let (out, r) ← subpartAll r rest
    return (subs :: out, r)

end Verif.Chunks
