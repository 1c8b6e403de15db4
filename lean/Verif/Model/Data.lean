import Verif.Model.Chunks
import Verif.Model.Signal

/-!
# Model: storing time-ordered data (`_data`), the loops of `scan_instrument_mpi` on one rank,
and sample times
-/

namespace Verif.Data

open Verif.Chunks Verif.Signal

/-! ### sample times -/

/-- `np.arange(start, end, dtype=float) / float(fsamp) + ctime0`: `l2_ctime`
(instrument.py:2417-2439), `satellite_ctime` (2526-2548) and the times set by `implement_scan`
(2233-2236, 2243-2246).  `fsamp ≠ 0`: numpy would warn and go on with `inf`. -/
def ctimes {K : Type} [Field K] [DecidableEq K] (fsamp ctime0 : K) (start stop : Int) :
    PyM (List K) :=
  if fsamp = 0 then .error .zeroDivisionError
  else .ok ((intRange start (stop - start).toNat).map fun (i : Int) => (i : K) / fsamp + ctime0)

/-- `schedule_ctime` (instrument.py:2923-2949): `ctime_starts[cidx] + np.arange(end-start)/fsamp`;
ValueError before the schedule has been partitioned. -/
def scheduleCtime {K : Type} [Field K] [DecidableEq K] (fsamp : K) (ctimeStarts : Option (List K))
    (cidx start stop : Int) : PyM (List K) :=
  match ctimeStarts with
  | none => .error .valueError
  | some cs => do
    let t0 ← pyGet cs cidx
    if fsamp = 0 then .error .zeroDivisionError
    else return (List.range (stop - start).toNat).map fun (i : Nat) => t0 + (i : K) / fsamp

/-! ### stored data -/

/-- The keys under which arrays are stored. -/
inductive Field' | tod | pix | pa | hwpAng
  deriving DecidableEq, Repr

/-- `self._data`: `_data[str(cidx)][str(idx)][field]`; `_data[str(cidx)]['hwp_ang']` has no beam
index.  Simplification: one type `K` for floats and pixel numbers.  That `_data[str(cidx)]`
exists is ensured by `_init_data` (instrument.py:3155-3164), called in every pass (1890). -/
abbrev Store (K : Type) := Int → Option Int → Field' → Option (List K)

/-- A detector as far as storing is concerned: `beam.idx`, `beam.dead`. -/
structure Det where
  idx : Int
  dead : Bool
  deriving DecidableEq, Repr

def Store.set {K : Type} (st : Store K) (c : Int) (w : Option Int) (f : Field')
    (v : Option (List K)) : Store K :=
  fun c' w' f' => if c' = c ∧ w' = w ∧ f' = f then v else st c' w' f'

/-- `_allocate_hwp_data` (instrument.py:3166-3194). -/
def allocHwp {K : Type} [Zero K] (savePoint : Bool) (c : Int) (chunk : Chunk) (st : Store K) :
    Store K :=
  if savePoint then
    st.set c none .hwpAng (some (List.replicate (chunk.stop - chunk.start).toNat 0))
  else st

/-- `_allocate_detector_data` (instrument.py:3196-3258), without the horizontal-frame arrays:
`_data[cidx][idx] = {}` and then the arrays that are asked for. -/
def allocDet {K : Type} [Zero K] (saveTod savePoint : Bool) (c : Int) (chunk : Chunk) (d : Det)
    (st : Store K) : Store K :=
  let zeros := List.replicate (chunk.stop - chunk.start).toNat (0 : K)
  let st : Store K := fun c' w' f' => if c' = c ∧ w' = some d.idx then none else st c' w' f'
  let st := if saveTod then st.set c (some d.idx) .tod (some zeros) else st
  if savePoint then
    (st.set c (some d.idx) .pix (some zeros)).set c (some d.idx) .pa (some zeros)
  else st

/-- `self._data[...][...][start:end] = v`: KeyError if the array was not allocated. -/
def writeSlice {K : Type} (c : Int) (w : Option Int) (f : Field') (i j : Int) (v : List K)
    (st : Store K) : PyM (Store K) :=
  match st c w f with
  | none => .error .keyError
  | some a => do
    let a' ← pyAssign a i j v
    return st.set c w f (some a')

/-- What `scan` returns for a detector and a subchunk (instrument.py:3704-3725): timeline, pixel
numbers and position angles.  (Ghosts and ground are inside.) -/
structure Ret (K : Type) where
  tod : List K
  pix : List K
  pa : List K

/-- The parts of the instrument that are not modelled here: the HWP state with `rotate_hwp`, and
the results of `scan`, which may depend on the boresight angle, the HWP state, detector and
subchunk.  `hwp` is the array `np.degrees(hwp_ang)`, or one number if the plate is at rest. -/
structure Env (A H K : Type) where
  rotateHwp : H → Chunk → PyM H
  ret : A → H → Det → Chunk → Ret K
  hwp : H → Chunk → List K

variable {A H K : Type}

/-- The storing part of `_scan_detector` (instrument.py:3333-3362). -/
def storeRet (chunks : List Chunk) (saveTod savePoint : Bool) (cidx : Int) (d : Det) (s : Chunk)
    (r : Ret K) (hwp : List K) (st : Store K) : PyM (Store K) := do
  let (q0, q1) ← chunk2idx chunks s.start s.stop cidx
  let st ← if saveTod then writeSlice cidx (some d.idx) .tod q0 q1 r.tod st else .ok st
  if savePoint then
    let st ← writeSlice cidx (some d.idx) .pix q0 q1 r.pix st
    let st ← writeSlice cidx (some d.idx) .pa q0 q1 r.pa st
    writeSlice cidx none .hwpAng q0 q1 hwp st
  else .ok st

/-- `_update_tod` (instrument.py:2038-2058). -/
def updateTod (chunks : List Chunk) (cidx : Int) (d : Det) (s : Chunk) (tod : List K)
    (st : Store K) : PyM (Store K) := do
  let (q0, q1) ← chunk2idx chunks s.start s.stop cidx
  writeSlice cidx (some d.idx) .tod q0 q1 tod st

/-- `beam_a and not beam_a.dead`. -/
def live : Option Det → Option Det
  | some d => if d.dead then none else some d
  | none => none

/-- Options of `scan_instrument_mpi` that matter here. -/
structure Opts (K : Type) where
  saveTod : Bool
  savePoint : Bool
  ctalk : K

/-- The body of the loop over subchunks (instrument.py:1929-1996) for a beam pair, without the
binning: scan and store detector a, then b, then cross-talk between their timelines.
`do_ctalk` is true exactly when both are live and `ctalk` is not zero (1953-1957). -/
def scanSub [CommRing K] [DecidableEq K] (env : Env A H K) (chunks : List Chunk) (o : Opts K)
    (cidx : Int) (pair : Option Det × Option Det) (s : Chunk) (ang : A) (h : H) (st : Store K) :
    PyM (Store K) := do
  let st ← match live pair.1 with
    | some a => storeRet chunks o.saveTod o.savePoint cidx a s (env.ret ang h a s) (env.hwp h s) st
    | none => .ok st
  let st ← match live pair.2 with
    | some b => storeRet chunks o.saveTod o.savePoint cidx b s (env.ret ang h b s) (env.hwp h s) st
    | none => .ok st
  match live pair.1, live pair.2 with
  | some a, some b =>
    if o.ctalk ≠ 0 then do
      let (ta, tb) ← crossTalk (env.ret ang h a s).tod (env.ret ang h b s).tod o.ctalk
      if o.saveTod then
        let st ← updateTod chunks cidx a s ta st
        updateTod chunks cidx b s tb st
      else .ok st
    else .ok st
  | _, _ => .ok st

/-- `if not subchunk.get('norot'): self.rotate_instr()` (instrument.py:1938-1940). -/
def rotStep (r : Rot A) (s : Chunk) : PyM (Rot A) :=
  if s.norot then .ok r else r.rotate

/-- One subchunk: rotate the instrument unless `norot`, rotate the HWP, scan
(instrument.py:1938-1996). -/
def stepSub [CommRing K] [DecidableEq K] (env : Env A H K) (chunks : List Chunk) (o : Opts K)
    (cidx : Int) (pair : Option Det × Option Det) (s : Chunk) (x : Rot A × H × Store K) :
    PyM (Rot A × H × Store K) := do
  let r ← rotStep x.1 s
  let h ← env.rotateHwp x.2.1 s
  let st ← scanSub env chunks o cidx pair s r.angle h x.2.2
  return (r, h, st)

/-- `_allocate_detector_data` for the live detectors of a pair (instrument.py:1917-1924). -/
def allocPair [Zero K] (o : Opts K) (cidx : Int) (c : Chunk) (pair : Option Det × Option Det)
    (st : Store K) : Store K :=
  let st := match live pair.1 with
    | some a => allocDet o.saveTod o.savePoint cidx c a st
    | none => st
  match live pair.2 with
  | some b => allocDet o.saveTod o.savePoint cidx c b st
  | none => st

/-- The body of the loop over chunks (instrument.py:1892-1996); `first` is `bidx == 0`. -/
def stepChunk [CommRing K] [DecidableEq K] (env : Env A H K) (chunks : List Chunk) (o : Opts K)
    (first : Bool) (pair : Option Det × Option Det) (c : Chunk) (x : Rot A × H × Store K) :
    PyM (Rot A × H × Store K) := do
  -- `chunk['cidx']` in `_init_data`
  let cidx ← match c.cidx with
    | some i => pure i
    | none => .error .keyError
  let st := if first then allocHwp o.savePoint cidx c x.2.2 else x.2.2
  let st := allocPair o cidx c pair st
  let (subs, r) ← subpartChunk x.1 c
  subs.foldlM (fun x s => stepSub env chunks o cidx pair s x) (r, x.2.1, st)

/-- One pass (one beam pair) over the mission. -/
def scanPass [CommRing K] [DecidableEq K] (env : Env A H K) (chunks : List Chunk) (o : Opts K)
    (first : Bool) (pair : Option Det × Option Det) (x : Rot A × H × Store K) :
    PyM (Rot A × H × Store K) :=
  chunks.foldlM (fun x c => stepChunk env chunks o first pair c x) x

/-- The loop over beam pairs of one rank (instrument.py:1846-1996): before every pass but the
first, rotation and HWP are reset (`resetHwp` stands for `reset_hwp_mod`). -/
def scanPasses [CommRing K] [DecidableEq K] (env : Env A H K) (resetHwp : H → H)
    (chunks : List Chunk) (o : Opts K) :
    Bool → List (Option Det × Option Det) → Rot A × H × Store K → PyM (Rot A × H × Store K)
  | _, [], x => .ok x
  | first, p :: ps, x => do
    let x := if first then x else (x.1.reset, resetHwp x.2.1, x.2.2)
    let x ← scanPass env chunks o first p x
    scanPasses env resetHwp chunks o false ps x

/-- `data(chunk, beam, data_type)` (instrument.py:3364-3392). -/
def dataOf (st : Store K) (chunk : Chunk) (beam : Option Det) (f : Field') : PyM (List K) :=
  match chunk.cidx with
  | none => .error .keyError
  | some c =>
    match f with
    | .hwpAng =>
      match st c none .hwpAng with
      | some a => .ok a
      | none => .error .keyError
    | f =>
      match beam with
      | none => .error .attributeError
      | some d =>
        match st c (some d.idx) f with
        | some a => .ok a
        | none => .error .keyError

end Verif.Data
