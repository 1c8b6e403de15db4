import Verif.Model.ScanInstrument
import Verif.Model.Detpair

/-!
# Model: `scan_instrument_mpi` on beam objects

The loops of `Verif.Model.ScanInstrument`, with the detectors as objects on the heap of
`Verif.Model.Beam`: `init_detpair` looks at and changes the objects (`Verif.Model.Detpair`), and
`scatter_list` gives copies of them to the ranks.

Simplification: the attributes of the beams that scanning and binning use are read once per pass,
after `init_detpair`; the code reads them again in every subchunk, but nothing changes them in the
meantime (`beam.q_off`, which `scan` sets before it is used, is not part of the objects).
-/

noncomputable section

namespace Verif.ScanObjects

open Verif.Beam Verif.Timeline Verif.Spinmaps Verif.MapMaking Verif.ScanInstrument

/-- `[beam_a, beam_b]` as objects. -/
abbrev ObjPair := Option Ref × Option Ref

/-- What the loops call.  `w.spinmaps` is not used: spin maps are made by `init_detpair`, with `sky` for
`_init_spinmaps` and `ground` for that of the ground (instrument.py:3899). -/
structure ObjWorld (E : Type) where
  w : World E
  env : Env ℝ
  sky : Maker ℝ SpinDict
  ground : Maker ℝ SpinDict
  maxSpin : Int

variable {E : Type}

/-- A value as a float. -/
def numOf (v : Val ℝ) : PyM ℝ :=
  match v.toNum with
  | some x => .ok x
  | none => .error .typeError

/-- `ghost.ghost_idx`, which only ghosts have (detector.py:140-152). -/
def idxOf (o : Obj ℝ) : PyM Int :=
  if o.isGhost then do
    let v ← o.read .ghostIdx
    v.toInt
  else .ok 0

/-- The attributes `scan` uses (instrument.py:3478-3492): `dead`, `ghost`, `ghost_idx`, `az`, `el` and
`polang_truth`. -/
def readPoint (o : Obj ℝ) : PyM Timeline.Beam := do
  let dead ← o.read .dead
  let idx ← idxOf o
  let az ← o.read .az
  let az ← numOf az
  let el ← o.read .el
  let el ← numOf el
  let p ← polangTruth o
  let p ← numOf p
  return ⟨dead.truthy, o.isGhost, idx, az, el, p⟩

/-- A detector with its ghosts (instrument.py:3296-3306); binning uses `polang` (4388). -/
def readBin (h : Heap ℝ) (r : Ref) : PyM BinBeam := do
  let b ← readPoint (h.cell r)
  let gs ← ((h.cell r).ghosts.getD []).mapM fun g => readPoint (h.cell g)
  let p ← (h.cell r).read .polang
  let p ← numOf p
  return ⟨b, gs, p⟩

/-- `None` or a detector. -/
def readOne (h : Heap ℝ) : Option Ref → PyM (Option BinBeam)
  | none => .ok none
  | some r => do
    let b ← readBin h r
    return some b

/-- The two detectors of a pair. -/
def readPair (h : Heap ℝ) (p : ObjPair) : PyM Pair := do
  let a ← readOne h p.1
  let b ← readOne h p.2
  return (a, b)

/-- The spin maps are kept as attribute `spinmaps`. -/
def keepMaps (i : Inst E) : Except PyErr (Spinmaps SpinDict) × Heap ℝ → PyM (Inst E × Heap ℝ)
  | (.ok sm, h) => .ok ({ i with st := { i.st with maps := sm }, hasMaps := true }, h)
  | (.error e, _) => .error e

/-- Spin maps for the pair (instrument.py:1871-1884).  Without A, `beam_a.ghosts` in `init_detpair` is
an AttributeError. -/
def initPair (s : ObjWorld E) (o : Opts) (p : ObjPair) (i : Inst E) (h : Heap ℝ) :
    PyM (Inst E × Heap ℝ) :=
  match p with
  | (none, none) => .ok (i, h)
  | (a, b) =>
    if o.preview then .ok (i, h)
    else if i.hasMaps && o.reuseSpinmaps then .ok (i, h)
    else match a with
      | none => .error .attributeError
      | some a => keepMaps i (Exec.run
        (initDetpair s.env s.sky (if o.ground then some s.ground else none) s.maxSpin a b) h)

/-- The loop over chunks (instrument.py:1886-1996). -/
def scanChunks (s : ObjWorld E) (o : Opts) (first : Bool) (pair : Pair) (i : Inst E) :
    PyM (Inst E) :=
  if i.chunks.all fun c => c.1.cidx.isSome then
    (List.range i.chunks.length).foldlM (stepChunk s.w o pair first) i
  else .error .keyError

/-- The pass over the mission for one pair (instrument.py:1846-1996). -/
def scanPass (s : ObjWorld E) (o : Opts) (first : Bool) (p : ObjPair) (x : Inst E × Heap ℝ) :
    PyM (Inst E × Heap ℝ) := do
  let i ← if first then .ok x.1 else resetAll s.w x.1
  let (i, h) ← initPair s o p i x.2
  let pair ← readPair h p
  let i ← scanChunks s o first pair i
  return (i, h)

/-- The loop over passes on one rank; `none` is `[None, None]`. -/
def scanLoop (s : ObjWorld E) (o : Opts) : Bool → List (Option ObjPair) → Inst E × Heap ℝ →
    PyM (Inst E × Heap ℝ)
  | _, [], x => .ok x
  | first, p :: ps, x => do
    let x ← scanPass s o first (p.getD (none, none)) x
    scanLoop s o false ps x

/-- `scan_instrument_mpi` on rank `rank` of `size`, with the beams of the root process on the heap
`x.2`.  With MPI and `scatter` a rank works on copies (`self._comm.scatter` pickles the objects, on
the root process too; instrument.py:83-117, 1836-1839), so the objects themselves stay as they are:
the changes are made to the heap and then forgotten. -/
def scanInstrument (s : ObjWorld E) (o : Opts) (beams : List ObjPair) (mpi scatter : Bool)
    (size rank : Nat) (x : Inst E × Heap ℝ) : PyM (Inst E × Heap ℝ) := do
  let ps ← Mpi.scanPasses beams scatter size rank
  let y ← scanLoop s o true ps x
  return (y.1, if mpi && scatter then x.2 else y.2)

/-- A scan by all ranks, which start in the same state, with the reduction of the maps at the end:
the maps, and the objects of the root process.  Without MPI there is one rank. -/
def scanAll (s : ObjWorld E) (o : Opts) (beams : List ObjPair) (mpi scatter : Bool) (size : Nat)
    (x : Inst E × Heap ℝ) : PyM (Maps × Heap ℝ) := do
  let ys ← (List.range size).mapM fun r => scanInstrument s o beams mpi scatter size r x
  let root ← pyGet ys 0
  return (reduceMaps x.1.maps.length (ys.map (·.1.maps)), root.2)

/-- One scan after the other with the same beam objects; the strategy starts each scan in a given
state (maps allocated and motion reset by the user, with any number of ranks). -/
def scans (s : ObjWorld E) (o : Opts) (beams : List ObjPair) :
    List (Inst E × Bool × Nat) → Heap ℝ → PyM (List Maps × Heap ℝ)
  | [], h => .ok ([], h)
  | (i, mpi, size) :: l, h => do
    let (m, h) ← scanAll s o beams mpi true size (i, h)
    let (ms, h) ← scans s o beams l h
    return (m :: ms, h)

/-- `_init_spinmaps` (instrument.py:3899) for the sky `alm`, if the coefficients of the beams are the
arrays `blmOf` and their HWP Mueller matrices the arrays `muOf`. -/
def skyMaker (Y : Harmonics) (alm : List (List ℂ)) (nside : Nat) (inputV beamV : Bool)
    (blmOf : Nat → List (List ℂ)) (muOf : Nat → Spin.Mat4) : Maker ℝ SpinDict
  | .obj n, .int maxS, sym, .none =>
    spinmapsOf Y alm (blmOf n) maxS nside sym.truthy none inputV beamV
  | .obj n, .int maxS, sym, .obj k =>
    spinmapsOf Y alm (blmOf n) maxS nside sym.truthy (some (muOf k)) inputV beamV
  | _, _, _, _ => .error .typeError

end Verif.ScanObjects
