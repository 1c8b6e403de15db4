import Verif.Model.ScanInstrument
import Verif.Model.Data

/-!
# Model: the whole of `scan_instrument_mpi` with `save_tod` and `save_point`

The loops of `Verif.Model.ScanInstrument` with the store of `Verif.Model.Data`, and the checks of the
arguments.  With a ground, `_allocate_detector_data` also makes the arrays `azel_pix` and `azel_pa`
(instrument.py:3252-3256); they are left out because the code never gets to write to them.
-/

noncomputable section

namespace Verif.ScanStored

open Verif.Chunks Verif.Timeline Verif.Spinmaps Verif.MapMaking Verif.ScanInstrument

/-- A detector with its attribute `idx`. -/
structure SBeam where
  bin : BinBeam
  idx : Int

/-- `[beam_a, beam_b]`. -/
abbrev SPair := Option SBeam × Option SBeam

/-- The pair without indices. -/
def plain (p : SPair) : Pair := (p.1.map (·.bin), p.2.map (·.bin))

/-- What storing needs to know of a detector. -/
def SBeam.det (b : SBeam) : Data.Det := ⟨b.idx, b.bin.beam.dead⟩

/-- Arguments of `scan_instrument_mpi`; `hasAlm` is `alm is not None`. -/
structure SOpts extends ScanInstrument.Opts where
  saveTod : Bool
  savePoint : Bool
  hasAlm : Bool

/-- The arguments that matter for the store. -/
def SOpts.data (o : SOpts) : Data.Opts ℝ := ⟨o.saveTod, o.savePoint, o.ctalk⟩

abbrev Store := Data.Store ℝ

variable {E : Type}

/-- `beam and not beam.dead`. -/
def live : Option SBeam → Option SBeam
  | some b => if b.bin.beam.dead then none else some b
  | none => none

/-- The HWP angles that `scan` returns, as they are assigned to a slice: an array or one number. -/
def hwpList : HwpAng → List ℝ
  | .fixed a => [a]
  | .array a => a

/-- Timeline, pixel numbers and position angles that `scan` returns. -/
def retOf (r : Timeline.Ret) : Data.Ret ℝ := ⟨r.tod, r.pix.map fun (i : Int) => (i : ℝ), r.pa⟩

/-- Start and end of a subchunk as a chunk. -/
def asChunk (s : Sub) : Chunk :=
  { start := s.start, stop := s.stop, cidx := some s.cidx, norot := false, hwpang := none }

/-- `_scan_detector` (instrument.py:3262-3362): scan and store.  `mission` is `self.chunks`. -/
def scanOne (x : Ext) (mission : List Chunk) (o : SOpts) (b : SBeam) (s : Sub) (ground : Bool)
    (st : State) (store : Store) : PyM (State × Store) :=
  if o.preview then
    if b.bin.beam.ghost then .error .valueError
    else if o.saveTod || o.savePoint then .error .valueError
    else do
      let st ← ScanInstrument.scanOne x mission o.toOpts b.bin s ground st
      return (st, store)
  else do
    let (r, st) ← scanDetector x mission b.bin.beam b.bin.ghosts s ground o.interp o.savePoint st
    let store ← Data.storeRet mission o.saveTod o.savePoint s.cidx b.det (asChunk s) (retOf r)
      (hwpList r.hwp) store
    return (st, store)

/-- Scan, store and bin one detector (instrument.py:1946-1981 without cross-talk). -/
def scanBinOne (w : World E) (mission : List Chunk) (o : SOpts) (flag : Option (List Bool)) (s : Sub)
    (ground : Bool) (b : SBeam) (st : State) (maps : Maps) (store : Store) :
    PyM (State × Maps × Store) := do
  let (st, store) ← scanOne w.x mission o b s ground st store
  let tod ← todOfState st
  let maps ← binOne w mission o.toOpts flag b.bin s st tod maps
  return (st, maps, store)

/-- `if save_tod:` both timelines are updated (instrument.py:1985-1988). -/
def updateBoth (mission : List Chunk) (o : SOpts) (s : Sub) (a b : SBeam) (todA todB : List ℝ)
    (store : Store) : PyM Store :=
  if o.saveTod then do
    let store ← Data.updateTod mission s.cidx a.det (asChunk s) todA store
    Data.updateTod mission s.cidx b.det (asChunk s) todB store
  else .ok store

/-- Scan, store, mix, update the store and bin (instrument.py:1946-1996 with `do_ctalk`). -/
def scanMix (w : World E) (mission : List Chunk) (o : SOpts) (flag : Option (List Bool)) (s : Sub)
    (ground : Bool) (a b : SBeam) (st : State) (maps : Maps) (store : Store) :
    PyM (State × Maps × Store) := do
  let (st, store) ← scanOne w.x mission o a s ground st store
  let todA ← todOfState st
  let (st, store) ← scanOne w.x mission o b s ground st store
  let todB ← todOfState st
  let (todA, todB) ← Signal.crossTalk todA todB o.ctalk
  let st := { st with tod := some todB }
  let store ← updateBoth mission o s a b todA todB store
  let maps ← binOne w mission o.toOpts flag a.bin s st todA maps
  let maps ← binOne w mission o.toOpts flag b.bin s st todB maps
  return (st, maps, store)

/-- The scanning part of the loop over subchunks (instrument.py:1944-1996). -/
def scanPair (w : World E) (mission : List Chunk) (o : SOpts) (flag : Option (List Bool))
    (pair : SPair) (s : Sub) (ground : Bool) (st : State) (maps : Maps) (store : Store) :
    PyM (State × Maps × Store) :=
  match live pair.1, live pair.2 with
  | some a, some b =>
    if o.ctalk ≠ 0 then scanMix w mission o flag s ground a b st maps store
    else do
      let (st, maps, store) ← scanBinOne w mission o flag s ground a st maps store
      scanBinOne w mission o flag s ground b st maps store
  | some a, none => scanBinOne w mission o flag s ground a st maps store
  | none, some b => scanBinOne w mission o flag s ground b st maps store
  | none, none => .ok (st, maps, store)

/-- One subchunk (instrument.py:1929-1996). -/
def stepSub (w : World E) (o : SOpts) (pair : SPair) (ground : Bool) (s : Chunk)
    (i : Inst E × Store) : PyM (Inst E × Store) := do
  let rot ← ScanInstrument.rotStep i.1.rot s
  let (ang, hwp) ← Hwp.rotateHwp Real.pi w.fsamp i.1.hwp (s.hwpang.map fun (a : ℚ) => (a : ℝ))
    s.start s.stop
  let cidx ← cidxOf s
  let st := { i.1.st with rotAngle := rot.angle, hwpAng := newAng ang i.1.st.hwpAng }
  let (st, maps, store) ← scanPair w (i.1.chunks.map (·.1)) o i.1.flag pair ⟨s.start, s.stop, cidx⟩
    ground st i.1.maps i.2
  return ({ i.1 with rot := rot, hwp := hwp, st := st, maps := maps }, store)

/-- The pair as far as the store is concerned. -/
def dets (p : SPair) : Option Data.Det × Option Data.Det := (p.1.map SBeam.det, p.2.map SBeam.det)

/-- The chunk at position `k` (instrument.py:1892-1996): after `implement_scan` arrays are allocated,
those of the HWP in the first pass only. -/
def stepChunk (w : World E) (o : SOpts) (pair : SPair) (first : Bool) (i : Inst E × Store) (k : Nat) :
    PyM (Inst E × Store) := do
  let (c, g) ← pyGet i.1.chunks k
  let (p, el) ← w.implement i.1.el c (g || o.ground) (!first)
  let cidx ← cidxOf c
  let store := if first then Data.allocHwp o.savePoint cidx c i.2 else i.2
  let store := Data.allocPair o.data cidx c (dets pair) store
  let (subs, rot) ← subpartChunk i.1.rot c
  let ground := if i.1.rot.period then o.ground else g || o.ground
  let chunks := if o.ground ∧ i.1.rot.period = false then i.1.chunks.set k (c, true) else i.1.chunks
  let st := { i.1.st with ctime := p.ctime, qBore := p.bore, qGround := p.ground }
  subs.foldlM (fun i s => stepSub w o pair ground s i)
    ({ i.1 with rot := rot, el := el, st := st, flag := p.flag, chunks := chunks }, store)

/-- The pass over the mission for one pair (instrument.py:1846-1996). -/
def scanPass (w : World E) (o : SOpts) (first : Bool) (pair : SPair) (i : Inst E × Store) :
    PyM (Inst E × Store) := do
  let j ← if first then .ok i.1 else resetAll w i.1
  let j ← initPair w o.toOpts (plain pair) j
  if j.chunks.all fun c => c.1.cidx.isSome then
    (List.range j.chunks.length).foldlM (stepChunk w o pair first) (j, i.2)
  else .error .keyError

/-- The loop over passes on one rank; `none` is `[None, None]`. -/
def scanLoop (w : World E) (o : SOpts) : Bool → List (Option SPair) → Inst E × Store →
    PyM (Inst E × Store)
  | _, [], i => .ok i
  | first, p :: ps, i => do
    let i ← scanPass w o first (p.getD (none, none)) i
    scanLoop w o false ps i

/-- `scan_instrument_mpi` (instrument.py:1724-1996) on rank `rank` of `size`. -/
def scanInstrument (w : World E) (o : SOpts) (beams : List SPair) (scatter : Bool)
    (size rank : Nat) (i : Inst E × Store) : PyM (Inst E × Store) :=
  if o.hasAlm = false ∧ o.preview = false then .error .typeError
  else if o.preview ∧ (o.saveTod ∨ o.savePoint) then .error .valueError
  else do
    let ps ← Mpi.scanPasses beams scatter size rank
    scanLoop w o true ps i

end Verif.ScanStored
