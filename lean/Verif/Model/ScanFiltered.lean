import Verif.Model.ScanInstrument
import Verif.Model.Filters

/-!
# Model: `scan_instrument_mpi` with the options `filter_4fhwp` and `filter_highpass`

The loops are those of `Verif.Model.ScanInstrument`, with `bin_tod` as in `Verif.Model.Filters`.  A
timeline that a filter turns into NaN is replaced by zeros, and a mark says that there are NaN in
`vec`.
-/

noncomputable section

namespace Verif.ScanFiltered

open Verif.Chunks Verif.Timeline Verif.Spinmaps Verif.MapMaking Verif.ScanInstrument Verif.Filters

/-- The options `filter_4fhwp` and `filter_highpass`, and the attribute `filter_dict`
(instrument.py:1486-1502): cutoff and order, `none` if empty. -/
structure Wanted where
  filter4f : Bool
  highpass : Bool
  dict : Option (ℝ × Nat)

/-- Binned maps, and whether there are NaN in `vec`. -/
structure Out where
  maps : Maps
  nan : Bool

variable {E : Type}

/-- What the filters use: the options, `hwp_dict['mode']`, `hwp_dict['freq']`, `fsamp`, `filter_dict`
(instrument.py:4397-4414). -/
def optsOf (w : World E) (f : Wanted) (hwp : Hwp.State ℝ) : FilterOpts :=
  ⟨f.filter4f, f.highpass, hwp.mode, hwp.freq, w.fsamp, f.dict⟩

/-- `self.bin_tod(beam, tod, add_to_global=True, filter_4fhwp=.., filter_highpass=.., **subchunk)` if
`binning`: the new contents of the timeline and the maps. -/
def binOne (w : World E) (mission : List Chunk) (o : Opts) (f : FilterOpts)
    (flag : Option (List Bool)) (b : BinBeam) (s : Sub) (st : State) (tod : List ℝ) (m : Out) :
    PyM (List ℝ × Out) :=
  if o.binning then do
    let r ← binFiltered w.q mission ⟨w.varphi, w.nsideOut, flag⟩ st (qOff w.x st.rotAngle b.beam)
      b.polangBin f tod .none s m.maps
    match r with
    | some (tod, maps) => .ok (tod, ⟨maps, m.nan⟩)
    | none => do
      let zeros := List.replicate tod.length 0
      let maps ← binTod w.q mission ⟨w.varphi, w.nsideOut, flag⟩ st (qOff w.x st.rotAngle b.beam)
        b.polangBin zeros .none s m.maps
      return (zeros, ⟨maps, true⟩)
  else .ok (tod, m)

/-- Scan and bin one detector (instrument.py:1946-1965 and 1968-1981 without cross-talk).  The
filters change the attribute `tod` in place. -/
def scanBinOne (w : World E) (mission : List Chunk) (o : Opts) (f : FilterOpts)
    (flag : Option (List Bool)) (s : Sub) (ground : Bool) (b : BinBeam) (st : State) (m : Out) :
    PyM (State × Out) := do
  let st ← scanOne w.x mission o b s ground st
  let tod ← todOfState st
  let (tod, m) ← binOne w mission o f flag b s st tod m
  return ({ st with tod := some tod }, m)

/-- Scan, mix and bin two detectors (instrument.py:1946-1996 with `do_ctalk`): filters after mixing.
`tod_a` is a copy, `tod_b` is `self.tod` itself. -/
def scanMix (w : World E) (mission : List Chunk) (o : Opts) (f : FilterOpts)
    (flag : Option (List Bool)) (s : Sub) (ground : Bool) (a b : BinBeam) (st : State) (m : Out) :
    PyM (State × Out) := do
  let st ← scanOne w.x mission o a s ground st
  let todA ← todOfState st
  let st ← scanOne w.x mission o b s ground st
  let todB ← todOfState st
  let (todA, todB) ← Signal.crossTalk todA todB o.ctalk
  let st := { st with tod := some todB }
  let (_, m) ← binOne w mission o f flag a s st todA m
  let (todB, m) ← binOne w mission o f flag b s st todB m
  return ({ st with tod := some todB }, m)

/-- The scanning and binning part of the loop over subchunks (instrument.py:1944-1996). -/
def scanPair (w : World E) (mission : List Chunk) (o : Opts) (f : FilterOpts)
    (flag : Option (List Bool)) (pair : Pair) (s : Sub) (ground : Bool) (st : State) (m : Out) :
    PyM (State × Out) :=
  match live pair.1, live pair.2 with
  | some a, some b =>
    if o.ctalk ≠ 0 then scanMix w mission o f flag s ground a b st m
    else do
      let (st, m) ← scanBinOne w mission o f flag s ground a st m
      scanBinOne w mission o f flag s ground b st m
  | some a, none => scanBinOne w mission o f flag s ground a st m
  | none, some b => scanBinOne w mission o f flag s ground b st m
  | none, none => .ok (st, m)

/-- The strategy, and whether there are NaN in `vec`. -/
structure FInst (E : Type) where
  inst : Inst E
  nan : Bool

/-- One subchunk (instrument.py:1929-1996). -/
def stepSub (w : World E) (o : Opts) (f : Wanted) (pair : Pair) (ground : Bool) (s : Chunk)
    (i : FInst E) : PyM (FInst E) := do
  let rot ← rotStep i.inst.rot s
  let (ang, hwp) ← Hwp.rotateHwp Real.pi w.fsamp i.inst.hwp
    (s.hwpang.map fun (a : ℚ) => (a : ℝ)) s.start s.stop
  let cidx ← cidxOf s
  let st := { i.inst.st with rotAngle := rot.angle, hwpAng := newAng ang i.inst.st.hwpAng }
  let (st, m) ← scanPair w (i.inst.chunks.map (·.1)) o (optsOf w f hwp) i.inst.flag pair
    ⟨s.start, s.stop, cidx⟩ ground st ⟨i.inst.maps, i.nan⟩
  return ⟨{ i.inst with rot := rot, hwp := hwp, st := st, maps := m.maps }, m.nan⟩

/-- The chunk at position `k` (instrument.py:1892-1996); `first` is `bidx == 0`. -/
def stepChunk (w : World E) (o : Opts) (f : Wanted) (pair : Pair) (first : Bool) (i : FInst E)
    (k : Nat) : PyM (FInst E) := do
  let (c, g) ← pyGet i.inst.chunks k
  let (p, el) ← w.implement i.inst.el c (g || o.ground) (!first)
  let (subs, rot) ← subpartChunk i.inst.rot c
  let ground := if i.inst.rot.period then o.ground else g || o.ground
  let chunks := if o.ground ∧ i.inst.rot.period = false then i.inst.chunks.set k (c, true)
    else i.inst.chunks
  let st := { i.inst.st with ctime := p.ctime, qBore := p.bore, qGround := p.ground }
  subs.foldlM (fun i s => stepSub w o f pair ground s i)
    ⟨{ i.inst with rot := rot, el := el, st := st, flag := p.flag, chunks := chunks }, i.nan⟩

/-- The pass over the mission for one pair (instrument.py:1846-1996). -/
def scanPass (w : World E) (o : Opts) (f : Wanted) (first : Bool) (pair : Pair) (i : FInst E) :
    PyM (FInst E) := do
  let j ← if first then .ok i.inst else resetAll w i.inst
  let j ← initPair w o pair j
  if j.chunks.all fun c => c.1.cidx.isSome then
    (List.range j.chunks.length).foldlM (stepChunk w o f pair first) ⟨j, i.nan⟩
  else .error .keyError

/-- The loop over passes on one rank; `none` is `[None, None]`. -/
def scanLoop (w : World E) (o : Opts) (f : Wanted) : Bool → List (Option Pair) → FInst E →
    PyM (FInst E)
  | _, [], i => .ok i
  | first, p :: ps, i => do
    let i ← scanPass w o f first (p.getD (none, none)) i
    scanLoop w o f false ps i

/-- `scan_instrument_mpi` (instrument.py:1724-1996) on rank `rank` of `size`. -/
def scanInstrument (w : World E) (o : Opts) (f : Wanted) (beams : List Pair) (scatter : Bool)
    (size rank : Nat) (i : Inst E) : PyM (FInst E) := do
  let ps ← Mpi.scanPasses beams scatter size rank
  scanLoop w o f true ps ⟨i, false⟩

/-- A scan by all ranks, which start in the same state, with the reduction at the end
(instrument.py:4459-4467): NaN on one rank makes NaN in the sum. -/
def scanAll (w : World E) (o : Opts) (f : Wanted) (beams : List Pair) (scatter : Bool) (size : Nat)
    (i : Inst E) : PyM Out := do
  let is ← (List.range size).mapM fun r => scanInstrument w o f beams scatter size r i
  return ⟨reduceMaps i.maps.length (is.map fun i => i.inst.maps), is.any (·.nan)⟩

end Verif.ScanFiltered
