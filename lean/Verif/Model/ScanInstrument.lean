import Verif.Model.MapMaking
import Verif.Model.Hwp
import Verif.Model.Mpi
import Verif.Model.ImplementScan

/-!
# Model: the whole of `scan_instrument_mpi`, from beam pairs to reduced maps

Left out: printing, storing of timelines and pointing (see `Verif.Model.Data`), filters (see
`Verif.Model.Filters`), `partition_mission` for a strategy without chunks.  `implement_scan` is a
parameter (see `Verif.Model.ImplementScan` for the generic one), and so is the making of spin maps
(see `Verif.Model.Spinmaps`).
-/

noncomputable section

namespace Verif.ScanInstrument

open Verif.Chunks Verif.Timeline Verif.Spinmaps Verif.MapMaking

/-- `[beam_a, beam_b]`. -/
abbrev Pair := Option BinBeam × Option BinBeam

/-- `beam and not beam.dead`. -/
def live : Option BinBeam → Option BinBeam
  | some b => if b.beam.dead then none else some b
  | none => none

/-- What `implement_scan` leaves in the attributes `ctime`, `q_bore`, `q_boreground` and `flag` (if
there are any). -/
structure Pointing where
  ctime : List ℝ
  bore : List Quat.Q
  ground : Option (List Quat.Q)
  flag : Option (List Bool)

/-- What the loops call.  `implement e c ground pre` is `implement_scan` for chunk `c`, with the
options `ground` and `use_precomputed`; `e` stands for the attributes it keeps (elevation steps,
memory map), which `resetEl` (`reset_el_steps`) resets.  `spinmaps a` are the spin maps
`init_spinmaps` makes for beam `a` and its ghosts, of the sky and, if there is one, of the ground.
`varphi` is `hwp_dict['varphi']` [deg]. -/
structure World (E : Type) where
  x : Ext
  q : QExt
  varphi : ℝ
  nsideOut : Nat
  fsamp : ℝ
  implement : E → Chunk → Bool → Bool → PyM (Pointing × E)
  resetEl : E → PyM E
  spinmaps : BinBeam → PyM (Spinmaps SpinDict)

/-- Arguments of `scan_instrument_mpi`; `ground` is `ground_alm is not None`. -/
structure Opts where
  binning : Bool
  preview : Bool
  interp : Bool
  ctalk : ℝ
  ground : Bool
  reuseSpinmaps : Bool

/-- Attributes of the strategy on one rank.  Every chunk of `self.chunks` comes with a flag: whether
its dictionary has the key `ground`.  `hasMaps` is `hasattr(self, 'spinmaps')`. -/
structure Inst (E : Type) where
  rot : Rot ℝ
  hwp : Hwp.State ℝ
  el : E
  st : State
  flag : Option (List Bool)
  hasMaps : Bool
  chunks : List (Chunk × Bool)
  maps : Maps

variable {E : Type}

/-- `_scan_detector` (instrument.py:3262-3337) with `skip_scan` as an option: the new state.  With
`skip_scan` ghosts and main beam are not scanned but the ground is (3322-3324). -/
def scanOne (x : Ext) (mission : List Chunk) (o : Opts) (b : BinBeam) (s : Sub) (ground : Bool)
    (st : State) : PyM State :=
  if o.preview then
    if ground then
      if b.beam.ghost then .error .valueError
      else do
        let (n, st) ← ghostSkips s b.ghosts 0 st
        let (_, st) ← scan x mission st b.beam s true o.interp (decide (0 < n))
        scanSkip s b.beam true st
    else previewDetector b.beam b.ghosts s st
  else do
    let r ← scanDetector x mission b.beam b.ghosts s ground o.interp false st
    return r.2

/-- `self.bin_tod(beam, tod, add_to_global=True, **subchunk)` if `binning`. -/
def binOne (w : World E) (mission : List Chunk) (o : Opts) (flag : Option (List Bool))
    (b : BinBeam) (s : Sub) (st : State) (tod : List ℝ) (maps : Maps) : PyM Maps :=
  if o.binning then
    binTod w.q mission ⟨w.varphi, w.nsideOut, flag⟩ st (qOff w.x st.rotAngle b.beam) b.polangBin tod .none s maps
  else .ok maps

/-- `self.tod`. -/
def todOfState (st : State) : PyM (List ℝ) :=
  match st.tod with
  | some t => .ok t
  | none => .error .attributeError

/-- Scan and bin one detector (instrument.py:1946-1965 and 1968-1981 without cross-talk). -/
def scanBinOne (w : World E) (mission : List Chunk) (o : Opts) (flag : Option (List Bool)) (s : Sub)
    (ground : Bool) (b : BinBeam) (st : State) (maps : Maps) : PyM (State × Maps) := do
  let st ← scanOne w.x mission o b s ground st
  let tod ← todOfState st
  let maps ← binOne w mission o flag b s st tod maps
  return (st, maps)

/-- Scan, mix and bin two detectors (instrument.py:1946-1996 with `do_ctalk`).  `tod_b` is `self.tod`
itself, which the mixing changes in place. -/
def scanMix (w : World E) (mission : List Chunk) (o : Opts) (flag : Option (List Bool)) (s : Sub)
    (ground : Bool) (a b : BinBeam) (st : State) (maps : Maps) : PyM (State × Maps) := do
  let st ← scanOne w.x mission o a s ground st
  let todA ← todOfState st
  let st ← scanOne w.x mission o b s ground st
  let todB ← todOfState st
  let (todA, todB) ← Signal.crossTalk todA todB o.ctalk
  let st := { st with tod := some todB }
  let maps ← binOne w mission o flag a s st todA maps
  let maps ← binOne w mission o flag b s st todB maps
  return (st, maps)

/-- The scanning and binning part of the loop over subchunks (instrument.py:1944-1996).  `do_ctalk`
is true exactly when both detectors are live and `ctalk` is not zero. -/
def scanPair (w : World E) (mission : List Chunk) (o : Opts) (flag : Option (List Bool)) (pair : Pair)
    (s : Sub) (ground : Bool) (st : State) (maps : Maps) : PyM (State × Maps) :=
  match live pair.1, live pair.2 with
  | some a, some b =>
    if o.ctalk ≠ 0 then scanMix w mission o flag s ground a b st maps
    else do
      let (st, maps) ← scanBinOne w mission o flag s ground a st maps
      scanBinOne w mission o flag s ground b st maps
  | some a, none => scanBinOne w mission o flag s ground a st maps
  | none, some b => scanBinOne w mission o flag s ground b st maps
  | none, none => .ok (st, maps)

/-- `self.hwp_ang` as scanning sees it. -/
def hwpAngOf : Hwp.Ang ℝ → HwpAng
  | .scalar a => .fixed a
  | .array a => .array a

/-- The new `self.hwp_ang`; it is left alone for an unknown mode. -/
def newAng (ang : Option (Hwp.Ang ℝ)) (old : Option HwpAng) : Option HwpAng :=
  match ang with
  | some a => some (hwpAngOf a)
  | none => old

/-- `if not subchunk.get('norot', False): self.rotate_instr()` (instrument.py:1938-1940). -/
def rotStep (r : Rot ℝ) (s : Chunk) : PyM (Rot ℝ) :=
  if s.norot then .ok r else r.rotate

/-- `subchunk['cidx']` as used by `_chunk2idx`: None is a TypeError. -/
def cidxOf (s : Chunk) : PyM Int :=
  match s.cidx with
  | some c => .ok c
  | none => .error .typeError

/-- One subchunk (instrument.py:1929-1996). -/
def stepSub (w : World E) (o : Opts) (pair : Pair) (ground : Bool) (s : Chunk) (i : Inst E) :
    PyM (Inst E) := do
  let rot ← rotStep i.rot s
  let (ang, hwp) ← Hwp.rotateHwp Real.pi w.fsamp i.hwp (s.hwpang.map fun (a : ℚ) => (a : ℝ))
    s.start s.stop
  let cidx ← cidxOf s
  let st := { i.st with rotAngle := rot.angle, hwpAng := newAng ang i.st.hwpAng }
  let (st, maps) ← scanPair w (i.chunks.map (·.1)) o i.flag pair ⟨s.start, s.stop, cidx⟩ ground st
    i.maps
  return { i with rot := rot, hwp := hwp, st := st, maps := maps }

/-- The chunk at position `k` (instrument.py:1892-1996); `first` is `bidx == 0`.  Without rotation
`subpart_chunk` returns the chunk itself, so `subchunk['ground'] = True` (1931-1932) changes
`self.chunks`. -/
def stepChunk (w : World E) (o : Opts) (pair : Pair) (first : Bool) (i : Inst E) (k : Nat) :
    PyM (Inst E) := do
  let (c, g) ← pyGet i.chunks k
  let (p, el) ← w.implement i.el c (g || o.ground) (!first)
  let (subs, rot) ← subpartChunk i.rot c
  let ground := if i.rot.period then o.ground else g || o.ground
  let chunks := if o.ground ∧ i.rot.period = false then i.chunks.set k (c, true) else i.chunks
  let st := { i.st with ctime := p.ctime, qBore := p.bore, qGround := p.ground }
  subs.foldlM (fun i s => stepSub w o pair ground s i)
    { i with rot := rot, el := el, st := st, flag := p.flag, chunks := chunks }

/-- Resets before every pass but the first (instrument.py:1848-1852). -/
def resetAll (w : World E) (i : Inst E) : PyM (Inst E) := do
  let el ← w.resetEl i.el
  return { i with rot := i.rot.reset, hwp := i.hwp.reset, el := el }

/-- Spin maps for the pair (instrument.py:1871-1884, 1646-1722): those of detector A.
`beam_a.ghosts` of None is an AttributeError. -/
def initPair (w : World E) (o : Opts) (pair : Pair) (i : Inst E) : PyM (Inst E) :=
  match pair with
  | (none, none) => .ok i
  | (a, _) =>
    if o.preview then .ok i
    else if i.hasMaps && o.reuseSpinmaps then .ok i
    else match a with
      | none => .error .attributeError
      | some a => do
        let sm ← w.spinmaps a
        return { i with st := { i.st with maps := sm }, hasMaps := true }

/-- The pass over the mission for one pair (instrument.py:1846-1996).  `_init_data` needs
`chunk['cidx']`. -/
def scanPass (w : World E) (o : Opts) (first : Bool) (pair : Pair) (i : Inst E) :
    PyM (Inst E) := do
  let i ← if first then .ok i else resetAll w i
  let i ← initPair w o pair i
  if i.chunks.all fun c => c.1.cidx.isSome then
    (List.range i.chunks.length).foldlM (stepChunk w o pair first) i
  else .error .keyError

/-- The loop over passes on one rank; `none` is `[None, None]`. -/
def scanLoop (w : World E) (o : Opts) : Bool → List (Option Pair) → Inst E → PyM (Inst E)
  | _, [], i => .ok i
  | first, p :: ps, i => do
    let i ← scanPass w o first (p.getD (none, none)) i
    scanLoop w o false ps i

/-- `scan_instrument_mpi` (instrument.py:1724-1996) on rank `rank` of `size`. -/
def scanInstrument (w : World E) (o : Opts) (beams : List Pair) (scatter : Bool)
    (size rank : Nat) (i : Inst E) : PyM (Inst E) := do
  let ps ← Mpi.scanPasses beams scatter size rank
  scanLoop w o true ps i

/-- `reduce_array` of `vec` and `proj` in `solve_for_map` (instrument.py:4459-4467, 180-209):
elementwise sum over ranks. -/
def reduceMaps (npix : Nat) (ms : List Maps) : Maps :=
  ms.foldl (fun acc m => List.zipWith (· + ·) acc m) (List.replicate npix 0)

/-- A scan by all ranks, which start in the same state, with the reduction at the end. -/
def scanAll (w : World E) (o : Opts) (beams : List Pair) (scatter : Bool) (size : Nat)
    (i : Inst E) : PyM Maps := do
  let is ← (List.range size).mapM fun r => scanInstrument w o beams scatter size r i
  return reduceMaps i.maps.length (is.map (·.maps))

/-- The generic `implement_scan` (instrument.py:2129-2415) for chunk `c`: the attributes it leaves. -/
def genericImplement (site : Scan.Site ℝ Quat.Q) (o : Scan.Opts ℝ) (e : Scan.State ℝ Quat.Q)
    (c : Chunk) (ground pre : Bool) : PyM (Pointing × Scan.State ℝ Quat.Q) := do
  let e ← Scan.implementScan site { o with ground := ground } pre c.start c.stop e
  return (⟨e.ctime, e.qBore, e.qGround, e.flag⟩, e)

/-- `reset_el_steps` (instrument.py:1473-1484). -/
def genericReset (e : Scan.State ℝ Quat.Q) : PyM (Scan.State ℝ Quat.Q) := do
  let el ← Scan.resetEl e.el
  return { e with el := el }

end Verif.ScanInstrument
