import Verif.Model.ScanInstrument

/-!
# Model: what an interrupted `scan_instrument_mpi` leaves in the attributes

An exception, a signal or a failing write to the memory map can end the loops at any point.  `Run`
describes a call by its result and by the values the attributes can have while it is executed.  The
results are those of `Verif.Model.ScanInstrument` (proved in `Verif.Lemmas.Interrupted`).  What a single
statement or a call of scanning, binning or numpy leaves half done is not modelled in detail: the
attributes it writes to may then have any value.
-/

noncomputable section

namespace Verif.Interrupted

open Verif.Chunks Verif.Timeline Verif.Spinmaps Verif.MapMaking Verif.ScanInstrument

/-- A call: values of the attributes during its execution, and at its end. -/
structure Run (S : Type) where
  during : S → Prop
  result : PyM S

/-- One call after the other. -/
def Run.andThen {S : Type} (r : Run S) (f : S → Run S) : Run S where
  during s := r.during s ∨ ∃ s', r.result = .ok s' ∧ (f s').during s
  result := r.result >>= fun s => (f s).result

/-- Nothing happens. -/
def Run.skip {S : Type} (s : S) : Run S := ⟨fun s' => s' = s, .ok s⟩

/-- `for a in l`. -/
def Run.each {A S : Type} (f : A → S → Run S) : List A → S → Run S
  | [], s => .skip s
  | a :: l, s => (f a s).andThen (Run.each f l)

/-- `e'` is among the values the attributes of the scan strategy may have while `implement_scan`
(`implement e e'`) or `reset_el_steps` (`reset e e'`), called with `e`, are executed. -/
structure Halfway (E : Type) where
  implement : E → E → Prop
  reset : E → E → Prop

/-- What `rotate_instr`, `subpart_chunk` and `reset_instr_rot` write to (instrument.py:1367-1384,
1545-1630). -/
def RotMoved (r r' : Rot ℝ) : Prop :=
  ∃ angle remainder gen, r' = { r with angle := angle, remainder := remainder, gen := gen }

/-- What `rotate_hwp` and `reset_hwp_mod` write to (instrument.py:1431-1440, 3095-3153). -/
def HwpMoved (h h' : Hwp.State ℝ) : Prop :=
  ∃ angle remainder gen, h' = { h with
    dict := { h.dict with angle := angle, remainder := remainder }, gen := gen }

variable {E : Type}

/-- `rotate_instr` (instrument.py:1938-1940). -/
def rotRun (s : Chunk) (i : Inst E) : Run (Inst E) where
  during i' := ∃ r', RotMoved i.rot r' ∧ i' = { i with rot := r' }
  result := do
    let r ← rotStep i.rot s
    return { i with rot := r }

/-- `rotate_hwp` (instrument.py:1942). -/
def hwpRun (w : World E) (s : Chunk) (i : Inst E) : Run (Inst E) where
  during i' := ∃ h' st', HwpMoved i.hwp h' ∧ i' = { i with hwp := h', st := st' }
  result := do
    let (ang, hwp) ← Hwp.rotateHwp Real.pi w.fsamp i.hwp (s.hwpang.map fun (a : ℚ) => (a : ℝ))
      s.start s.stop
    return { i with hwp := hwp, st := { i.st with
      rotAngle := i.rot.angle, hwpAng := newAng ang i.st.hwpAng } }

/-- Scanning and binning (instrument.py:1944-1996).  `bin_tod` adds to `vec` and to `proj` one after the
other. -/
def obsRun (w : World E) (o : Opts) (pair : Pair) (ground : Bool) (s : Chunk) (i : Inst E) :
    Run (Inst E) where
  during i' := ∃ st' maps', i' = { i with st := st', maps := maps' }
  result := do
    let cidx ← cidxOf s
    let (st, maps) ← scanPair w (i.chunks.map (·.1)) o i.flag pair ⟨s.start, s.stop, cidx⟩ ground i.st
      i.maps
    return { i with st := st, maps := maps }

/-- One subchunk (instrument.py:1929-1996). -/
def subRun (w : World E) (o : Opts) (pair : Pair) (ground : Bool) (s : Chunk) (i : Inst E) :
    Run (Inst E) :=
  ((rotRun s i).andThen (hwpRun w s)).andThen (obsRun w o pair ground s)

/-- `implement_scan` (instrument.py:1910). -/
def pointRun (w : World E) (H : Halfway E) (c : Chunk) (ground pre : Bool) (i : Inst E) :
    Run (Inst E) where
  during i' := ∃ el' st' flag', H.implement i.el el' ∧
    i' = { i with el := el', st := st', flag := flag' }
  result := do
    let (p, el) ← w.implement i.el c ground pre
    return { i with el := el, st := { i.st with
      ctime := p.ctime, qBore := p.bore, qGround := p.ground }, flag := p.flag }

/-- `subpart_chunk` (instrument.py:1927) and the loop over subchunks with the key `ground` (1929-1996);
`g` says whether the chunk had the key. -/
def cutRun (w : World E) (o : Opts) (pair : Pair) (k : Nat) (c : Chunk) (g : Bool) (i : Inst E) :
    Run (Inst E) where
  during i' := (∃ r' chunks', RotMoved i.rot r' ∧
      (chunks' = i.chunks ∨ o.ground = true ∧ chunks' = i.chunks.set k (c, true)) ∧
      i' = { i with rot := r', chunks := chunks' }) ∨
    ∃ subs rot, subpartChunk i.rot c = .ok (subs, rot) ∧
      (Run.each (subRun w o pair (if i.rot.period then o.ground else g || o.ground)) subs
        { i with rot := rot, chunks := if o.ground ∧ i.rot.period = false then i.chunks.set k (c, true)
          else i.chunks }).during i'
  result := do
    let (subs, rot) ← subpartChunk i.rot c
    (Run.each (subRun w o pair (if i.rot.period then o.ground else g || o.ground)) subs
      { i with rot := rot, chunks := if o.ground ∧ i.rot.period = false then i.chunks.set k (c, true)
        else i.chunks }).result

/-- The chunk at position `k` (instrument.py:1892-1996). -/
def chunkRun (w : World E) (H : Halfway E) (o : Opts) (pair : Pair) (first : Bool) (k : Nat)
    (i : Inst E) : Run (Inst E) :=
  match pyGet i.chunks k with
  | .error x => ⟨fun i' => i' = i, .error x⟩
  | .ok (c, g) => (pointRun w H c (g || o.ground) (!first) i).andThen (cutRun w o pair k c g)

/-- The resets before every pass but the first (instrument.py:1848-1852). -/
def resetRun (w : World E) (H : Halfway E) (i : Inst E) : Run (Inst E) where
  during i' := ∃ r' h' el', RotMoved i.rot r' ∧ HwpMoved i.hwp h' ∧
    (el' = i.el ∨ H.reset i.el el') ∧ i' = { i with rot := r', hwp := h', el := el' }
  result := resetAll w i

/-- Spin maps for the pair (instrument.py:1871-1884). -/
def initRun (w : World E) (o : Opts) (pair : Pair) (i : Inst E) : Run (Inst E) where
  during i' := ∃ maps' b, i' = { i with st := { i.st with maps := maps' }, hasMaps := b }
  result := initPair w o pair i

/-- The loop over chunks, after `_init_data` has looked for `cidx` (instrument.py:1886-1996). -/
def chunksRun (w : World E) (H : Halfway E) (o : Opts) (pair : Pair) (first : Bool) (i : Inst E) :
    Run (Inst E) :=
  if i.chunks.all fun c => c.1.cidx.isSome then
    Run.each (chunkRun w H o pair first) (List.range i.chunks.length) i
  else ⟨fun i' => i' = i, .error .keyError⟩

/-- The pass over the mission for one pair (instrument.py:1846-1996). -/
def passRun (w : World E) (H : Halfway E) (o : Opts) (first : Bool) (pair : Pair) (i : Inst E) :
    Run (Inst E) :=
  (((if first then Run.skip i else resetRun w H i)).andThen (initRun w o pair)).andThen
    (chunksRun w H o pair first)

/-- The loop over passes on one rank. -/
def loopRun (w : World E) (H : Halfway E) (o : Opts) : Bool → List (Option Pair) → Inst E →
    Run (Inst E)
  | _, [], i => .skip i
  | first, p :: ps, i =>
    (passRun w H o first (p.getD (none, none)) i).andThen (loopRun w H o false ps)

/-- `scan_instrument_mpi` (instrument.py:1724-1996) on rank `rank` of `size`. -/
def scanRun (w : World E) (H : Halfway E) (o : Opts) (beams : List Pair) (scatter : Bool)
    (size rank : Nat) (i : Inst E) : Run (Inst E) :=
  match Mpi.scanPasses beams scatter size rank with
  | .error x => ⟨fun i' => i' = i, .error x⟩
  | .ok ps => loopRun w H o true ps i

/-- `reset_instr_rot`, `reset_hwp_mod`, `reset_el_steps` and `allocate_maps` called by the user
(instrument.py:1367-1375, 1431-1440, 1473-1484, 1632-1644). -/
def restart (w : World E) (i : Inst E) : PyM (Inst E) := do
  let i ← resetAll w i
  return { i with maps := allocateMaps w.nsideOut }

/-- `scan_instrument_mpi` by all ranks, where rank `r` starts in state `is r`, with the reduction at the
end (instrument.py:1724-1996, 4459-4467). -/
def scanEach (w : World E) (o : Opts) (beams : List Pair) (scatter : Bool) (size : Nat)
    (is : Nat → Inst E) : PyM Maps := do
  let is' ← (List.range size).mapM fun r => scanInstrument w o beams scatter size r (is r)
  return reduceMaps (12 * w.nsideOut ^ 2) (is'.map (·.maps))

/-- What `step_array` and `reset_el_steps` write to (instrument.py:1473-1484, 2060-2126). -/
def ElMoved : Option (Step.ElSteps ℝ) → Option (Step.ElSteps ℝ) → Prop
  | none, none => True
  | some s, some s' => ∃ angle remainder gen, s' = { s with
      dict := { s.dict with angle := angle, remainder := remainder }, gen := gen }
  | _, _ => False

/-- While the generic `implement_scan` or `reset_el_steps` are executed, times, pointing, the contents of
the memory map and the position in the cycle of elevation steps may have any value
(instrument.py:2259-2412, 1473-1484). -/
def genericHalf : Halfway (Scan.State ℝ Quat.Q) where
  implement e e' := e'.flag = e.flag ∧ e'.mmap.map List.length = e.mmap.map List.length ∧
    ElMoved e.el e'.el
  reset e e' := ∃ el', ElMoved e.el el' ∧ e' = { e with el := el' }

end Verif.Interrupted
