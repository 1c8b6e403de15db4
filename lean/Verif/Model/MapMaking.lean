import Verif.Model.Timeline
import Verif.Model.Signal

/-!
# Model: binning timelines into maps (`allocate_maps`, `bin_tod`, `solve_for_map`)

qpoint's `hwp_quat`, the pixel and angle of a sample, and the per-pixel solution of the map are
external functions; the sums over samples of `from_tod` are written down here from its
documentation.  `vec` (3, npix) and `proj` (6, npix) are kept as one list of cells, a cell holding
the 3 + 6 numbers of a pixel.  Exact arithmetic.
-/

noncomputable section

namespace Verif.MapMaking

open Verif.Chunks Verif.Timeline

/-- The column of `vec` and the column of `proj` that belong to a pixel. -/
@[ext] structure Cell where
  vec : Fin 3 → ℝ
  proj : Fin 6 → ℝ

instance : Zero Cell := ⟨⟨0, 0⟩⟩

instance : Add Cell := ⟨fun a b => ⟨a.vec + b.vec, a.proj + b.proj⟩⟩

/-- Binned maps: one cell for each pixel. -/
abbrev Maps := List Cell

/-- `allocate_maps` (instrument.py:1632-1644). -/
def allocateMaps (nside : Nat) : Maps := List.replicate (12 * nside ^ 2) 0

/-- qpoint.  `hwpQuat` takes degrees.  `quat2pix qBore qHwp qOff t nside` is the pixel of a sample
and the cosine and sine of twice its polarization angle, as used by `from_tod`. `solve v P fill`
solves one pixel. -/
structure QExt where
  hwpQuat : ℝ → Quat.Q
  quat2pix : Quat.Q → Quat.Q → Quat.Q → ℝ → Nat → Int × ℝ × ℝ
  solve : (Fin 3 → ℝ) → (Fin 6 → ℝ) → ℝ → (Fin 3 → ℝ)

/-- What a sample with value `d` adds to its pixel (qpoint, `from_tod`): `(1, cos, sin) d` and the
upper triangle of the outer product of `(1, cos, sin)` with itself. -/
def sampleCell (c s d : ℝ) : Cell :=
  ⟨![d, c * d, s * d], ![1, c, s, c * c, c * s, s * s]⟩

/-- One sample is added to the maps. -/
def deposit (m : Maps) (p : Int × ℝ × ℝ) (d : ℝ) : Maps :=
  m.modify p.1.toNat fun x => x + sampleCell p.2.1 p.2.2 d

/-- The loop of `from_tod` over the samples: pointing, value and flag. -/
def fromTod (m : Maps) : List ((Int × ℝ × ℝ) × ℝ × Bool) → Maps
  | [] => m
  | (p, d, f) :: xs => fromTod (if f then m else deposit m p d) xs

/-- The argument `flag` of `bin_tod`. -/
inductive FlagArg
  | none
  | bool (b : Bool)
  | array (a : List Bool)

/-- Flag handling (instrument.py:4419-4425), `flags` being the attribute `flag`: the flags that are
handed to qpoint.  `elif flag:` is the truth value of an array: ValueError for more than one
element.  `True[np.newaxis]` is a TypeError.  (An empty array counts as false and is passed on.) -/
def flagOf (flags : Option (List Bool)) (i j : Int) : FlagArg → PyM (Option (List Bool))
  | .bool false => .ok Option.none
  | .bool true => .error .typeError
  | .none =>
    match flags with
    | some f => .ok (some (pySlice f i j))
    | Option.none => .ok Option.none
  | .array a => if 1 < a.length then .error .valueError else .ok (some a)

/-- `self.hwp_ang` in degrees minus `varphi`, for sample `k`. -/
def hwpAt (hwp : HwpAng) (varphi : ℝ) (k : Nat) : ℝ :=
  match hwp with
  | .fixed a => degrees a - varphi
  | .array a => degrees ((a[k]?).getD 0) - varphi

/-- `q_off` with the detector angle as first rotation (instrument.py:4381-4389). -/
def binOff (qOff : Quat.Q) (polang : ℝ) : Quat.Q :=
  let polang := -(radians polang)
  Quat.quatLeftMult qOff ![Real.cos (polang / 2), 0, 0, Real.sin (polang / 2)]

/-- Attributes of the strategy that only `bin_tod` uses: `hwp_dict['varphi']` [deg], `nside_out` and
`flag`, if it is there. -/
structure Setup where
  varphi : ℝ
  nsideOut : Nat
  flag : Option (List Bool)

/-- Number of samples matches: qpoint checks that the arrays have the same size. -/
def sameSize (n : Nat) (hwp : HwpAng) (tod : List ℝ) (flag : Option (List Bool)) : Bool :=
  decide (tod.length = n) && (flag.all fun f => decide (f.length = n)) &&
    (match hwp with
      | .fixed _ => true
      | .array a => decide (a.length = n))

/-- The pointing of the samples as `from_tod` sees it. -/
def binPointing (q : QExt) (hwp : HwpAng) (varphi : ℝ) (nside : Nat) (off : Quat.Q)
    (times : List ℝ) (bore : List Quat.Q) : List (Int × ℝ × ℝ) :=
  (List.range bore.length).map fun (k : Nat) =>
    q.quat2pix ((bore[k]?).getD 0) (q.hwpQuat (hwpAt hwp varphi k)) off ((times[k]?).getD 0) nside

/-- The flags of the samples. -/
def flagList (n : Nat) : Option (List Bool) → List Bool
  | some f => f
  | Option.none => List.replicate n false

/-- `bin_tod` (instrument.py:4339-4432) with `init=True` and without filters: `qOff` is
`beam.q_off`, `polang` is `beam.polang`, `tod` the argument or the attribute `tod`.  Returns the
local maps (`depo`).  AttributeError if `rotate_hwp` has not set `hwp_ang`. -/
def binLocal (q : QExt) (mission : List Chunk) (su : Setup) (st : State) (qOff : Quat.Q)
    (polang : ℝ) (tod : List ℝ) (flag : FlagArg) (s : Sub) : PyM Maps := do
  let hwp ← match st.hwpAng with
    | some h => .ok h
    | Option.none => .error .attributeError
  let (i, j) ← chunk2idx mission s.start s.stop s.cidx
  let bore := pySlice st.qBore i j
  let times := pySlice st.ctime i j
  let flag ← flagOf su.flag i j flag
  if sameSize bore.length hwp tod flag then
    return fromTod (allocateMaps su.nsideOut) (List.zip
      (binPointing q hwp su.varphi su.nsideOut (binOff qOff polang) times bore)
      (List.zip tod (flagList bore.length flag)))
  else .error .valueError

/-- `bin_tod` with `add_to_global` (instrument.py:4429-4432): the local maps are added to the
global ones, `vec` and `proj`. -/
def binTod (q : QExt) (mission : List Chunk) (su : Setup) (st : State) (qOff : Quat.Q)
    (polang : ℝ) (tod : List ℝ) (flag : FlagArg) (s : Sub) (maps : Maps) : PyM Maps := do
  let depo ← binLocal q mission su st qOff polang tod flag s
  iadd maps depo

/-- `solve_for_map` (instrument.py:4434-4485) on the root rank: `solve_map` of qpoint pixel by
pixel. (The condition numbers are not modelled.) -/
def solveForMap (q : QExt) (maps : Maps) (fill : ℝ) : List (Fin 3 → ℝ) :=
  maps.map fun c => q.solve c.vec c.proj fill

/-- A detector for scanning and binning: `polangBin` is `beam.polang`, the field `polang` of the
beam is `polang_truth`. -/
structure BinBeam where
  beam : Beam
  ghosts : List Beam
  polangBin : ℝ

/-- Scan and bin one detector in one subchunk (instrument.py:1946-1966), without cross-talk:
`_scan_detector`, which sets `beam.q_off` (3491-3492), then `bin_tod` with the attribute `tod`. -/
def scanBin (x : Ext) (q : QExt) (mission : List Chunk) (su : Setup) (b : BinBeam) (s : Sub)
    (ground interp savePoint : Bool) (st : State) (maps : Maps) : PyM (State × Maps) := do
  let r ← scanDetector x mission b.beam b.ghosts s ground interp savePoint st
  let maps ← binTod q mission su r.2 (qOff x st.rotAngle b.beam) b.polangBin r.1.tod .none s maps
  return (r.2, maps)

/-- With `preview_pointing` (instrument.py:3494-3503, 3262-3337): `scan` only makes a timeline of
zeros; dead beams are rejected.  With a ground the first scan of the main beam is not skipped
(3322-3324), so this is for `ground_alm=None`. `self.tod` after ghosts and main beam. -/
def scanSkip (s : Sub) (b : Beam) (addToTod : Bool) (st : State) : PyM State :=
  if b.dead then .error .valueError
  else do
    let tod ← addTod addToTod st.tod (List.replicate (s.stop - s.start).toNat 0)
    return { st with tod := some tod }

/-- The loop over ghosts with `skip_scan`. -/
def ghostSkips (s : Sub) : List Beam → Nat → State → PyM (Nat × State)
  | [], n, st => .ok (n, st)
  | g :: gs, n, st =>
    if g.dead then ghostSkips s gs n st
    else do
      let st ← scanSkip s g (decide (n ≠ 0)) st
      ghostSkips s gs (n + 1) st

/-- `_scan_detector` with `skip_scan`. -/
def previewDetector (b : Beam) (ghosts : List Beam) (s : Sub) (st : State) : PyM State :=
  if b.ghost then .error .valueError
  else do
    let (n, st) ← ghostSkips s ghosts 0 st
    scanSkip s b (decide (0 < n)) st

/-- `scanBin` with `preview_pointing`. -/
def previewBin (x : Ext) (q : QExt) (mission : List Chunk) (su : Setup) (b : BinBeam) (s : Sub)
    (st : State) (maps : Maps) : PyM (State × Maps) := do
  let st' ← previewDetector b.beam b.ghosts s st
  let maps ← binTod q mission su st' (qOff x st.rotAngle b.beam) b.polangBin
    (st'.tod.getD []) .none s maps
  return (st', maps)

end Verif.MapMaking
