import Verif.Model.Spinmaps
import Verif.Model.Quat
import Verif.Model.Angles
import Verif.Model.Chunks
import Mathlib.Analysis.SpecialFunctions.Trigonometric.Basic

/-!
# Model: scanning a beam into a timeline (`_scan_modulate_pa`, `scan`, `_scan_detector`)

qpoint's `det_offset`, `bore2radec` and `bore2pix` and healpy's interpolation weights are arbitrary
functions, elementwise over samples.  Exact arithmetic.
-/

noncomputable section

namespace Verif.Timeline

open Verif.Spin Verif.Spinmaps Verif.Chunks Complex

/-- `a += b` for arrays over any type: the left array cannot grow. -/
def iadd {α : Type} [Add α] (a b : List α) : PyM (List α) :=
  if a.length = b.length then .ok (List.zipWith (· + ·) a b)
  else match b with
    | [y] => .ok (a.map (· + y))
    | _ => .error .valueError

/-- `a *= b` for arrays over any type. -/
def imul {α : Type} [Mul α] (a b : List α) : PyM (List α) :=
  if a.length = b.length then .ok (List.zipWith (· * ·) a b)
  else match b with
    | [y] => .ok (a.map (· * y))
    | _ => .error .valueError

/-- Where the samples look: pixel numbers, or (with `interp`) for each sample the pixels and
weights of `hp.get_interp_val`, which is the weighted sum of the map (healpy). -/
inductive Look
  | pix (p : List Int)
  | interp (w : List (List (Int × ℝ)))

/-- `maps[sidx, pix]` or `hp.get_interp_val(maps[sidx], dec, ra)` (instrument.py:3782-3786). -/
def Look.get (m : List ℂ) : Look → PyM (List ℂ)
  | .pix p => p.mapM fun i => pyGet m i
  | .interp w => w.mapM fun ws => do
      let xs ← ws.mapM fun iw => do
        let x ← pyGet m iw.1
        return x * (iw.2 : ℂ)
      return xs.sum

/-- `np.array_equal(s_vals, np.arange(s_vals[0], s_vals[-1] + 1))` (instrument.py:3767). -/
def consecutive (sVals : List Int) (first last : Int) : Bool :=
  sVals = intRange first (last + 1 - first).toNat

/-- `np.exp(-1j * pa * spin)`. -/
def phase (pa : List ℝ) (spin : Int) : List ℂ := pa.map fun (x : ℝ) => exp (-I * (x : ℂ) * (spin : ℂ))

/-- What is added to the timeline: for `reality` the real part, twice for non-zero spin
(instrument.py:3791-3796). -/
structure Conv (R : Type) where
  conv : Int → ℂ → R

def convC : Conv ℂ := ⟨fun _ z => z⟩

def convR : Conv ℝ := ⟨fun s z => if s = 0 then z.re else z.re * 2⟩

/-- `if spin != 0: scan *= expmipas` (instrument.py:3788-3789). -/
def rotateScan (spin : Int) (scan e : List ℂ) : PyM (List ℂ) :=
  if spin ≠ 0 then imul scan e else .ok scan

/-- The loop of `_scan_modulate_pa` (instrument.py:3774-3798) from position `sidx`; `e` is
`expmipas` from the previous iteration. -/
def modLoop {R : Type} [Add R] (c : Conv R) (recursion : Bool) (pa : List ℝ) (look : Look)
    (maps : List (List ℂ)) : List Int → Nat → List ℂ → List R → PyM (List R)
  | [], _, _, tod => .ok tod
  | spin :: ss, sidx, e, tod => do
    let e := if recursion ∧ sidx ≠ 0 then List.zipWith (· * ·) e (phase pa 1)
      else phase pa spin
    let m ← pyGet maps sidx
    let scan ← look.get m
    let scan ← rotateScan spin scan e
    let tod ← iadd tod (scan.map (c.conv spin))
    modLoop c recursion pa look maps ss (sidx + 1) e tod

/-- `_scan_modulate_pa` (instrument.py:3727-3798) without `reality`: `tod` is complex.
`s_vals[0]` of an empty array is an IndexError. -/
def modulateC (tod : List ℂ) (look : Look) (pa : List ℝ) (maps : List (List ℂ))
    (sVals : List Int) : PyM (List ℂ) := do
  let s0 ← pyGet sVals 0
  let s1 ← pyGet sVals (-1)
  modLoop convC (consecutive sVals s0 s1) pa look maps sVals 0 (phase pa s0) tod

/-- `_scan_modulate_pa` (instrument.py:3727-3798) with `reality=True`: `tod` is real.  `.min()` of
an empty array is a ValueError. -/
def modulateR (tod : List ℝ) (look : Look) (pa : List ℝ) (maps : List (List ℂ))
    (sVals : List Int) : PyM (List ℝ) :=
  if sVals = [] ∨ sVals.any (· < 0) then .error .valueError
  else do
    let s0 ← pyGet sVals 0
    let s1 ← pyGet sVals (-1)
    modLoop convR (consecutive sVals s0 s1) pa look maps sVals 0 (phase pa s0) tod

/-- `self.hwp_ang`: one number or an array [rad]. -/
inductive HwpAng
  | fixed (a : ℝ)
  | array (a : List ℝ)

/-- `f(hwp_ang)` for an elementwise function, as the second operand of `*=`. -/
def HwpAng.map {α : Type} (f : ℝ → α) : HwpAng → List α
  | .fixed a => [f a]
  | .array a => a.map f

/-- `np.degrees(x)`. -/
def degrees (x : ℝ) : ℝ := x * 180 / Real.pi

/-- `np.radians(x)`. -/
def radians (x : ℝ) : ℝ := x * Real.pi / 180

/-- `spinmaps[mode]`. -/
def entry (d : SpinDict) (m : Mode) : PyM Entry :=
  match List.lookup m d with
  | some e => .ok e
  | none => .error .keyError

/-- `*=` by an array that may be of size one because it comes from a number. -/
def imulHwp {α : Type} [Mul α] (a : List α) (f : ℝ → α) : HwpAng → PyM (List α)
  | .fixed h => .ok (a.map (· * f h))
  | .array h => imul a (h.map f)

/-- The maps of `s0a2` for non-negative spins with the polarization angle put in
(instrument.py:3656-3679): `maps_re` and `maps_im`. -/
def s0a2Maps (e : Entry) (polang : ℝ) : PyM (List (List ℂ × List ℂ)) :=
  (((List.range e.sVals.length).filter fun i => decide (0 ≤ (e.sVals[i]?).getD (-1)))).mapM
    fun (i : Nat) => do
      let spin ← pyGet e.sVals i
      -- `np.where(s_vals == -spin)[0][0]`
      let j : Nat ← if spin ≠ 0 then
          (if (e.sVals.idxOf (-spin)) < e.sVals.length then .ok (e.sVals.idxOf (-spin))
           else .error .indexError)
        else .ok i
      let pos ← pyGet e.maps i
      let neg ← pyGet e.maps j
      let pos := pos.map fun x => x * exp (I * 2 * (radians polang : ℂ))
      let neg := neg.map fun x => x * exp (-I * 2 * (radians polang : ℂ))
      return (List.zipWith (fun p n => 1 / 2 * (p + star n)) pos neg,
        List.zipWith (fun p n => I / 2 * (p - star n)) pos neg)

/-- `Re(tod_c * expm2)` of a polarized component (instrument.py:3594-3603, 3613-3632): the phase is
`exp(i (k hwp_ang + 2 c polang))`. -/
def polPart (n : Nat) (look : Look) (pa : List ℝ) (e : Entry) (f : ℝ → ℂ) (hwp : HwpAng) :
    PyM (List ℝ) := do
  let t ← modulateC (List.replicate n 0) look pa e.maps e.sVals
  let t ← imulHwp t f hwp
  return t.map fun z => z.re

/-- The timeline of one beam in the old behaviour (instrument.py:3593-3609). -/
def todOld (n : Nat) (look : Look) (pa : List ℝ) (d : SpinDict) (polang : ℝ) (hwp : HwpAng) :
    PyM (List ℝ) := do
  let e24 ← entry d .s2a4
  let tod ← polPart n look pa e24 (fun a => exp (I * (4 * (a : ℂ) + 2 * (radians polang : ℂ)))) hwp
  let e00 ← entry d .s0a0
  modulateR tod look pa e00.maps e00.sVals

/-- The timeline of one beam in the new behaviour (instrument.py:3612-3697). -/
def todNew (n : Nat) (look : Look) (pa : List ℝ) (d : SpinDict) (polang : ℝ) (hwp : HwpAng) :
    PyM (List ℝ) := do
  let e24 ← entry d .s2a4
  let tod ← polPart n look pa e24 (fun a => exp (I * (4 * (a : ℂ) + 2 * (radians polang : ℂ)))) hwp
  let e22 ← entry d .s2a2
  let t22 ← polPart n look pa e22 (fun a => exp (I * (2 * (a : ℂ)))) hwp
  let tod ← iadd tod t22
  let e20 ← entry d .s2a0
  let t20 ← modulateC (List.replicate n 0) look pa e20.maps e20.sVals
  let tod ← iadd tod (t20.map fun z => z.re)
  let e02 ← entry d .s0a2
  -- `spinmaps['s0a2']['maps'][0].size`
  let _ ← pyGet e02.maps 0
  let ms ← s0a2Maps e02 polang
  let sNonneg := e02.sVals.filter fun s => decide (0 ≤ s)
  let t ← modulateR (List.replicate n 0) look pa (ms.map (·.1)) sNonneg
  let t ← imulHwp t (fun a => Real.cos (2 * a)) hwp
  let tod ← iadd tod t
  let t ← modulateR (List.replicate n 0) look pa (ms.map (·.2)) sNonneg
  let t ← imulHwp t (fun a => Real.sin (2 * a)) hwp
  let tod ← iadd tod t
  let e00 ← entry d .s0a0
  modulateR tod look pa e00.maps e00.sVals

/-- `set(spinmaps.keys()) == set(['s0a0', 's2a4'])`. -/
def isOld (d : SpinDict) : Bool :=
  decide (Mode.s0a0 ∈ d.map (·.1)) && decide (Mode.s2a4 ∈ d.map (·.1)) &&
    (d.map (·.1)).all fun m => decide (m = .s0a0 ∨ m = .s2a4)

/-- The timeline of one beam (instrument.py:3591-3697). -/
def todOf (n : Nat) (look : Look) (pa : List ℝ) (d : SpinDict) (polang : ℝ) (hwp : HwpAng) :
    PyM (List ℝ) :=
  if isOld d then todOld n look pa d polang hwp else todNew n look pa d polang hwp

/-- Checks of the spin maps, and `nside_spin` (instrument.py:3514-3528): `prev` is
`nside_spin_previous`; `none` if there are no maps. -/
def checkMaps : SpinDict → Option Nat → PyM (Option Nat)
  | [], prev => .ok prev
  | (_, e) :: d, prev =>
    if e.maps.length ≠ e.sVals.length then .error .valueError
    else do
      -- `maps.shape[1]`
      let m0 ← pyGet e.maps 0
      let ns ← npix2nside m0.length
      if prev.any (· ≠ ns) then .error .valueError
      else checkMaps d (some ns)

/-- A beam as far as scanning is concerned; `polang` is `polang_truth`. -/
structure Beam where
  dead : Bool
  ghost : Bool
  ghostIdx : Int
  az : ℝ
  el : ℝ
  polang : ℝ

/-- External functions.  `weights nside theta phi` are the pixels and weights of
`hp.get_interp_val`. -/
structure Ext where
  detOffset : ℝ → ℝ → ℝ → Quat.Q
  bore2pix : Quat.Q → ℝ → Quat.Q → Nat → Int × ℝ
  bore2radec : Quat.Q → ℝ → Quat.Q → ℝ × ℝ × ℝ
  weights : Nat → ℝ → ℝ → List (Int × ℝ)
  ang2pix : Nat → ℝ → ℝ → Int

/-- Attributes of the strategy that `scan` uses or sets. `rotAngle` is `rot_dict['angle']` [deg];
`hwpAng` is `none` if there is no such attribute. -/
structure State where
  ctime : List ℝ
  qBore : List Quat.Q
  qGround : Option (List Quat.Q)
  rotAngle : ℝ
  hwpAng : Option HwpAng
  maps : Spinmaps SpinDict
  tod : Option (List ℝ)

/-- Keyword arguments: `start`, `end`, `cidx`, and whether there is a key `ground`. -/
structure Sub where
  start : Int
  stop : Int
  cidx : Int

/-- `q_off` (instrument.py:3477-3488). -/
def qOff (x : Ext) (rotAngle : ℝ) (b : Beam) : Quat.Q :=
  let ang := radians rotAngle
  Quat.quatLeftMult ![Real.cos (ang / 2), 0, 0, Real.sin (ang / 2)] (x.detOffset b.az b.el 0)

/-- The dictionary of maps that is scanned (instrument.py:3505-3512). -/
def mapsFor (m : Spinmaps SpinDict) (b : Beam) (ground : Bool) : PyM SpinDict :=
  if ground then .ok (m.ground.getD [])
  else if b.ghost then do
    let d ← pyGet m.ghosts b.ghostIdx
    return d.getD []
  else .ok m.main

/-- `pa` in the code's convention, `pi - radians(pa)` (instrument.py:3573-3576). -/
def convPa (pa : ℝ) : ℝ := radians pa * (-1) + Real.pi

/-- Pixels and position angles of the samples (instrument.py:3533-3583); with
`interp` after `radec2colatlong`, when `ra` is phi and `dec` theta. The pixel numbers for the return value are the last component. -/
def pointing (x : Ext) (interp : Bool) (q : Quat.Q) (nside : Nat) (times : List ℝ)
    (bore : List Quat.Q) : Look × List ℝ × List Int :=
  if interp then
    let s := List.zipWith (fun t b => x.bore2radec q t b) times bore
    let th := fun (r : ℝ × ℝ × ℝ) => (Angles.radec2colatlong1 r.1 r.2.1).2
    let ph := fun (r : ℝ × ℝ × ℝ) => (Angles.radec2colatlong1 r.1 r.2.1).1
    (.interp (s.map fun r => x.weights nside (th r) (ph r)), s.map fun r => convPa r.2.2,
      s.map fun r => x.ang2pix nside (th r) (ph r))
  else
    let s := List.zipWith (fun t b => x.bore2pix q t b nside) times bore
    (.pix (s.map (·.1)), s.map fun r => convPa r.2, s.map (·.1))

/-- What `scan` returns with `return_tod` and `return_point`: timeline, pixels, angles [deg] and
HWP angle [deg]. -/
structure Ret where
  tod : List ℝ
  pix : List Int
  pa : List ℝ
  hwp : HwpAng

/-- `if add_to_tod and hasattr(self, 'tod'): self.tod += tod else: self.tod = tod`
(instrument.py:3699-3702). -/
def addTod (addToTod : Bool) (old : Option (List ℝ)) (tod : List ℝ) : PyM (List ℝ) :=
  match addToTod, old with
  | true, some t => iadd t tod
  | _, _ => .ok tod

/-- `scan` (instrument.py:3394-3725) with `return_tod` and `return_point`; the caller uses what it
asked for.  `mission` are the chunks of `_chunk2idx`. Dead beams and `start`/`end` are checked; not
modelled: `skip_scan` (see `scanSkip`), setting `beam.q_off` and `self.pix`. -/
def scan (x : Ext) (mission : List Chunk) (st : State) (b : Beam) (s : Sub) (ground interp : Bool)
    (addToTod : Bool) : PyM (Ret × State) := do
  if b.dead then .error .valueError
  else
    let q := qOff x st.rotAngle b
    let d ← mapsFor st.maps b ground
    let ns ← checkMaps d none
    let (i, j) ← chunk2idx mission s.start s.stop s.cidx
    let bore ← if ground then (match st.qGround with
        | some g => .ok g
        | none => .error .attributeError) else .ok st.qBore
    -- `nside_spin` is unbound without maps
    let nside ← match ns with
      | some n => .ok n
      | none => if interp then .error .keyError else .error .nameError
    let (look, pa, pix) := pointing x interp q nside (pySlice st.ctime i j) (pySlice bore i j)
    let hwp := st.hwpAng.getD (.fixed 0)
    let tod ← todOf (s.stop - s.start).toNat look pa d b.polang hwp
    let tod ← addTod addToTod st.tod tod
    return (⟨tod, pix, pa.map degrees, match hwp with
      | .fixed a => .fixed (degrees a)
      | .array a => .array (a.map degrees)⟩, { st with tod := some tod })

/-- The loop over ghosts of `_scan_detector` (instrument.py:3301-3316): `n` counts live ghosts. -/
def ghostScans (x : Ext) (mission : List Chunk) (s : Sub) (ground interp : Bool) :
    List Beam → Nat → State → PyM (Nat × State)
  | [], n, st => .ok (n, st)
  | g :: gs, n, st =>
    if g.dead then ghostScans x mission s ground interp gs n st
    else do
      let (_, st) ← scan x mission st g s ground interp (decide (n ≠ 0))
      ghostScans x mission s ground interp gs (n + 1) st

/-- `_scan_detector` (instrument.py:3262-3337) up to storing the result (see
`Verif.Data.storeRet`): the ghosts, then the ground, then the main beam.  With a ground and
`save_point` the code uses names that are not yet bound: NameError. -/
def scanDetector (x : Ext) (mission : List Chunk) (b : Beam) (ghosts : List Beam) (s : Sub)
    (ground interp savePoint : Bool) (st : State) : PyM (Ret × State) :=
  if b.ghost then .error .valueError
  else do
    let (n, st) ← ghostScans x mission s ground interp ghosts 0 st
    if ground then
      let (_, st) ← scan x mission st b s true interp (decide (0 < n))
      if savePoint then .error .nameError
      else scan x mission st b s false interp true
    else scan x mission st b s false interp (decide (0 < n))

end Verif.Timeline
