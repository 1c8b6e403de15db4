import Verif.Model.Spin
import Mathlib.Algebra.BigOperators.Group.Finset.Basic
import Mathlib.Data.List.Sort

/-!
# Model: spin maps (`init_spinmaps`, `_init_spinmaps`, `_spinmaps_real`, `_spinmaps_complex`)

The healpy functions `almxfl`, `alm2map`, `alm2map_spin` and `npix2nside` are modelled from
healpy's and HEALPix's documentation; they are outside /repo.  The spherical harmonics themselves
are arbitrary functions.  Exact arithmetic.
-/

noncomputable section

namespace Verif.Spinmaps

open Verif.Alm Verif.Spin Complex

/-! ### healpy -/

/-- Values of the spin-weighted spherical harmonics `sYlm` at the centre of pixel `p` of a map with
`nside`: `Y nside s l m p`. -/
abbrev Harmonics := Nat → Int → Nat → Int → Nat → ℂ

/-- `hp.almxfl(alm, fl)`: multiply `a(l,m)` by `fl(l)`, by zero beyond the end of `fl` (healpy). -/
def almxfl (alm fl : List ℂ) : List ℂ :=
  let lmax := (getlmax alm.length none).toNat
  let ls := (List.range (lmax + 1)).flatMap fun m => (List.range (lmax + 1 - m)).map fun k => m + k
  List.zipWith (fun a (l : Nat) => a * (fl[l]?).getD 0) alm ls

/-- The coefficient `a(l,m)`, `0 ≤ m ≤ l ≤ lmax`, of an array in healpy's order. -/
def coef (alm : List ℂ) (lmax : Int) (l m : Nat) : ℂ :=
  (alm[(getidx lmax l m).toNat]?).getD 0

/-- `hp.alm2map(alm, nside)` (healpy): the real field with coefficients `a(l,m)` for `m ≥ 0`; the
imaginary part of `a(l,0)` is not used. -/
def alm2map (Y : Harmonics) (nside : Nat) (alm : List ℂ) : List ℝ :=
  let lmax := getlmax alm.length none
  (List.range (12 * nside ^ 2)).map fun (p : Nat) =>
    ∑ l ∈ Finset.range (lmax + 1).toNat,
      ((coef alm lmax l 0).re * (Y nside 0 l 0 p).re +
        ∑ m ∈ Finset.range l, 2 * (coef alm lmax l (m + 1) * Y nside 0 l ((m : Int) + 1) p).re)

/-- `hp.alm2map_spin([e, b], nside, s, lmax, lmax)` for `s > 0` (HEALPix): the real and imaginary
part of the field of spin `s` whose coefficients are `-(e + i b)`, where `e` and `b` are coefficients
of real fields: `e(l,-m) = (-1)^m conj(e(l,m))`, so that the coefficient for `-m` is `(-1)^m` times the
conjugate of `-(e - i b)`; the imaginary parts of `e(l,0)`, `b(l,0)` are not used. -/
def alm2mapSpin (Y : Harmonics) (nside : Nat) (s : Int) (lmax : Int) (e b : List ℂ) :
    List ℝ × List ℝ :=
  let f : Nat → ℂ := fun p => ∑ l ∈ Finset.range (lmax + 1).toNat,
    (-(((coef e lmax l 0).re : ℂ) + I * ((coef b lmax l 0).re : ℂ)) * Y nside s l 0 p +
      ∑ m ∈ Finset.range l,
        (-(coef e lmax l (m + 1) + I * coef b lmax l (m + 1)) * Y nside s l ((m : Int) + 1) p +
          (-1) ^ (m + 1) *
            star (-(coef e lmax l (m + 1) - I * coef b lmax l (m + 1))) *
            Y nside s l (-((m : Int) + 1)) p))
  ((List.range (12 * nside ^ 2)).map fun p => (f p).re,
    (List.range (12 * nside ^ 2)).map fun p => (f p).im)

/-- `hp.npix2nside(npix)` (healpy): ValueError unless `npix = 12 nside ** 2`. -/
def npix2nside (npix : Nat) : PyM Nat :=
  if 12 * (Nat.sqrt (npix / 12)) ^ 2 = npix then .ok (Nat.sqrt (npix / 12)) else .error .valueError

/-! ### spin maps -/

/-- `x + 1j * y` for maps. -/
def toComplex (x y : List ℝ) : List ℂ := List.zipWith (fun (a b : ℝ) => (a : ℂ) + I * (b : ℂ)) x y

/-- The body of the loop of `_spinmaps_real` (instrument.py:4232-4253) for one spin. -/
def spinmapReal (Y : Harmonics) (alm blm : List ℂ) (nside : Nat) (s : Int) : PyM (List ℂ) := do
  let bell ← blm2bl blm s true
  if s = 0 then
    return (alm2map Y nside (almxfl alm bell)).map fun (x : ℝ) => (x : ℂ)
  else
    let flms := almxfl alm bell
    let flmms := almxfl alm (bell.map fun x => (-1) ^ s.natAbs * star x)
    let (e, b) ← spin2eb flmms flms s
    let (x, y) := alm2mapSpin Y nside s (getlmax alm.length none) e b
    return toComplex x y

/-- `_spinmaps_real` (instrument.py:4184-4255).  `.min()` of an empty array is a ValueError too.
The real array for the single spin 0 is a complex one here. -/
def spinmapsReal (Y : Harmonics) (alm blm : List ℂ) (spins : List Int) (nside : Nat) :
    PyM (List (List ℂ)) :=
  if spins = [] ∨ spins.any (· < 0) then .error .valueError
  else spins.mapM fun s => spinmapReal Y alm blm nside s

/-- The body of the loop of `_spinmaps_complex` (instrument.py:4301-4333) for one spin;
`a2 = almm2`, `ap = almp2` and `b2`, `bp` likewise. -/
def spinmapComplex (Y : Harmonics) (a2 ap b2 bp : List ℂ) (nside : Nat) (s : Int) :
    PyM (List ℂ) := do
  let bellp2 ← blm2bl bp |s| true
  let bellm2 ← blm2bl b2 |s| true
  let lmax := getlmax a2.length none
  let neg := fun (l : List ℂ) => l.map fun x => star x * (-1) ^ s.natAbs
  if s > 0 then
    let (e, b) ← spin2eb (almxfl a2 (neg bellm2)) (almxfl ap bellm2) |s|
    let (x, y) := alm2mapSpin Y nside s lmax e b
    return toComplex x y
  else if s < 0 then
    let (e, b) ← spin2eb (almxfl ap (neg bellp2)) (almxfl a2 bellp2) |s|
    let (x, y) := alm2mapSpin Y nside |s| lmax e b
    -- `spinmaps[0] - 1j * spinmaps[1]`
    return (toComplex x y).map star
  else
    let (e, _) ← spin2eb (almxfl a2 (neg bellm2)) (almxfl ap bellm2) |s|
    let (_, b) ← spin2eb (almxfl ap (neg bellp2)) (almxfl a2 bellp2) |s|
    return toComplex (alm2map Y nside (e.map fun x => -x)) (alm2map Y nside b)

/-- `_spinmaps_complex` (instrument.py:4257-4335). -/
def spinmapsComplex (Y : Harmonics) (almE almB blmE blmB : List ℂ) (spins : List Int)
    (nside : Nat) : PyM (List (List ℂ)) := do
  let (a2, ap) ← eb2spin almE almB
  let (b2, bp) ← eb2spin blmE blmB
  spins.mapM fun s => spinmapComplex Y a2 ap b2 bp nside s

/-- The names of the spin maps (instrument.py:3846-3847). -/
inductive Mode | s0a0 | s2a4 | s0a2 | s2a2 | s2a0
  deriving DecidableEq, Repr

/-- `{'maps' : ..., 's_vals' : ...}`. -/
structure Entry where
  maps : List (List ℂ)
  sVals : List Int

/-- `spinmap_dict`, in insertion order. -/
abbrev SpinDict := List (Mode × Entry)

/-- `while i < n and not crash: crash = ~isfinite(sum(rows[i])); i += 1`, from `i`: the result is
`(i, crash)`. -/
def scanRows {α : Type} (isFinite : α → Bool) : List (List α) → Nat → Nat × Bool
  | [], i => (i, false)
  | r :: rs, i => if r.all isFinite then scanRows isFinite rs (i + 1) else (i + 1, true)

/-- The checks at the start of `_init_spinmaps` (instrument.py:3950-3969).  The second loop goes on
with the counter of the first one.  A sum is taken to be finite exactly when all terms are
(no overflow). -/
def checkInput {α : Type} (isFinite : α → Bool) (alm blm : List (List α)) (inputV beamV : Bool) :
    PyM Unit :=
  if alm.length ≠ 4 ∧ inputV then .error .valueError
  else if blm.length ≠ 4 ∧ beamV then .error .valueError
  else
    let a := scanRows isFinite alm 0
    let b := scanRows isFinite (blm.drop a.1) a.1
    if a.2 ∨ b.2 then .error .valueError else .ok ()

/-- `[x[0], x[1], x[2]]` truncated to `lmax`, and `x[3]` too if wanted (instrument.py:3975-3980, 3983-3988). -/
def truncRows (x : List (List ℂ)) (lmax : Int) (v : Bool) : PyM (List (List ℂ)) := do
  let x0 ← pyGet x 0
  let x1 ← pyGet x 1
  let x2 ← pyGet x 2
  let xs ← truncAlmSeq [x0, x1, x2] lmax none
  if v then
    let x3 ← pyGet x 3
    let x3 ← truncAlm x3 lmax none
    return xs ++ [x3]
  else return xs

/-- Matching the band limits of sky and beam (instrument.py:3971-3991). -/
def matchBands (alm blm : List (List ℂ)) (inputV beamV : Bool) :
    PyM (List (List ℂ) × List (List ℂ)) := do
  let a0 ← pyGet alm 0
  let b0 ← pyGet blm 0
  let lmaxSky := getlmax a0.length none
  let lmaxBeam := getlmax b0.length none
  if lmaxSky > lmaxBeam then
    let alm ← truncRows alm lmaxBeam inputV
    return (alm, blm)
  else if lmaxBeam > lmaxSky then
    let blm ← truncRows blm lmaxSky beamV
    return (alm, blm)
  else return (alm, blm)

/-- `spin_values_unpol` (instrument.py:3992-3999). -/
def spinsUnpol (symmetric : Bool) (maxSpin : Int) : List Int :=
  if symmetric then [0] else intRange 0 (maxSpin + 1).toNat

/-- `spin_values_pol` (instrument.py:3994, 4001). -/
def spinsPol (symmetric : Bool) (maxSpin : Int) : List Int :=
  if symmetric then [2] else intRange (-maxSpin) (2 * maxSpin + 1).toNat

/-- `spin_values_s0a2` (instrument.py:3996, 4002). -/
def spinsS0a2 (symmetric : Bool) (maxSpin : Int) : List Int :=
  if symmetric then [0] else spinsPol symmetric maxSpin

/-- `a += b` for two-dimensional arrays of the same shape. -/
def addMaps (a b : List (List ℂ)) : List (List ℂ) :=
  List.zipWith (List.zipWith (· + ·)) a b

/-- `blmxhwp` in the modes that give a single array. -/
def hwpOne (blm : List (List ℂ)) (w : Mat4) (mode : String) (v : Bool) : PyM (List ℂ) := do
  match ← blmxhwp blm w mode v with
  | .one a => return a
  | .two _ _ => .error .valueError

/-- `blmxhwp` in the modes that give two arrays. -/
def hwpTwo (blm : List (List ℂ)) (w : Mat4) (mode : String) (v : Bool) :
    PyM (List ℂ × List ℂ) := do
  match ← blmxhwp blm w mode v with
  | .one _ => .error .valueError
  | .two a b => return (a, b)

/-- The maps without Mueller matrix (instrument.py:4069-4088). -/
def mapsOld (Y : Harmonics) (alm blm : List (List ℂ)) (unpol pol : List Int) (nside : Nat)
    (inputV beamV : Bool) : PyM SpinDict := do
  let almE ← pyGet alm 1
  let almB ← pyGet alm 2
  let b1 ← pyGet blm 1
  let b2 ← pyGet blm 2
  let (blmE, blmB) ← spin2eb b1 b2 2
  let a0 ← pyGet alm 0
  let b0 ← pyGet blm 0
  let s0a0 ← spinmapsReal Y a0 b0 unpol nside
  let s0a0 ← if beamV ∧ inputV then do
      let a3 ← pyGet alm 3
      let b3 ← pyGet blm 3
      let v ← spinmapsReal Y a3 b3 unpol nside
      pure (addMaps s0a0 v)
    else pure s0a0
  let s2a4 ← spinmapsComplex Y almE almB blmE blmB pol nside
  return [(.s0a0, ⟨s0a0, unpol⟩), (.s2a4, ⟨s2a4, pol⟩)]

/-- A polarized component with a Mueller matrix: `s2a4`, `s2a2` or `s2a0`
(instrument.py:4030-4035, 4053-4067). -/
def mapsPol (Y : Harmonics) (almE almB : List ℂ) (blm : List (List ℂ)) (w : Mat4) (mode : String)
    (v : Bool) (pol : List Int) (nside : Nat) : PyM (List (List ℂ)) := do
  let (m2, p2) ← hwpTwo blm w mode v
  let (blmE, blmB) ← spin2eb m2 p2 2
  spinmapsComplex Y almE almB blmE blmB pol nside

/-- The component `s0a2` for one sky (instrument.py:4038-4050): the arguments of `spin2eb` are
switched, and the sky goes in as `-alm`. -/
def mapsS0a2 (Y : Harmonics) (alm : List ℂ) (blm : List (List ℂ)) (w : Mat4) (mode : String)
    (spins : List Int) (nside : Nat) : PyM (List (List ℂ)) := do
  let (m2, p2) ← hwpTwo blm w mode false
  let (blmE, blmB) ← spin2eb p2 m2 2
  spinmapsComplex Y (alm.map fun x => -x) (alm.map fun x => x * 0) blmE blmB spins nside

/-- The maps with a Mueller matrix (instrument.py:4008-4067). -/
def mapsNew (Y : Harmonics) (alm blm : List (List ℂ)) (mueller : Mat4) (unpol pol s0a2 : List Int)
    (nside : Nat) (inputV beamV : Bool) : PyM SpinDict := do
  let almE ← pyGet alm 1
  let almB ← pyGet alm 2
  let w := mueller2spin mueller
  let b ← hwpOne blm w "s0a0" beamV
  let a0 ← pyGet alm 0
  let m00 ← spinmapsReal Y a0 b unpol nside
  let m00 ← if inputV then do
      let bv ← hwpOne blm w "s0a0_v" beamV
      let a3 ← pyGet alm 3
      let v ← spinmapsReal Y a3 bv unpol nside
      pure (addMaps m00 v)
    else pure m00
  let m24 ← mapsPol Y almE almB blm w "s2a4" false pol nside
  let m02 ← mapsS0a2 Y a0 blm w "s0a2" s0a2 nside
  let m02 ← if inputV then do
      let a3 ← pyGet alm 3
      let v ← mapsS0a2 Y a3 blm w "s0a2_v" s0a2 nside
      pure (addMaps m02 v)
    else pure m02
  let m22 ← mapsPol Y almE almB blm w "s2a2" beamV pol nside
  let m20 ← mapsPol Y almE almB blm w "s2a0" false pol nside
  return [(.s0a0, ⟨m00, unpol⟩), (.s2a4, ⟨m24, pol⟩), (.s0a2, ⟨m02, s0a2⟩),
    (.s2a2, ⟨m22, pol⟩), (.s2a0, ⟨m20, pol⟩)]

/-- `_init_spinmaps` (instrument.py:3899-4090).  All numbers are finite. -/
def spinmapsOf (Y : Harmonics) (alm blm : List (List ℂ)) (maxSpin : Int) (nside : Nat)
    (symmetric : Bool) (mueller : Option Mat4) (inputV beamV : Bool) : PyM SpinDict := do
  checkInput (fun _ => true) alm blm inputV beamV
  let (alm, blm) ← matchBands alm blm inputV beamV
  match mueller with
  | some w =>
    mapsNew Y alm blm w (spinsUnpol symmetric maxSpin) (spinsPol symmetric maxSpin)
      (spinsS0a2 symmetric maxSpin) nside inputV beamV
  | none =>
    mapsOld Y alm blm (spinsUnpol symmetric maxSpin) (spinsPol symmetric maxSpin) nside
      inputV beamV

/-! ### main beam, ghosts and ground -/

/-- A beam as far as spin maps are concerned. -/
structure BeamData where
  blm : List (List ℂ)
  mmax : Int
  symmetric : Bool
  mueller : Option Mat4
  ghostIdx : Int

/-- `np.unique(a, return_index=True)`: the sorted different values with their first positions. -/
def npUnique (a : List Int) : List (Int × Nat) :=
  (a.dedup.insertionSort (· ≤ ·)).map fun x => (x, a.idxOf x)

/-- `l[i] = v` for a list. -/
def pySetItem {α : Type} (l : List α) (i : Int) (v : α) : PyM (List α) :=
  let k := if i < 0 then i + l.length else i
  if k < 0 ∨ (l.length : Int) ≤ k then .error .indexError else .ok (l.set k.toNat v)

/-- `self.spinmaps`; no ground maps are an empty dictionary. -/
structure Spinmaps (D : Type) where
  main : D
  ground : Option D
  ghosts : List (Option D)

/-- The loop over the unique ghost indices (instrument.py:3871-3890): append a place, then write
to the place with the number of the ghost index.  `f` gives the maps of a ghost; `none` is the
placeholder. -/
def ghostLoop {G D : Type} (f : G → PyM D) (ghosts : List G) :
    List (Int × Nat) → List (Option D) → PyM (List (Option D))
  | [], l => .ok l
  | (u, i) :: us, l => do
    let l ← pySetItem (l ++ [none]) u none
    let g ← pyGet ghosts i
    let d ← f g
    let l ← pySetItem l u (some d)
    ghostLoop f ghosts us l

/-- `init_spinmaps` (instrument.py:3801-3896) for the main beam `b` and its ghosts.  The ground maps
are made with the coefficients (and `max_s`) of the last beam that was treated: `groundOf b last`
are the ground maps with the coefficients of `last` and the options of `b`; `none` if there is no
ground. -/
def initSpinmapsG {G D : Type} (idx : G → Int) (f : G → PyM D) (groundOf : Option (G → G → PyM D))
    (b : G) (ghosts : List G) : PyM (Spinmaps D) := do
  let main ← f b
  let gs ← ghostLoop f ghosts (npUnique (ghosts.map idx)) []
  match groundOf with
  | none => return ⟨main, none, gs⟩
  | some gr => do
    let last ← match (npUnique (ghosts.map idx)).getLast? with
      | none => pure b
      | some (_, i) => pyGet ghosts i
    let d ← gr b last
    return ⟨main, some d, gs⟩

/-- `init_spinmaps` with the maps of `_init_spinmaps`. -/
def initSpinmaps (Y : Harmonics) (alm : List (List ℂ)) (groundAlm : Option (List (List ℂ)))
    (maxSpin : Int) (nside : Nat) (inputV beamV : Bool) (b : BeamData) (ghosts : List BeamData) :
    PyM (Spinmaps SpinDict) :=
  initSpinmapsG (·.ghostIdx)
    (fun g => spinmapsOf Y alm g.blm (min g.mmax maxSpin) nside g.symmetric g.mueller inputV beamV)
    (groundAlm.map fun ga b last =>
      spinmapsOf Y ga last.blm (min last.mmax maxSpin) nside b.symmetric b.mueller inputV beamV)
    b ghosts

end Verif.Spinmaps
