import Verif.Model.Beam
import Verif.Model.Spinmaps

/-!
# Model: preparing a detector pair (`init_detpair`, instrument.py:1646-1722)

The objects of a pair live on the heap of `Verif.Model.Beam`: their coefficients are cached when
they are first looked at, looking at them may lower `mmax`, and they are deleted at the end.
`_init_spinmaps` is an arbitrary function of the coefficients, of the azimuthal limit and of the
attributes `symmetric` and `hwp_mueller` (`Maker`); the sky, `nside_spin`, `input_v` and `beam_v` are
the same in all its calls.
-/

namespace Verif.Beam

open Verif.Spinmaps

variable {K : Type} [Field K] [LinearOrder K]

/-- `_init_spinmaps` for a fixed sky: coefficients, azimuthal limit, `symmetric`, `hwp_mueller`
(instrument.py:3899). -/
abbrev Maker (K D : Type) : Type := Val K → Val K → Val K → Val K → PyM D

/-- `min(beam.mmax, max_spin)` (instrument.py:3852, 3884). -/
def minSpin (m : Val K) (maxSpin : Int) : PyM (Val K) :=
  match m.toNum with
  | none => .error .typeError
  | some x => .ok (if (maxSpin : K) < x then .int maxSpin else m)

/-- `beam.ghosts` (detector.py:129-131); a ghost has none. -/
def ghostList (r : Ref) : Exec (Heap K) (List Ref) := fun h =>
  match (h.cell r).ghosts with
  | some gs => (.ok gs, h)
  | none => (.error .attributeError, h)

/-- A value as an integer, for `range(n)` and for entries of integer arrays.  Strings are not
converted. -/
def Val.toInt [FloorRing K] : Val K → PyM Int
  | .int i => .ok i
  | .bool b => .ok (if b then 1 else 0)
  | .num x => .ok (trunc x)
  | _ => .error .typeError

/-- `hasattr(beam, 'blm')`: the property is evaluated, so the coefficients are made or loaded; only
an AttributeError means `False` (detector.py:212-246). -/
def hasBlm (env : Env K) (r : Ref) : Exec (Heap K) Bool := fun h =>
  match readBlm env r h with
  | (.ok _, h) => (.ok true, h)
  | (.error .attributeError, h) => (.ok false, h)
  | (.error e, h) => (.error e, h)

/-- `beam.gen_gaussian_blm()` (detector.py:272-292): coefficients for type 'Gaussian'. -/
def genGaussian (env : Env K) (r : Ref) : Exec (Heap K) Unit := fun h =>
  let o := (h.cell r).put .btype (.str "Gaussian")
  match env.loadBlm o.attr with
  | .ok (v, _) => (.ok (), h.put r (o.put .blm v))
  | .error e => (.error e, h)

/-- `if not hasattr(ghost, 'blm'): ...` (instrument.py:1694-1698, 1704-1710). -/
def ensureBlm (env : Env K) (fallback : Ref → Exec (Heap K) Unit) (g : Ref) :
    Exec (Heap K) Unit := do
  let b ← hasBlm env g
  if b then pure () else fallback g

/-- The loop over `gidx` in `range(beam.ghost_count)`, from `gidx = i` on, `n` times
(instrument.py:1691-1698, 1702-1710). -/
def ensureLoop (env : Env K) (fallback : Nat → Ref → Exec (Heap K) Unit) (gs : List Ref) :
    Nat → Nat → Exec (Heap K) Unit
  | _, 0 => pure ()
  | i, n + 1 => do
    let g ← Exec.lift (pyGet gs i)
    ensureBlm env (fallback i) g
    ensureLoop env fallback gs (i + 1) n

/-- `if beam.ghosts: for gidx in range(beam.ghost_count): ...`. -/
def ensureGhosts [FloorRing K] (env : Env K) (fallback : Nat → Ref → Exec (Heap K) Unit) (r : Ref) :
    Exec (Heap K) Unit := do
  let gs ← ghostList r
  if gs = [] then pure ()
  else do
    let c ← getPlain r .ghostCount
    let n ← Exec.lift c.toInt
    ensureLoop env fallback gs 0 n.toNat

/-- `ghost.reuse_blm(beam_a.ghosts[0])`. -/
def reuseFirst [FloorRing K] (env : Env K) (a g : Ref) : Exec (Heap K) Unit := do
  let gs ← ghostList a
  let p ← Exec.lift (pyGet gs 0)
  reuseBlm env g p

/-- The fallback for the ghosts of A (instrument.py:1693-1698). -/
def fallbackA [FloorRing K] (env : Env K) (a : Ref) (i : Nat) (g : Ref) : Exec (Heap K) Unit :=
  if i = 0 then genGaussian env g else reuseFirst env a g

/-- `self._init_spinmaps(alm, blm, max_s, ..., symmetric=beam.symmetric,
hwp_mueller=beam.hwp_mueller)` (instrument.py:3856-3859). -/
def makeMaps {D : Type} (mk : Maker K D) (r : Ref) (blm maxS : Val K) : Exec (Heap K) D := do
  let sym ← getPlain r .symmetric
  let mu ← getPlain r .hwpMueller
  Exec.lift (mk blm maxS sym mu)

/-- The main beam (instrument.py:3852-3859): `mmax` is looked at before the coefficients.  The
result are the maps, the coefficients and the limit. -/
def mainMaps {D : Type} (env : Env K) (mk : Maker K D) (maxSpin : Int) (r : Ref) :
    Exec (Heap K) (D × Val K × Val K) := do
  let m ← getPlain r .mmax
  let s ← Exec.lift (minSpin m maxSpin)
  let v ← readBlm env r
  let d ← makeMaps mk r v s
  return (d, v, s)

/-- A ghost (instrument.py:3883-3889): `mmax` is looked at after the coefficients. -/
def ghostMaps {D : Type} (env : Env K) (mk : Maker K D) (maxSpin : Int) (r : Ref) :
    Exec (Heap K) (D × Val K × Val K) := do
  let v ← readBlm env r
  let m ← getPlain r .mmax
  let s ← Exec.lift (minSpin m maxSpin)
  let d ← makeMaps mk r v s
  return (d, v, s)

/-- `g_indices[gidx] = ghost.ghost_idx` (instrument.py:3871-3872). -/
def ghostIndices [FloorRing K] : List Ref → Exec (Heap K) (List Int)
  | [] => pure []
  | g :: gs => do
    let v ← getPlain g .ghostIdx
    let i ← Exec.lift v.toInt
    let l ← ghostIndices gs
    return i :: l

/-- The loop over the different ghost indices (instrument.py:3877-3890); the last coefficients and
the last limit are kept. -/
def uniqueLoop {D : Type} (env : Env K) (mk : Maker K D) (maxSpin : Int) (gs : List Ref) :
    List (Int × Nat) → List (Option D) → Val K × Val K →
      Exec (Heap K) (List (Option D) × Val K × Val K)
  | [], l, last => pure (l, last)
  | (u, i) :: us, l, _ => do
    let l ← Exec.lift (pySetItem (l ++ [none]) u none)
    let g ← Exec.lift (pyGet gs i)
    let (d, v, s) ← ghostMaps env mk maxSpin g
    let l ← Exec.lift (pySetItem l u (some d))
    uniqueLoop env mk maxSpin gs us l (v, s)

/-- The maps of the ghosts (instrument.py:3865-3890). -/
def allGhostMaps {D : Type} [FloorRing K] (env : Env K) (mk : Maker K D) (maxSpin : Int) (r : Ref)
    (last : Val K × Val K) : Exec (Heap K) (List (Option D) × Val K × Val K) := do
  let gs ← ghostList r
  if gs = [] then pure ([], last)
  else do
    let c ← getPlain r .ghostCount
    if c.toNum = some (gs.length : K) then do
      let idx ← ghostIndices gs
      uniqueLoop env mk maxSpin gs (npUnique idx) [] last
    else Exec.lift (.error .assertionError)

/-- The ground maps, if there is a ground (instrument.py:3891-3896): with the coefficients and the
limit of the beam treated last. -/
def groundMaps {D : Type} (ground : Option (Maker K D)) (r : Ref) (last : Val K × Val K) :
    Exec (Heap K) (Option D) :=
  match ground with
  | none => pure none
  | some mk => do
    let d ← makeMaps mk r last.1 last.2
    return some d

/-- `init_spinmaps` (instrument.py:3801-3896) on beam objects. -/
def initMaps {D : Type} [FloorRing K] (env : Env K) (mk : Maker K D) (ground : Option (Maker K D))
    (maxSpin : Int) (r : Ref) : Exec (Heap K) (Spinmaps D) := do
  let (main, last) ← mainMaps env mk maxSpin r
  let (ghosts, last) ← allGhostMaps env mk maxSpin r last
  let g ← groundMaps ground r last
  return ⟨main, g, ghosts⟩

/-- `if b_exists: ...`. -/
def onB (b : Option Ref) (f : Ref → Exec (Heap K) Unit) : Exec (Heap K) Unit :=
  match b with
  | none => pure ()
  | some r => f r

/-- `init_detpair` (instrument.py:1646-1722).  `ground` is given if there is a ground template. -/
def initDetpair {D : Type} [FloorRing K] (env : Env K) (mk : Maker K D)
    (ground : Option (Maker K D)) (maxSpin : Int) (a : Ref) (b : Option Ref) :
    Exec (Heap K) (Spinmaps D) := do
  ensureGhosts env (fallbackA env a) a
  onB b (ensureGhosts env fun _ => reuseFirst env a)
  let sm ← initMaps env mk ground maxSpin a
  deleteBlm a true
  onB b fun b => deleteBlm b true
  return sm

end Verif.Beam
