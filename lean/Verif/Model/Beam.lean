import Mathlib.Algebra.Order.Field.Basic
import Mathlib.Algebra.Order.Floor.Ring
import Mathlib.Data.Rat.Floor
import Verif.Exec

/-!
# Model: `Beam` objects (detector.py:8-581)

Beams are objects on a heap, referred to by reference, because ghosts are separate objects that
users can reach through `beam.ghosts` and because focal planes compare beams by identity.

Simplifications: floats are exact elements of an ordered field `K`; harmonic coefficients and HWP
objects are opaque values; `hp`/`np.load` are represented by an arbitrary loader (`Env.loadBlm`);
attribute values are the Python values listed in `Val`.
-/

namespace Verif.Beam

/-- Python values of beam attributes: `None`, bool, int, float, str and any other object (arrays,
`HWP` instances; identified by a number). -/
inductive Val (K : Type) where
  | none
  | bool (b : Bool)
  | int (i : Int)
  | num (x : K)
  | str (s : String)
  | obj (n : Nat)
  deriving DecidableEq, Repr

/-- Attribute names of a `Beam` (detector.py:92-119, 121-258); `other` is any further name a
caller may use in `setattr`.  `ghosts` is kept apart (`Obj.ghosts`) because it holds a list. -/
inductive Key where
  | az | el | polang | name | pol | btype | fwhm | lmax | mmax | sensitiveFreq | dead | ghost
  | amplitude | poFile | egFile | crossPol | deconvQ | normalize | polangError | idx
  | symmetric | hwp | hwpMueller
  | ghosts | ghostCount | ghostIdx | blm | polangTruth
  | other (s : String)
  deriving DecidableEq, Repr

/-- Reference to an object. -/
abbrev Ref := Nat

/-- A `dict` of keyword arguments; the first entry of a key counts, so that `d.update(e)` is
`e ++ d`. -/
abbrev Dict (K : Type) := List (Key × Val K)

/-- `d.get(k)`. -/
def Dict.get? {K : Type} (d : Dict K) (k : Key) : Option (Val K) := List.lookup k d

/-- A `Beam` instance: its attributes (`none` means that the attribute does not exist) and its
private list of ghosts (`none` for ghosts, detector.py:115-119). -/
structure Obj (K : Type) where
  attr : Key → Option (Val K)
  ghosts : Option (List Ref)

/-- All objects created so far are those with references below `size`. -/
structure Heap (K : Type) where
  size : Nat
  cell : Ref → Obj K

/-- What is not modelled concretely: the value of `np.pi` and the reading or generation of beam
coefficients (detector.py:228-243), which depends on the attributes only and may report the
`mmax` of a FITS file (detector.py:369-373). -/
structure Env (K : Type) where
  pi : K
  loadBlm : (Key → Option (Val K)) → PyM (Val K × Option Int)

section
variable {K : Type}

/-- `bool(v)`; objects are true. -/
def Val.truthy [Zero K] [DecidableEq K] : Val K → Bool
  | .none => false
  | .bool b => b
  | .int i => i ≠ 0
  | .num x => x ≠ 0
  | .str s => s ≠ ""
  | .obj _ => true

/-- Set an attribute without any setter. -/
def Obj.put (o : Obj K) (k : Key) (v : Val K) : Obj K :=
  { o with attr := Function.update o.attr k (some v) }

/-- `getattr(o, k)` for plain attributes: AttributeError if missing. -/
def Obj.read (o : Obj K) (k : Key) : PyM (Val K) :=
  match o.attr k with
  | some v => .ok v
  | none => .error .attributeError

/-- `self.ghost`: truthiness of the flag (detector.py:125-127). -/
def Obj.isGhost [Zero K] [DecidableEq K] (o : Obj K) : Bool :=
  match o.attr .ghost with
  | some v => v.truthy
  | none => false

/-- Replace the object behind a reference. -/
def Heap.put (h : Heap K) (r : Ref) (o : Obj K) : Heap K :=
  { h with cell := Function.update h.cell r o }

/-- Create an object; its reference is the old `size`. -/
def Heap.alloc (h : Heap K) (o : Obj K) : Heap K :=
  { size := h.size + 1, cell := Function.update h.cell h.size o }
end

section
variable {K : Type} [Field K] [LinearOrder K]

/-- The number a value stands for in arithmetic (bools count as 0 and 1). -/
def Val.toNum : Val K → Option K
  | .bool b => some (if b then 1 else 0)
  | .int i => some (i : K)
  | .num x => some x
  | _ => Option.none

/-- `a + b` for the values above; anything that is no number, int or string raises TypeError. -/
def Val.add : Val K → Val K → PyM (Val K)
  | .int a, .int b => .ok (.int (a + b))
  | .int a, .bool b => .ok (.int (a + if b then 1 else 0))
  | .bool a, .int b => .ok (.int ((if a then 1 else 0) + b))
  | .bool a, .bool b => .ok (.int ((if a then 1 else 0) + if b then 1 else 0))
  | .str a, .str b => .ok (.str (a ++ b))
  | a, b => match a.toNum, b.toNum with
    | some x, some y => .ok (.num (x + y))
    | _, _ => .error .typeError

/-- `int(x)` for a float: truncation towards zero. -/
def trunc [FloorRing K] (x : K) : Int := if 0 ≤ x then ⌊x⌋ else ⌈x⌉

/-- `np.radians(x)`. -/
def radians (env : Env K) (x : K) : K := x * env.pi / 180

/-- `np.degrees(x)`. -/
def degrees (env : Env K) (x : K) : K := x * 180 / env.pi

/-- `int(2 * np.pi / np.radians(fwhm/60.) * 1.4)` (detector.py:181).  For a zero width numpy
divides by zero to `inf` and `int(inf)` raises OverflowError. -/
def lmaxFromFwhm [FloorRing K] (env : Env K) (fwhm : K) : PyM (Val K) :=
  if fwhm = 0 then .error .overflowError
  else .ok (.int (trunc (2 * env.pi / radians env (fwhm / 60) * (14 / 10))))

/-- `max(val, 0)` (detector.py:183). -/
def maxZero : Val K → PyM (Val K)
  | v => match v.toNum with
    | some x => .ok (if (0 : K) > x then .int 0 else v)
    | none => .error .typeError

/-- Setter of `lmax` (detector.py:176-183). -/
def setLmax [FloorRing K] (env : Env K) (o : Obj K) (v : Val K) : PyM (Obj K) :=
  match v with
  | .none => do
    let f ← o.read .fwhm
    match f with
    | .none => .error .typeError              -- max(None, 0)
    | f => match f.toNum with
      | none => .error .typeError             -- fwhm / 60.
      | some x => do
        let l ← lmaxFromFwhm env x
        return o.put .lmax l
  | v => do
    let l ← maxZero v
    return o.put .lmax l

/-- `np.abs(val)`. -/
def vabs : Val K → PyM (Val K)
  | .int i => .ok (.int |i|)
  | .num x => .ok (.num |x|)
  | .bool b => .ok (.bool b)
  | _ => .error .typeError

/-- Setter of `fwhm` (detector.py:189-200). -/
def setFwhm (env : Env K) (o : Obj K) (v : Val K) : PyM (Obj K) :=
  match v with
  | .none => do
    let l ← o.read .lmax
    if l.truthy then
      match l.toNum with
      | none => .error .typeError
      | some x => .ok (o.put .fwhm (.num (degrees env ((14 / 10) * 2 * env.pi / x) * 60)))
    else .error .typeError                    -- np.abs(None)
  | v => do
    let f ← vabs v
    return o.put .fwhm f

/-- Setter of `mmax`: `min(i for i in [mmax, self.lmax] if i is not None)`
(detector.py:206-210). -/
def setMmax (o : Obj K) (v : Val K) : PyM (Obj K) := do
  let l ← o.read .lmax
  match v, l with
  | .none, .none => .error .valueError        -- min() of an empty sequence
  | .none, l => return o.put .mmax l
  | v, .none => return o.put .mmax v
  | v, l => match v.toNum, l.toNum with
    | some x, some y => .ok (o.put .mmax (if y < x then l else v))
    | _, _ => .error .typeError

/-- `setattr(o, k, v)` on one object, without the propagation of `dead` to the ghosts.
`ghost`, `ghosts`, `idx` and `polang_truth` have no setter (detector.py:121-132, 256-258). -/
def objSet [FloorRing K] (env : Env K) (o : Obj K) (k : Key) (v : Val K) : PyM (Obj K) :=
  match k with
  | .lmax => setLmax env o v
  | .fwhm => setFwhm env o v
  | .mmax => setMmax o v
  | .ghostCount => if o.isGhost then .error .valueError else .ok (o.put .ghostCount v)
  | .ghostIdx => if o.isGhost then .ok (o.put .ghostIdx v) else .error .valueError
  | .ghost => .error .attributeError
  | .ghosts => .error .attributeError
  | .idx => .error .attributeError
  | .polangTruth => .error .attributeError
  | k => .ok (o.put k v)

/-- Parameters of `Beam.__init__` with their defaults (detector.py:12-18). -/
def defaults : List (Key × Val K) :=
  [(.az, .num 0), (.el, .num 0), (.polang, .num 0), (.name, .none), (.pol, .str "A"),
   (.btype, .str "Gaussian"), (.fwhm, .none), (.lmax, .int 700), (.mmax, .none),
   (.sensitiveFreq, .int 150), (.dead, .bool false), (.ghost, .bool false),
   (.amplitude, .num 1), (.poFile, .none), (.egFile, .none), (.crossPol, .bool true),
   (.deconvQ, .bool true), (.normalize, .bool true), (.polangError, .num 0), (.idx, .none),
   (.symmetric, .bool false), (.hwp, .none), (.hwpMueller, .none)]

/-- The value of a parameter in a call: the argument or else the default. -/
def arg (kw : Dict K) (k : Key) : Val K :=
  match kw.get? k with
  | some v => v
  | none => match Dict.get? defaults k with
    | some v => v
    | none => .none

/-- An object without attributes. -/
def blank : Obj K := { attr := fun _ => none, ghosts := none }

/-- The attributes `__init__` assigns before `lmax` (detector.py:92-102); `dead` has a setter,
but there are no ghosts yet. -/
def initHead (kw : Dict K) : Obj K :=
  [Key.az, .el, .polang, .name, .pol, .btype, .dead, .amplitude, .poFile, .egFile,
   .crossPol].foldl (fun o k => o.put k (arg kw k)) blank

/-- The attributes `__init__` assigns after `fwhm`, and the ghost bookkeeping
(detector.py:107-119). -/
def initTail (kw : Dict K) (o : Obj K) : Obj K :=
  let o := [Key.deconvQ, .normalize, .polangError, .idx, .symmetric, .hwp, .hwpMueller,
    .ghost].foldl (fun o k => o.put k (arg kw k)) o
  if o.isGhost then o
  else { o.put .ghostCount (.int 0) with ghosts := some [] }

/-- `Beam(**kw)` (detector.py:12-119).  An unknown keyword raises TypeError. -/
def init [FloorRing K] (env : Env K) (kw : Dict K) : PyM (Obj K) :=
  if kw.all fun e => (Dict.get? (defaults (K := K)) e.1).isSome then do
    let o ← setLmax env (initHead kw) (arg kw .lmax)
    let o ← setMmax o (arg kw .mmax)
    let o := o.put .sensitiveFreq (arg kw .sensitiveFreq)
    let o ← setFwhm env o (arg kw .fwhm)
    return initTail kw o
  else .error .typeError

/-- Create a main beam or ghost object from outside: `b = Beam(**kw)`; returns its reference. -/
def newBeam [FloorRing K] (env : Env K) (kw : Dict K) : Exec (Heap K) Ref := fun h =>
  match init env kw with
  | .ok o => (.ok h.size, h.alloc o)
  | .error e => (.error e, h)

/-- Python's recursion limit. -/
def recursionLimit : Nat := 1000

/-- `for ghost in self.ghosts: ghost.dead = val` (detector.py:166-167), with the setter as an
argument. -/
def setDeadList (f : Ref → Exec (Heap K) Unit) : List Ref → Exec (Heap K) Unit
  | [] => fun h => (.ok (), h)
  | g :: gs => fun h =>
    match f g h with
    | (.ok _, h) => setDeadList f gs h
    | (.error e, h) => (.error e, h)

/-- Setter of `dead` (detector.py:161-170): the flag is passed on to the ghosts, if the object
has a list of ghosts.  The first argument bounds the depth of the recursion. -/
def setDeadAux : Nat → Val K → Ref → Exec (Heap K) Unit
  | 0, _, _ => Exec.lift (.error .recursionError)
  | n + 1, v, r => fun h =>
    let h := h.put r ((h.cell r).put .dead v)
    match (h.cell r).ghosts with
    | some gs => setDeadList (setDeadAux n v) gs h
    | none => (.ok (), h)

/-- `beam.dead = val` (detector.py:161-170). -/
def setDead (v : Val K) (r : Ref) : Exec (Heap K) Unit := setDeadAux recursionLimit v r

/-- `setattr(beam, k, v)` for every attribute but `dead`: the object is replaced, or the setter
raises. -/
def setPlain [FloorRing K] (env : Env K) (r : Ref) (k : Key) (v : Val K) : Exec (Heap K) Unit :=
  fun h => match objSet env (h.cell r) k v with
    | .ok o => (.ok (), h.put r o)
    | .error e => (.error e, h)

/-- `setattr(beam, k, v)`. -/
def setattr [FloorRing K] (env : Env K) (r : Ref) (k : Key) (v : Val K) : Exec (Heap K) Unit :=
  if k = .dead then setDead v r else setPlain env r k v

/-- `beam.polang_truth` (detector.py:256-258). -/
def polangTruth (o : Obj K) : PyM (Val K) := do
  let p ← o.read .polang
  let e ← o.read .polangError
  p.add e

/-- What happens to an object when its coefficients are first needed: they are stored, and
`mmax` is lowered to that of a FITS file (detector.py:224-246, 369-373).  Simplification: if the
file can be read but its coefficients cannot be scaled (detector.py:376-406), the code has lowered
`mmax` before it raises; here the object stays as it is. -/
def loaded (env : Env K) (o : Obj K) : PyM (Val K × Obj K) :=
  match o.attr .blm with
  | some v => .ok (v, o)
  | none => do
    let (v, m) ← env.loadBlm o.attr
    match m with
    | none => return (v, o.put .blm v)
    | some m =>
      let mm ← o.read .mmax
      match mm.toNum with
      | none => .error .typeError
      | some x =>
        if (m : K) < x then do
          let o ← setMmax o (.int m)
          return (v, o.put .blm v)
        else return (v, o.put .blm v)

/-- `beam.blm` (detector.py:212-246). -/
def readBlm (env : Env K) (r : Ref) : Exec (Heap K) (Val K) := fun h =>
  match loaded env (h.cell r) with
  | .ok (v, o) => (.ok v, h.put r o)
  | .error e => (.error e, h)

/-- An attribute that is no computed property. -/
def getPlain (r : Ref) (k : Key) : Exec (Heap K) (Val K) := fun h => ((h.cell r).read k, h)

/-- `beam.polang_truth` of an object on the heap. -/
def getPolangTruth (r : Ref) : Exec (Heap K) (Val K) := fun h => (polangTruth (h.cell r), h)

/-- `getattr(beam, k)`; `blm` is generated on demand and `polang_truth` is computed. -/
def getattr (env : Env K) (r : Ref) (k : Key) : Exec (Heap K) (Val K) :=
  if k = .blm then readBlm env r
  else if k = .polangTruth then getPolangTruth r
  else getPlain r k

/-- Name of a ghost (detector.py:433-441).  A parent name that is true but no string raises
TypeError. -/
def ghostName (parent : Val K) (tag : Option String) : PyM (Val K) :=
  match tag with
  | none => .ok parent
  | some t =>
    if t = "" then .ok parent
    else if parent.truthy then
      match parent with
      | .str p => .ok (.str (p ++ "_" ++ t))
      | _ => .error .typeError
    else .ok (.str t)

/-- The attributes `create_ghost` copies from the parent (detector.py:444-460), except the
name. -/
def inheritedKeys : List Key :=
  [.az, .el, .polang, .pol, .btype, .fwhm, .dead, .lmax, .mmax, .amplitude, .poFile, .egFile,
   .crossPol, .deconvQ, .normalize, .polangError]

/-- `ghost_opts` before the update with the given options (detector.py:444-460). -/
def inheritedOpts (o : Obj K) (name : Val K) : PyM (Dict K) := do
  let l ← inheritedKeys.mapM fun k => do
    let v ← o.read k
    return (k, v)
  return (.name, name) :: l

/-- The ghost object `create_ghost` builds (detector.py:433-466). -/
def makeGhost [FloorRing K] (env : Env K) (o : Obj K) (tag : Option String) (kw : Dict K) :
    PyM (Obj K) := do
  let parent ← o.read .name
  let name ← ghostName parent tag
  let opts ← inheritedOpts o name
  init env ((.ghost, .bool true) :: (kw.filter (·.1 ≠ .name) ++ opts))

/-- The new ghost with its `ghost_idx` and the parent with its increased `ghost_count`
(detector.py:469-470). -/
def linkGhost [FloorRing K] (env : Env K) (o g : Obj K) : PyM (Obj K × Obj K) := do
  let c ← o.read .ghostCount
  let g ← objSet env g .ghostIdx c
  let c ← c.add (.int 1)
  let o ← objSet env o .ghostCount c
  return (g, o)

/-- `beam.create_ghost(tag, **kw)` (detector.py:408-472). -/
def createGhost [FloorRing K] (env : Env K) (r : Ref) (tag : Option String) (kw : Dict K) :
    Exec (Heap K) Unit := fun h =>
  let o := h.cell r
  if o.isGhost then (.error .runtimeError, h)
  else match makeGhost env o tag kw with
    | .error e => (.error e, h)
    | .ok g => match linkGhost env o g with
      | .error e => (.error e, h)
      | .ok (g, o) => match o.ghosts with
        | none => (.error .attributeError, h)
        | some gs => (.ok (), (h.put r { o with ghosts := some (gs ++ [h.size]) }).alloc g)

/-- The part of `reuse_blm` about `ghost_idx` (detector.py:488-489). -/
def shareIdx [FloorRing K] (env : Env K) (r p : Ref) : Exec (Heap K) Unit := fun h =>
  if (h.cell p).isGhost && (h.cell r).isGhost then
    Exec.run (do
      let i ← getattr env p .ghostIdx
      setattr env r .ghostIdx i) h
  else (.ok (), h)

/-- `setattr(beam, k, getattr(partner, k))`. -/
def copyAttr [FloorRing K] (env : Env K) (r p : Ref) (k : Key) : Exec (Heap K) Unit := do
  let v ← getattr env p k
  setattr env r k v

/-- `beam.reuse_blm(partner)` (detector.py:474-495). -/
def reuseBlm [FloorRing K] (env : Env K) (r p : Ref) : Exec (Heap K) Unit := do
  shareIdx env r p
  copyAttr env r p .blm
  copyAttr env r p .btype
  copyAttr env r p .lmax
  copyAttr env r p .mmax
  copyAttr env r p .amplitude

/-- `del beam.blm`, a missing attribute being ignored (detector.py:509-513, 516-520). -/
def dropBlm (r : Ref) (h : Heap K) : Heap K :=
  h.put r { h.cell r with attr := Function.update (h.cell r).attr .blm none }

/-- `beam.delete_blm(del_ghosts_blm)` (detector.py:497-520); `any(self.ghosts)` raises for a
ghost, after its own coefficients were removed. -/
def deleteBlm (r : Ref) (delGhosts : Bool) : Exec (Heap K) Unit := fun h =>
  let h := dropBlm r h
  match (h.cell r).ghosts with
  | none => (.error .attributeError, h)
  | some gs => (.ok (), if delGhosts then gs.foldl (fun h g => dropBlm g h) h else h)

/-- `beam.get_offsets()` (detector.py:522-548). -/
def getOffsets (o : Obj K) : PyM (Val K × Val K × Val K) := do
  let a ← o.read .az
  let e ← o.read .el
  let p ← polangTruth o
  return (a, e, p)

end

end Verif.Beam
