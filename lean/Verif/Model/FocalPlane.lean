import Verif.Model.Beam

/-!
# Model: the focal plane of an `Instrument` (instrument.py:247-1193)

The state holds the heap of beams, the list of pairs, the detector count and the number of random
numbers drawn.

Simplifications: pairs are Python lists of length two that are not shared with the caller; one MPI
process (the distribution over processes is in `Model/Mpi`); normal deviates come from an arbitrary
sequence; the contents of files are given.  `np.atleast_2d(self.beams)` is the list of pairs (for
an empty focal plane numpy gives one empty row, so that `add_to_prop(per_pair=True)` draws one
number nobody sees).
-/

namespace Verif.FocalPlane

open Verif.Beam

/-- One entry of `Instrument.beams`: `[A, B]`, each a beam or `None`. -/
abbrev Pair := Option Ref × Option Ref

/-- `Instrument.beams`, `Instrument.ndet` (instrument.py:299-300) and the world around them. -/
structure Plane (K : Type) where
  heap : Heap K
  beams : List Pair
  ndet : Int
  draws : Nat

/-- A (list of) beam(s) as argument: one object, a list, or a list of pairs.  `none` is `None`. -/
inductive Arg where
  | single (r : Option Ref)
  | flat (l : List (Option Ref))
  | nested (l : List Pair)

section
variable {K : Type}

/-- Run a computation on the heap only. -/
def onHeap {α : Type} (x : Exec (Heap K) α) : Exec (Plane K) α := fun p =>
  match x p.heap with
  | (r, h) => (r, { p with heap := h })

/-- All beams of a list of pairs, `None` left out, in the order of the two nested loops used
everywhere (e.g. instrument.py:316-320). -/
def slots (l : List Pair) : List Ref := l.flatMap fun q => q.1.toList ++ q.2.toList

/-- One entry of `np.asarray(beam_idx, dtype=int)`: `None` raises TypeError. -/
def idxOf (h : Heap K) (r : Ref) : PyM Int :=
  match (h.cell r).attr .idx with
  | some (.int i) => .ok i
  | _ => .error .typeError

/-- `beams_idxs()` (instrument.py:305-322). -/
def beamsIdxs (p : Plane K) : PyM (List Int) := (slots p.beams).mapM (idxOf p.heap)

/-- First free index: `idxs.max() + 1`, or 0 for an empty focal plane
(instrument.py:366-372, 504-510). -/
def nextIdx (p : Plane K) : PyM Int :=
  match beamsIdxs p with
  | .error e => .error e
  | .ok l => .ok (match l.max? with | some m => m + 1 | none => 0)

/-- First index of the new beams (instrument.py:366-374). -/
def startIdx (p : Plane K) (combine : Bool) : PyM Int := if combine then nextIdx p else .ok 0

/-- `beam._idx = idx`; raises AttributeError for `None`. -/
def putIdx (r : Option Ref) (i : Int) : Exec (Heap K) Unit := fun h =>
  match r with
  | some r => (.ok (), h.put r ((h.cell r).put .idx (.int i)))
  | none => (.error .attributeError, h)

/-- The loop over a list of beams (instrument.py:385-390). -/
def numberFlat : List (Option Ref) → Int → Exec (Heap K) Unit
  | [], _ => fun h => (.ok (), h)
  | r :: l, i => fun h => match putIdx r i h with
    | (.ok _, h) => numberFlat l (i + 1) h
    | (.error e, h) => (.error e, h)

/-- All slots of a list of pairs, including `None`. -/
def flatten : List Pair → List (Option Ref)
  | [] => []
  | q :: l => q.1 :: q.2 :: flatten l

/-- `add_to_focal_plane(beams, combine)` (instrument.py:324-405): what is added to the list. -/
def toAdd : Arg → List Pair
  | .single r => [(r, none)]
  | .flat l => l.map fun r => (r, none)
  | .nested l => l

/-- The beams that get an index, in this order (instrument.py:379-396). -/
def toNumber : Arg → List (Option Ref)
  | .single r => [r]
  | .flat l => l
  | .nested l => flatten l

/-- `beams[0]` raises IndexError for an empty list (instrument.py:348). -/
def Arg.isEmptyList : Arg → Bool
  | .single _ => false
  | .flat l => l.isEmpty
  | .nested l => l.isEmpty

/-- The last part of `add_to_focal_plane` and of the methods creating beams: append or replace
(instrument.py:398-405). -/
def extend (p : Plane K) (l : List Pair) (n : Int) (combine : Bool) : Plane K :=
  if combine then { p with beams := p.beams ++ l, ndet := p.ndet + n }
  else { p with beams := l, ndet := n }

/-- `ndet2add` (instrument.py:377-395): one per beam of a list, two per pair. -/
def ndetToAdd : Arg → Int
  | .single _ => 1
  | .flat l => l.length
  | .nested l => 2 * l.length

/-- `add_to_focal_plane(beams, combine)` (instrument.py:324-405).  The indices are overwritten
before the focal plane changes. -/
def addToFocalPlane (a : Arg) (combine : Bool) : Exec (Plane K) Unit := fun p =>
  if a.isEmptyList then (.error .indexError, p)
  else match startIdx p combine with
    | .error e => (.error e, p)
    | .ok i => match numberFlat (toNumber a) i p.heap with
      | (.error e, h) => (.error e, { p with heap := h })
      | (.ok _, h) => (.ok (), extend { p with heap := h } (toAdd a) (ndetToAdd a) combine)

/-- `bad_beams` flattened (instrument.py:418-432). -/
def badList : Arg → List (Option Ref)
  | .single r => [r]
  | .flat l => l
  | .nested l => flatten l

/-- One slot: `None` if the beam is in `bad_beams` (instrument.py:438-439). -/
def dropSlot (bad : List (Option Ref)) (r : Option Ref) : Option Ref :=
  if r ∈ bad then none else r

/-- How often `self.ndet -= 1` is executed for a pair (instrument.py:435-440). -/
def dropCount (bad : List (Option Ref)) (q : Pair) : Int :=
  (if q.1 ∈ bad then 1 else 0) + (if q.2 ∈ bad then 1 else 0)

/-- `remove_from_focal_plane(bad_beams)` (instrument.py:407-448).  The membership test is by
identity, and `None in [None]` is true. -/
def removeFromFocalPlane (a : Arg) : Exec (Plane K) Unit := fun p =>
  if a.isEmptyList then (.error .indexError, p)
  else
    let bad := badList a
    (.ok (), { p with
      ndet := p.ndet - (p.beams.map (dropCount bad)).sum
      beams := (p.beams.map fun q => (dropSlot bad q.1, dropSlot bad q.2)).filter
        (· ≠ (none, none)) })
end

section
variable {K : Type} [Field K] [LinearOrder K] [FloorRing K]

/-- Build pairs of beams from their keyword arguments, A first (instrument.py:520-537, 605-616,
775-789). -/
def buildPairs (env : Env K) : List (PyM (Dict K) × PyM (Dict K)) → Exec (Heap K) (List Pair)
  | [] => fun h => (.ok [], h)
  | (a, b) :: l => fun h => match a with
    | .error e => (.error e, h)
    | .ok a => match newBeam env a h with
      | (.error e, h) => (.error e, h)
      | (.ok ra, h) => match b with
        | .error e => (.error e, h)
        | .ok b => match newBeam env b h with
          | (.error e, h) => (.error e, h)
          | (.ok rb, h) => match buildPairs env l h with
            | (.error e, h) => (.error e, h)
            | (.ok qs, h) => (.ok ((some ra, some rb) :: qs), h)

/-- Item `i` of `np.linspace(start, stop, n)`, end point included. -/
def linspaceItem (start stop : K) (n i : Nat) : K :=
  if n = 1 then start else start + (i : K) * ((stop - start) / ((n : K) - 1))

/-- `'{:03d}'.format(n)` as characters. -/
def pad3 (n : Nat) : List Char :=
  List.replicate (3 - (Nat.toDigits 10 n).length) '0' ++ Nat.toDigits 10 n

/-- `'r{:03d}c{:03d}'.format(el_idx, az_idx) + suffix` (instrument.py:523-532). -/
def detName (e a : Nat) (suffix : Char) : String :=
  String.ofList ('r' :: (pad3 e ++ 'c' :: (pad3 a ++ [suffix])))

/-- `dead or no_pairs`. -/
def Val.or (v w : Val K) : Val K := if v.truthy then v else w

/-- Keys removed from the keyword arguments of `create_focal_plane` (instrument.py:490-498). -/
def gridReserved : List Key := [.az, .el, .pol, .name, .ghost, .idx, .polang, .dead]

/-- `kwargs.pop(key, default)`. -/
def popArg (kw : Dict K) (k : Key) (d : Val K) : Val K :=
  match Dict.get? kw k with
  | some v => v
  | none => d

/-- Keyword arguments for the two beams in column `a` and row `e` (instrument.py:520-532). -/
def gridPair (nrow ncol : Nat) (fov : K) (noPairs : Bool) (abDiff : Val K) (kw : Dict K)
    (idx : Int) (e a : Nat) : PyM (Dict K) × PyM (Dict K) :=
  let az := Val.num (linspaceItem (-fov / 2) (fov / 2) ncol a)
  let el := Val.num (linspaceItem (-fov / 2) (fov / 2) nrow e)
  let polang := popArg kw .polang (.num 0)
  let dead := popArg kw .dead (.bool false)
  let rest := kw.filter (·.1 ∉ gridReserved)
  (.ok ([(.az, az), (.el, el), (.name, .str (detName e a 'A')), (.polang, polang), (.dead, dead),
      (.pol, .str "A"), (.idx, .int idx)] ++ rest),
   do
    let pb ← polang.add abDiff
    return [(.az, az), (.el, el), (.name, .str (detName e a 'B')), (.polang, pb),
      (.dead, Val.or dead (.bool noPairs)), (.pol, .str "B"), (.idx, .int (idx + 1))] ++ rest)

/-- The two nested loops of `create_focal_plane` (instrument.py:520-537): position of pair
number `n` is column `n / nrow`, row `n % nrow`. -/
def gridOpts (nrow ncol : Nat) (fov : K) (noPairs : Bool) (abDiff : Val K) (kw : Dict K)
    (idx : Int) : List (PyM (Dict K) × PyM (Dict K)) :=
  (List.range (ncol * nrow)).map fun (n : Nat) =>
    gridPair nrow ncol fov noPairs abDiff kw (idx + 2 * n) (n % nrow) (n / nrow)

/-- `self.ndet` is set before any beam exists (instrument.py:500-513). -/
def presetNdet (p : Plane K) (n : Int) (combine : Bool) : Plane K :=
  { p with ndet := if combine then p.ndet + n else n }

/-- `self.beams = beams` or `self.beams += beams` (instrument.py:549-553). -/
def extendBeams (p : Plane K) (l : List Pair) (combine : Bool) : Plane K :=
  { p with beams := if combine then p.beams ++ l else l }

/-- `create_focal_plane(nrow, ncol, fov, no_pairs, ab_diff, combine, **kw)`
(instrument.py:450-553). `np.linspace` raises ValueError for a negative number of points. -/
def createFocalPlane (env : Env K) (nrow ncol : Int) (fov : K) (noPairs : Bool) (abDiff : Val K)
    (combine : Bool) (kw : Dict K) : Exec (Plane K) Unit := fun p =>
  let p1 := presetNdet p (2 * nrow * ncol) combine
  match startIdx p combine with
  | .error e => (.error e, p1)
  | .ok idx =>
    if nrow < 0 ∨ ncol < 0 then (.error .valueError, p1)
    else match buildPairs env
        (gridOpts nrow.toNat ncol.toNat fov noPairs abDiff kw idx) p1.heap with
      | (.error e, h) => (.error e, { p1 with heap := h })
      | (.ok l, h) => (.ok (), extendBeams { p1 with heap := h } l combine)

/-- One row of the arrays given to `input_focal_plane`: values for A and for B. -/
abbrev Row (K : Type) := Val K × Val K

/-- Keyword arguments of the two beams of row `i` (instrument.py:610-614): both get index `i`, and
a keyword that is also in `kw` raises TypeError. -/
def inputPair (kw : Dict K) (i : Nat) (az el polang dead : Row K) :
    PyM (Dict K) × PyM (Dict K) :=
  let name := Val.str ("det" ++ toString i)
  if kw.any fun x => x.1 ∈ [Key.az, .el, .name, .polang, .dead, .pol, .idx] then
    (.error .typeError, .error .typeError)
  else
    (.ok ([(.az, az.1), (.el, el.1), (.name, name), (.polang, polang.1), (.dead, dead.1),
      (.pol, .str "A"), (.idx, .int i)] ++ kw),
     .ok ([(.az, az.2), (.el, el.2), (.name, name), (.polang, polang.2), (.dead, dead.2),
      (.pol, .str "B"), (.idx, .int i)] ++ kw))

/-- `enumerate(zip(azs, els, polangs, deads))` (instrument.py:607-608). -/
def inputOpts (kw : Dict K) : Nat → List (Row K) → List (Row K) → List (Row K) → List (Row K) →
    List (PyM (Dict K) × PyM (Dict K))
  | i, a :: as, e :: es, q :: qs, d :: ds =>
    inputPair kw i a e q d :: inputOpts kw (i + 1) as es qs ds
  | _, _, _, _, _ => []

/-- `input_focal_plane(azs, els, polangs, deads, combine, **kw)` (instrument.py:555-629).
Without `combine` the undefined names `nrow`, `ncol` raise NameError. -/
def inputFocalPlane (env : Env K) (azs els polangs : List (Row K)) (deads : Option (List (Row K)))
    (combine : Bool) (kw : Dict K) : Exec (Plane K) Unit := fun p =>
  let deads := deads.getD (azs.map fun _ => (.bool false, .bool false))
  if combine then
    let p1 := presetNdet p (2 * azs.length) combine
    match startIdx p combine with
    | .error e => (.error e, p1)
    | .ok _ => match buildPairs env (inputOpts kw 0 azs els polangs deads) p1.heap with
      | (.error e, h) => (.error e, { p1 with heap := h })
      | (.ok l, h) => (.ok (), extendBeams { p1 with heap := h } l combine)
  else (.error .nameError, p)

/-- Content of a beam file: options for A, or for A and B (instrument.py:737-758). -/
inductive BeamFile (K : Type) where
  | one (d : Dict K)
  | two (a b : Dict K)
  | wrongLength

/-- `opts['name'] += suffix` if there is a true name (instrument.py:743-745). -/
def suffixName (d : Dict K) (suffix : String) : PyM (Dict K) :=
  match Dict.get? d .name with
  | none => .ok d
  | some v =>
    if v.truthy then do
      let w ← v.add (.str suffix)
      return (.name, w) :: d
    else .ok d

/-- The options of the two beams of a file (instrument.py:739-756). -/
def fileOpts : BeamFile K → PyM (Dict K × Dict K)
  | .one d => do
    let a ← suffixName d "A"
    let b ← suffixName d "B"
    return (a, b)
  | .two a b => .ok (a, b)
  | .wrongLength => .error .valueError

/-- `opts.update(kwargs); opts.update(dict(idx=idx))`, the shift of `polang`, and `pol`
(instrument.py:758-787). -/
def finishOpts (d kw : Dict K) (idx : Int) (shift : Val K) (pol : String) (dead : Bool) :
    PyM (Dict K) := do
  let d := (.idx, .int idx) :: (kw.filter (·.1 ∉ [Key.pol, .ghost, .idx]) ++ d)
  let q ← (popArg d .polang (.int 0)).add shift
  let d := (.polang, q) :: d
  let d := if dead then (.dead, .bool true) :: d else d
  return (.pol, .str pol) :: d

/-- Keyword arguments of both beams of a file; both dictionaries are made before the first beam
(instrument.py:737-789). -/
def filePair (kw : Dict K) (noPairs : Bool) (polangA polangB : Val K) (idx : Int)
    (f : BeamFile K) : PyM (Dict K × Dict K) := do
  let (a, b) ← fileOpts f
  let a ← finishOpts a kw idx polangA "A" false
  let b ← finishOpts b kw (idx + 1) polangB "B" noPairs
  return (a, b)

/-- All files (instrument.py:732-791). -/
def loadOpts (kw : Dict K) (noPairs : Bool) (polangA polangB : Val K) : Int → List (BeamFile K) →
    List (PyM (Dict K) × PyM (Dict K))
  | _, [] => []
  | idx, f :: fs =>
    ((filePair kw noPairs polangA polangB idx f).map Prod.fst,
     (filePair kw noPairs polangA polangB idx f).map Prod.snd) ::
      loadOpts kw noPairs polangA polangB (idx + 2) fs

/-- `load_focal_plane(…)` (instrument.py:631-827) given the contents of the selected files in
sorted order; which files those are, and their I/O, is not modelled. -/
def loadFocalPlane (env : Env K) (files : List (BeamFile K)) (noPairs combine : Bool)
    (polangA polangB : Val K) (kw : Dict K) : Exec (Plane K) Unit := fun p =>
  match startIdx p combine with
  | .error e => (.error e, p)
  | .ok idx => match buildPairs env (loadOpts kw noPairs polangA polangB idx files) p.heap with
    | (.error e, h) => (.error e, { p with heap := h })
    | (.ok l, h) => (.ok (), extend { p with heap := h } l (2 * l.length) combine)

/-! ### ghosts -/

/-- The next normal deviate, `np.random.normal()`. -/
def draw (rng : Nat → K) : Exec (Plane K) K := fun p =>
  (.ok (rng p.draws), { p with draws := p.draws + 1 })

/-- `-v`. -/
def Val.neg : Val K → PyM (Val K)
  | .int i => .ok (.int (-i))
  | .bool b => .ok (.int (if b then -1 else 0))
  | .num x => .ok (.num (-x))
  | _ => .error .typeError

/-- `kwargs` after the random perturbation of the amplitude (instrument.py:880-883, 937-941). -/
def perturb (rng : Nat → K) (stdev : K) (kw : Dict K) : Exec (Plane K) (Dict K) := fun p =>
  if stdev = 0 then (.ok kw, p)
  else match (popArg kw .amplitude (.num 1)).add (.num (stdev * rng p.draws)) with
    | .error e => (.error e, { p with draws := p.draws + 1 })
    | .ok a => (.ok ((.amplitude, a) :: kw), { p with draws := p.draws + 1 })

/-- `az` and `el` of the reflected ghost put into `kwargs` (instrument.py:931-933). -/
def reflectOpts (o : Obj K) (kw : Dict K) : PyM (Dict K) := do
  let a ← o.read .az
  let a ← Val.neg a
  let e ← o.read .el
  let e ← Val.neg e
  return (.az, a) :: (.el, e) :: kw

/-- One beam: returns the `kwargs` the next beam starts from (instrument.py:926-943). -/
def reflectOne (env : Env K) (rng : Nat → K) (stdev : K) (tag : Option String) (kw : Dict K)
    (r : Ref) : Exec (Plane K) (Dict K) := fun p =>
  match reflectOpts (p.heap.cell r) kw with
  | .error e => (.error e, p)
  | .ok kw => match perturb rng stdev kw p with
    | (.error e, p) => (.error e, p)
    | (.ok kw, p) => match onHeap (createGhost env r tag kw) p with
      | (.error e, p) => (.error e, p)
      | (.ok _, p) => (.ok kw, p)

/-- The loop over the beams (instrument.py:923-943). -/
def reflectLoop (env : Env K) (rng : Nat → K) (stdev : K) (tag : Option String) :
    List Ref → Dict K → Exec (Plane K) Unit
  | [], _ => fun p => (.ok (), p)
  | r :: l, kw => fun p => match reflectOne env rng stdev tag kw r p with
    | (.error e, p) => (.error e, p)
    | (.ok kw, p) => reflectLoop env rng stdev tag l kw p

/-- The beams to loop over: the argument, or the focal plane if it is false
(instrument.py:918-923). -/
def chosen (p : Plane K) : Option (List Pair) → List Pair
  | none => p.beams
  | some [] => p.beams
  | some l => l

/-- `create_reflected_ghosts(beams, rand_stdev=stdev, tag=tag, **kw)` (instrument.py:887-943). -/
def createReflectedGhosts (env : Env K) (rng : Nat → K) (beams : Option (List Pair))
    (tag : Option String) (stdev : K) (kw : Dict K) : Exec (Plane K) Unit := fun p =>
  reflectLoop env rng stdev tag (slots (chosen p beams)) kw p

/-- Options of the crosstalk ghost put into `kwargs` (instrument.py:868-877). -/
def crosstalkOpts (o : Obj K) (az el : Val K) (kw : Dict K) : PyM (Dict K) := do
  let q ← o.read .polang
  let q ← q.add (.int 90)
  return (.az, az) :: (.el, el) :: (.polang, q) :: (.dead, .bool (!az.truthy)) :: kw

/-- One beam; `None` raises AttributeError at `beam.polang` (instrument.py:868-885). -/
def crosstalkOne (env : Env K) (rng : Nat → K) (stdev : K) (tag : Option String) (kw : Dict K)
    (r : Option Ref) (az el : Val K) : Exec (Plane K) (Dict K) := fun p =>
  match r with
  | none => (.error .attributeError, p)
  | some r => match crosstalkOpts (p.heap.cell r) az el kw with
    | .error e => (.error e, p)
    | .ok kw => match perturb rng stdev kw p with
      | (.error e, p) => (.error e, p)
      | (.ok kw, p) => match onHeap (createGhost env r tag kw) p with
        | (.error e, p) => (.error e, p)
        | (.ok _, p) => (.ok kw, p)

/-- The loop over slots and offsets (instrument.py:866-885). -/
def crosstalkLoop (env : Env K) (rng : Nat → K) (stdev : K) (tag : Option String) :
    List (Option Ref × Val K × Val K) → Dict K → Exec (Plane K) Unit
  | [], _ => fun p => (.ok (), p)
  | (r, az, el) :: l, kw => fun p => match crosstalkOne env rng stdev tag kw r az el p with
    | (.error e, p) => (.error e, p)
    | (.ok kw, p) => crosstalkLoop env rng stdev tag l kw p

/-- The slots with their offsets: `zip` stops at the shortest (instrument.py:866-867). -/
def crosstalkItems : List Pair → List (Row K) → List (Row K) → List (Option Ref × Val K × Val K)
  | q :: qs, a :: as, e :: es => (q.1, a.1, e.1) :: (q.2, a.2, e.2) :: crosstalkItems qs as es
  | _, _, _ => []

/-- `create_crosstalk_ghosts(azs, els, beams, rand_stdev=stdev, tag=tag, **kw)`
(instrument.py:829-885). -/
def createCrosstalkGhosts (env : Env K) (rng : Nat → K) (azs els : List (Row K))
    (beams : Option (List Pair)) (tag : Option String) (stdev : K) (kw : Dict K) :
    Exec (Plane K) Unit := fun p =>
  crosstalkLoop env rng stdev tag (crosstalkItems (chosen p beams) azs els) kw p

/-! ### dead channels -/

/-- `self.beams[quot][rem].dead = True`. -/
def killSlot (r : Option Ref) : Exec (Heap K) Unit :=
  match r with
  | some r => setDead (.bool true) r
  | none => Exec.lift (.error .attributeError)

/-- One kill index of `kill_channels` (instrument.py:979-988); indices come from `range(ndet)`. -/
def killOne (beams : List Pair) (pairs : Bool) (k : Nat) : Exec (Heap K) Unit :=
  if pairs then
    match beams[k]? with
    | none => Exec.lift (.error .indexError)
    | some q => do
      killSlot q.1
      killSlot q.2
  else
    match beams[k / 2]? with
    | none => Exec.lift (.error .indexError)
    | some q => killSlot (if k % 2 = 0 then q.1 else q.2)

/-- `kill_channels(killfrac, pairs)` (instrument.py:945-988).  `choice n k` stands for
`choice(n, k, replace=False)`. -/
def killChannels (choice : Int → Int → PyM (List Nat)) (frac : K) (pairs : Bool) :
    Exec (Plane K) Unit := fun p =>
  let n := if pairs then p.ndet / 2 else p.ndet
  match choice n (trunc ((n : K) * frac)) with
  | .error e => (.error e, p)
  | .ok ks => onHeap (Exec.forEach ks (killOne p.beams pairs)) p

/-! ### properties of all beams -/

/-- `for key in prop: setattr(beam, key, prop[key])` (instrument.py:1034-1036). -/
def applyProps (env : Env K) (props : Dict K) (r : Ref) : Exec (Heap K) Unit :=
  Exec.forEach props fun e => setattr env r e.1 e.2

/-- `beam.ghosts`; AttributeError for a ghost (detector.py:129-132). -/
def ghostsOf (r : Ref) : Exec (Heap K) (List Ref) := fun h =>
  match (h.cell r).ghosts with
  | some gs => (.ok gs, h)
  | none => (.error .attributeError, h)

/-- The ghosts of a beam (instrument.py:1038-1042). -/
def applyGhosts (env : Env K) (props : Dict K) (r : Ref) : Exec (Heap K) Unit := do
  let gs ← ghostsOf r
  Exec.forEach gs (applyProps env props)

/-- One beam (instrument.py:1034-1042). -/
def applyBeam (env : Env K) (props : Dict K) (inclGhosts : Bool) (r : Ref) :
    Exec (Heap K) Unit := do
  applyProps env props r
  if inclGhosts then applyGhosts env props r else pure ()

/-- The beams selected by `no_A`, `no_B` (instrument.py:1022-1032). -/
def selected (noB noA : Bool) (l : List Pair) : List Ref :=
  l.flatMap fun q => (if noA then [] else q.1.toList) ++ (if noB then [] else q.2.toList)

/-- `set_global_prop(prop, incl_ghosts, no_B, no_A)` (instrument.py:990-1043). -/
def setGlobalProp (env : Env K) (props : Dict K) (inclGhosts noB noA : Bool) :
    Exec (Plane K) Unit := fun p =>
  onHeap (Exec.forEach (selected noB noA p.beams) (applyBeam env props inclGhosts)) p

/-- `getattr(beam, key, 0)`. -/
def getattrOrZero (env : Env K) (r : Ref) (k : Key) : Exec (Heap K) (Val K) := fun h =>
  match getattr env r k h with
  | (.ok v, h) => (.ok v, h)
  | (.error .attributeError, h) => (.ok (.int 0), h)
  | (.error e, h) => (.error e, h)

/-- `setattr(beam, key, val0 + val)` (instrument.py:1161-1164). -/
def addMain (env : Env K) (k : Key) (v : Val K) (r : Ref) : Exec (Heap K) Unit := do
  let v0 ← getattrOrZero env r k
  let w ← Exec.lift (v0.add v)
  setattr env r k w

/-- For ghosts the old value is read but not added (instrument.py:1170-1173). -/
def addGhost (env : Env K) (k : Key) (v : Val K) (g : Ref) : Exec (Heap K) Unit := do
  let _ ← getattrOrZero env g k
  setattr env g k v

/-- The ghosts of a beam (instrument.py:1166-1173). -/
def addGhosts (env : Env K) (k : Key) (v : Val K) (r : Ref) : Exec (Heap K) Unit := do
  let gs ← ghostsOf r
  Exec.forEach gs (addGhost env k v)

/-- One beam, given the value with its random part (instrument.py:1158-1173). -/
def addBeam (env : Env K) (k : Key) (v : Val K) (inclGhosts : Bool) (r : Ref) :
    Exec (Heap K) Unit := do
  addMain env k v r
  if inclGhosts then addGhosts env k v r else pure ()

/-- `val + rndvar if rand_stdev != 0 else val` (instrument.py:1161). -/
def jitter (stdev z : K) (v : Val K) : PyM (Val K) :=
  if stdev = 0 then .ok v else v.add (.num (stdev * z))

/-- One slot (instrument.py:1142-1173); `z` is the deviate of the pair. -/
def addSlot (env : Env K) (rng : Nat → K) (k : Key) (v : Val K) (inclGhosts : Bool) (stdev : K)
    (perPair skip : Bool) (z : K) (r : Option Ref) : Exec (Plane K) Unit := fun p =>
  if skip then (.ok (), p)
  else
    let z' := if perPair then z else rng p.draws
    let p := if stdev = 0 ∨ perPair then p else { p with draws := p.draws + 1 }
    match r with
    | none => (.ok (), p)
    | some r => match jitter stdev z' v with
      | .error e => (.error e, p)
      | .ok v => onHeap (addBeam env k v inclGhosts r) p

/-- One pair (instrument.py:1133-1173). -/
def addPair (env : Env K) (rng : Nat → K) (k : Key) (v : Val K) (inclGhosts : Bool) (stdev : K)
    (perPair noB noA : Bool) (q : Pair) : Exec (Plane K) Unit := fun p =>
  let z := rng p.draws
  let p := if stdev ≠ 0 ∧ perPair then { p with draws := p.draws + 1 } else p
  match addSlot env rng k v inclGhosts stdev perPair noA z q.1 p with
  | (.error e, p) => (.error e, p)
  | (.ok _, p) => addSlot env rng k v inclGhosts stdev perPair noB z q.2 p

/-- `add_to_prop(prop, incl_ghosts, rand_stdev, per_pair, no_B, no_A)`
(instrument.py:1091-1174). -/
def addToProp (env : Env K) (rng : Nat → K) (props : Dict K) (inclGhosts : Bool) (stdev : K)
    (perPair noB noA : Bool) : Exec (Plane K) Unit := fun p =>
  match props with
  | [(k, v)] =>
    Exec.forEach p.beams (addPair env rng k v inclGhosts stdev perPair noB noA) p
  | _ => (.error .valueError, p)

/-- `val * z` for the values above. -/
def Val.scale (z : K) (v : Val K) : PyM (Val K) :=
  match v.toNum with
  | some x => .ok (.num (z * x))
  | none => .error .typeError

/-- One attribute of one beam: `getattr(beam, key) + dev * prop[key]`
(instrument.py:1078-1080, 1083-1087). -/
def randomOne (env : Env K) (dev : K) (r : Ref) (e : Key × Val K) : Exec (Heap K) Unit := do
  let v0 ← getattr env r e.1
  let d ← Exec.lift (Val.scale dev e.2)
  let w ← Exec.lift (v0.add d)
  setattr env r e.1 w

/-- All attributes of one object; `loc` is the mean of the deviates. -/
def randomAll (env : Env K) (rng : Nat → K) (loc : K) (props : Dict K) (r : Ref) :
    Exec (Plane K) Unit :=
  Exec.forEach props fun e => do
    let z ← draw rng
    onHeap (randomOne env (loc + z) r e)

/-- One beam of `set_global_prop_random`: `np.random.normal(1)` has mean one
(instrument.py:1075-1089). -/
def randomBeam (env : Env K) (rng : Nat → K) (props : Dict K) (inclGhosts : Bool) (r : Ref) :
    Exec (Plane K) Unit := do
  randomAll env rng 1 props r
  if inclGhosts then do
    let gs ← onHeap (ghostsOf r)
    Exec.forEach gs (randomAll env rng 0 props)
  else pure ()

/-- `set_global_prop_random(prop, incl_ghosts)` (instrument.py:1045-1089). -/
def setGlobalPropRandom (env : Env K) (rng : Nat → K) (props : Dict K) (inclGhosts : Bool) :
    Exec (Plane K) Unit := fun p =>
  Exec.forEach (slots p.beams) (randomBeam env rng props inclGhosts) p

/-- `set_btypes(btype)` (instrument.py:1176-1193): main beams only. -/
def setBtypes (env : Env K) (btype : Val K) : Exec (Plane K) Unit := fun p =>
  onHeap (Exec.forEach (slots p.beams) fun r => setattr env r .btype btype) p

end

end Verif.FocalPlane
