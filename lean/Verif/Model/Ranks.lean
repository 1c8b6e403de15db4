import Verif.Model.Mpi

/-!
# Model: building a focal plane on many ranks (instrument.py:450-827, 945-990)

All ranks run the same calls.  A rank holds its own `beams` and `ndet`.

Simplifications: a detector is reduced to a label, its `idx` and its `dead` flag (the other
attributes are in `Model/FocalPlane`); pairs have both detectors; the calls do not fail in the
construction of beams; `rank < size`.
-/

namespace Verif.Ranks

open Verif.Mpi

/-- A detector: `label` stands for its pointing, beam and name. -/
structure Det where
  label : Nat
  idx : Int
  dead : Bool
  deriving DecidableEq, Repr

/-- One entry of `beams`. -/
abbrev Pair := Det × Det

/-- An `Instrument` on one rank. -/
structure Inst where
  beams : List Pair
  ndet : Nat
  deriving DecidableEq, Repr

/-- `beams_idxs()` (instrument.py:305-322). -/
def idxs (i : Inst) : List Int := i.beams.flatMap fun q => [q.1.idx, q.2.idx]

/-- First index for new beams (instrument.py:502-513, 709-717). -/
def startIdx (i : Inst) (combine : Bool) : Int :=
  if combine then
    match (idxs i).max? with
    | some m => m + 1
    | none => 0
  else 0

/-- The new pairs, numbered from `start` on (instrument.py:522-541, 748-798).  `labels` are the
labels of the A and B detectors. -/
def newPairs : List (Nat × Nat) → Int → List Pair
  | [], _ => []
  | (a, b) :: l, i => (⟨a, i, false⟩, ⟨b, i + 1, false⟩) :: newPairs l (i + 2)

/-- `self.beams = beams` or `self.beams += beams`, and the same for `ndet`
(instrument.py:503, 512, 549-553, 818-827). -/
def store (i : Inst) (combine : Bool) (new : List Pair) (n : Nat) : Inst :=
  if combine then ⟨i.beams ++ new, i.ndet + n⟩ else ⟨new, n⟩

/-- `create_focal_plane(..., combine, scatter)` on one rank (instrument.py:450-553): every rank
makes all pairs and, with `scatter`, keeps its share. -/
def create (size rank : Nat) (labels : List (Nat × Nat)) (combine scatter : Bool) (i : Inst) :
    PyM Inst :=
  let new := newPairs labels (startIdx i combine)
  if scatter then do
    let mine ← distributeArray new size rank
    return store i combine mine (2 * labels.length)
  else .ok (store i combine new (2 * labels.length))

/-- `load_focal_plane(..., combine, scatter)` on one rank (instrument.py:631-827): the root, whose
instrument is `root`, makes all pairs; they are scattered or sent to all.  `labels` are the contents
of the files. -/
def load (size rank : Nat) (labels : List (Nat × Nat)) (combine scatter : Bool) (root i : Inst) :
    PyM Inst :=
  let new := newPairs labels (startIdx root combine)
  if scatter then do
    let mine ← scatterList new size rank
    return store i combine mine (2 * new.length)
  else .ok (store i combine new (2 * new.length))

/-- `dead = True` for one slot of a pair. -/
def killSlot (q : Pair) (rem : Nat) : Pair :=
  if rem = 0 then ({ q.1 with dead := true }, q.2) else (q.1, { q.2 with dead := true })

/-- `dead = True` for both. -/
def killBoth (q : Pair) : Pair := ({ q.1 with dead := true }, { q.2 with dead := true })

/-- One turn of the loop of `kill_channels` (instrument.py:981-988). -/
def killOne (pairs : Bool) (beams : List Pair) (k : Nat) : PyM (List Pair) :=
  if pairs then
    match beams[k]? with
    | some q => .ok (beams.set k (killBoth q))
    | none => .error .indexError
  else
    match beams[k / 2]? with
    | some q => .ok (beams.set (k / 2) (killSlot q (k % 2)))
    | none => .error .indexError

/-- The loop of `kill_channels`. -/
def killAll (pairs : Bool) : List Pair → List Nat → PyM (List Pair)
  | b, [] => .ok b
  | b, k :: ks => match killOne pairs b k with
    | .ok b => killAll pairs b ks
    | .error e => .error e

/-- `kill_channels(killfrac, pairs)` on one rank (instrument.py:945-988): the root draws
`int(ndet*killfrac)` of the numbers below its `ndet` (or half of it), all ranks use them.
`choice n` is what the root draws from `range(n)`. -/
def kill (choice : Nat → List Nat) (pairs : Bool) (root i : Inst) : PyM Inst :=
  match killAll pairs i.beams (choice (if pairs then root.ndet / 2 else root.ndet)) with
  | .ok b => .ok ⟨b, i.ndet⟩
  | .error e => .error e

/-- Calls that all ranks make. -/
inductive Call where
  | create (labels : List (Nat × Nat)) (combine scatter : Bool)
  | load (labels : List (Nat × Nat)) (combine scatter : Bool)
  | kill (choice : Nat → List Nat) (pairs : Bool)

/-- What a call makes of the instrument of rank `rank`; `w` are the instruments of all ranks. -/
def step (size : Nat) (c : Call) (w : Nat → Inst) (rank : Nat) : PyM Inst :=
  match c with
  | .create labels combine scatter => create size rank labels combine scatter (w rank)
  | .load labels combine scatter => load size rank labels combine scatter (w 0) (w rank)
  | .kill choice pairs => kill choice pairs (w 0) (w rank)

/-- The pass loop of `scan_instrument_mpi` on one rank, reduced to the pair each pass works on
(instrument.py:1835-1859): with `scatter` the root's `beams` are scattered, but the number of passes
follows from the rank's own `beams`. -/
def scan (size rank : Nat) (scatter : Bool) (w : Nat → Inst) : PyM (List (Option Pair)) :=
  if scatter then do
    let mine ← scatterList (w 0).beams size rank
    return passes mine (nmax (w rank).beams.length size)
  else .ok (passes (w rank).beams (nmax (w rank).beams.length size))

end Verif.Ranks
