import Mathlib.Data.List.Sort
import Verif.Model.FocalPlane

/-!
# Loading a focal plane from a directory

`Instrument.load_focal_plane` (instrument.py:631-827) with the choice of the files and with every
content a pickle file can have.  `Model/FocalPlane.loadFocalPlane` starts from the contents of the
chosen files and knows only files with separate dictionaries.

Simplifications: one process (see `Model/Ranks` for many); neither `tag` nor `bdir` contains the
special characters `*?[` of `glob`; all files can be read and unpickled; printing is left out.
-/

namespace Verif.LoadPlane

open Verif.Beam Verif.FocalPlane

variable {K : Type} [Field K] [LinearOrder K] [FloorRing K]

/-- The content of a pickle file: a dictionary, a sequence of separate dictionaries, a sequence of
twice the same dictionary object (pickle keeps the identity), or anything else. -/
inductive Pickle (K : Type) where
  | dict (d : Dict K)
  | list (l : List (Dict K))
  | twice (d : Dict K)
  | other

/-- The files of a directory: their names relative to it, and their contents. -/
abbrev Dir (K : Type) := List (String × Pickle K)

/-- `tag in fname`. -/
def contains (tag fname : String) : Bool := decide (tag.toList <:+: fname.toList)

/-- Does `glob` list the file for `'*' + tag + '*.pkl'` (instrument.py:735)?  Hidden files are left
out, and files of subdirectories. -/
def globMatch (tag name : String) : Bool :=
  name.toList.head? ≠ some '.' ∧ '/' ∉ name.toList ∧ ".pkl".toList <:+ name.toList ∧
    tag.toList <:+: name.toList.take (name.toList.length - 4)

/-- `list.sort` of strings. -/
def sortNames (l : List String) : List String := l.insertionSort (· ≤ ·)

/-- The files given by name (instrument.py:724-732). -/
def named (dir : Dir K) (tag : String) : List String → PyM (List String)
  | [] => .ok []
  | fname :: rest =>
    if !contains tag fname then named dir tag rest
    else if dir.any (fun f => f.1 = fname ++ ".pkl") then do
      let l ← named dir tag rest
      .ok ((fname ++ ".pkl") :: l)
    else .error .osError

/-- `file_list` (instrument.py:721-741); `file_names` is tested for truth. -/
def select (dir : Dir K) (tag : Option String) (names : Option (List String)) : PyM (List String) :=
  let tag := tag.getD ""
  let all : PyM (List String) :=
    let l := (dir.map Prod.fst).filter (globMatch tag)
    if l.isEmpty then .error .runtimeError else .ok l
  let l := match names with
    | none => all
    | some [] => all
    | some l => named dir tag l
  l.map sortNames

/-- The local variables `beam_opts_a`, `beam_opts_b`: separate objects or the same one. -/
inductive Held (K : Type) where
  | two (a b : Dict K)
  | shared (d : Dict K)

/-- instrument.py:752-774.  Contents that are neither a dictionary nor a sequence leave the variables
as the file before has left them. -/
def unpack (prev : Option (Held K)) : Pickle K → PyM (Held K)
  | .dict d => do
    let a ← suffixName d "A"
    let b ← suffixName d "B"
    return .two a b
  | .list [a, b] => .ok (.two a b)
  | .list _ => .error .valueError
  | .twice d => .ok (.shared d)
  | .other => match prev with
    | some h => .ok h
    | none => .error .nameError

/-- instrument.py:776-799: the options of both detectors, and the variables afterwards.  If both are
the same object, whatever is set last holds for both. -/
def complete (kw : Dict K) (noPairs : Bool) (polangA polangB : Val K) (idx : Int) :
    Held K → PyM (Dict K × Dict K × Held K)
  | .two a b => do
    let a ← finishOpts a kw idx polangA "A" false
    let b ← finishOpts b kw (idx + 1) polangB "B" noPairs
    return (a, b, .two a b)
  | .shared d => do
    let _ ← finishOpts d kw (idx + 1) polangA "A" false
    let b ← finishOpts d kw (idx + 1) polangB "B" noPairs
    return ((.pol, .str "A") :: b, b, .shared b)

/-- The options of the detectors of all files (instrument.py:750-801). -/
def steps (kw : Dict K) (noPairs : Bool) (polangA polangB : Val K) :
    Option (Held K) → Int → List (Pickle K) → List (PyM (Dict K) × PyM (Dict K))
  | _, _, [] => []
  | prev, idx, f :: fs =>
    match (unpack prev f).bind (complete kw noPairs polangA polangB idx) with
    | .error e => [(.error e, .error e)]
    | .ok (a, b, h) => (.ok a, .ok b) :: steps kw noPairs polangA polangB (some h) (idx + 2) fs

/-- `load_focal_plane(bdir, tag, no_pairs, combine, …, file_names, **kw)` (instrument.py:631-827). -/
def load (env : Env K) (dir : Dir K) (tag : Option String) (names : Option (List String))
    (noPairs combine : Bool) (polangA polangB : Val K) (kw : Dict K) : Exec (Plane K) Unit := fun p =>
  match startIdx p combine with
  | .error e => (.error e, p)
  | .ok idx => match select dir tag names with
    | .error e => (.error e, p)
    | .ok l =>
      match buildPairs env (steps kw noPairs polangA polangB none idx
          (l.filterMap fun n => dir.lookup n)) p.heap with
      | (.error e, h) => (.error e, { p with heap := h })
      | (.ok l, h) => (.ok (), extend { p with heap := h } l (2 * l.length) combine)

end Verif.LoadPlane
