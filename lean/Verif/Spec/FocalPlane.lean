import Verif.Spec.Beam
import Verif.Model.FocalPlane

/-!
# Vocabulary for the focal-plane properties

A history is any sequence of calls on an `Instrument` and on the beams, with any arguments.
-/

namespace Verif.FocalPlane

open Verif.Beam

variable {K : Type} [Field K] [LinearOrder K] [FloorRing K]

/-- One call on the instrument, or on one of the beams. -/
inductive FOp (K : Type) where
  | beam (op : Op K)
  | add (a : Arg) (combine : Bool)
  | remove (a : Arg)
  | create (nrow ncol : Int) (fov : K) (noPairs : Bool) (abDiff : Val K) (combine : Bool)
      (kw : Dict K)
  | input (azs els polangs : List (Row K)) (deads : Option (List (Row K))) (combine : Bool)
      (kw : Dict K)
  | load (files : List (BeamFile K)) (noPairs combine : Bool) (polangA polangB : Val K)
      (kw : Dict K)
  | reflect (beams : Option (List Pair)) (tag : Option String) (stdev : K) (kw : Dict K)
  | crosstalk (azs els : List (Row K)) (beams : Option (List Pair)) (tag : Option String)
      (stdev : K) (kw : Dict K)
  | kill (choice : Int → Int → PyM (List Nat)) (frac : K) (pairs : Bool)
  | setProp (props : Dict K) (inclGhosts noB noA : Bool)
  | addProp (props : Dict K) (inclGhosts : Bool) (stdev : K) (perPair noB noA : Bool)
  | randomProp (props : Dict K) (inclGhosts : Bool)
  | btypes (v : Val K)

/-- The computation a call stands for. -/
def FOp.exec (env : Env K) (rng : Nat → K) : FOp K → Exec (Plane K) Unit
  | .beam op => fun p => (.ok (), { p with heap := op.after env p.heap })
  | .add a c => addToFocalPlane a c
  | .remove a => removeFromFocalPlane a
  | .create nrow ncol fov np ab c kw => createFocalPlane env nrow ncol fov np ab c kw
  | .input a e q d c kw => inputFocalPlane env a e q d c kw
  | .load fs np c qa qb kw => loadFocalPlane env fs np c qa qb kw
  | .reflect b t s kw => createReflectedGhosts env rng b t s kw
  | .crosstalk a e b t s kw => createCrosstalkGhosts env rng a e b t s kw
  | .kill ch f pr => killChannels ch f pr
  | .setProp ps g nb na => setGlobalProp env ps g nb na
  | .addProp ps g s pp nb na => addToProp env rng ps g s pp nb na
  | .randomProp ps g => setGlobalPropRandom env rng ps g
  | .btypes v => setBtypes env v

/-- Objects of an argument. -/
def Arg.refs : Arg → List Ref
  | .single r => r.toList
  | .flat l => l.flatMap Option.toList
  | .nested l => slots l

/-- Objects the caller passes to a call. -/
def FOp.refs : FOp K → List Ref
  | .beam op => op.refs
  | .add a _ => a.refs
  | .remove a => a.refs
  | .reflect b _ _ _ => slots (b.getD [])
  | .crosstalk _ _ b _ _ _ => slots (b.getD [])
  | _ => []

/-- A fresh instrument. -/
def emptyPlane : Plane K := { heap := emptyHeap, beams := [], ndet := 0, draws := 0 }

/-- The states reachable by calls that satisfy `P`, failing ones included; the caller can only
pass existing objects. -/
inductive PReachable (env : Env K) (rng : Nat → K) (P : Plane K → FOp K → Prop) :
    Plane K → Prop where
  | start : PReachable env rng P emptyPlane
  | step {p : Plane K} (op : FOp K) : PReachable env rng P p → P p op →
      (∀ r ∈ op.refs, r < p.heap.size) →
      PReachable env rng P ((op.exec env rng).run p).2

/-- The call returns normally. -/
def Succeeds (env : Env K) (rng : Nat → K) (p : Plane K) (op : FOp K) : Prop :=
  ((op.exec env rng).run p).1 = .ok ()

/-- Nobody assigns `ghost_count` by hand. -/
def NoCount : FOp K → Prop
  | .beam op => NoCountAssign op
  | .setProp ps _ _ _ => ∀ e ∈ ps, e.1 ≠ .ghostCount
  | .addProp ps _ _ _ _ _ => ∀ e ∈ ps, e.1 ≠ .ghostCount
  | .randomProp ps _ => ∀ e ∈ ps, e.1 ≠ .ghostCount
  | _ => True

/-- No `None` among the given beams. -/
def Arg.noNone : Arg → Prop
  | .single r => r ≠ none
  | .flat l => none ∉ l
  | .nested l => ∀ q ∈ l, q.1 ≠ none ∧ q.2 ≠ none

/-- Calls that number the detectors they add: not `input_focal_plane`; and when the focal plane is
replaced by given beams, these are all there. -/
def Numbers : FOp K → Prop
  | .input .. => False
  | .add a combine => combine = true ∨ a.noNone
  | _ => True

/-- Calls after which the detector count is right: methods that create detectors must return
normally and get arrays of equal length; `None` is not passed to `remove_from_focal_plane`. -/
def Counts (env : Env K) (rng : Nat → K) (p : Plane K) (op : FOp K) : Prop :=
  match op with
  | .create .. => Succeeds env rng p op
  | .input azs els polangs deads _ _ => Succeeds env rng p op ∧ els.length = azs.length ∧
      polangs.length = azs.length ∧ ∀ d, deads = some d → d.length = azs.length
  | .remove a => a.noNone
  | _ => True

/-- Two detectors of the focal plane are different objects with the same index. -/
def Collision (p : Plane K) (r s : Ref) : Prop :=
  r ∈ slots p.beams ∧ s ∈ slots p.beams ∧ r ≠ s ∧
    (p.heap.cell r).attr .idx = (p.heap.cell s).attr .idx

/-! ### who is concerned by a call -/

/-- A detector of the focal plane selected by `no_A`, `no_B`. -/
def Chosen (p : Plane K) (noB noA : Bool) (r : Ref) : Prop :=
  ∃ q ∈ p.beams, (noA = false ∧ q.1 = some r) ∨ (noB = false ∧ q.2 = some r)

/-- `x` is a ghost of `r`. -/
def GhostOf (h : Heap K) (r x : Ref) : Prop := ∃ gs, (h.cell r).ghosts = some gs ∧ x ∈ gs

/-- A selected detector or, with `incl_ghosts`, a ghost of one. -/
def Reached (p : Plane K) (incl noB noA : Bool) (x : Ref) : Prop :=
  Chosen p noB noA x ∨ (incl = true ∧ ∃ r, Chosen p noB noA r ∧ GhostOf p.heap r x)

/-- `choice(n, k, replace=False)`: any `k` different numbers below `n`. -/
def IsChoice (choice : Int → Int → PyM (List Nat)) : Prop :=
  ∀ n k : Int, 0 ≤ k → k ≤ n → ∃ ks, choice n k = .ok ks ∧ ks.Nodup ∧ (ks.length : Int) = k ∧
    ∀ i ∈ ks, (i : Int) < n

/-- Both slots of every pair are occupied. -/
def Full (l : List Pair) : Prop := ∀ q ∈ l, q.1.isSome ∧ q.2.isSome

/-- Values for A and B of each pair, one after another. -/
def flatRows (l : List (Row K)) : List (Val K) := l.flatMap fun q => [q.1, q.2]

/-- The object after the assignments, in order, by the setters. -/
def assign (env : Env K) : Dict K → Obj K → PyM (Obj K)
  | [], o => .ok o
  | e :: ps, o => match objSet env o e.1 e.2 with
    | .ok o => assign env ps o
    | .error err => .error err

/-- Attributes whose assignment does more, or less, than store the value. -/
def special : List Key :=
  [.lmax, .fwhm, .mmax, .ghostCount, .ghostIdx, .ghost, .ghosts, .idx, .polangTruth, .dead]

/-- `o'` is `o` with `v`, plus `stdev` times deviate number `d`, added to attribute `k`; a missing
attribute counts as zero. -/
def Added (rng : Nat → K) (k : Key) (v : Val K) (stdev : K) (d : Nat) (o o' : Obj K) : Prop :=
  ∃ dv w, (if stdev = 0 then dv = v else v.add (.num (stdev * rng d)) = .ok dv) ∧
    ((o.attr k).getD (.int 0)).add dv = .ok w ∧ o' = o.put k w

end Verif.FocalPlane
