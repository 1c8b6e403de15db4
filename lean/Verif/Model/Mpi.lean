import Verif.Py

/-!
# Model: distribution of work over MPI ranks

`size` is the number of ranks, `rank` the number of this rank.  With MPI switched
off the code uses `size = 1`, `rank = 0` (instrument.py:68-80), for which every
function below returns its input, as the `if not self.mpi` branches do.
-/

namespace Verif.Mpi

/-- The array `sub_size` (instrument.py:229-235, and identically 2347-2354, 2493-2499,
2633-2640, 2727-2734, 3030-3037): every rank gets `quot`, the first `remainder` ranks one more. -/
def subSize (n size : Nat) : List Nat :=
  (List.range size).map fun r => n / size + (if r < n % size then 1 else 0)

/-- `start = np.sum(sub_size[:rank])` (instrument.py:237). -/
def subStart (n size rank : Nat) : Nat := ((subSize n size).take rank).sum

/-- `end = start + sub_size[rank]` (instrument.py:238).  `rank < size` always holds
for an MPI rank; outside that range numpy raises IndexError. -/
def subEnd (n size rank : Nat) : PyM Nat :=
  match (subSize n size)[rank]? with
  | some k => .ok (subStart n size rank + k)
  | none => .error .indexError

/-- `MPIBase.distribute_array` (instrument.py:211-245) on rank `rank`. -/
def distributeArray {α : Type} (arr : List α) (size rank : Nat) : PyM (List α) := do
  let e ← subEnd arr.length size rank
  return pySlice arr (subStart arr.length size rank) e

/-- `np.array_split(arr, size)` as documented by numpy: the section sizes are
`extras` times `n//size + 1` followed by `size - extras` times `n//size`, and the
sections are consecutive. -/
def arraySplit {α : Type} (arr : List α) (size : Nat) : List (List α) :=
  let each := arr.length / size
  let extras := arr.length % size
  go arr (List.replicate extras (each + 1) ++ List.replicate (size - extras) each)
where
  /-- cut consecutive sections off the front -/
  go : List α → List Nat → List (List α)
    | _, [] => []
    | xs, k :: ks => xs.take k :: go (xs.drop k) ks

/-- `MPIBase.scatter_list` (instrument.py:90-119) as seen by rank `rank`: the root
splits the list with `np.array_split` and `comm.scatter` hands section `rank` to rank
`rank`.  The round trip through `np.asarray(...).tolist()` is the identity on lists of
detector pairs. -/
def scatterList {α : Type} (l : List α) (size rank : Nat) : PyM (List α) :=
  match (arraySplit l size)[rank]? with
  | some s => .ok s
  | none => .error .indexError

/-- `nmax = int(np.ceil(len(self.beams)/float(self.mpi_size)))` (instrument.py:1844). -/
def nmax (nbeams size : Nat) : Nat := (ceilDiv nbeams size).toNat

/-- The pass loop of `scan_instrument_mpi` on one rank (instrument.py:1846-1859),
reduced to which entry of the local list each pass works on.  `none` stands for the
pair `[None, None]` substituted when the index is out of range. -/
def passes {α : Type} (localBeams : List α) (n : Nat) : List (Option α) :=
  (List.range n).map fun bidx => localBeams[bidx]?

/-- Local list of detector pairs: scattered or not (instrument.py:1835-1839). -/
def localBeams {α : Type} (beams : List α) (scatter : Bool) (size rank : Nat) :
    PyM (List α) :=
  if scatter then scatterList beams size rank else .ok beams

/-- All passes of `scan_instrument_mpi` on rank `rank` (instrument.py:1835-1859). -/
def scanPasses {α : Type} (beams : List α) (scatter : Bool) (size rank : Nat) :
    PyM (List (Option α)) := do
  let loc ← localBeams beams scatter size rank
  return passes loc (nmax beams.length size)

/-- `Allgatherv` as used at instrument.py:2393-2395 (and 2372-2378, 2514-2516,
2662-2664, 2768-2770, 3074-3076): rank `r` contributes `send r`, which is stored in the receive buffer at
displacement `offset r`; contributions are written in rank order.  `buf` is the
initial (uninitialized) receive buffer. -/
def allgatherv {α : Type} (buf : List α) (send : Nat → List α) (offset : Nat → Nat) :
    Nat → List α
  | 0 => buf
  | r + 1 => setRange (allgatherv buf send offset r) (offset r) (send r)

/-- What rank `r` sends: its slice `[sub_start, sub_end)` of the inputs, converted and
flattened (instrument.py:2356-2357, 2380-2385). -/
def rankSend {α β : Type} (f : α → List β) (inputs : List α) (size r : Nat) : List β :=
  match subEnd inputs.length size r with
  | .ok e => (pySlice inputs (subStart inputs.length size r) e).flatMap f
  | .error _ => []

/-- Parallel evaluation of a sample-wise function (the pointing conversion `azel2bore`,
`ctime2bore`, or the ground quaternion) over a chunk: each rank evaluates its slice
`[sub_start, sub_end)` of the inputs, flattens it to `width` numbers per sample, and
all slices are combined with offsets `cumsum(width*sub_size)` shifted by one
(instrument.py:2344-2395, 2493-2516, 2633-2664, 2727-2770, 3030-3076).
`f` maps one sample to its `width` output numbers. -/
def parallelEval {α β : Type} (width : Nat) (f : α → List β) (inputs : List α)
    (size : Nat) (buf : List β) : PyM (List β) := do
  let ss := subSize inputs.length size
  -- `sub_size *= 4`, `offsets[1:] = np.cumsum(sub_size)[:-1]`, `offsets[0] = 0`
  let offsets := fun r => ((ss.map (fun k => width * k)).take r).sum
  return allgatherv buf (rankSend f inputs size) offsets size

/-- `reduce_array` (instrument.py:180-209): elementwise sum over ranks, here for the
accumulated quantity of each rank as an element of any additive type. -/
def reduceSum {M : Type} [Add M] [Zero M] (local_ : Nat → M) (size : Nat) : M :=
  (List.range size).foldl (fun acc r => acc + local_ r) 0

/-- One pass adds the contribution of its detector pair, `[None, None]` adds nothing
(instrument.py:1873-1874, 1945, 1967). -/
def addPair {α M : Type} [Add M] (contrib : α → M) (acc : M) : Option α → M
  | some b => acc + contrib b
  | none => acc

/-- Accumulation of `vec`/`proj` on one rank over its passes (instrument.py:1846-1996
with `bin_tod(add_to_global=True)`, 4413-4416): start from the zeros of
`allocate_maps` (1642-1643) and add the contribution of each detector pair that is not
`[None, None]`.  `contrib` is what one pair adds over all chunks. -/
def accumulate {α M : Type} [Add M] [Zero M] (contrib : α → M) (ps : List (Option α)) : M :=
  ps.foldl (addPair contrib) 0

end Verif.Mpi
