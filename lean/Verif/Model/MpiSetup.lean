import Verif.Py

/-!
# Model: setting up MPI, and the helpers of `MPIBase` (instrument.py:17-209)

A job consists of `procs` processes that run the same program, numbered by their rank in
`COMM_WORLD`.  A communicator is `COMM_NULL` or a list of processes in the order of their ranks.

Simplifications: the collective calls of mpi4py (`Get_rank`, `Get_size`, `bcast`, `Bcast`,
`Reduce`) are modelled by their MPI meaning, with the values that all processes pass in given as a
function of the process; the warning of a failed import is not modelled; an array is a list of
numbers (shape and dtype travel with it).
-/

namespace Verif.MpiSetup

/-- A communicator of mpi4py. -/
inductive Comm where
  | null
  | group (members : List Nat)
  deriving DecidableEq, Repr

/-- `bool(comm)` in mpi4py: `False` only for `COMM_NULL`. -/
def Comm.truthy : Comm → Bool
  | .null => false
  | .group _ => true

/-- What a process finds when an `MPIBase` object is made: the two environment variables
(`None` if not set), whether `from mpi4py import MPI` works, and the number of processes. -/
structure Surroundings where
  ompiSize : Option String
  pmiSize : Option String
  importable : Bool
  procs : Nat

/-- Truth value of `os.getenv(...)`: not `None` and not the empty string. -/
def envTruthy : Option String → Bool
  | none => false
  | some s => s != ""

/-- `MPI.COMM_WORLD`. -/
def world (s : Surroundings) : Comm := .group (List.range s.procs)

/-- `comm` if it is given and true, else `COMM_WORLD` (instrument.py:57-60). -/
def pickComm (s : Surroundings) (comm : Option Comm) : Comm :=
  match comm with
  | some c => if c.truthy then c else world s
  | none => world s

/-- `MPIBase.__init__(mpi, comm)` (instrument.py:22-66): `none` if `self.mpi` is `False`, otherwise
the communicator `self._comm`. -/
def setup (s : Surroundings) (mpi : Bool) (comm : Option Comm) : Option Comm :=
  if !(envTruthy s.ompiSize || envTruthy s.pmiSize) || !mpi then none
  else if s.importable then some (pickComm s comm)
  else none

/-- `comm.Get_rank()` on process `p`; a process outside the communicator does not hold it. -/
def getRank (c : Comm) (p : Nat) : PyM Nat :=
  match c with
  | .null => .error .valueError
  | .group l => .ok (l.idxOf p)

/-- `comm.Get_size()`. -/
def getSize (c : Comm) : PyM Nat :=
  match c with
  | .null => .error .valueError
  | .group l => .ok l.length

/-- `mpi_rank` (instrument.py:68-73). -/
def mpiRank (m : Option Comm) (p : Nat) : PyM Nat :=
  match m with
  | some c => getRank c p
  | none => .ok 0

/-- `mpi_size` (instrument.py:75-80). -/
def mpiSize (m : Option Comm) : PyM Nat :=
  match m with
  | some c => getSize c
  | none => .ok 1

/-- `comm.bcast(obj, root=0)`: every process gets what the first process of the communicator
passed in. -/
def bcast {α : Type} (c : Comm) (obj : Nat → α) : PyM α :=
  match c with
  | .null => .error .valueError
  | .group [] => .error .valueError
  | .group (root :: _) => .ok (obj root)

/-- `broadcast(obj)` on process `p` (instrument.py:121-141). -/
def broadcast {α : Type} (m : Option Comm) (obj : Nat → α) (p : Nat) : PyM α :=
  match m with
  | none => .ok (obj p)
  | some c => bcast c obj

/-- `arr.shape` and `arr.dtype` on the root, `None` elsewhere (instrument.py:163-168); raises
AttributeError if the root has `None`. -/
def arrayInfo {α : Type} (rank : Nat) (arr : Option (List α)) : PyM (Option Nat) :=
  if rank = 0 then
    match arr with
    | some a => .ok (some a.length)
    | none => .error .attributeError
  else .ok none

/-- `Bcast(buf, root=0)`: the buffer of every process is filled with that of the root.  It has to
be as long. -/
def fillBuffer {α : Type} (c : Comm) (arr : Nat → Option (List α)) (len : Nat) : PyM (List α) :=
  match bcast c arr with
  | .ok (some a) => if a.length = len then .ok a else .error .valueError
  | .ok none => .error .attributeError
  | .error e => .error e

/-- `broadcast_array(arr)` on process `p` (instrument.py:143-178).  The root first sends the shape;
the others allocate a buffer of that shape; the root sends the contents. -/
def broadcastArray {α : Type} (m : Option Comm) (arr : Nat → Option (List α)) (p : Nat) :
    PyM (Option (List α)) :=
  match m with
  | none => .ok (arr p)
  | some c => do
    let info ← bcast c fun q => do
      let r ← getRank c q
      arrayInfo r (arr q)
    match info with
    | .error e => .error e
    | .ok none => .error .typeError
    | .ok (some len) => do
      let r ← getRank c p
      if r = 0 then return arr p
      else do
        let a ← fillBuffer c arr len
        return some a

/-- Elementwise sum of arrays. -/
def addArrays {α : Type} [Add α] (a b : List α) : List α := List.zipWith (· + ·) a b

/-- `Reduce(arr_loc, arr, op=SUM, root=0)` as the root sees it: the arrays of all processes of the
communicator are summed element by element. -/
def reduceAll {α : Type} [Add α] (c : Comm) (arr : Nat → List α) : PyM (List α) :=
  match c with
  | .null => .error .valueError
  | .group [] => .error .valueError
  | .group (root :: l) => .ok (l.foldl (fun acc q => addArrays acc (arr q)) (arr root))

/-- `reduce_array(arr_loc)` on process `p` (instrument.py:180-209): the sum on the root, `None` on
the other ranks, the array itself without MPI. -/
def reduceArray {α : Type} [Add α] (m : Option Comm) (arr : Nat → List α) (p : Nat) :
    PyM (Option (List α)) :=
  match m with
  | none => .ok (some (arr p))
  | some c => do
    let r ← getRank c p
    let s ← reduceAll c arr
    if r = 0 then return some s else return none

end Verif.MpiSetup
