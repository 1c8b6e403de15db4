import Verif.Model.ScanInstrument

/-!
# Model: `scan_instrument_mpi` and `solve_for_map` by several ranks that talk to each other

Every rank runs the same program; it can only wait for the others in collective calls of mpi4py.
Between two calls a rank computes on its own.
-/

noncomputable section

namespace Verif.Spmd

open Verif.Chunks Verif.Timeline Verif.Spinmaps Verif.MapMaking
open Verif.ScanInstrument (World Inst Pair Pointing)

/-! ### collective calls -/

/-- A collective call with the arguments of one rank.  Arrays with one entry per rank are functions. -/
inductive Call
  /-- `comm.Barrier()` -/
  | barrier
  /-- `comm.scatter(arrs, root=0)` (instrument.py:117) -/
  | scatter (arrs : Option (List (List Pair)))
  /-- `comm.bcast((shape, dtype), root=0)` (instrument.py:169): the number of rows -/
  | bcastShape (n : Option Nat)
  /-- `comm.Bcast(arr, root=0)` (instrument.py:176), for an array of quaternions -/
  | bcast (arr : List Quat.Q)
  /-- `comm.Allgatherv(send, [buf, counts, offsets, double])` (instrument.py:2373-2377, 2394-2395) -/
  | allgatherv (send buf : List ℝ) (counts offsets : Nat → Nat)
  /-- `comm.Reduce(arr_loc, arr, op=sum, root=0)` (instrument.py:207), for `vec` and `proj` together -/
  | reduce (m : Maps)

/-- What a call returns or leaves in its buffer. -/
inductive Reply
  | unit
  | pairs (l : List Pair)
  | shape (n : Option Nat)
  | quats (l : List Quat.Q)
  | nums (l : List ℝ)
  | maps (m : Option Maps)

/-- Arguments of `Allgatherv`: what this rank sends. -/
def Call.send : Call → List ℝ
  | .allgatherv send _ _ _ => send
  | _ => []

/-- The array passed to `Reduce`. -/
def Call.loc : Call → Maps
  | .reduce m => m
  | _ => []

/-- All ranks make calls of this kind. -/
def All (size : Nat) (c : Nat → Call) (p : Nat → Call → Prop) : Prop := ∀ r, r < size → p r (c r)

/-- The calls of `Allgatherv` fit: every rank expects what the others send, and has room for it. -/
def GatherOk (size : Nat) (c : Nat → Call) : Prop :=
  All size c fun _ x => ∃ send buf counts offsets, x = .allgatherv send buf counts offsets ∧
    All size c fun s y => y.send.length = counts s ∧ offsets s + counts s ≤ buf.length

/-- What `Allgatherv` leaves in the buffer of a rank. -/
def gathered (size : Nat) (c : Nat → Call) : Call → List ℝ
  | .allgatherv _ buf _ offsets => Mpi.allgatherv buf (fun s => (c s).send) offsets size
  | _ => []

open Classical in
/-- mpi4py, as documented: what happens when rank `r` of `size` makes the call `c r`.  `none`: the calls
do not fit together, and the ranks hang or abort. -/
def exchange (size : Nat) (c : Nat → Call) : Option (Nat → Reply) :=
  match c 0 with
  | .barrier => if All size c fun _ x => x = .barrier then some fun _ => .unit else none
  | .scatter (some l) =>
    if l.length = size ∧ All size c fun _ x => ∃ a, x = .scatter a then
      some fun r => .pairs (l[r]?.getD [])
    else none
  | .scatter none => none
  | .bcastShape n =>
    if All size c fun _ x => ∃ a, x = .bcastShape a then some fun _ => .shape n else none
  | .bcast q =>
    if All size c fun _ x => ∃ a, x = .bcast a ∧ a.length = q.length then some fun _ => .quats q else none
  | .allgatherv .. => if GatherOk size c then some fun r => .nums (gathered size c (c r)) else none
  | .reduce m =>
    if All size c fun _ x => ∃ a, x = .reduce a ∧ a.length = m.length then
      some fun r => .maps (if r = 0 then
        some (ScanInstrument.reduceMaps m.length ((List.range size).map fun s => (c s).loc)) else none)
    else none

/-! ### programs -/

/-- What one rank does: end with a result or an exception, or make a call and go on with the reply. -/
inductive Prog (A : Type)
  | done (r : PyM A)
  | call (c : Call) (k : Reply → Prog A)

/-- One after the other. -/
def Prog.andThen {A B : Type} : Prog A → (A → Prog B) → Prog B
  | .done (.ok a), f => f a
  | .done (.error e), _ => .done (.error e)
  | .call c k, f => .call c fun r => (k r).andThen f

/-- A local computation. -/
def run {A : Type} (x : PyM A) : Prog A := .done x

/-- A result without communication. -/
def ret {A : Type} (a : A) : Prog A := .done (.ok a)

instance : Monad Prog where
  pure := ret
  bind := Prog.andThen

def barrier : Prog Unit := .call .barrier fun _ => .done (.ok ())

/-- The replies as values of Python. -/
def Reply.toPairs : Reply → Prog (List Pair)
  | .pairs l => ret l
  | _ => run (.error .typeError)

def Reply.toQuats : Reply → Prog (List Quat.Q)
  | .quats q => ret q
  | _ => run (.error .typeError)

/-- `a.reshape(n, 4)`. -/
def rows4 : List ℝ → List Quat.Q
  | a :: b :: c :: d :: l => ![a, b, c, d] :: rows4 l
  | _ => []

def Reply.toRows : Reply → Prog (List Quat.Q)
  | .nums l => ret (rows4 l)
  | _ => run (.error .typeError)

/-- `scatter_list(list_tot, root=0)` (instrument.py:90-119) with MPI. -/
def scatterList (size rank : Nat) (l : List Pair) : Prog (List Pair) :=
  .call (.scatter (if rank = 0 then some (Mpi.arraySplit l size) else none)) Reply.toPairs

/-- What the other ranks do with the shape: `arr = np.empty(shape)` and the second call
(instrument.py:171-176). -/
def Reply.receive : Reply → Prog (List Quat.Q)
  | .shape (some n) => .call (.bcast (List.replicate n 0)) Reply.toQuats
  | _ => run (.error .typeError)

/-- `broadcast_array(arr)` (instrument.py:143-178) with MPI.  `arr` None on rank 0: AttributeError. -/
def broadcastArray (rank : Nat) (arr : Option (List Quat.Q)) : Prog (List Quat.Q) :=
  if rank = 0 then
    match arr with
    | none => run (.error .attributeError)
    | some q => .call (.bcastShape (some q.length)) fun _ => .call (.bcast q) Reply.toQuats
  else .call (.bcastShape none) Reply.receive

/-- `q.ravel()` of one quaternion. -/
def flat (q : Quat.Q) : List ℝ := [q 0, q 1, q 2, q 3]

/-- A function of the samples of a chunk of `n` samples, evaluated in parallel (instrument.py:2344-2358,
2380-2396; with `sub_start`, `sub_end` and so on as in `Verif.Model.Mpi`).  `junk` is what
`np.empty` found in memory. -/
def gather {α : Type} (junk : Nat → List ℝ) (size rank n : Nat) (f : α → Quat.Q) (inputs : List α) :
    Prog (List Quat.Q) :=
  .call (.allgatherv (Mpi.rankSend (fun x => flat (f x)) inputs size rank) (junk (n * 4))
      (fun r => 4 * ((Mpi.subSize n size)[r]?.getD 0))
      (fun r => (((Mpi.subSize n size).map fun k => 4 * k).take r).sum)) Reply.toRows

/-! ### `implement_scan` -/

/-- Attributes of one rank.  `hasMmap` is `hasattr(self, 'mmap')`; `st.mmap` is the attribute, which is
None on all ranks but the first. -/
structure RState where
  st : Scan.State ℝ Quat.Q
  hasMmap : Bool

/-- What numpy and the file system do: contents of `np.empty(n)` on every rank. -/
abbrev Junk := Nat → Nat → List ℝ

/-- `q_boreground` if there is a ground (instrument.py:2360-2379). -/
def groundQuats (junk : Junk) (size rank n : Nat) (site : Scan.Site ℝ Quat.Q) (ground : Bool)
    (azel : List (ℝ × ℝ)) (old : Option (List Quat.Q)) : Prog (Option (List Quat.Q)) :=
  if ground then (gather (junk rank) size rank n (fun x => site.ground x.1 x.2) azel).andThen fun q =>
    ret (some q)
  else ret old

/-- Writing the memory map (instrument.py:2409-2415). -/
def storeMmap (rank : Nat) (start stop : Int) (q : List Quat.Q) (e : RState) :
    Prog (Option (List Quat.Q)) :=
  if e.hasMmap then
    (run (if rank = 0 then Scan.storeMmap start stop q e.st.mmap else .ok e.st.mmap)).andThen fun m =>
      barrier.andThen fun _ => ret m
  else ret e.st.mmap

/-- The attributes `implement_scan` leaves for the rest of the loop. -/
def leave (e : RState) : Pointing × RState :=
  (⟨e.st.ctime, e.st.qBore, e.st.qGround, e.st.flag⟩, e)

/-- The computing branch of `implement_scan` (instrument.py:2259-2415) with MPI. -/
def compute (junk : Junk) (size rank : Nat) (site : Scan.Site ℝ Quat.Q) (o : Scan.Opts ℝ)
    (ctime : List ℝ) (start stop : Int) (e : RState) : Prog (Pointing × RState) :=
  (run (Scan.azel site o ctime)).andThen fun (az, el) =>
  (run (Scan.stepEl el e.st.el)).andThen fun (el, steps) =>
  (groundQuats junk size rank (stop - start).toNat site o.ground (az.zip el) e.st.qGround).andThen
    fun qg =>
  (gather (junk rank) size rank (stop - start).toNat (fun x => site.azel2bore x.1 x.2.1 x.2.2)
    (az.zip (el.zip ctime))).andThen fun q =>
  (storeMmap rank start stop q e).andThen fun m =>
  ret (leave { e with st := { e.st with ctime := ctime, qBore := q, qGround := qg, mmap := m, el := steps } })

/-- `implement_scan` (instrument.py:2129-2415) for the generic scan, with MPI. -/
def implementScan (junk : Junk) (size rank : Nat) (site : Scan.Site ℝ Quat.Q) (o : Scan.Opts ℝ)
    (usePre : Bool) (start stop : Int) (e : RState) : Prog (Pointing × RState) :=
  (run (Data.ctimes o.fsamp o.ctime0 start stop)).andThen fun ctime =>
  if usePre && e.hasMmap then
    (broadcastArray rank (if rank = 0 then e.st.mmap.map fun m => pySlice m start stop
      else none)).andThen fun q =>
    ret (leave { e with st := { e.st with ctime := ctime, qBore := q } })
  else compute junk size rank site o ctime start stop e

/-! ### `scan_instrument_mpi` and `solve_for_map` -/

/-- The settings of a scan: the strategy, the options of `scan_instrument_mpi` and those of
`implement_scan`; `createMemmap` makes a file of `nsamp` rows of zeros. -/
structure Setup where
  w : World (Scan.State ℝ Quat.Q)
  o : ScanInstrument.Opts
  site : Scan.Site ℝ Quat.Q
  so : Scan.Opts ℝ
  createMemmap : Bool
  nsamp : Nat

/-- What the body of the loop over chunks calls once `implement_scan` has left `p`. -/
def Setup.world (s : Setup) (p : Pointing × RState) : World RState :=
  { x := s.w.x, q := s.w.q, varphi := s.w.varphi, nsideOut := s.w.nsideOut, fsamp := s.w.fsamp,
    implement := fun _ _ _ _ => .ok p,
    resetEl := fun e => do
      let st ← ScanInstrument.genericReset e.st
      return { e with st := st }
    spinmaps := s.w.spinmaps }

/-- The chunk at position `k` (instrument.py:1892-1996): `implement_scan` with the other ranks, then the
rest of the loop body alone. -/
def stepChunk (junk : Junk) (size rank : Nat) (s : Setup) (pair : Pair) (first : Bool)
    (i : Inst RState) (k : Nat) : Prog (Inst RState) :=
  (run (pyGet i.chunks k)).andThen fun (c, g) =>
  (implementScan junk size rank s.site { s.so with ground := g || s.o.ground } (!first) c.start c.stop
    i.el).andThen fun p =>
  run (ScanInstrument.stepChunk (s.world p) s.o pair first i k)

/-- The loop over chunks. -/
def chunkLoop (junk : Junk) (size rank : Nat) (s : Setup) (pair : Pair) (first : Bool) :
    List Nat → Inst RState → Prog (Inst RState)
  | [], i => ret i
  | k :: ks, i => (stepChunk junk size rank s pair first i k).andThen
      (chunkLoop junk size rank s pair first ks)

/-- Resets before every pass but the first (instrument.py:1848-1852). -/
def resetIf {E : Type} (w : World E) (first : Bool) (i : Inst E) : PyM (Inst E) :=
  if first then .ok i else ScanInstrument.resetAll w i

/-- What precedes the loop over chunks in a pass (instrument.py:1848-1890). -/
def begin {E : Type} (w : World E) (o : ScanInstrument.Opts) (first : Bool) (pair : Pair) (i : Inst E) :
    PyM (Inst E) := do
  let i ← resetIf w first i
  let i ← ScanInstrument.initPair w o pair i
  if i.chunks.all fun c => c.1.cidx.isSome then .ok i else .error .keyError

/-- The loop over passes (instrument.py:1846-1996). -/
def passLoop (junk : Junk) (size rank : Nat) (s : Setup) :
    Bool → List (Option Pair) → Inst RState → Prog (Inst RState)
  | _, [], i => ret i
  | first, p :: ps, i =>
    (run (begin (s.world (leave i.el)) s.o first (p.getD (none, none)) i)).andThen fun i =>
    (chunkLoop junk size rank s (p.getD (none, none)) first (List.range i.chunks.length) i).andThen
      (passLoop junk size rank s false ps)

/-- The memory map (instrument.py:1825-1833). -/
def initMmap (rank : Nat) (s : Setup) (e : RState) : RState :=
  if s.createMemmap then
    { st := { e.st with mmap := if rank = 0 then some (List.replicate s.nsamp 0) else none }
      hasMmap := true }
  else e

/-- `scan_instrument_mpi` (instrument.py:1724-1996) with `scatter=True`, with MPI. -/
def scanInstrument (junk : Junk) (size rank : Nat) (s : Setup) (beams : List Pair) (i : Inst RState) :
    Prog (Inst RState) :=
  barrier.andThen fun _ =>
  (scatterList size rank beams).andThen fun l =>
  passLoop junk size rank s true (Mpi.passes l (Mpi.nmax beams.length size))
    { i with el := initMmap rank s i.el }

/-- What `solve_for_map` does with the reduced maps. -/
def Reply.toSolved (q : QExt) (fill : ℝ) : Reply → Prog (Option (List (Fin 3 → ℝ)))
  | .maps m => ret (m.map fun m => MapMaking.solveForMap q m fill)
  | _ => run (.error .typeError)

/-- `solve_for_map` (instrument.py:4434-4485) with MPI: the maps are reduced and solved on the first rank;
the others return None. -/
def solveForMap (q : QExt) (fill : ℝ) (i : Inst RState) : Prog (Option (List (Fin 3 → ℝ))) :=
  .call (.reduce i.maps) (Reply.toSolved q fill)

/-- A scan followed by `solve_for_map`. -/
def program (junk : Junk) (size rank : Nat) (s : Setup) (beams : List Pair) (fill : ℝ)
    (i : Inst RState) : Prog (Option (List (Fin 3 → ℝ))) :=
  (scanInstrument junk size rank s beams i).andThen (solveForMap s.w.q fill)

/-! ### all ranks together, under any schedule -/

/-- Where a rank is: on its way to its next call or to its end, or there. -/
structure Rank (A : Type) where
  prog : Prog A
  arrived : Bool

/-- One step of the machine with `size` ranks: a rank gets to its next call or its end, or all ranks
have come to a call and the calls are carried out. -/
inductive Step {A : Type} (size : Nat) : (Nat → Rank A) → (Nat → Rank A) → Prop
  | arrive (x : Nat → Rank A) (r : Nat) (hr : r < size) (h : (x r).arrived = false) :
      Step size x (fun s => if s = r then ⟨(x r).prog, true⟩ else x s)
  | comm (x : Nat → Rank A) (c : Nat → Call) (k : Nat → Reply → Prog A) (rep : Nat → Reply)
      (h : ∀ r, r < size → x r = ⟨.call (c r) (k r), true⟩) (he : exchange size c = some rep) :
      Step size x (fun r => if r < size then ⟨k r (rep r), false⟩ else x r)

/-- All ranks start. -/
def start {A : Type} (P : Nat → Prog A) : Nat → Rank A := fun r => ⟨P r, false⟩

end Verif.Spmd
