import Verif.Model.Spmd
import Verif.Model.Strategies

/-!
# Model: scans by several ranks with the other strategies

`Verif.Model.Spmd` has the collective calls, the machine and the generic scan.  Here are the strategies
whose pointing comes from `q_bore_func` (`strictly_az`, `satellite_scan`, `schedule_scan`, `l2_scan` or a
function of the user), which compute it in parallel on their own.
-/

noncomputable section

namespace Verif.Crew

open Verif.Chunks Verif.Spmd Verif.Strategies
open Verif.ScanInstrument (World Inst Pair Pointing)

variable {A E : Type}

/-! ### `q_bore_func` with MPI -/

/-- `q_bore_func(start=, end=, cidx=, ground=)` on one rank. -/
abbrev BoreProg (A : Type) := Int → Int → Option Int → Option Bool → Att A → Prog (List Quat.Q × Att A)

/-- A function of the user that does not communicate: every rank computes everything. -/
def alone (f : BoreFunc A) : BoreProg A := fun start stop cidx ground e => run (f start stop cidx ground e)

/-- `strictly_az` (instrument.py:2677-2782) with MPI. -/
def strictlyAz (junk : Junk) (size rank : Nat) (site : Scan.Site ℝ Quat.Q) (fsamp el0 az0 scanSpeed : ℝ) :
    BoreProg A := fun start stop _ ground e =>
  let speed := if scanSpeed = 0 then 1 / 10 ^ 12 else scanSpeed
  let n := (stop - start).toNat
  let az := (List.range n).map fun (i : Nat) => (i : ℝ) * speed / fsamp + az0
  let el := (List.range n).map fun (_ : Nat) => 0 + el0
  (groundQuats junk size rank n site (ground.getD false) (az.zip el) e.st.qGround).andThen fun qg =>
  (gather (junk rank) size rank n (fun x => site.azel2bore x.1 x.2.1 x.2.2)
    (az.zip (el.zip e.st.ctime))).andThen fun q =>
  ret (q, { e with st := { e.st with qGround := qg, flag := some (az.map fun _ => false) } })

/-- `satellite_scan` (instrument.py:2550-2675) with MPI, without jitter. -/
def satelliteScan (junk : Junk) (size rank : Nat) (azel2bore : ℝ → ℝ → ℝ → ℝ → ℝ → Quat.Q)
    (o : Satellite.Opts) : BoreProg Satellite.State := fun _ _ _ _ e =>
  (run (Satellite.scan o e.own e.st.ctime.length)).andThen fun ((az, el, lon, lat), own) =>
  (gather (junk rank) size rank e.st.ctime.length
    (fun ((a, b, c, d), t) => azel2bore a b c d t)
    ((az.zip (el.zip (lon.zip lat))).zip e.st.ctime)).andThen fun q =>
  ret (q, { st := { e.st with flag := some (az.map fun _ => false) }, own := own })

/-- `satellite_scan(jitter_amp=amp)` (instrument.py:2550-2675) with MPI.  Every rank draws as many normal
deviates as there are samples in the chunk (2595-2597), from a generator of its own, `rng`, and uses those
of its own samples (2649).  `own` is `self.lon` and `self.lat` and how many deviates were drawn before. -/
def satelliteJitter (junk : Junk) (size rank : Nat) (azel2bore : ℝ → ℝ → ℝ → ℝ → ℝ → Quat.Q)
    (o : Satellite.Opts) (amp : ℝ) (rng : Nat → ℝ) : BoreProg (Satellite.State × Nat) := fun _ _ _ _ e =>
  (run (Satellite.scanJitter o amp rng e.own.1 e.own.2 e.st.ctime.length)).andThen
    fun ((az, el, lon, lat), own) =>
  (gather (junk rank) size rank e.st.ctime.length
    (fun ((a, b, c, d), t) => azel2bore a b c d t)
    ((az.zip (el.zip (lon.zip lat))).zip e.st.ctime)).andThen fun q =>
  ret (q, { st := { e.st with flag := some (az.map fun _ => false) }, own := own })

/-- The azimuths of `schedule_scan` and its elevation (instrument.py:2977-3025). -/
def scheduleAz (fsamp speed : ℚ) (entries : List Schedule.Entry) (cidx : Int) (t : List ℚ) :
    PyM (List ℚ × ℚ) := do
  let e ← pyGet entries cidx
  let az ← Schedule.azimuths fsamp speed e.ces t
  return (az, e.ces.el)

/-- `schedule_scan` (instrument.py:2951-3093) with MPI, without ground. -/
def scheduleScan (junk : Junk) (size rank : Nat) (azel2bore : ℝ → ℝ → ℝ → Quat.Q) (fsamp speed : ℚ)
    (entries : List Schedule.Entry) : BoreProg A := fun start stop cidx _ e =>
  (run (scheduleTimes fsamp entries start stop cidx)).andThen fun t =>
  (run (scheduleAz fsamp speed entries (cidx.getD 0) t)).andThen fun (az, el) =>
  (gather (junk rank) size rank t.length (fun (x : ℚ × ℚ) => azel2bore x.1 el x.2) (az.zip t)).andThen
    fun q =>
  ret (q, { e with st := { e.st with flag := some (t.map fun _ => false) } })

/-- `l2_scan` (instrument.py:2441-2524) with MPI: every rank calls `ctime2bore` with its own times. -/
def l2Scan (junk : Junk) (size rank : Nat) (radecpa2quat : ℝ → ℝ → ℝ → Quat.Q)
    (a b fa fb sr jit : ℝ) : BoreProg A := fun _ _ _ _ e =>
  let n := e.st.ctime.length
  (run (Mpi.subEnd n size rank)).andThen fun subEnd =>
  (run (Angles.l2Scan a b fa fb sr jit
    (pySlice e.st.ctime (Mpi.subStart n size rank : Int) (subEnd : Int)))).andThen fun l =>
  (Prog.call (.allgatherv ((l.map fun (ra, dec, psi) => radecpa2quat ra dec psi).flatMap flat)
      (junk rank (n * 4)) (fun r => 4 * ((Mpi.subSize n size)[r]?.getD 0))
      (fun r => (((Mpi.subSize n size).map fun k => 4 * k).take r).sum)) Reply.toRows).andThen fun q =>
  ret (q, { e with st := { e.st with flag := some (q.map fun _ => false) } })

/-! ### `implement_scan` -/

/-- `implement_scan` (instrument.py:2129-2241) with MPI for strategies that are not generic: the branches
for functions of the user (2218-2231), where `ground` is not passed on, and for `strictly_az`. -/
def implementScan (s : Strategy A) (bore : BoreProg A) (e : Att A) (c : Chunk) (ground : Bool) :
    Prog (Att A) :=
  if s.extPoint || s.useL2 then
    let cidx := if s.useL2 then none else c.cidx
    (run (s.ctimeFunc c.start c.stop cidx)).andThen fun t =>
    (bore c.start c.stop cidx none (setCtime t e)).andThen fun (q, e) =>
    ret (setBore q e)
  else
    (run (Data.ctimes s.so.fsamp s.so.ctime0 c.start c.stop)).andThen fun t =>
    (bore c.start c.stop none (some ground) (setCtime t e)).andThen fun (q, e) =>
    ret (setBore q e)

/-- `implement_scan` as the loop over chunks uses it. -/
def implement (s : Strategy A) (bore : BoreProg A) (e : Att A) (c : Chunk) (ground : Bool) :
    Prog (Pointing × Att A) :=
  (implementScan s bore e c ground).andThen fun e =>
  ret (⟨e.st.ctime, e.st.qBore, e.st.qGround, e.st.flag⟩, e)

/-! ### the loops -/

/-- A scan: the world of one process, and `implement_scan` on one rank. -/
structure Setup (E : Type) where
  w : World E
  o : ScanInstrument.Opts
  implement : E → Chunk → Bool → Bool → Prog (Pointing × E)

/-- What the body of the loop over chunks calls once `implement_scan` has left `p`. -/
def Setup.world (s : Setup E) (p : Pointing × E) : World E :=
  { s.w with implement := fun _ _ _ _ => .ok p }

/-- The chunk at position `k` (instrument.py:1892-1996): `implement_scan` with the other ranks, then the
rest of the loop body alone. -/
def stepChunk (s : Setup E) (pair : Pair) (first : Bool) (i : Inst E) (k : Nat) : Prog (Inst E) :=
  (run (pyGet i.chunks k)).andThen fun (c, g) =>
  (s.implement i.el c (g || s.o.ground) (!first)).andThen fun p =>
  run (ScanInstrument.stepChunk (s.world p) s.o pair first i k)

/-- The loop over chunks. -/
def chunkLoop (s : Setup E) (pair : Pair) (first : Bool) : List Nat → Inst E → Prog (Inst E)
  | [], i => ret i
  | k :: ks, i => (stepChunk s pair first i k).andThen (chunkLoop s pair first ks)

/-- The loop over passes (instrument.py:1846-1996). -/
def passLoop (s : Setup E) : Bool → List (Option Pair) → Inst E → Prog (Inst E)
  | _, [], i => ret i
  | first, p :: ps, i =>
    (run (begin s.w s.o first (p.getD (none, none)) i)).andThen fun i =>
    (chunkLoop s (p.getD (none, none)) first (List.range i.chunks.length) i).andThen
      (passLoop s false ps)

/-- `scan_instrument_mpi` (instrument.py:1724-1996) with `scatter=True`, with MPI. -/
def scanInstrument (size rank : Nat) (s : Setup E) (beams : List Pair) (i : Inst E) : Prog (Inst E) :=
  barrier.andThen fun _ =>
  (scatterList size rank beams).andThen fun l =>
  passLoop s true (Mpi.passes l (Mpi.nmax beams.length size)) i

/-- `solve_for_map` (instrument.py:4434-4485) with MPI. -/
def solveForMap (q : MapMaking.QExt) (fill : ℝ) (i : Inst E) : Prog (Option (List (Fin 3 → ℝ))) :=
  .call (.reduce i.maps) (Reply.toSolved q fill)

/-- A scan followed by `solve_for_map`. -/
def program (size rank : Nat) (s : Setup E) (beams : List Pair) (fill : ℝ) (i : Inst E) :
    Prog (Option (List (Fin 3 → ℝ))) :=
  (scanInstrument size rank s beams i).andThen (solveForMap s.w.q fill)

end Verif.Crew
