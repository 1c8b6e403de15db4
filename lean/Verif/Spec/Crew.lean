import Verif.Model.Crew
import Verif.Spec.Spmd
import Verif.Spec.Strategies

/-!
# Specification: scans by several ranks with strategies that are not generic
-/

noncomputable section

namespace Verif.Crew

open Verif.Spmd Verif.Strategies Verif.Chunks
open Verif.ScanInstrument (World Inst Pair Pointing)

/-- The rank that points sample `k` of a chunk of `n` samples: consecutive samples, `n / size` for every
rank and one more for each of the first `n % size` ranks. -/
def owner (size n k : Nat) : Nat :=
  if k < n % size * (n / size + 1) then k / (n / size + 1)
  else n % size + (k - n % size * (n / size + 1)) / (n / size)

/-- Normal deviates of a chunk if rank `r` has the generator `rng r`: sample `k` takes that of the rank
which points it. -/
def mixed (size : Nat) (rng : Nat → Nat → ℝ) (n drawn j : Nat) : ℝ := rng (owner size n (j - drawn)) j

/-- The pointing of a satellite with jitter on `size` ranks: as `Orbit`, but the elevation of every sample
is off by `amp` times the next deviate of the rank that points it.  `drawn` deviates were drawn before. -/
def Shaken (size : Nat) (azel2bore : ℝ → ℝ → ℝ → ℝ → ℝ → Quat.Q) (o : Satellite.Opts) (amp : ℝ)
    (rng : Nat → Nat → ℝ) (M : ScanInstrument.Motion) : ℝ → ℝ → Nat → List Chunk → Prop
  | _, _, _, [] => True
  | lon0, lat0, drawn, c :: cs =>
    (∀ k, k < (c.stop - c.start).toNat → M.bore (c.start.toNat + k) =
      azel2bore (orbitAz o k)
        (o.beta + amp * rng (owner size (c.stop - c.start).toNat k) (drawn + k))
        (orbitLon o lon0 (c.stop - c.start).toNat k) (orbitLat o lat0 k)
        (M.time (c.start.toNat + k))) ∧
    Shaken size azel2bore o amp rng M
      (orbitLon o lon0 (c.stop - c.start).toNat ((c.stop - c.start).toNat - 1))
      (orbitLat o lat0 ((c.stop - c.start).toNat - 1)) (drawn + (c.stop - c.start).toNat) cs

/-- `bore r` is what rank `r` runs as `q_bore_func` if a single process runs `s.boreFunc`: a function of
the user, which does not communicate, or one of the functions of the package in their parallel form. -/
inductive Parallel (junk : Junk) (size : Nat) : {A : Type} → (s : Strategy A) → (Nat → BoreProg A) → Prop
  | own {A : Type} {s : Strategy A} : Parallel junk size s fun _ => alone s.boreFunc
  | strictlyAz {A : Type} {s : Strategy A} {site : Scan.Site ℝ Quat.Q} {fsamp el0 az0 speed : ℝ}
      (hext : s.extPoint = false) (hl2 : s.useL2 = false)
      (h : s.boreFunc = Strategies.strictlyAz site fsamp el0 az0 speed) :
      Parallel junk size s fun r => Crew.strictlyAz junk size r site fsamp el0 az0 speed
  | satellite {s : Strategy Satellite.State} {azel2bore : ℝ → ℝ → ℝ → ℝ → ℝ → Quat.Q}
      {o : Satellite.Opts} (h : s.boreFunc = Strategies.satelliteScan azel2bore o) :
      Parallel junk size s fun r => Crew.satelliteScan junk size r azel2bore o
  | jitter {s : Strategy (Satellite.State × Nat)} {azel2bore : ℝ → ℝ → ℝ → ℝ → ℝ → Quat.Q}
      {o : Satellite.Opts} {amp : ℝ} {rng : Nat → Nat → ℝ}
      (h : s.boreFunc = Strategies.satelliteJitter azel2bore o amp (mixed size rng)) :
      Parallel junk size s fun r => Crew.satelliteJitter junk size r azel2bore o amp (rng r)
  | schedule {A : Type} {s : Strategy A} {azel2bore : ℝ → ℝ → ℝ → Quat.Q} {fsamp speed : ℚ}
      {entries : List Schedule.Entry}
      (h : s.boreFunc = Strategies.scheduleScan azel2bore fsamp speed entries) :
      Parallel junk size s fun r => Crew.scheduleScan junk size r azel2bore fsamp speed entries

/-- The program of rank `r`: a scan with strategy `s`, whose `q_bore_func` on rank `r` is `bore r`, and
then `solve_for_map`. -/
def scanAndSolve {A : Type} (w : World (Att A)) (o : ScanInstrument.Opts) (s : Strategy A)
    (bore : Nat → BoreProg A) (beams : List Pair) (fill : ℝ) (i : Inst (Att A)) (size r : Nat) :
    Prog (Option (List (Fin 3 → ℝ))) :=
  program size r ⟨w, o, fun e c g _ => implement s (bore r) e c g⟩ beams fill i

end Verif.Crew
