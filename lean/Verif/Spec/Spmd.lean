import Verif.Model.Spmd
import Verif.Spec.Scan

/-!
# Specification: programs of several ranks that always end

Nothing here depends on what the ranks compute.
-/

namespace Verif.Spmd

/-- `m` steps of the machine, in any order the machine allows. -/
inductive Steps {A : Type} (size : Nat) : Nat → (Nat → Rank A) → (Nat → Rank A) → Prop
  | refl (x : Nat → Rank A) : Steps size 0 x x
  | step {m : Nat} {x y z : Nat → Rank A} (h : Steps size m x y) (s : Step size y z) :
      Steps size (m + 1) x z

/-- Every rank has ended, rank `r` with `R r`. -/
def Ended {A : Type} (size : Nat) (x : Nat → Rank A) (R : Nat → PyM A) : Prop :=
  ∀ r, r < size → x r = ⟨.done (R r), true⟩

/-- Whatever the schedule: the ranks make a bounded number of steps, are never stuck, and when no step
is left every rank `r` has ended with `R r`. -/
def AlwaysEnds {A : Type} (size : Nat) (P : Nat → Prog A) (R : Nat → PyM A) : Prop :=
  ∃ bound, ∀ m x, Steps size m (start P) x →
    m ≤ bound ∧ ((∃ y, Step size x y) ∨ Ended size x R)

/-- Whatever the schedule: after a bounded number of steps no step is left, and rank `r` waits forever
in a collective call. -/
def AlwaysHangs {A : Type} (size : Nat) (P : Nat → Prog A) (r : Nat) : Prop :=
  ∃ bound, ∀ m x, Steps size m (start P) x →
    m ≤ bound ∧ ((∃ y, Step size x y) ∨ ∃ c k, x r = ⟨.call c k, true⟩)

/-! ### scans -/

noncomputable section

open Verif.ScanInstrument (Inst Pair)

/-- The strategy is scanned with the generic `implement_scan`. -/
def Setup.Generic (s : Setup) : Prop :=
  s.w.implement = ScanInstrument.genericImplement s.site s.so ∧ s.w.resetEl = ScanInstrument.genericReset

/-- The state of a single process that has made the memory map, if there is to be one. -/
def withMmap (s : Setup) (i : Inst (Scan.State ℝ Quat.Q)) : Inst (Scan.State ℝ Quat.Q) :=
  if s.createMemmap then { i with el := { i.el with mmap := some (List.replicate s.nsamp 0) } } else i

/-- A rank before a scan: the same state as that of a single process, without memory map. -/
def asRank (i : Inst (Scan.State ℝ Quat.Q)) : Inst RState :=
  { rot := i.rot, hwp := i.hwp, el := ⟨i.el, false⟩, st := i.st, flag := i.flag, hasMaps := i.hasMaps,
    chunks := i.chunks, maps := i.maps }

/-- Directions of the boresight in a generic scan: in each chunk the azimuth offset `prf` about, and the
elevation steps `cfg` on top of, the first patch that was high enough at the last check (`Selected`). -/
def TracksPatch (s : Setup) (prf : Nat → ℝ) (cfg : Scan.ElCfg ℝ) (chunks : List Chunks.Chunk)
    (bore : Nat → Quat.Q) : Prop :=
  ∀ c ∈ chunks, ∀ i : Nat, i < (c.stop - c.start).toNat → ∃ (p : ℝ × ℝ) (y : ℝ),
    Spec.Selected s.so.elMin (Scan.patches s.site s.so (((c.start +
        (i / s.so.checkLen.toNat * s.so.checkLen.toNat : Nat) : Int) : ℝ) / s.so.fsamp
          + s.so.ctime0)) p ∧
      cfg.At (c.start.toNat + i) p.2 y ∧
      bore (c.start.toNat + i) =
        s.site.azel2bore (prf i + p.1) y (((c.start + i : Int) : ℝ) / s.so.fsamp + s.so.ctime0)

/-- Memory has as many numbers as asked for. -/
def JunkOk (junk : Junk) : Prop := ∀ r n, (junk r n).length = n

/-- What the ranks return: the first one `x`, the others None. -/
def firstOnly {A : Type} (x : A) (r : Nat) : PyM (Option A) := .ok (if r = 0 then some x else none)

end

end Verif.Spmd
