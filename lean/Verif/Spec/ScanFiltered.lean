import Verif.Model.ScanFiltered
import Verif.Spec.ScanInstrument
import Verif.Spec.Filters

/-!
# Specification: a whole scan with filters

Filters do not act on the timeline of the mission, but on every stretch of it separately.
-/

noncomputable section

namespace Verif.ScanFiltered

open Verif.Chunks Verif.Timeline Verif.Spinmaps Verif.MapMaking Verif.ScanInstrument Verif.Filters

/-- First sample and number of samples of the stretch around sample `t`: it is cut at the ends of
chunks and, if the instrument is rotated, at all multiples of the rotation period. -/
def stretch (r : Rot ℝ) (chunks : List Chunk) (t : Nat) : Nat × Nat :=
  match chunks.find? fun c => decide (c.start ≤ (t : Int) ∧ (t : Int) < c.stop) with
  | none => (0, 0)
  | some c =>
    let n := r.rotChunkSize.toNat
    let a := if r.period then max c.start.toNat (t / n * n) else c.start.toNat
    let b := if r.period then min c.stop.toNat ((t / n + 1) * n) else c.stop.toNat
    (a, b - a)

/-- The values `v` in a stretch. -/
def part (v : Nat → ℝ) (ab : Nat × Nat) : List ℝ := (List.range ab.2).map fun k => v (ab.1 + k)

/-- The gain of the filters for timelines of `n` samples as a function of the mode: the product of
one for `filter_4fhwp` (see C91) and one for `filter_highpass` (see C92). -/
structure IsGain (f : FilterOpts) (n : Nat) (gain : Nat → ℝ) : Prop where
  split : ∃ g4 gh : Nat → ℝ, (∀ k, gain k = g4 k * gh k) ∧
    (f.filter4f = false → ∀ k, g4 k = 1) ∧
    (f.filter4f = true → (∀ k, 0 ≤ g4 k ∧ g4 k ≤ 1) ∧ g4 0 = 0 ∧
      (∀ k : Nat, turns n f.fsamp f.hwpFreq + 3 / 2 < |(k : ℝ) - 4 * turns n f.fsamp f.hwpFreq| →
        g4 k = 0) ∧
      (∀ k : Nat, |(k : ℝ) - 4 * turns n f.fsamp f.hwpFreq| ≤
        turns n f.fsamp f.hwpFreq / 2 - 5 / 4 → g4 k = 1) ∧
      (∀ k : Nat, |(k : ℝ) - 4 * turns n f.fsamp f.hwpFreq| < 1 / 2 → g4 k = 1)) ∧
    (f.highpass = false → ∀ k, gh k = 1) ∧
    (f.highpass = true → f.dict = none → ∀ k, gh k = if k = 0 then 0 else 1) ∧
    (f.highpass = true → ∀ wc m, f.dict = some (wc, m) →
      ∀ k, gh k = if k = 0 then 0 else butter wc m (k * f.fsamp / n))

/-- `out` are the values `v` of the samples `0 .. N-1` after every stretch has gone through the
filters. -/
def PassesFilters (f : FilterOpts) (r : Rot ℝ) (chunks : List Chunk) (N : Nat)
    (gain : Nat → Nat → ℝ) (v out : Nat → ℝ) : Prop :=
  ∀ t, t < N → IsGain f (stretch r chunks t).2 (gain (stretch r chunks t).2) ∧
    Filtered (gain (stretch r chunks t).2) (part v (stretch r chunks t))
      (part out (stretch r chunks t))

end Verif.ScanFiltered
