import Verif.Model.Filters

/-!
# Specification: filters

A filter is described by what it does to the Fourier modes of a timeline of `n` samples: mode `l`
has the frequency `min(l, n - l)` (in units of the sample frequency over `n`).
-/

noncomputable section

namespace Verif.Filters

open Complex

/-- Amplitude of mode `l` of a timeline. -/
def mode (x : List ℝ) (l : Nat) : ℂ :=
  ∑ j ∈ Finset.range x.length, ((x[j]?).getD 0 : ℂ) * exp (-(2 * Real.pi * I * (j * l) / x.length))

/-- `y` is `x` with each mode of frequency `k` multiplied by the real number `gain k`. -/
structure Filtered (gain : Nat → ℝ) (x y : List ℝ) : Prop where
  size : y.length = x.length
  modes : ∀ l, l < x.length → mode y l = gain (min l (x.length - l)) * mode x l

/-- Gain of a Butterworth high-pass filter of order `m` at a positive frequency. -/
def butter (wc : ℝ) (m : Nat) (freq : ℝ) : ℝ := 1 / Real.sqrt (1 + (wc / freq) ^ (2 * m))

/-- Number of revolutions of the plate during a timeline of `n` samples. -/
def turns (n : Nat) (fsamp hwpFreq : ℝ) : ℝ := hwpFreq / fsamp * n

/-- Sum of multiples of two timelines. -/
def combine (a b : ℝ) (x y : List ℝ) : List ℝ := List.zipWith (fun u v => a * u + b * v) x y

/-- The same number is added to all samples. -/
def offsetBy (c : ℝ) (x : List ℝ) : List ℝ := x.map fun u => u + c

/-- A sinusoid with `k` periods in `n` samples: `Re (A exp(2 pi i j k / n))`. -/
def sinusoid (n k : Nat) (A : ℂ) : List ℝ :=
  (List.range n).map fun (j : Nat) => (A * exp (2 * Real.pi * I * (j * k) / n)).re

end Verif.Filters
