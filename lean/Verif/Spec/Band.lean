import Verif.Model.Band

/-!
# Specification: averages over a band
-/

namespace Verif.Optics

noncomputable section

/-- `s` is the value at `f` of the polygonal line through the rows `data`: that of a row at `f`, or on
the line between the neighbouring rows. -/
def OnLine (data : List (ℝ × ℝ)) (f s : ℝ) : Prop :=
  (∃ r ∈ data, r.1 = f ∧ r.2 = s) ∨
  ∃ r0 ∈ data, ∃ r1 ∈ data, r0.1 < f ∧ f < r1.1 ∧ (∀ r ∈ data, r.1 ≤ r0.1 ∨ r1.1 ≤ r.1) ∧
    (s - r0.2) * (r1.1 - r0.1) = (r1.2 - r0.2) * (f - r0.1)

/-- The response of a detector: `p` at `f`; flat without data. -/
def Responds : Option (List (ℝ × ℝ)) → ℝ → ℝ → Prop
  | none, _, p => p = 1
  | some data, f, p => OnLine data f p

/-- Frequency `i` of `n` in a band. -/
def freqAt (minFreq maxFreq : ℝ) (n i : Nat) : ℝ := minFreq + i * ((maxFreq - minFreq) / n)

/-- Weights of the trapezoidal rule: one half at both ends. -/
def edge (n i : Nat) : ℝ := if i = 0 ∨ i + 1 = n then 1 / 2 else 1

/-- There are data at both sides of `f`. -/
def Covers (data : List (ℝ × ℝ)) (f : ℝ) : Prop := (∃ r ∈ data, r.1 ≤ f) ∧ ∃ r ∈ data, f ≤ r.1

end

end Verif.Optics
