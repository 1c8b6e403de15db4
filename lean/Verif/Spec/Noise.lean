import Mathlib.MeasureTheory.Integral.Bochner.Basic
import Verif.Spec.BestFit

/-!
# Specification: white noise
-/

noncomputable section

namespace Verif.MapMaking

open MeasureTheory

/-- Random numbers with mean zero and variance `var` that are not correlated. -/
structure White {Ω ι : Type} [MeasurableSpace Ω] [DecidableEq ι] (μ : Measure Ω) (noise : ι → Ω → ℝ) (var : ℝ) :
    Prop where
  square : ∀ k, MemLp (noise k) 2 μ
  mean : ∀ k, ∫ ω, noise k ω ∂μ = 0
  cov : ∀ k l, ∫ ω, noise k ω * noise l ω ∂μ = if k = l then var else 0

/-- The observations of a sky: pixel `p` has the Stokes parameters `sky p`. -/
def Obs.of (o : Obs) (sky : Int → Fin 3 → ℝ) : ℝ := sky o.pix 0 + o.c * sky o.pix 1 + o.s * sky o.pix 2

/-- Without noise, the sum of the observations with the weights `g` is the Stokes parameter `i` of pixel `p`,
whatever the sky. -/
def Recovers {n : Nat} (obs : Fin n → Obs) (g : Fin n → ℝ) (p : Nat) (i : Fin 3) : Prop :=
  ∀ sky : Int → Fin 3 → ℝ, ∑ k, g k * (obs k).of sky = sky p i

/-- The sums of the cosines, sines and products of both vanish, and the sums of the squares are equal. -/
def Balanced (l : List Obs) : Prop :=
  (l.map Obs.c).sum = 0 ∧ (l.map Obs.s).sum = 0 ∧ (l.map fun o => o.c * o.s).sum = 0 ∧
    (l.map fun o => o.c ^ 2).sum = (l.map fun o => o.s ^ 2).sum

/-- Sample `x.2` of call `x.1` of `bin_tod` exists. -/
def Sample (cs : List Call) (x : Nat × Nat) : Prop := ∃ c, cs[x.1]? = some c ∧ x.2 < c.n

/-- The calls of `bin_tod` with noise in their timelines: `noise j k` is added to sample `k` of call `j`. -/
def noisy (cs : List Call) (noise : Nat → Nat → ℝ) : List Call :=
  cs.mapIdx fun j c => { c with tod := c.tod.mapIdx fun k d => d + noise j k }

end Verif.MapMaking
