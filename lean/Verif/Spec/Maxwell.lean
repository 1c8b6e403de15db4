import Verif.Model.Optics
import Mathlib.LinearAlgebra.CrossProduct

/-!
# Specification: plane waves in a crystal

Fields go as `exp (i ω t - i k₀ (s x + q z))`.  Units with vacuum impedance and permeability 1.
-/

noncomputable section

namespace Verif.Spec.Maxwell

open Verif.Optics Real Matrix

/-- The dielectric tensor of a material with the extraordinary axis at an angle `chi` to the x axis. -/
def tensor (m : Material) (chi : ℝ) : Matrix (Fin 3) (Fin 3) ℂ :=
  let axis : Fin 3 → ℂ := ![(cos chi : ℝ), (sin chi : ℝ), 0]
  let epsO : ℂ := (1 - Complex.I * m.ordinaryLoss) * (m.ordinaryIndex : ℂ) ^ 2
  let epsE : ℂ := (1 - Complex.I * m.extraLoss) * (m.extraIndex : ℂ) ^ 2
  Matrix.of fun i j => (if i = j then epsO else 0) + (epsE - epsO) * (axis i * axis j)

/-- Maxwell's equations for a plane wave. -/
structure Wave (eps : Matrix (Fin 3) (Fin 3) ℂ) (s q : ℂ) (E H : Fin 3 → ℂ) : Prop where
  faraday : crossProduct ![s, 0, q] E = H
  ampere : crossProduct ![s, 0, q] H = -(eps.mulVec E)

/-- The components that go on continuously through an interface. -/
def tangential (E H : Fin 3 → ℂ) : Fin 4 → ℂ := ![E 0, H 1, E 1, -H 0]

/-- `T` takes the fields at the back of a layer of thickness `t` to those at its front, for every wave in
the layer. -/
def Carries (T : M4) (m : Material) (t frequency s chi : ℝ) : Prop :=
  ∀ q E H, Wave (tensor m chi) s q E H →
    T.mulVec (tangential E H) =
      Complex.exp (Complex.I * ((2 * π * frequency / 2.998e8 : ℝ) : ℂ) * q * t) • tangential E H

end Verif.Spec.Maxwell
