import Mathlib.Analysis.SpecialFunctions.Trigonometric.Inverse
import Mathlib.Analysis.SpecialFunctions.Pow.Complex
import Mathlib.LinearAlgebra.Matrix.Notation

/-!
# Specification: thin films

The textbook theory of a pile of plane films (characteristic matrices and optical admittances), for one
polarization at a time.  Fields go as `exp (i ω t)`.
-/

noncomputable section

namespace Verif.Spec.ThinFilm

open Real Matrix

/-- A film: its thickness, index of refraction and loss tangent. -/
structure Film where
  thickness : ℝ
  index : ℝ
  loss : ℝ

/-- The two polarizations: electric field in the plane of incidence (TM) or across it (TE). -/
inductive Pol
  | tm
  | te

/-- The cosine of the angle of the ray in a medium of index `n`, by Snell's law: `nsin` is index times sine
of the angle, the same in all media. -/
def slope (nsin n : ℝ) : ℝ := √(1 - (nsin / n) ^ 2)

/-- The tilted admittance of a medium of index `n`. -/
def admittance (p : Pol) (nsin n : ℝ) : ℝ :=
  match p with
  | .tm => n / slope nsin n
  | .te => n * slope nsin n

/-- The phase thickness of a film, complex if it has losses. -/
def phase (frequency nsin : ℝ) (x : Film) : ℂ :=
  (2 * π * frequency / 2.998e8 * x.thickness * slope nsin x.index * x.index : ℝ) *
    (1 - Complex.I * x.loss) ^ (1 / 2 : ℂ)

/-- The characteristic matrix of a film. -/
def film (p : Pol) (frequency nsin : ℝ) (x : Film) : Matrix (Fin 2) (Fin 2) ℂ :=
  let d := phase frequency nsin x
  let y : ℂ := (admittance p nsin x.index : ℝ)
  !![Complex.cos d, Complex.I * Complex.sin d / y; Complex.I * y * Complex.sin d, Complex.cos d]

/-- The electric and magnetic field at the front of the films, for unit electric field behind them. -/
def fields (p : Pol) (frequency nsin n3 : ℝ) (films : List Film) : Fin 2 → ℂ :=
  ((films.map (film p frequency nsin)).prod).mulVec ![1, ((admittance p nsin n3 : ℝ) : ℂ)]

/-- Amplitude reflection coefficient of films between media of index `n1` and `n3`. -/
def reflection (p : Pol) (frequency nsin n1 n3 : ℝ) (films : List Film) : ℂ :=
  let y : ℂ := (admittance p nsin n1 : ℝ)
  let b := fields p frequency nsin n3 films
  (y * b 0 - b 1) / (y * b 0 + b 1)

/-- Amplitude transmission coefficient, for the tangential electric field. -/
def transmission (p : Pol) (frequency nsin n1 n3 : ℝ) (films : List Film) : ℂ :=
  let y : ℂ := (admittance p nsin n1 : ℝ)
  let b := fields p frequency nsin n3 films
  2 * y / (y * b 0 + b 1)

end Verif.Spec.ThinFilm
