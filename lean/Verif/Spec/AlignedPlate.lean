import Verif.Spec.ThinFilm

/-!
# Specification: plates whose layers have their axes along or across one direction

Light polarized along that direction and light polarized across it pass such a plate without mixing,
each as if it were a pile of plain films.
-/

noncomputable section

namespace Verif.Spec.AlignedPlate

open Real ThinFilm

/-- A layer of a uniaxial material. -/
structure Uniaxial where
  thickness : ℝ
  ordinary : ℝ
  extra : ℝ
  ordinaryLoss : ℝ
  extraLoss : ℝ
  /-- the angle between the optical axis and the plane of incidence -/
  angle : ℝ

/-- The index for the extraordinary ray when the optical axis lies in the plane of incidence. -/
def along (nsin : ℝ) (x : Uniaxial) : ℝ :=
  x.extra * √(1 + ((x.extra ^ 2)⁻¹ - (x.ordinary ^ 2)⁻¹) * nsin ^ 2)

open Classical in
/-- The film that a field in the plane of incidence sees. -/
def inPlane (nsin : ℝ) (x : Uniaxial) : Film :=
  if sin x.angle = 0 then ⟨x.thickness, along nsin x, x.extraLoss⟩
  else ⟨x.thickness, x.ordinary, x.ordinaryLoss⟩

open Classical in
/-- The film that a field across the plane of incidence sees. -/
def across (x : Uniaxial) : Film :=
  if sin x.angle = 0 then ⟨x.thickness, x.ordinary, x.ordinaryLoss⟩
  else ⟨x.thickness, x.extra, x.extraLoss⟩

/-- The optical axis lies in the plane of incidence or across it, or there is none; both rays
propagate and are not amplified. -/
structure Aligned (nsin : ℝ) (x : Uniaxial) : Prop where
  axis : sin x.angle = 0 ∨ cos x.angle = 0 ∨ (x.extra = x.ordinary ∧ x.extraLoss = x.ordinaryLoss)
  thickness : 0 ≤ x.thickness
  index : |nsin| < x.ordinary ∧ |nsin| < x.extra
  loss : 0 ≤ x.ordinaryLoss ∧ 0 ≤ x.extraLoss

/-- The Mueller matrix of a plate that lets pass the amplitude `p` of the field along the axis of Q and
`q` of the field across it. -/
def waveplate (p q : ℂ) : Fin 4 → Fin 4 → ℝ :=
  let s := (Complex.normSq p + Complex.normSq q) / 2
  let d := (Complex.normSq p - Complex.normSq q) / 2
  let z := p * star q
  ![![s, d, 0, 0], ![d, s, 0, 0], ![0, 0, z.re, z.im], ![0, 0, -z.im, z.re]]

/-- The amplitudes of a pile of layers in air, at a frequency in Hz and an angle of incidence. -/
def amplitudes (frequency i : ℝ) (l : List Uniaxial) : ℂ × ℂ :=
  (transmission .tm frequency (sin i) 1 1 (l.map (inPlane (sin i))),
   transmission .te frequency (sin i) 1 1 (l.map across))

end Verif.Spec.AlignedPlate
