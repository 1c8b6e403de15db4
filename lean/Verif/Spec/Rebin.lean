import Verif.Spec.ScanStored

/-!
# Specification: binning the data that a scan has stored
-/

noncomputable section

namespace Verif.ScanStored

open Verif.Chunks Verif.MapMaking

/-- The live detectors of a pair. -/
def liveOf (p : SPair) : List SBeam := (live p.1).toList ++ (live p.2).toList

/-- One sample as an observation: value `d`, pixel number `p`, position angle `a` [deg] and plate angle
`h` [deg] of a detector with polarization angle `polang` [deg]; `varphi` [deg] is the offset of the plate.
The sine has the other sign in the convention of the CMB, `iau = false`. -/
def seenAs (iau : Bool) (varphi polang d p a h : ℝ) : Obs :=
  let psi := (polang - a + 2 * (h - varphi)) * Real.pi / 180
  ⟨⌊p⌋, Real.cos (2 * psi), (if iau then 1 else -1) * Real.sin (2 * psi), d⟩

/-- The observations in the four arrays that `data` returns for a chunk and a detector: `tod`, `pix`, `pa`
and `hwp_ang`. -/
def reread (iau : Bool) (varphi : ℝ) (store : Store) (b : SBeam) (c : Chunk) : PyM (List Obs) := do
  let tod ← Data.dataOf store c (some b.det) .tod
  let pix ← Data.dataOf store c (some b.det) .pix
  let pa ← Data.dataOf store c (some b.det) .pa
  let hwp ← Data.dataOf store c none .hwpAng
  return (tod.zip (pix.zip (pa.zip hwp))).map fun (d, p, a, h) =>
    seenAs iau varphi b.bin.polangBin d p a h

end Verif.ScanStored
