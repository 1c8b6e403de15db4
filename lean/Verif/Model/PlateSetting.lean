import Verif.Model.HwpModels

/-!
# Model: `Beam.set_hwp_mueller` (detector.py:551-581)

`HWP` objects can be shared between beams (the keyword argument `hwp` of `Beam`), so they are kept in a
list of all objects created so far and referred to by number.
-/

noncomputable section

namespace Verif.Optics

open Real

/-- What `set_hwp_mueller` reads and writes of a `Beam` (detector.py:92-113). -/
structure PlateBeam where
  az : ℝ
  el : ℝ
  sensitiveFreq : ℝ
  /-- `None` or an `HWP` object -/
  hwp : Option Nat
  hwpMueller : Option MR4

/-- The `HWP` objects, each with its stack (detector.py:583-589). -/
abbrev Plates := List (Option Stack)

/-- The keyword arguments of `set_hwp_mueller`. -/
structure PlateArgs where
  modelName : Option String := none
  thicknesses : Option (List ℝ) := none
  indices : Option (List (ℝ × ℝ)) := none
  losses : Option (List (ℝ × ℝ)) := none
  angles : Option (List ℝ) := none

/-- `if self.hwp is None: self.hwp = HWP()` (detector.py:568-569); also returns the object. -/
def ownPlate (ps : Plates) (b : PlateBeam) : Plates × PlateBeam × Nat :=
  match b.hwp with
  | none => (ps ++ [none], { b with hwp := some ps.length }, ps.length)
  | some k => (ps, b, k)

/-- The stack that is built (detector.py:570-578): by `choose_HWP_model` if there is a name, otherwise by
`stack_builder`, if all four arguments are there. -/
def newStack (a : PlateArgs) : PyM Stack :=
  match a.modelName with
  | some name => chooseHwpModel name
  | none =>
    match a.thicknesses, a.indices, a.losses, a.angles with
    | some t, some i, some l, some an => stackBuilder t i l an
    | _, _, _, _ => .error .valueError

/-- `Beam.set_hwp_mueller` (detector.py:551-581): the objects afterwards, and whether it raised an
exception. -/
def setHwpMueller (ps : Plates) (b : PlateBeam) (a : PlateArgs) : (Plates × PlateBeam) × PyM Unit :=
  let (ps, b, k) := ownPlate ps b
  match newStack a with
  | .error e => ((ps, b), .error e)
  | .ok s =>
    let ps := ps.set k (some s)
    match computeMueller (ps[k]?.join) b.sensitiveFreq (√(b.el ^ 2 + b.az ^ 2) * π / 180) with
    | .error e => ((ps, b), .error e)
    | .ok m => ((ps, { b with hwpMueller := some m }), .ok ())

end Verif.Optics
