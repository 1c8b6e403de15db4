import Verif.Spec.FocalScan

/-!
# Specification: pairs that cross-talk
-/

noncomputable section

namespace Verif.CrossTalk

open Verif.ScanInstrument

/-- Both detectors of the pair are alive, look in the same direction and are orthogonal, or none is
alive. -/
def Twins (p : Pair) : Prop :=
  (live p.1 = none ∧ live p.2 = none) ∨
  ∃ a b, live p.1 = some a ∧ live p.2 = some b ∧ b.beam.az = a.beam.az ∧ b.beam.el = a.beam.el ∧
    ∃ k : ℤ, b.polangBin = a.polangBin + 90 + 180 * k

/-- At most one detector of the pair is alive. -/
def Single (p : Pair) : Prop := live p.1 = none ∨ live p.2 = none

end Verif.CrossTalk
