import Verif.Spec.ScanInstrument

/-!
# Specification: scans that reuse spin maps
-/

noncomputable section

namespace Verif.ScanInstrument

open Verif.Spinmaps Verif.Timeline

variable {E : Type}

/-- Every pair that is not empty has a first detector. -/
def Paired (beams : List Pair) : Prop := ∀ p ∈ beams, p.2.isSome → p.1.isSome

/-- The same world, except that making spin maps gives `sm` for every beam. -/
def World.always (w : World E) (sm : PyM (Spinmaps SpinDict)) : World E :=
  { w with spinmaps := fun _ => sm }

/-- The first of the first detectors. -/
def firstDet (ps : List (Option Pair)) : Option MapMaking.BinBeam := ps.findSome? fun p => p.bind (·.1)

end Verif.ScanInstrument
