import Verif.Model.ScanStored

/-!
# Specification: stored scans that reuse spin maps
-/

noncomputable section

namespace Verif.ScanStored

/-- Every pair that is not empty has a first detector. -/
def PairedS (beams : List SPair) : Prop := ∀ p ∈ beams, p.2.isSome → p.1.isSome

/-- The first of the first detectors. -/
def firstDetS (ps : List (Option SPair)) : Option SBeam := ps.findSome? fun p => p.bind (·.1)

end Verif.ScanStored
