import Verif.Spec.ScanFiltered
import Verif.Spec.WholeScans

/-! # Specification: scans with filters that return -/

noncomputable section

namespace Verif.Spec

open Verif.Chunks Verif.ScanInstrument Verif.Filters

variable {E : Type}

/-- The filters that are switched on return numbers for a timeline as long as the stretch around each
sample `t`.  (By C151 they then do so for all timelines of that length.) -/
def FiltersReturn (w : World E) (f : ScanFiltered.Wanted) (i : Inst E) (chunks : List Chunk) (N : Nat) :
    Prop :=
  ∀ t, t < N → ∃ tod out : List ℝ, tod.length = (ScanFiltered.stretch i.rot chunks t).2 ∧
    filterTod (ScanFiltered.optsOf w f i.hwp) tod = .ok (some out)

end Verif.Spec
