import Verif.Spec.FilteredLinear

/-! # Specification: scans with filters that refuse, or that make NaN -/

noncomputable section

namespace Verif.Spec

open Verif.Chunks Verif.ScanInstrument Verif.Filters

variable {E : Type}

/-- There is a stretch for which the filters that are switched on raise ValueError: for a timeline as long
as the stretch, and so (by C151) for all of them. -/
def FiltersRefuse (w : World E) (f : ScanFiltered.Wanted) (i : Inst E) (chunks : List Chunk) (N : Nat) :
    Prop :=
  ∃ t, t < N ∧ ∃ tod : List ℝ, tod.length = (ScanFiltered.stretch i.rot chunks t).2 ∧
    filterTod (ScanFiltered.optsOf w f i.hwp) tod = .error .valueError

/-- In all stretches the filters that are switched on make NaN of a timeline. -/
def FiltersNan (w : World E) (f : ScanFiltered.Wanted) (i : Inst E) (chunks : List Chunk) (N : Nat) :
    Prop :=
  ∀ t, t < N → ∃ tod : List ℝ, tod.length = (ScanFiltered.stretch i.rot chunks t).2 ∧
    filterTod (ScanFiltered.optsOf w f i.hwp) tod = .ok none

/-- At least one detector of the list is neither absent nor dead. -/
def Watched (beams : List Pair) : Prop :=
  ∃ p ∈ beams, ∃ b, live p.1 = some b ∨ live p.2 = some b

end Verif.Spec
