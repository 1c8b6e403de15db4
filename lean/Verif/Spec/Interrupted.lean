import Verif.Model.Interrupted
import Verif.Spec.Strategies
import Verif.Spec.Scan

/-!
# Specification: what can have happened before a scan
-/

noncomputable section

namespace Verif.Interrupted

open Verif.Chunks Verif.Timeline Verif.Spinmaps Verif.MapMaking Verif.ScanInstrument

variable {E : Type}

/-- `i'` is a state in which `scan_instrument_mpi`, started in state `i`, may be stopped, or that it
ends in. -/
def Stopped (w : World E) (H : Halfway E) (o : Opts) (beams : List Pair) (scatter : Bool)
    (size rank : Nat) (i i' : Inst E) : Prop :=
  (scanRun w H o beams scatter size rank i).during i' ∨
    scanInstrument w o beams scatter size rank i = .ok i'

/-- States after any number of scans without ground, complete or not, with any options and detectors on
any number of ranks, and calls of the reset methods and `allocate_maps`, complete or not. -/
inductive After (w : World E) (H : Halfway E) (i : Inst E) : Inst E → Prop
  | start : After w H i i
  | scan {i1 i2 : Inst E} (o : Opts) (beams : List Pair) (scatter : Bool) (size rank : Nat)
      (h1 : After w H i i1) (hgr : o.ground = false) (h2 : Stopped w H o beams scatter size rank i1 i2) :
      After w H i i2
  | resetting {i1 i2 : Inst E} (h1 : After w H i i1) (h2 : (resetRun w H i1).during i2) : After w H i i2
  | restart {i1 i2 : Inst E} (h1 : After w H i i1) (h2 : restart w i1 = .ok i2) : After w H i i2

/-- `reset_el_steps` brings back the pointing `M`, whatever chunks have been pointed at before and
wherever that has been stopped. -/
def Restores (w : World E) (H : Halfway E) (M : Motion) (chunks : List Chunk) (e0 : E) : Prop :=
  ∃ I : E → Prop, I e0 ∧
    (∀ e c pre p e', I e → c ∈ chunks → w.implement e c false pre = .ok (p, e') → I e') ∧
    (∀ e e', I e → w.resetEl e = .ok e' → I e') ∧
    (∀ e e', I e → H.implement e e' ∨ H.reset e e' → I e') ∧
    ∀ e, I e → ∃ e', w.resetEl e = .ok e' ∧ Steady w M chunks e'

/-- Observations of the mission by all detectors. -/
def Full (w : World E) (M : Motion) (o : Opts) (N nside : Nat) (sm : Pair → Spinmaps SpinDict)
    (beams : List Pair) : List Obs :=
  beams.flatMap fun p => (List.range N).flatMap
    (pairObs M w.x w.q w.varphi w.nsideOut o.ctalk (detects M w.x o.interp nside (sm p)) p)

end Verif.Interrupted
