import Verif.Spec.Interrupted
import Verif.Spec.GroundScan

/-!
# Specification: what can have happened before a scan, with ground templates
-/

noncomputable section

namespace Verif.Interrupted.Ground

open Verif.Chunks Verif.Timeline Verif.Spinmaps Verif.MapMaking Verif.ScanInstrument

variable {E : Type}

/-- States after any number of scans with or without ground, complete or not, with any options and
detectors on any number of ranks, and calls of the reset methods and `allocate_maps`, complete or not. -/
inductive AnyScans (w : World E) (H : Halfway E) (i : Inst E) : Inst E → Prop
  | start : AnyScans w H i i
  | scan {i1 i2 : Inst E} (o : Opts) (beams : List Pair) (scatter : Bool) (size rank : Nat)
      (h1 : AnyScans w H i i1) (h2 : Stopped w H o beams scatter size rank i1 i2) : AnyScans w H i i2
  | resetting {i1 i2 : Inst E} (h1 : AnyScans w H i i1) (h2 : (resetRun w H i1).during i2) :
      AnyScans w H i i2
  | restart {i1 i2 : Inst E} (h1 : AnyScans w H i i1) (h2 : restart w i1 = .ok i2) : AnyScans w H i i2

/-- `reset_el_steps` brings the strategy to a state with `S`, whatever chunks have been pointed at
before, with or without ground, and wherever that has been stopped. -/
def Restores (w : World E) (H : Halfway E) (S : E → Prop) (chunks : List Chunk) (e0 : E) : Prop :=
  ∃ I : E → Prop, I e0 ∧
    (∀ e c g pre p e', I e → c ∈ chunks → w.implement e c g pre = .ok (p, e') → I e') ∧
    (∀ e e', I e → w.resetEl e = .ok e' → I e') ∧
    (∀ e e', I e → H.implement e e' ∨ H.reset e e' → I e') ∧
    ∀ e, I e → ∃ e', w.resetEl e = .ok e' ∧ S e'

/-- `partition_mission` once more, with the result `chunks` (instrument.py:1504-1543): the new chunks
do not have the key `ground`. -/
def again (chunks : List Chunk) (i : Inst E) : Inst E :=
  { i with chunks := chunks.map fun c => (c, false) }

/-- Observations of the mission by all detectors, with a ground. -/
def Full (w : World E) (M : Motion) (G : Nat → Quat.Q) (o : Opts) (N nside : Nat)
    (sm : Pair → Spinmaps SpinDict) (beams : List Pair) : List Obs :=
  beams.flatMap fun p => (List.range N).flatMap
    (pairObs M w.x w.q w.varphi w.nsideOut o.ctalk
      (ScanInstrument.Ground.detects M G w.x o.interp nside (sm p)) p)

end Verif.Interrupted.Ground
