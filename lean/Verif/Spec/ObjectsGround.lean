import Verif.Spec.ScanObjects
import Verif.Spec.GroundScan

/-!
# Specification: whole scans with beam objects and a ground template
-/

noncomputable section

namespace Verif.ScanObjects

open Verif.Beam Verif.Timeline Verif.Spinmaps Verif.MapMaking Verif.ScanInstrument

variable {E : Type}

/-- As `Prepared`, with maps of the ground: those are made from the coefficients and the azimuthal limit
of the last ghost of A, or from those of the main beam of A if it has no ghosts. -/
inductive Grounded (s : ObjWorld E) (nside : Nat) (h : Heap ℝ) :
    ObjPair → Pair → Spinmaps SpinDict → Spinmaps SpinDict → Prop where
  | empty (sm sm' : Spinmaps SpinDict) : Grounded s nside h (none, none) (none, none) sm sm'
  | pair (a : Ref) (gs : List Ref) (B : Option (Ref × List Ref)) (v : Ref → Val ℝ) (M : Ref → Int)
      (sy mu : Ref → Val ℝ) (M0 : Int) (q : Pair) (da da' : SpinDict) (d : Ref → SpinDict)
      (ga ga' : SpinDict)
      (ok : PairOk s.env h a gs B v M sy mu)
      (fresh : ∀ x ∈ a :: gs ++ B.elim [] Prod.snd, (h.cell x).attr .blm = none)
      (mmax : (h.cell a).attr .mmax = some (.int M0))
      (read : PairOf h (some a, B.map Prod.fst) q)
      (size : 0 < nside)
      (main : s.sky (v a) (.int (min M0 s.maxSpin)) (sy a) (mu a) = .ok da)
      (main' : s.sky (v a) (.int (min (M a) s.maxSpin)) (sy a) (mu a) = .ok da')
      (ghosts : ∀ g ∈ gs, s.sky (v g) (.int (min (M g) s.maxSpin)) (sy g) (mu g) = .ok (d g))
      (ground : match gs.getLast? with
        | none => s.ground (v a) (.int (min M0 s.maxSpin)) (sy a) (mu a) = .ok ga ∧
            s.ground (v a) (.int (min (M a) s.maxSpin)) (sy a) (mu a) = .ok ga'
        | some g => s.ground (v g) (.int (min (M g) s.maxSpin)) (sy a) (mu a) = .ok ga ∧ ga' = ga)
      (dict : DictOk (12 * nside ^ 2) da) (dict' : DictOk (12 * nside ^ 2) da')
      (gdict : DictOk (12 * nside ^ 2) ga) (gdict' : DictOk (12 * nside ^ 2) ga') :
      Grounded s nside h (some a, B.map Prod.fst) q ⟨da, some ga, gs.map fun g => some (d g)⟩
        ⟨da', some ga', gs.map fun g => some (d g)⟩

end Verif.ScanObjects
