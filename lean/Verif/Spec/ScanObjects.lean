import Verif.Model.ScanObjects
import Verif.Spec.Detpair
import Verif.Spec.ScanInstrument
import Verif.Spec.Convolution

/-!
# Specification: whole scans with beam objects
-/

noncomputable section

namespace Verif.ScanObjects

open Verif.Beam Verif.Timeline Verif.Spinmaps Verif.MapMaking Verif.ScanInstrument

/-- The coefficients of the beam are in a file with a lower azimuthal limit than the one of the beam. -/
def Coarse (env : Env ℝ) (o : Obj ℝ) : Prop :=
  ∃ v f M, env.loadBlm o.attr = .ok (v, some f) ∧ o.attr .mmax = some (.int M) ∧ f < M

/-- The main beam of A, if there is one, is not coarse. -/
def Settled (env : Env ℝ) (h : Heap ℝ) (p : ObjPair) : Prop :=
  ∀ a, p.1 = some a → ¬ Coarse env (h.cell a)

/-- The ghosts of a detector, if there is one. -/
def ghostsOf (h : Heap ℝ) : Option Ref → List Ref
  | none => []
  | some r => (h.cell r).ghosts.getD []

/-- The beams whose coefficients are looked at for a pair: A, its ghosts and the ghosts of B. -/
def usedBy (h : Heap ℝ) (p : ObjPair) : List Ref := p.1.toList ++ ghostsOf h p.1 ++ ghostsOf h p.2

variable {E : Type}

/-- Where a beam points: offsets, dead flag and number (if a ghost) are its attributes, and the
polarization angle is the nominal one plus the error. -/
structure PointOf (o : Obj ℝ) (b : Timeline.Beam) : Prop where
  dead : ∃ v, o.attr .dead = some v ∧ b.dead = v.truthy
  ghost : b.ghost = o.isGhost
  number : if o.isGhost then o.attr .ghostIdx = some (.int b.ghostIdx) else b.ghostIdx = 0
  az : ∃ v, o.attr .az = some v ∧ v.toNum = some b.az
  el : ∃ v, o.attr .el = some v ∧ v.toNum = some b.el
  polang : ∃ v e x y, o.attr .polang = some v ∧ o.attr .polangError = some e ∧ v.toNum = some x ∧
    e.toNum = some y ∧ b.polang = x + y

/-- A detector with its ghosts; for binning it has its nominal polarization angle. -/
structure DetectorOf (h : Heap ℝ) (r : Ref) (b : BinBeam) : Prop where
  main : PointOf (h.cell r) b.beam
  ghosts : List.Forall₂ (fun g c => PointOf (h.cell g) c) ((h.cell r).ghosts.getD []) b.ghosts
  polang : ∃ v, (h.cell r).attr .polang = some v ∧ v.toNum = some b.polangBin

/-- `None` or a detector. -/
inductive OneOf (h : Heap ℝ) : Option Ref → Option BinBeam → Prop where
  | none : OneOf h none none
  | some (r : Ref) (b : BinBeam) : DetectorOf h r b → OneOf h (some r) (some b)

/-- The pair of objects `p` points as the pair `q` says. -/
def PairOf (h : Heap ℝ) (p : ObjPair) (q : Pair) : Prop := OneOf h p.1 q.1 ∧ OneOf h p.2 q.2

/-- The pair `p` is empty, or it consists of detector objects whose pointing, angles and dead flags are
`q`, none of which holds coefficients, and whose coefficients give the spin maps `sm` as long as the
main beam of A has its present azimuthal limit, and `sm'` once it has that of its coefficients.  B has
not more ghosts than A. -/
inductive Prepared (s : ObjWorld E) (nside : Nat) (h : Heap ℝ) :
    ObjPair → Pair → Spinmaps SpinDict → Spinmaps SpinDict → Prop where
  | empty (sm sm' : Spinmaps SpinDict) : Prepared s nside h (none, none) (none, none) sm sm'
  | pair (a : Ref) (gs : List Ref) (B : Option (Ref × List Ref)) (v : Ref → Val ℝ) (M : Ref → Int)
      (sy mu : Ref → Val ℝ) (M0 : Int) (q : Pair) (da da' : SpinDict) (d : Ref → SpinDict)
      (ok : PairOk s.env h a gs B v M sy mu)
      (fresh : ∀ x ∈ a :: gs ++ B.elim [] Prod.snd, (h.cell x).attr .blm = none)
      (mmax : (h.cell a).attr .mmax = some (.int M0))
      (fewer : ∀ b ∈ B, b.2.length ≤ gs.length)
      (read : PairOf h (some a, B.map Prod.fst) q)
      (size : 0 < nside)
      (main : s.sky (v a) (.int (min M0 s.maxSpin)) (sy a) (mu a) = .ok da)
      (main' : s.sky (v a) (.int (min (M a) s.maxSpin)) (sy a) (mu a) = .ok da')
      (ghosts : ∀ g ∈ gs, s.sky (v g) (.int (min (M g) s.maxSpin)) (sy g) (mu g) = .ok (d g))
      (dict : DictOk (12 * nside ^ 2) da) (dict' : DictOk (12 * nside ^ 2) da')
      (dicts : ∀ g ∈ gs, DictOk (12 * nside ^ 2) (d g)) :
      Prepared s nside h (some a, B.map Prod.fst) q ⟨da, none, gs.map fun g => some (d g)⟩
        ⟨da', none, gs.map fun g => some (d g)⟩

/-- In the order in which they are scanned, no pair uses the main beam of a later pair, unless this
beam is not coarse. -/
def Apart (env : Env ℝ) (h : Heap ℝ) (beams : List ObjPair) : Prop :=
  beams.Pairwise fun p p' => ∀ a, p'.1 = some a → a ∈ usedBy h p → ¬ Coarse env (h.cell a)

/-- The coefficients of a beam: their number among the arrays, their band limit and themselves. -/
structure Coefs where
  n : Nat
  L : Nat
  b : Nat → Nat → Nat → ℂ

/-- What a beam with coefficients `c` and azimuthal limit `lim`, pointed as `pt`, sees in sample `t`:
the convolution of the sky with the beam, turned by the angle of the detector and twice the angle of
the plate. -/
def beamSees (Y : Harmonics) (x : Ext) (nside Ls : Nat) (a : Nat → Nat → Nat → ℂ) (inputV beamV interp : Bool)
    (Mo : Motion) (c : Coefs) (sym : Bool) (lim : Int) (pt : Timeline.Beam) (t : Nat) : ℝ :=
  let y := sampleAt x interp (offset x (Mo.rot t) pt) nside (Mo.time t) (Mo.bore t) (Mo.alpha t)
  convolved Y nside (min Ls c.L) (spinsI sym lim) (spinsP sym lim) (skyOf inputV a)
    (turned (2 * y.alpha + pt.polang * Real.pi / 180) (beamOf beamV c.b)) y

/-- The same with a plate with Mueller matrix `mu`, turned by the angle of the plate, with the
polarization angle counted in the opposite sense; without a matrix the plate is as in `beamSees`. -/
def plateSees (Y : Harmonics) (x : Ext) (nside Ls : Nat) (a : Nat → Nat → Nat → ℂ) (inputV beamV interp : Bool)
    (Mo : Motion) (c : Coefs) (mu : Option (Fin 4 → Fin 4 → ℝ)) (sym : Bool) (lim : Int)
    (pt : Timeline.Beam) (t : Nat) : ℝ :=
  match mu with
  | none => beamSees Y x nside Ls a inputV beamV interp Mo c sym lim pt t
  | some P =>
    let y := sampleAt x interp (offset x (Mo.rot t) pt) nside (Mo.time t) (Mo.bore t) (Mo.alpha t)
    convolved Y nside (min Ls c.L) (spinsI sym lim) (spinsP sym lim) (skyOf inputV a)
      (turnedPlate y.alpha P (turned (-(pt.polang * Real.pi / 180)) (beamOf beamV c.b))) y

end Verif.ScanObjects
