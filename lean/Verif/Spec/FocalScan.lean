import Verif.Spec.ScanObjects
import Verif.Spec.BeamCoef
import Verif.Spec.MapMaking
import Verif.Model.FocalPlane

/-!
# Specification: from the focal plane to the map
-/

noncomputable section

namespace Verif.FocalScan

open Verif.Beam Verif.Timeline Verif.Spinmaps Verif.MapMaking Verif.ScanInstrument Verif.Spec
open Verif.ScanObjects (ObjPair ObjWorld Coefs PairOf)

variable {E : Type}

/-- A main beam without ghosts. -/
structure Lone (o : Obj ℝ) : Prop where
  main : o.isGhost = false
  ghosts : o.ghosts = some []
  count : o.attr .ghostCount = some (.int 0)

/-- A main beam without ghosts, whose coefficients, array number `n`, are not in memory and do not come from
a FITS file; `mm` and `sym` are its azimuthal limit and its option `symmetric`.  Its Mueller matrix is array
number `mu`, or it has none. -/
structure Plain (env : Env ℝ) (o : Obj ℝ) (n : Nat) (mm : Int) (sym : Bool) (mu : Option Nat) : Prop
    extends Lone o where
  fresh : o.attr .blm = none
  load : env.loadBlm o.attr = .ok (.obj n, none)
  mmax : o.attr .mmax = some (.int mm)
  symmetric : ∃ v, o.attr .symmetric = some v ∧ v.truthy = sym
  plate : o.attr .hwpMueller = some (mu.elim .none .obj)

/-- `p` is empty, or a pair of detectors without ghosts in which A has the coefficients `c` and the Mueller
matrix `mu`; the pair points as `q` says.  The azimuthal limit leaves room for the spin 2 part of the beam.  Scanning uses
detector angles that differ by `err` from those used for binning. -/
def SharesBeam (s : ObjWorld E) (h : Heap ℝ) (Ls : Nat) (c : Coefs) (mu : Option Nat) (err : ℝ)
    (p : ObjPair) (q : Pair) : Prop :=
  (p = (none, none) ∧ q = (none, none)) ∨ ∃ a mm sym, p.1 = some a ∧ a < h.size ∧
    Plain s.env (h.cell a) c.n mm sym mu ∧ 0 ≤ min mm s.maxSpin ∧ min mm s.maxSpin ≤ (min Ls c.L : Nat) ∧
    (if sym then 2 ≤ min Ls c.L else 2 ≤ min mm s.maxSpin) ∧
    (∀ b, p.2 = some b → b < h.size ∧ Lone (h.cell b)) ∧ PairOf h p q ∧
    ∀ e, (live q.1 = some e ∨ live q.2 = some e) →
      e.beam.polang = e.polangBin + err ∧ IsRot (s.w.x.detOffset e.beam.az e.beam.el 0)

/-- The user's Gaussian beam: width `F` [arcmin], amplitude `A`, band limit `L`. -/
structure GaussianOf (a : Key → Option (Val ℝ)) (F A : ℝ) (L : Nat) : Prop where
  btype : a .btype = some (.str "Gaussian")
  fwhm : a .fwhm = some (.num F)
  lmax : a .lmax = some (.int L)
  amplitude : ∃ v, a .amplitude = some v ∧ v.toNum = some A

/-- The parameters of `Beam`. -/
def parameters : List Key :=
  [.az, .el, .polang, .name, .pol, .btype, .fwhm, .lmax, .mmax, .sensitiveFreq, .dead, .ghost, .amplitude,
   .poFile, .egFile, .crossPol, .deconvQ, .normalize, .polangError, .idx, .symmetric, .hwp, .hwpMueller]

/-- What the user asks for, with the documented defaults: Gaussian beams of width `F` (the absolute value
of the option in arcmin, or `1.4 · 360° / lmax`), amplitude `A` and limits `L` and `mm`; the nominal
angles `pol` and `pol + diff`, the error `err` of the angles, the flags `dead` and `sym`; array number `mu`
as Mueller matrix, or none. -/
structure GridOptions (kw : Dict ℝ) (abDiff : Val ℝ) (F A pol diff err : ℝ) (L : Nat) (mm : Int)
    (dead sym : Bool) (mu : Option Nat) : Prop where
  known : ∀ x ∈ kw, x.1 ∈ parameters
  btype : (Dict.get? kw .btype).getD (.str "Gaussian") = .str "Gaussian"
  lmax : (Dict.get? kw .lmax).getD (.int 700) = .int L
  mmax : ((Dict.get? kw .mmax).getD .none = .none ∧ mm = L) ∨
    ∃ m, Dict.get? kw .mmax = some (.int m) ∧ mm = min m L
  fwhm : ((Dict.get? kw .fwhm).getD .none = .none ∧ F = 1.4 * 360 / L * 60) ∨
    ∃ x, Dict.get? kw .fwhm = some (.num x) ∧ F = |x|
  amplitude : ((Dict.get? kw .amplitude).getD (.num 1)).toNum = some A
  polang : ((Dict.get? kw .polang).getD (.num 0)).toNum = some pol
  diff : abDiff.toNum = some diff
  error : ((Dict.get? kw .polangError).getD (.num 0)).toNum = some err
  dead : ((Dict.get? kw .dead).getD (.bool false)).truthy = dead
  symmetric : ((Dict.get? kw .symmetric).getD (.bool false)).truthy = sym
  plate : (Dict.get? kw .hwpMueller).getD .none = mu.elim .none .obj

/-- Item `k` of `n` equidistant angles from `-fov/2` to `fov/2`. -/
def position (fov : ℝ) (n : Int) (k : Nat) : ℝ :=
  if n = 1 then -fov / 2 else -fov / 2 + k * (fov / (n - 1))

/-- A detector without ghosts. -/
def det (dead : Bool) (az el polang err : ℝ) : BinBeam := ⟨⟨dead, false, 0, az, el, polang + err⟩, [], polang⟩

/-- A grid of pairs, column by column: B has the angle `pol + diff`, and is dead also with `noPairs`. -/
def grid (nrow ncol : Int) (fov pol diff err : ℝ) (dead noPairs : Bool) : List Pair :=
  (List.range ncol.toNat).flatMap fun c => (List.range nrow.toNat).map fun e =>
    (some (det dead (position fov ncol c) (position fov nrow e) pol err),
     some (det (dead || noPairs) (position fov ncol c) (position fov nrow e) (pol + diff) err))

/-- I of the sky, smoothed with a Gaussian of width `F`. -/
def gaussI (Y : Harmonics) (nside L : Nat) (sky : Sky) (F A : ℝ) (p : Nat) : ℝ :=
  (synth Y nside L 0 (fun l m =>
    ((A * Real.exp (-(l * (l + 1)) * sigma F ^ 2 / 2) : ℝ) : ℂ) * sky.I l m) p).re

/-- `Q + iU` of the sky, smoothed with a Gaussian of width `F`. -/
def gaussP (Y : Harmonics) (nside L : Nat) (sky : Sky) (F A : ℝ) (p : Nat) : ℂ :=
  synth Y nside L 2 (fun l m => if l < 2 then 0 else
    ((A * Real.exp (-(l * (l + 1) - 4) * sigma F ^ 2 / 2) : ℝ) : ℂ) * sky.P l m) p

end Verif.FocalScan
