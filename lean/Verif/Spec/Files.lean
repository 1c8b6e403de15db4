import Verif.Spec.Tables
import Verif.Spec.LoadPlane

/-!
# Specification: focal planes from files
-/

noncomputable section

namespace Verif.Files

open Verif.Beam Verif.MapMaking Verif.ScanInstrument
open Verif.FocalScan (parameters)
open Verif.Tables (TableRow)
open Verif.Spec.LoadPlane (given Plain)
open Verif.LoadPlane (Pickle Dir)

/-- What the file and the call say about one detector, with the documented defaults; the call has
precedence.  It points at `az` and `el` with angle `pol`; `dead` says whether it is dead.  Its beam is of
type `bt`, from the file `file`, with width `F`, amplitude `A` and limits `L` and `mm`; `err` is the error
of its angle, `sym` its flag, and array number `mu` its Mueller matrix, or none.  It has no ghosts. -/
structure FileOptions (kw d : Dict ℝ) (az el pol : ℝ) (dead : Bool) (bt file : Val ℝ) (F A err : ℝ) (L : Nat)
    (mm : Int) (sym : Bool) (mu : Option Nat) : Prop where
  known : ∀ x ∈ kw ++ d, x.1 ∈ parameters
  main : ((Dict.get? d .ghost).getD (.bool false)).truthy = false
  az : ((given kw d .az).getD (.num 0)).toNum = some az
  el : ((given kw d .el).getD (.num 0)).toNum = some el
  polang : ((given kw d .polang).getD (.int 0)).toNum = some pol
  dead : ((given kw d .dead).getD (.bool false)).truthy = dead
  btype : (given kw d .btype).getD (.str "Gaussian") = bt
  file : (given kw d .poFile).getD .none = file
  lmax : (given kw d .lmax).getD (.int 700) = .int L
  mmax : ((given kw d .mmax).getD .none = .none ∧ mm = L) ∨
    ∃ m, given kw d .mmax = some (.int m) ∧ mm = min m L
  fwhm : ((given kw d .fwhm).getD .none = .none ∧ F = 1.4 * 360 / L * 60) ∨
    ∃ x, given kw d .fwhm = some (.num x) ∧ F = |x|
  amplitude : ((given kw d .amplitude).getD (.num 1)).toNum = some A
  error : ((given kw d .polangError).getD (.num 0)).toNum = some err
  symmetric : ((given kw d .symmetric).getD (.bool false)).truthy = sym
  plate : (given kw d .hwpMueller).getD .none = mu.elim .none .obj

/-- File `m` of the directory describes the pair `row`: in one dictionary for both detectors, whose name, if
there is one, is a string, or in one for each. -/
def Describes (dir : Dir ℝ) (kw : Dict ℝ) (bt file : Val ℝ) (F A err : ℝ) (L : Nat) (mm : Int) (sym : Bool)
    (mu : Option Nat) (m : String) (row : TableRow) : Prop :=
  ∃ f a b, dir.lookup m = some f ∧ Plain f a b ∧
    (f = .dict a → ∀ v, Dict.get? a .name = some v → ∃ s, v = .str s) ∧
    FileOptions kw a row.az.1 row.el.1 row.polang.1 row.dead.1 bt file F A err L mm sym mu ∧
    FileOptions kw b row.az.2 row.el.2 row.polang.2 row.dead.2 bt file F A err L mm sym mu

/-- The pair after `polang_A` and `polang_B` were added to its angles; with `no_pairs` B is dead. -/
def shifted (noPairs : Bool) (dA dB : ℝ) (r : TableRow) : TableRow :=
  { r with polang := (r.polang.1 + dA, r.polang.2 + dB), dead := (r.dead.1, noPairs || r.dead.2) }

/-- A beam of this type, from this file, with this width, amplitude and band limit. -/
structure BeamOf (a : Key → Option (Val ℝ)) (bt file : Val ℝ) (F A : ℝ) (L : Nat) : Prop where
  btype : a .btype = some bt
  file : a .poFile = some file
  fwhm : a .fwhm = some (.num F)
  lmax : a .lmax = some (.int L)
  amplitude : ∃ v, a .amplitude = some v ∧ v.toNum = some A

end Verif.Files
