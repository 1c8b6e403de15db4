import Verif.Spec.FocalScan

/-!
# Specification: focal planes from tables
-/

noncomputable section

namespace Verif.Tables

open Verif.Beam Verif.MapMaking Verif.ScanInstrument
open Verif.FocalScan (parameters det)

/-- A row of the tables of the user: where the detectors A and B of a pair point, their nominal polarization
angles, and whether they are dead. -/
structure TableRow where
  az : ℝ × ℝ
  el : ℝ × ℝ
  polang : ℝ × ℝ
  dead : Bool × Bool := (false, false)

/-- A table of numbers, as given to `input_focal_plane`. -/
def column (f : TableRow → ℝ × ℝ) (rows : List TableRow) : List (Val ℝ × Val ℝ) :=
  rows.map fun r => (.num (f r).1, .num (f r).2)

/-- The table of dead detectors can be left out if there are none. -/
inductive DeadTable (rows : List TableRow) : Option (List (Val ℝ × Val ℝ)) → Prop
  | given : DeadTable rows (some (rows.map fun r => (.bool r.dead.1, .bool r.dead.2)))
  | none (h : ∀ r ∈ rows, r.dead = (false, false)) : DeadTable rows none

/-- The pairs of detectors the tables speak of. -/
def tabled (rows : List TableRow) (err : ℝ) : List Pair :=
  rows.map fun r => (some (det r.dead.1 r.az.1 r.el.1 r.polang.1 err),
    some (det r.dead.2 r.az.2 r.el.2 r.polang.2 err))

/-- The other options, for all detectors, with the documented defaults: Gaussian beams of width `F`,
amplitude `A` and limits `L` and `mm`; the error `err` of the angles, the flag `sym`; array number `mu` as
Mueller matrix, or none.  No option that is in the tables, and no ghosts. -/
structure TableOptions (kw : Dict ℝ) (F A err : ℝ) (L : Nat) (mm : Int) (sym : Bool) (mu : Option Nat) :
    Prop where
  known : ∀ x ∈ kw, x.1 ∈ parameters
  others : ∀ x ∈ kw, x.1 ∉ [Key.az, .el, .name, .polang, .dead, .pol, .idx]
  main : ((Dict.get? kw .ghost).getD (.bool false)).truthy = false
  btype : (Dict.get? kw .btype).getD (.str "Gaussian") = .str "Gaussian"
  lmax : (Dict.get? kw .lmax).getD (.int 700) = .int L
  mmax : ((Dict.get? kw .mmax).getD .none = .none ∧ mm = L) ∨
    ∃ m, Dict.get? kw .mmax = some (.int m) ∧ mm = min m L
  fwhm : ((Dict.get? kw .fwhm).getD .none = .none ∧ F = 1.4 * 360 / L * 60) ∨
    ∃ x, Dict.get? kw .fwhm = some (.num x) ∧ F = |x|
  amplitude : ((Dict.get? kw .amplitude).getD (.num 1)).toNum = some A
  error : ((Dict.get? kw .polangError).getD (.num 0)).toNum = some err
  symmetric : ((Dict.get? kw .symmetric).getD (.bool false)).truthy = sym
  plate : (Dict.get? kw .hwpMueller).getD .none = mu.elim .none .obj

end Verif.Tables
