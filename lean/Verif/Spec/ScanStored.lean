import Verif.Model.ScanStored
import Verif.Spec.ScanInstrument
import Verif.Props.ScanApi

/-!
# Specification: what is stored for a chunk

Sample by sample, from the `Motion` of the telescope; without subchunks, passes or ranks.
-/

noncomputable section

namespace Verif.ScanStored

open Verif.Chunks Verif.Timeline Verif.Spinmaps Verif.MapMaking
open Verif.ScanInstrument (Motion detects)

/-- `f t` for the samples `t` with `a ≤ t < b`, in order. -/
def samples (f : Nat → ℝ) (a b : Int) : List ℝ :=
  (List.range (b - a).toNat).map fun k => f (a.toNat + k)

/-- `b` is a live detector of the pair and `partner` the other slot. -/
def InPair (p : SPair) (b : SBeam) (partner : Option SBeam) : Prop :=
  b.bin.beam.dead = false ∧ (p = (some b, partner) ∨ p = (partner, some b))

/-- The value of sample `t` in the timeline of a detector: what it detects, plus the fraction `c` of
what the other detector of the pair detects, if that is alive. -/
def recorded (M : Motion) (x : Ext) (interp : Bool) (nside : Nat) (sm : Spinmaps SpinDict) (c : ℝ)
    (b : SBeam) (partner : Option SBeam) (t : Nat) : ℝ :=
  match partner with
  | none => detects M x interp nside sm b.bin t
  | some b' =>
    if b'.bin.beam.dead then detects M x interp nside sm b.bin t
    else detects M x interp nside sm b.bin t + c * detects M x interp nside sm b'.bin t

/-- Pixel number (of the spin maps) and position angle [deg] of a detector at sample `t`. -/
def aims (M : Motion) (x : Ext) (interp : Bool) (nside : Nat) (b : SBeam) (t : Nat) : Int × ℝ :=
  looksAt x interp (offset x (M.rot t) b.bin.beam) nside (M.time t) (M.bore t)

/-- All live detectors. -/
def liveBeams (beams : List SPair) : List SBeam :=
  beams.flatMap fun p => (live p.1).toList ++ (live p.2).toList

/-- For every live detector of pair `p` the store has the complete record of chunk `c`: the timeline if
`save_tod`; pixel numbers, position angles and HWP angles [deg] if `save_point`; and nothing that was
not asked for. -/
structure StoredOn (M : Motion) (x : Ext) (o : SOpts) (nside : Nat) (sm : SPair → Spinmaps SpinDict)
    (p : SPair) (c : Chunk) (store : Store) : Prop where
  tod : o.saveTod = true → ∀ b partner, InPair p b partner →
    Data.dataOf store c (some b.det) .tod =
      .ok (samples (recorded M x o.interp nside (sm p) o.ctalk b partner) c.start c.stop)
  pix : o.savePoint = true → ∀ b partner, InPair p b partner →
    Data.dataOf store c (some b.det) .pix =
      .ok (samples (fun t => ((aims M x o.interp nside b t).1 : ℝ)) c.start c.stop)
  pa : o.savePoint = true → ∀ b partner, InPair p b partner →
    Data.dataOf store c (some b.det) .pa =
      .ok (samples (fun t => (aims M x o.interp nside b t).2) c.start c.stop)
  hwpAng : o.savePoint = true → ∀ b partner, InPair p b partner →
    Data.dataOf store c none .hwpAng =
      .ok (samples (fun t => M.alpha t * 180 / Real.pi) c.start c.stop)
  noTod : o.saveTod = false → ∀ b partner, InPair p b partner →
    Data.dataOf store c (some b.det) .tod = .error .keyError
  noPoint : o.savePoint = false → ∀ b partner, InPair p b partner →
    Data.dataOf store c (some b.det) .pix = .error .keyError ∧
      Data.dataOf store c (some b.det) .pa = .error .keyError

end Verif.ScanStored
