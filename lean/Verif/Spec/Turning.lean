import Verif.Spec.ScanInstrument

/-!
# Specification: turning the instrument

Laws of qpoint about rotations, and when two motions point all detectors alike.
-/

noncomputable section

namespace Verif.ScanInstrument

open Verif.Timeline Verif.Spinmaps Verif.MapMaking

/-- The rotation about the boresight by `a` degrees. -/
def zRot (a : ℝ) : Quat.Q :=
  ![Real.cos (a * Real.pi / 180 / 2), 0, 0, Real.sin (a * Real.pi / 180 / 2)]

/-- qpoint (bore2pix, bore2radec and its binning): a detector offset that is turned about the boresight
is seen as the untouched offset from the turned boresight, and a quaternion and its negative are the
same boresight. -/
structure Joined (x : Ext) (q : QExt) : Prop where
  pix : ∀ r off t bore nside, IsRot off → IsRot bore →
    x.bore2pix (Quat.quatLeftMult (zRot r) off) t bore nside =
      x.bore2pix off t (Quat.quatLeftMult bore (zRot r)) nside
  radec : ∀ r off t bore, IsRot off → IsRot bore → x.bore2radec (Quat.quatLeftMult (zRot r) off) t bore =
      x.bore2radec off t (Quat.quatLeftMult bore (zRot r))
  bin : ∀ r off t bore h nside, IsRot off → IsRot bore →
    q.quat2pix bore (q.hwpQuat h) (Quat.quatLeftMult (zRot r) off) t nside =
      q.quat2pix (Quat.quatLeftMult bore (zRot r)) (q.hwpQuat h) off t nside
  pixSign : ∀ off t bore nside, x.bore2pix off t (-bore) nside = x.bore2pix off t bore nside
  radecSign : ∀ off t bore, x.bore2radec off t (-bore) = x.bore2radec off t bore
  binSign : ∀ off t bore h nside, q.quat2pix (-bore) h off t nside = q.quat2pix bore h off t nside
  det : ∀ az el, IsRot (x.detOffset az el 0)

/-- qpoint: turning a detector about its own line of sight by `a` degrees changes its position angle, up
to full turns, and not its position.  A detector on the boresight has no offset. -/
structure Rolls (x : Ext) : Prop where
  pix : ∀ a off t bore nside, IsRot off → IsRot bore → ∃ n : Int,
    x.bore2pix (Quat.quatLeftMult off (zRot a)) t bore nside =
      ((x.bore2pix off t bore nside).1, (x.bore2pix off t bore nside).2 - a + 360 * n)
  radec : ∀ a off t bore, IsRot off → IsRot bore → ∃ n : Int,
    x.bore2radec (Quat.quatLeftMult off (zRot a)) t bore =
      ((x.bore2radec off t bore).1, (x.bore2radec off t bore).2.1,
        (x.bore2radec off t bore).2.2 - a + 360 * n)
  centre : x.detOffset 0 0 0 = ![1, 0, 0, 0]

/-- In the first `N` samples the boresight, turned by the rotation of the instrument, is the same rotation
in both motions, and so are time, HWP angle and flags. -/
structure SameTotal (N : Nat) (M M' : Motion) : Prop where
  time : ∀ t, t < N → M'.time t = M.time t
  alpha : ∀ t, t < N → M'.alpha t = M.alpha t
  flag : ∀ t, t < N → M'.flag t = M.flag t
  total : ∀ t, t < N →
    Quat.quatLeftMult (M'.bore t) (zRot (M'.rot t)) = Quat.quatLeftMult (M.bore t) (zRot (M.rot t)) ∨
    Quat.quatLeftMult (M'.bore t) (zRot (M'.rot t)) = -Quat.quatLeftMult (M.bore t) (zRot (M.rot t))
  bore : ∀ t, t < N → IsRot (M.bore t)
  bore' : ∀ t, t < N → IsRot (M'.bore t)

/-- The maps of an azimuthally symmetric beam without Mueller matrix: an unpolarized part of spin 0 and
a polarized part of spin 2. -/
def Round (d : SpinDict) : Prop :=
  ∃ m m', d = [(.s0a0, ⟨m, [0]⟩), (.s2a4, ⟨m', [2]⟩)]

/-- The same detector with its polarization angle lowered by `a` degrees. -/
def lowered (a : ℝ) (b : BinBeam) : BinBeam :=
  { b with beam := { b.beam with polang := b.beam.polang - a }, polangBin := b.polangBin - a }

def loweredPair (a : ℝ) (p : Pair) : Pair := (p.1.map (lowered a), p.2.map (lowered a))

end Verif.ScanInstrument
