import Verif.Spec.ScanInstrument

/-!
# Specification: the same samples at another place of a mission
-/

noncomputable section

namespace Verif.ScanInstrument

open Verif.Timeline Verif.Spinmaps Verif.MapMaking

/-- Sample `t'` of the motion `M'` is sample `t` of `M`: HWP, instrument and flag are the same, and detectors
see the same pixels at the same angles, although perhaps at another time. -/
structure SameSample (x : Ext) (q : QExt) (M : Motion) (t : Nat) (M' : Motion) (t' : Nat) : Prop where
  alpha : M'.alpha t' = M.alpha t
  rot : M'.rot t' = M.rot t
  flag : M'.flag t' = M.flag t
  pix : ∀ off nside, x.bore2pix off (M'.time t') (M'.bore t') nside = x.bore2pix off (M.time t) (M.bore t) nside
  radec : ∀ off, x.bore2radec off (M'.time t') (M'.bore t') = x.bore2radec off (M.time t) (M.bore t)
  bin : ∀ h off nside, q.quat2pix (M'.bore t') h off (M'.time t') nside =
    q.quat2pix (M.bore t) h off (M.time t) nside

/-- Sums of the maps of two missions: hits, projection matrices and signal of each pixel are added. -/
def coadd (a b : Maps) : Maps := List.zipWith (· + ·) a b

end Verif.ScanInstrument
