import Verif.Spec.ScanInstrument

/-!
# Specification: a whole scan with a ground template

`G t` is the pointing of the boresight relative to the ground in sample `t`.
-/

noncomputable section

namespace Verif.ScanInstrument.Ground

open Verif.Chunks Verif.Timeline Verif.Spinmaps Verif.MapMaking

/-- What a beam with ground maps `d` measures in sample `t`. -/
def pickup (M : Motion) (G : Nat → Quat.Q) (x : Ext) (interp : Bool) (nside : Nat) (d : SpinDict)
    (b : Timeline.Beam) (t : Nat) : ℝ :=
  ({ M with bore := G } : Motion).signal x interp nside d b t

/-- What a detector measures in sample `t` according to the code: the sky and the ground through its
main beam, but only the ground through its live ghosts. -/
def detects (M : Motion) (G : Nat → Quat.Q) (x : Ext) (interp : Bool) (nside : Nat)
    (sm : Spinmaps SpinDict) (b : BinBeam) (t : Nat) : ℝ :=
  M.signal x interp nside sm.main b.beam t + pickup M G x interp nside (sm.ground.getD []) b.beam t +
    ((b.ghosts.filter fun g => !g.dead).map fun g =>
      pickup M G x interp nside (sm.ground.getD []) g t).sum

/-- `p` is the pointing of chunk `c`, on the sky and on the ground. -/
structure PointsAt (M : Motion) (G : Nat → Quat.Q) (c : Chunk) (p : Pointing) : Prop where
  sky : ScanInstrument.PointsAt M c p
  ground : p.ground =
    some ((List.range (c.stop - c.start).toNat).map fun k => G (c.start.toNat + k))

variable {E : Type}

/-- `implement_scan`, called with a ground for the chunks one after the other, points the telescope as
`M` and `G` say. -/
def Points (w : World E) (M : Motion) (G : Nat → Quat.Q) (pre : Bool) : E → List Chunk → E → Prop
  | e, [], e' => e' = e
  | e, c :: cs, e' => ∃ p e1, w.implement e c true pre = .ok (p, e1) ∧ PointsAt M G c p ∧
      Points w M G pre e1 cs e'

/-- It does so in every pass, with a reset in between. -/
def Steady (w : World E) (M : Motion) (G : Nat → Quat.Q) (chunks : List Chunk) (e0 : E) : Prop :=
  ∃ P : Bool → E → Prop, P true e0 ∧ ∀ first e, P first e →
    ∃ e', Points w M G (!first) e chunks e' ∧ ∃ e'', w.resetEl e' = .ok e'' ∧ P false e''

/-- There are spin maps `sm` with `nside` of sky and ground for the detectors of the pair. -/
def MapsOk (w : World E) (nside : Nat) (sm : Spinmaps SpinDict) (p : Pair) : Prop :=
  p = (none, none) ∨ ∃ a, p.1 = some a ∧ w.spinmaps a = .ok sm ∧ 0 < nside ∧
    ∀ b, (live p.1 = some b ∨ live p.2 = some b) → b.beam.ghost = false ∧
      DictOk (12 * nside ^ 2) sm.main ∧ ∃ d, sm.ground = some d ∧ DictOk (12 * nside ^ 2) d

/-- The strategy before a scan with a ground: as `ScanInstrument.Ready`, but the chunks may have the
key `ground` from earlier scans. -/
structure Ready (w : World E) (chunks : List Chunk) (i : Inst E) : Prop where
  chunks : i.chunks.map (·.1) = chunks
  maps : i.maps = allocateMaps w.nsideOut
  rot : i.rot.reset = i.rot
  period : i.rot.period = false ∨ 0 < i.rot.rotChunkSize
  hwp : i.hwp.reset = i.hwp

/-- The detectors of a pair have no live ghosts. -/
def NoGhosts (p : Pair) : Prop :=
  ∀ b, (live p.1 = some b ∨ live p.2 = some b) → ∀ g ∈ b.ghosts, g.dead = true

end Verif.ScanInstrument.Ground
