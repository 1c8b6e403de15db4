import Verif.Model.ScanInstrument
import Verif.Spec.MapMaking
import Verif.Spec.Tiling
import Verif.Spec.Convolution

/-!
# Specification: a whole scan

`Motion` says, for every sample of the mission, what the telescope does.  Observations are then
written down sample by sample, without chunks, subchunks, passes or ranks.
-/

noncomputable section

namespace Verif.ScanInstrument

open Verif.Chunks Verif.Timeline Verif.Spinmaps Verif.MapMaking

/-- Time, boresight, boresight rotation [deg], HWP angle [rad] and flag of each sample. -/
structure Motion where
  time : Nat → ℝ
  bore : Nat → Quat.Q
  rot : Nat → ℝ
  alpha : Nat → ℝ
  flag : Nat → Bool

/-- What a beam with spin maps `d` measures in sample `t`. -/
def Motion.signal (M : Motion) (x : Ext) (interp : Bool) (nside : Nat) (d : SpinDict)
    (b : Timeline.Beam) (t : Nat) : ℝ :=
  Timeline.signal d (b.polang * Real.pi / 180)
    (sampleAt x interp (offset x (M.rot t) b) nside (M.time t) (M.bore t) (M.alpha t))

/-- The spin maps of a ghost. -/
def ghostMaps (sm : Spinmaps SpinDict) (g : Timeline.Beam) : SpinDict :=
  match pyGet sm.ghosts g.ghostIdx with
  | .ok (some d) => d
  | _ => []

/-- What a detector measures in sample `t`: its main beam and its live ghosts. -/
def detects (M : Motion) (x : Ext) (interp : Bool) (nside : Nat)
    (sm : Spinmaps SpinDict) (b : BinBeam) (t : Nat) : ℝ :=
  M.signal x interp nside sm.main b.beam t +
    ((b.ghosts.filter fun g => !g.dead).map fun g =>
      M.signal x interp nside (ghostMaps sm g) g t).sum

/-- Sample `t` of a detector as an observation of the value `d`. -/
def obsAt (M : Motion) (x : Ext) (q : QExt) (varphi : ℝ) (nsideOut : Nat) (b : BinBeam) (t : Nat)
    (d : ℝ) : Obs :=
  let r := q.quat2pix (M.bore t) (q.hwpQuat (M.alpha t * 180 / Real.pi - varphi))
    (binOff (offset x (M.rot t) b.beam) b.polangBin) (M.time t) nsideOut
  ⟨r.1, r.2.1, r.2.2, d⟩

/-- What a pair contributes in sample `t`, if its detectors measure `val`: every live detector one
observation, with a fraction `c` of the value of the other one. -/
def pairObs (M : Motion) (x : Ext) (q : QExt) (varphi : ℝ) (nsideOut : Nat) (c : ℝ)
    (val : BinBeam → Nat → ℝ) (p : Pair) (t : Nat) : List Obs :=
  if M.flag t then []
  else match live p.1, live p.2 with
    | some a, some b => [obsAt M x q varphi nsideOut a t (val a t + c * val b t),
        obsAt M x q varphi nsideOut b t (val b t + c * val a t)]
    | some a, none => [obsAt M x q varphi nsideOut a t (val a t)]
    | none, some b => [obsAt M x q varphi nsideOut b t (val b t)]
    | none, none => []

/-- `p` is the pointing of chunk `c`: one time, one boresight and (if there are flags) one flag for
each sample. -/
structure PointsAt (M : Motion) (c : Chunk) (p : Pointing) : Prop where
  times : p.ctime = (List.range (c.stop - c.start).toNat).map fun k => M.time (c.start.toNat + k)
  bore : p.bore = (List.range (c.stop - c.start).toNat).map fun k => M.bore (c.start.toNat + k)
  flag : match p.flag with
    | some f => f = (List.range (c.stop - c.start).toNat).map fun k => M.flag (c.start.toNat + k)
    | none => ∀ k, k < (c.stop - c.start).toNat → M.flag (c.start.toNat + k) = false

variable {E : Type}

/-- `implement_scan`, called for the chunks one after the other, points the telescope as `M` says. -/
def Points (w : World E) (M : Motion) (pre : Bool) : E → List Chunk → E → Prop
  | e, [], e' => e' = e
  | e, c :: cs, e' => ∃ p e1, w.implement e c false pre = .ok (p, e1) ∧ PointsAt M c p ∧
      Points w M pre e1 cs e'

/-- It does so in every pass, with a reset in between. -/
def Steady (w : World E) (M : Motion) (chunks : List Chunk) (e0 : E) : Prop :=
  ∃ P : Bool → E → Prop, P true e0 ∧ ∀ first e, P first e →
    ∃ e', Points w M (!first) e chunks e' ∧ ∃ e'', w.resetEl e' = .ok e'' ∧ P false e''

/-- The same for a strategy that makes no difference between the first pass and others. -/
def Repeats (w : World E) (M : Motion) (chunks : List Chunk) (e0 : E) : Prop :=
  ∃ P : E → Prop, P e0 ∧ ∀ first e, P e →
    ∃ e', Points w M (!first) e chunks e' ∧ ∃ e'', w.resetEl e' = .ok e'' ∧ P e''

/-- HWP angle of sample `k`. -/
def angAt : Hwp.Ang ℝ → Nat → ℝ
  | .scalar a, _ => a
  | .array a, k => (a[k]?).getD 0

/-- During the subchunks of a chunk instrument and HWP turn as `M` says; the states at the end are
`r'` and `h'`. -/
def Turns (fsamp : ℝ) (M : Motion) : Rot ℝ → Hwp.State ℝ → List Chunk → Rot ℝ → Hwp.State ℝ → Prop
  | r, h, [], r', h' => r' = r ∧ h' = h
  | r, h, s :: ss, r', h' => ∃ r1 a h1, rotStep r s = .ok r1 ∧
      Hwp.rotateHwp Real.pi fsamp h (s.hwpang.map fun (a : ℚ) => (a : ℝ)) s.start s.stop =
        .ok (some a, h1) ∧
      (∀ t : Nat, s.start ≤ t → (t : Int) < s.stop →
        M.rot t = r1.angle ∧ M.alpha t = angAt a (t - s.start.toNat)) ∧
      Turns fsamp M r1 h1 ss r' h'

/-- The same for all chunks. -/
def Moves (fsamp : ℝ) (M : Motion) : Rot ℝ → Hwp.State ℝ → List Chunk → Prop
  | _, _, [] => True
  | r, h, c :: cs => ∃ subs r1 r2 h2, subpartChunk r c = .ok (subs, r1) ∧
      Turns fsamp M r1 h subs r2 h2 ∧ Moves fsamp M r2 h2 cs

/-- There are spin maps `sm` with `nside` for the detectors of the pair and their ghosts. -/
def MapsOk (w : World E) (nside : Nat) (sm : Spinmaps SpinDict) (p : Pair) : Prop :=
  p = (none, none) ∨ ∃ a, p.1 = some a ∧ w.spinmaps a = .ok sm ∧ 0 < nside ∧
    ∀ b, (live p.1 = some b ∨ live p.2 = some b) → b.beam.ghost = false ∧
      DictOk (12 * nside ^ 2) sm.main ∧
      ∀ g ∈ b.ghosts, g.dead = false → g.ghost = true ∧
        ∃ d, pyGet sm.ghosts g.ghostIdx = .ok (some d) ∧ DictOk (12 * nside ^ 2) d

/-- The strategy before a scan: nothing is binned, instrument and HWP are at the beginning of their
cycles, chunks are without `ground`. -/
structure Ready (w : World E) (chunks : List Chunk) (i : Inst E) : Prop where
  chunks : i.chunks = chunks.map fun c => (c, false)
  maps : i.maps = allocateMaps w.nsideOut
  rot : i.rot.reset = i.rot
  period : i.rot.period = false ∨ 0 < i.rot.rotChunkSize
  hwp : i.hwp.reset = i.hwp

/-- A mission of `N` samples: the chunks are numbered and cover it without gap or overlap. -/
structure Mission (N : Nat) (chunks : List Chunk) : Prop where
  tiles : Spec.Tiles 0 N (chunks.map fun c => (c.start, c.stop))
  numbered : ∀ (i : Nat) c, chunks[i]? = some c → c.cidx = some (i : Int)

/-- Boresight angle of the samples: constant, or one angle of the list after the other for `n` samples
each.  In the latter case chunks must extend beyond the end of the rotation period in which they
start (see C09). -/
inductive Rotates (N : Nat) (chunks : List Chunk) (r : Rot ℝ) (rot : Nat → ℝ) : Prop
  | fixed (h : r.period = false) (hr : ∀ t, t < N → rot t = r.angle)
  | schedule (n : Nat) (hn : 0 < n) (startAng : ℝ) (angles : List ℝ) (hA : angles ≠ [])
      (h : r = setInstrRot n startAng angles)
      (hlong : ∀ c ∈ chunks, (-c.start) % (n : Int) < c.stop - c.start)
      (hr : ∀ t, t < N → Spec.scheduled n angles t = some (rot t))

/-- HWP angle [rad] of the samples: constant, or one angle [deg] of the list after the other for
`n = int(fsamp / freq)` samples each. -/
inductive Plate (fsamp : ℝ) (N : Nat) (h : Hwp.State ℝ) (alpha : Nat → ℝ) : Prop
  | still (hs : h.freq = 0 ∨ h.mode = .none)
      (ha : ∀ t, t < N → alpha t = h.dict.angle * (Real.pi / 180))
  | stepped (n : Nat) (hn : 0 < n) (freq startAng varphi : ℝ) (angles : List ℝ) (hf : freq ≠ 0)
      (hstep : Hwp.truncInt (fsamp / freq) = n) (hA : angles ≠ [])
      (hrange : ∀ a ∈ angles, 0 ≤ a ∧ a < 360)
      (hs : Hwp.setHwpMod fsamp .stepped freq startAng (some angles) varphi = .ok h)
      (ha : ∀ t, t < N → ∃ a, Spec.scheduled n angles t = some a ∧ alpha t = a * (Real.pi / 180))

/-- A pair of detectors that share a symmetric beam with coefficients `b`, without ghosts and without
non-ideal plate, whose maps are made from the sky `alm` with coefficients `a`.  Scanning uses detector
angles that differ by `err` from those used for binning.  `data` are the beam coefficients of a
detector. -/
def IdealPair (w : World E) (Y : Harmonics) (Ls L : Nat) (alm : List (List ℂ))
    (a b : Nat → Nat → Nat → ℂ) (maxSpin : Int) (inputV beamV : Bool) (err : ℝ)
    (data : BinBeam → BeamData) (p : Pair) : Prop :=
  p = (none, none) ∨ ∃ d, p.1 = some d ∧
    w.spinmaps d = initSpinmaps Y alm none maxSpin w.nsideOut inputV beamV (data d) [] ∧
    InputOk Ls L alm (data d).blm a b (min (data d).mmax maxSpin) true none inputV beamV ∧
    (data d).symmetric = true ∧ (data d).mueller = none ∧
    ∀ e, (live p.1 = some e ∨ live p.2 = some e) → e.ghosts = [] ∧ e.beam.ghost = false ∧
      e.beam.polang = e.polangBin + err ∧ IsRot (w.x.detOffset e.beam.az e.beam.el 0)

/-- Where and under which angles the detectors have looked. -/
def seenBy (M : Motion) (w : World E) (N : Nat) (beams : List Pair) : List Obs :=
  beams.flatMap fun p => (List.range N).flatMap
    (pairObs M w.x w.q w.varphi w.nsideOut 0 (fun _ _ => 0) p)

end Verif.ScanInstrument
