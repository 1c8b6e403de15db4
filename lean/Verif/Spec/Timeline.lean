import Verif.Model.Timeline

/-!
# Specification: the signal of a beam

A sample sees a map through pixels with weights (a single pixel, or four with interpolation), at a
position angle `pa` and an HWP angle `alpha`.  The signal is written down sample by sample.
-/

noncomputable section

namespace Verif.Timeline

open Verif.Spinmaps Complex

/-- One sample: pixels with weights, position angle, HWP angle [rad]. -/
structure Smp where
  w : List (Int × ℝ)
  pa : ℝ
  alpha : ℝ

/-- The value of a map for a sample. -/
def see (x : Smp) (m : List ℂ) : ℂ := (x.w.map fun iw => (m[iw.1.toNat]?).getD 0 * (iw.2 : ℂ)).sum

/-- `sum_s f_s exp(-i s pa)`. -/
def spinSum (e : Entry) (x : Smp) : ℂ :=
  (List.zipWith (fun (s : Int) m => see x m * exp (-I * (s : ℂ) * (x.pa : ℂ))) e.sVals e.maps).sum

/-- The same for a real signal with only spins `s ≥ 0` given:
`Re f_0 + 2 Re sum_{s > 0} f_s exp(-i s pa)`. -/
def spinSumReal (e : Entry) (x : Smp) : ℝ :=
  (List.zipWith (fun (s : Int) m =>
    (if s = 0 then 1 else 2) * (see x m * exp (-I * (s : ℂ) * (x.pa : ℂ))).re) e.sVals e.maps).sum

/-- The map with spin `s`. -/
def mapOf (e : Entry) (s : Int) : List ℂ := (e.maps[e.sVals.idxOf s]?).getD []

/-- Contribution of the spins `s` and `-s` to the component `s0a2` (unpolarized sky, twice the HWP
angle), with `psi` the detector angle [rad]. -/
def pairS0a2 (e : Entry) (psi : ℝ) (x : Smp) (s : Int) : ℝ :=
  if s = 0 then Real.cos (2 * psi) * (exp (I * (2 * x.alpha)) * see x (mapOf e 0)).re
  else (exp (I * (2 * x.alpha + 2 * psi - s * x.pa)) * see x (mapOf e s)).re +
    (exp (I * (2 * x.alpha - 2 * psi + s * x.pa)) * see x (mapOf e (-s))).re

/-- The maps of a beam. -/
def part (d : SpinDict) (m : Mode) : Entry := (List.lookup m d).getD ⟨[], []⟩

/-- The signal of a beam for a sample; `psi` is the detector angle [rad]. -/
def signal (d : SpinDict) (psi : ℝ) (x : Smp) : ℝ :=
  (exp (I * (4 * x.alpha + 2 * psi)) * spinSum (part d .s2a4) x).re +
  spinSumReal (part d .s0a0) x +
  if isOld d then 0
  else (exp (I * (2 * x.alpha)) * spinSum (part d .s2a2) x).re + (spinSum (part d .s2a0) x).re +
    (((part d .s0a2).sVals.filter fun s => decide (0 ≤ s)).map
      (pairS0a2 (part d .s0a2) psi x)).sum

/-- An entry with `n` pixels: as many maps as spins, at least one. -/
structure EntryOk (n : Nat) (e : Entry) : Prop where
  len : e.maps.length = e.sVals.length
  ne : e.sVals ≠ []
  npix : ∀ m ∈ e.maps, m.length = n

/-- A dictionary of maps with `n` pixels as made by `_init_spinmaps`. -/
structure DictOk (n : Nat) (d : SpinDict) : Prop where
  entries : ∀ x ∈ d, EntryOk n x.2
  keys : (d.map (·.1) = [.s0a0, .s2a4]) ∨ d.map (·.1) = [.s0a0, .s2a4, .s0a2, .s2a2, .s2a0]
  unpol : ∀ s ∈ (part d .s0a0).sVals, 0 ≤ s
  s0a2_nodup : (part d .s0a2).sVals.Nodup
  s0a2_neg : ∀ s ∈ (part d .s0a2).sVals, -s ∈ (part d .s0a2).sVals
  s0a2_zero : isOld d = false → 0 ∈ (part d .s0a2).sVals

/-- The pixels and weights of each sample. -/
def Look.weights : Look → List (List (Int × ℝ))
  | .pix p => p.map fun i => [(i, 1)]
  | .interp w => w

/-- `look`, `pa` and `hwp` describe the samples `S` of a map with `n` pixels. -/
structure Sees (n : Nat) (look : Look) (pa : List ℝ) (S : List Smp) : Prop where
  w : look.weights = S.map (·.w)
  pa : pa = S.map (·.pa)
  range : ∀ x ∈ S, ∀ iw ∈ x.w, 0 ≤ iw.1 ∧ iw.1 < n

/-- `hwp` is the HWP angle of the samples. -/
def Turned (hwp : HwpAng) (S : List Smp) : Prop :=
  match hwp with
  | .fixed a => ∀ x ∈ S, x.alpha = a
  | .array a => a = S.map (·.alpha)

/-! ### detectors -/

/-- HWP angle of sample `k`. -/
def alphaAt (hwp : Option HwpAng) (k : Nat) : ℝ :=
  match hwp with
  | none => 0
  | some (.fixed a) => a
  | some (.array a) => (a[k]?).getD 0

/-- Sample `k` of a beam with offset `q`: where it looks at time `t` when the boresight is
`bore`. -/
def sampleAt (x : Ext) (interp : Bool) (q : Quat.Q) (nside : Nat) (t : ℝ) (bore : Quat.Q)
    (alpha : ℝ) : Smp :=
  if interp then
    let r := x.bore2radec q t bore
    let c := Angles.radec2colatlong1 r.1 r.2.1
    ⟨x.weights nside c.2 c.1, Real.pi - r.2.2 * Real.pi / 180, alpha⟩
  else
    let r := x.bore2pix q t bore nside
    ⟨[(r.1, 1)], Real.pi - r.2 * Real.pi / 180, alpha⟩

/-- Offset of a beam from the boresight, turned with the instrument by `angle` degrees. -/
def offset (x : Ext) (angle : ℝ) (b : Beam) : Quat.Q :=
  Quat.quatLeftMult ![Real.cos (angle * Real.pi / 180 / 2), 0, 0,
    Real.sin (angle * Real.pi / 180 / 2)] (x.detOffset b.az b.el 0)

/-- What a beam with maps `d` measures in sample `k` of a subchunk that begins `i` samples after
the start of the pointing; `bore` is the boresight. -/
def measures (x : Ext) (st : State) (interp : Bool) (nside i : Nat) (bore : List Quat.Q)
    (d : SpinDict) (b : Beam) (k : Nat) : ℝ :=
  signal d (b.polang * Real.pi / 180)
    (sampleAt x interp (offset x st.rotAngle b) nside ((st.ctime[i + k]?).getD 0)
      ((bore[i + k]?).getD 0) (alphaAt st.hwpAng k))

/-- Pixel numbers from qpoint and healpy exist. -/
structure ExtOk (x : Ext) : Prop where
  pix : ∀ q t b nside, 0 < nside →
    0 ≤ (x.bore2pix q t b nside).1 ∧ (x.bore2pix q t b nside).1 < 12 * (nside : Int) ^ 2
  weights : ∀ nside th ph, 0 < nside → ∀ iw ∈ x.weights nside th ph,
    0 ≤ iw.1 ∧ iw.1 < 12 * (nside : Int) ^ 2

/-- The subchunk `s` of `n` samples lies in chunk `cidx` of the mission, `i` samples after its
start, and there are a boresight, a time and (for a turning HWP) an angle for each sample. -/
structure SubOk (mission : List Chunks.Chunk) (st : State) (bore : List Quat.Q) (s : Sub)
    (i n : Nat) : Prop where
  chunk : ∃ c, pyGet mission s.cidx = .ok c ∧ s.start = c.start + i ∧ s.stop = s.start + n
  times : i + n ≤ st.ctime.length
  bore : i + n ≤ bore.length
  hwp : ∀ a, st.hwpAng = some (.array a) → a.length = n

end Verif.Timeline
