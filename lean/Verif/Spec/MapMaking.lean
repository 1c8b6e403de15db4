import Verif.Model.MapMaking
import Verif.Spec.Convolution
import Mathlib.LinearAlgebra.Matrix.NonsingularInverse
import Mathlib.LinearAlgebra.Matrix.ToLinearEquiv

/-!
# Specification: binned maps and their solution

An observation is a number `d` measured in a pixel under the polarization angle `psi`; it stands for
`I + Q cos(2 psi) + U sin(2 psi)`, i.e. the weights `(1, c, s)`.
-/

noncomputable section

namespace Verif.MapMaking

open Verif.Chunks Verif.Timeline Verif.Spinmaps Complex

/-- One observation. -/
structure Obs where
  pix : Int
  c : ℝ
  s : ℝ
  d : ℝ

/-- Weights of I, Q and U. -/
def Obs.w (o : Obs) : Fin 3 → ℝ := ![1, o.c, o.s]

/-- The observations of a pixel. -/
def here (p : Nat) (os : List Obs) : List Obs := os.filter fun o => decide (o.pix = (p : Int))

/-- `sum w d` over the observations of a pixel. -/
def vecAt (os : List Obs) (p : Nat) : Fin 3 → ℝ := ((here p os).map fun o => o.d • o.w).sum

/-- `sum w wᵀ` over the observations of a pixel. -/
def projAt (os : List Obs) (p : Nat) : Matrix (Fin 3) (Fin 3) ℝ :=
  ((here p os).map fun o => Matrix.vecMulVec o.w o.w).sum

/-- The symmetric matrix with the given upper triangle. -/
def sym (P : Fin 6 → ℝ) : Matrix (Fin 3) (Fin 3) ℝ :=
  !![P 0, P 1, P 2; P 1, P 3, P 4; P 2, P 4, P 5]

/-- The maps contain exactly the observations `os`. -/
structure Holds (nside : Nat) (m : Maps) (os : List Obs) : Prop where
  npix : m.length = 12 * nside ^ 2
  cells : ∀ p c, m[p]? = some c → c.vec = vecAt os p ∧ sym c.proj = projAt os p

/-- qpoint solves regular pixels with hits and fills pixels without hits. -/
structure SolveOk (q : QExt) : Prop where
  regular : ∀ v P fill, P 0 ≠ 0 → (sym P).det ≠ 0 → (sym P).mulVec (q.solve v P fill) = v
  empty : ∀ v P fill, P 0 = 0 → q.solve v P fill = fun _ => fill

/-- Pixels exist. -/
def PixOk (q : QExt) : Prop := ∀ b h o t nside, 0 < nside →
  0 ≤ (q.quat2pix b h o t nside).1 ∧ (q.quat2pix b h o t nside).1 < 12 * (nside : Int) ^ 2

/-- A rotation. -/
def IsRot (q : Quat.Q) : Prop := ∑ i, q i ^ 2 = 1

/-- For rotations, binning uses the same pixel as `bore2pix`, and its angle is the position angle
of the detector offset plus the detector angle plus twice the HWP angle; the sine changes sign in the
convention of the CMB ("COSMO"), `iau = false`. -/
def Agree (x : Ext) (q : QExt) (iau : Bool) : Prop :=
  ∀ (b o : Quat.Q) (t polang h : ℝ) (nside : Nat), IsRot b → IsRot o →
    q.quat2pix b (q.hwpQuat h) (binOff o polang) t nside =
      let r := x.bore2pix o t b nside
      let psi := (r.2 + polang + 2 * h) * Real.pi / 180
      (r.1, Real.cos (2 * psi), (if iau then 1 else -1) * Real.sin (2 * psi))

/-- Sample `k` of a subchunk that begins `i` samples after the start of the pointing is flagged. -/
def flagged (su : Setup) (i k : Nat) : Bool :=
  match su.flag with
  | some f => (f[i + k]?).getD false
  | none => false

/-- The observations of a detector with offset `off` in a subchunk of `n` samples, `value k` being
the value of sample `k`: the samples that are not flagged. -/
def observations (q : QExt) (su : Setup) (st : State) (off : Quat.Q) (polang : ℝ) (i n : Nat)
    (value : Nat → ℝ) : List Obs :=
  ((List.range n).filter fun k => !flagged su i k).map fun k =>
    let r := q.quat2pix ((st.qBore[i + k]?).getD 0)
      (q.hwpQuat (alphaAt st.hwpAng k * 180 / Real.pi - su.varphi)) (binOff off polang)
      ((st.ctime[i + k]?).getD 0) su.nsideOut
    ⟨r.1, r.2.1, r.2.2, value k⟩

/-- What binning needs: a subchunk as for scanning, an HWP angle and flags for each sample. -/
structure BinOk (mission : List Chunks.Chunk) (su : Setup) (st : State) (s : Sub) (i n : Nat) :
    Prop where
  sub : SubOk mission st st.qBore s i n
  hwp : st.hwpAng ≠ none
  flags : ∀ f, su.flag = some f → i + n ≤ f.length

/-- One detector in one subchunk. -/
structure Job where
  det : Detector
  polangBin : ℝ
  su : Setup
  st : State
  s : Sub

/-- Spin maps, timeline and binned map of one detector in one subchunk (instrument.py:1873-1966),
main beam only. -/
def observeBin (Y : Harmonics) (x : Ext) (q : QExt) (mission : List Chunks.Chunk)
    (alm : List (List ℂ)) (maxSpin : Int) (nside : Nat) (inputV beamV : Bool) (j : Job)
    (maps : Maps) : PyM Maps := do
  let sm ← initSpinmaps Y alm none maxSpin nside inputV beamV j.det.data []
  let r ← scanBin x q mission j.su ⟨j.det.point, [], j.polangBin⟩ j.s false false false
    { j.st with maps := sm } maps
  return r.2

/-- All detectors and subchunks. -/
def observeAll (Y : Harmonics) (x : Ext) (q : QExt) (mission : List Chunks.Chunk)
    (alm : List (List ℂ)) (maxSpin : Int) (nside : Nat) (inputV beamV : Bool) (js : List Job)
    (maps : Maps) : PyM Maps :=
  js.foldlM (fun m j => observeBin Y x q mission alm maxSpin nside inputV beamV j m) maps

/-- I of the sky seen through a symmetric beam. -/
def smoothI (Y : Harmonics) (nside L : Nat) (sky : Sky) (b : Stokes) (p : Nat) : ℝ :=
  (synth Y nside L 0 (fun l m => b.I l 0 * sky.I l m + b.V l 0 * sky.V l m) p).re

/-- `Q + iU` of the sky seen through a symmetric beam. -/
def smoothP (Y : Harmonics) (nside L : Nat) (sky : Sky) (b : Stokes) (p : Nat) : ℂ :=
  synth Y nside L 2 (fun l m => b.P l 2 * sky.P l m) p

/-- The Stokes parameters I, Q, U of `(I, P = Q + iU)`, with the other sign of U in the IAU
convention. -/
def stokes (iau : Bool) (I : ℝ) (P : ℂ) : Fin 3 → ℝ :=
  ![I, P.re, (if iau then -1 else 1) * P.im]

/-- One call of `bin_tod`: a timeline of a detector with offset `off` for a subchunk. -/
structure Call where
  su : Setup
  st : State
  off : Quat.Q
  polang : ℝ
  tod : List ℝ
  s : Sub
  i : Nat
  n : Nat

/-- A sequence of calls of `bin_tod`, beginning with empty maps. -/
def binCalls (q : QExt) (mission : List Chunk) (nside : Nat) (cs : List Call) : PyM Maps :=
  cs.foldlM (fun m c => binTod q mission c.su c.st c.off c.polang c.tod .none c.s m)
    (allocateMaps nside)

/-- A call with complete input for maps with `nside`. -/
structure CallOk (mission : List Chunk) (nside : Nat) (c : Call) : Prop where
  nside : c.su.nsideOut = nside
  ok : BinOk mission c.su c.st c.s c.i c.n
  tod : c.tod.length = c.n

/-- The observations of a call. -/
def Call.obs (q : QExt) (c : Call) : List Obs :=
  observations q c.su c.st c.off c.polang c.i c.n fun k => (c.tod[k]?).getD 0

/-- `c` is cut into `c1` and `c2`: the same detector and pointing, HWP angles and timeline cut at the
same sample. -/
structure Cut (c c1 c2 : Call) : Prop where
  n : c.n = c1.n + c2.n
  i1 : c1.i = c.i
  i2 : c2.i = c.i + c1.n
  su : c1.su = c.su ∧ c2.su = c.su
  off : c1.off = c.off ∧ c2.off = c.off
  polang : c1.polang = c.polang ∧ c2.polang = c.polang
  bore : c1.st.qBore = c.st.qBore ∧ c2.st.qBore = c.st.qBore
  times : c1.st.ctime = c.st.ctime ∧ c2.st.ctime = c.st.ctime
  hwp1 : ∀ k, k < c1.n → alphaAt c1.st.hwpAng k = alphaAt c.st.hwpAng k
  hwp2 : ∀ k, k < c2.n → alphaAt c2.st.hwpAng k = alphaAt c.st.hwpAng (c1.n + k)
  tod : c.tod = c1.tod ++ c2.tod

/-- Three observations of the pixel under different angles. -/
def ThreeAngles (l : List Obs) : Prop :=
  ∃ o1 ∈ l, ∃ o2 ∈ l, ∃ o3 ∈ l, ¬ (o1.c = o2.c ∧ o1.s = o2.s) ∧ ¬ (o1.c = o3.c ∧ o1.s = o3.s) ∧
    ¬ (o2.c = o3.c ∧ o2.s = o3.s)

/-- The observation without its value. -/
def blank (o : Obs) : Obs := { o with d := 0 }

/-- Where and under which angles the detectors have looked: the samples that are not flagged. -/
def seen (x : Ext) (q : QExt) (i n : Job → Nat) (js : List Job) : List Obs :=
  js.flatMap fun j => observations q j.su j.st (offset x j.st.rotAngle j.det.point) j.polangBin
    (i j) (n j) fun _ => 0

/-- One detector with its ghosts in one subchunk, of `n` samples beginning `i` samples after the
start of the pointing. -/
structure Task where
  det : BinBeam
  su : Setup
  st : State
  s : Sub
  i : Nat
  n : Nat

/-- Scan and bin (`preview = false`), or only preview, detector after detector. -/
def runTasks (x : Ext) (q : QExt) (mission : List Chunk) (interp preview : Bool)
    (ts : List Task) (maps : Maps) : PyM Maps :=
  ts.foldlM (fun m t =>
    if preview then (previewBin x q mission t.su t.det t.s t.st m).map (·.2)
    else (scanBin x q mission t.su t.det t.s false interp false t.st m).map (·.2)) maps

end Verif.MapMaking
