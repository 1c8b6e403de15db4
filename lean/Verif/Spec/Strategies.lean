import Verif.Model.Strategies
import Verif.Spec.ScanInstrument

/-!
# Specification: whole scans with the strategies of `Verif.Model.Strategies`
-/

noncomputable section

namespace Verif.Strategies

open Verif.Chunks Verif.Timeline Verif.Spinmaps Verif.MapMaking Verif.ScanInstrument

/-- Scans of `w` call `implement_scan` with the arguments `s`. -/
def Uses {A : Type} (w : World (Att A)) (s : Strategy A) : Prop :=
  w.implement = implement s ∧ w.resetEl = reset

/-- A strategy before a scan with binning of a mission of `N` samples; `M` says how instrument and plate
will turn. -/
structure Prepared {E : Type} (w : World E) (M : Motion) (o : ScanInstrument.Opts) (N : Nat)
    (chunks : List Chunk) (i : Inst E) : Prop where
  ext : ExtOk w.x
  pix : PixOk w.q
  nside : 0 < w.nsideOut
  binning : o.binning = true
  preview : o.preview = false
  ground : o.ground = false
  reuse : o.reuseSpinmaps = false
  mission : Mission N chunks
  hwpang : ∀ c ∈ chunks, c.hwpang = none
  ready : Ready w chunks i
  rotates : Rotates N chunks i.rot M.rot
  plate : Plate w.fsamp N i.hwp M.alpha

/-- The scan ends on `size` ranks, and its maps contain one observation for each live detector and each
sample that is not flagged, where `M` points (C96). -/
def GivesMaps {E : Type} (w : World E) (M : Motion) (o : ScanInstrument.Opts) (N : Nat)
    (beams : List Pair) (size : Nat) (i : Inst E) : Prop :=
  ∀ (nside : Nat) (sm : Pair → Spinmaps SpinDict), (∀ p ∈ beams, MapsOk w nside (sm p) p) →
    ∃ m, scanAll w o beams true size i = .ok m ∧
      Holds w.nsideOut m (beams.flatMap fun p => (List.range N).flatMap
        (pairObs M w.x w.q w.varphi w.nsideOut o.ctalk (detects M w.x o.interp nside (sm p)) p))

/-- Times of equidistant samples. -/
def Clock (fsamp ctime0 : ℝ) (M : Motion) : Prop := ∀ t : Nat, M.time t = t / fsamp + ctime0

/-- Longitude `k` samples after the start of a chunk of `n` samples that starts at `lon0` [deg]. -/
def orbitLon (o : Satellite.Opts) (lon0 : ℝ) (n k : Nat) : ℝ :=
  Hwp.npMod (-(lon0 + k * ((n : ℝ) / o.fsamp / 86400 * 360.9863 / ((n : ℝ) - 1)))) 360

/-- Latitude `k` samples after the start of a chunk that starts at `lat0` [deg]. -/
def orbitLat (o : Satellite.Opts) (lat0 : ℝ) (k : Nat) : ℝ :=
  Real.sin (Real.arcsin (lat0 / o.alpha) + k * (2 * Real.pi / (o.fsamp * o.alphaPeriod))) * o.alpha

/-- Spin angle `k` samples after the start of a chunk [deg]. -/
def orbitAz (o : Satellite.Opts) (k : Nat) : ℝ := Hwp.npMod (k * 360 / (o.fsamp * o.betaPeriod)) 360

/-- The pointing of a satellite: every chunk starts with azimuth 0, at the longitude and latitude where
the last one has ended. -/
def Orbit (azel2bore : ℝ → ℝ → ℝ → ℝ → ℝ → Quat.Q) (o : Satellite.Opts) (M : Motion) :
    ℝ → ℝ → List Chunk → Prop
  | _, _, [] => True
  | lon0, lat0, c :: cs =>
    (∀ k, k < (c.stop - c.start).toNat → M.bore (c.start.toNat + k) =
      azel2bore (orbitAz o k) o.beta (orbitLon o lon0 (c.stop - c.start).toNat k) (orbitLat o lat0 k)
        (M.time (c.start.toNat + k))) ∧
    Orbit azel2bore o M (orbitLon o lon0 (c.stop - c.start).toNat ((c.stop - c.start).toNat - 1))
      (orbitLat o lat0 ((c.stop - c.start).toNat - 1)) cs

end Verif.Strategies
