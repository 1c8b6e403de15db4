import Verif.Lemmas.CommonModes
import Verif.Props.ScanStored
import Verif.Props.WholeScans

/-!
# Property C139: which coefficients of sky and beams are used
-/

noncomputable section

namespace Verif.Props

open Verif.Chunks Verif.Timeline Verif.Spinmaps Verif.MapMaking Verif.Spec Verif.ScanInstrument

variable {E : Type}

/-- **C139, spin maps.** Two beams in two settings with the same coefficients of sky and beam, as far as
they are used, have the same spin maps. -/
theorem C139_spinmaps (Y : Harmonics) (nside : Nat) (S S' : Setting) (g g' : BeamData)
    (h : SameBeam S S' g g') :
    ∃ D, spinmapsOf Y S.alm g.blm (min g.mmax S.maxSpin) nside g.symmetric g.mueller S.inputV S.beamV =
        .ok D ∧
      spinmapsOf Y S'.alm g'.blm (min g'.mmax S'.maxSpin) nside g'.symmetric g'.mueller S'.inputV
        S'.beamV = .ok D := by
  obtain ⟨L, L', b, b', i1, i2, hL, ha, hb⟩ := h.modes
  refine ⟨_, spinmapsOf_spec Y nside i1, ?_⟩
  rw [spinmapsOf_spec Y nside i2]
  congr 1
  rw [← hL, ← h.symmetric, ← h.mueller,
    dictSpec_spin Y nside _ _ _ (fun e => (h.spin e).symm) g.mueller]
  unfold dictSpec
  rw [values_withV, values_withV Y nside _ S.a]
  rw [← dictSpec, ← dictSpec, ← dictSpec_cut Y nside _ (withV S'.inputV S'.a) _ _ i1.spin0,
    ← dictSpec_cut Y nside _ (withV S.inputV S.a) _ _ i1.spin0]
  apply dictSpec_band Y nside _ _ _ _ _ _ _ _ i1.spin0 i1.spin i1.sym i1.mueller
  · intro i l m hi hl hm
    exact (ha i l m hi hl hm (by omega)).symm
  · intro i l m hi hl hm
    unfold cutM
    split
    · rename_i hk
      exact (hb i l m hi hl hm hk).symm
    · rfl

theorem same_worlds (w : World E) (Y : Harmonics) (nside : Nat) (S S' : Setting)
    (data data' : BinBeam → BeamData) (gdata gdata' : BinBeam → List BeamData)
    (h : ∀ d, SameBeam S S' (data d) (data' d) ∧ List.Forall₂ (SameBeam S S') (gdata d) (gdata' d)) :
    under w Y S.maxSpin nside S.inputV S.beamV data gdata S.alm =
      under w Y S'.maxSpin nside S'.inputV S'.beamV data' gdata' S'.alm := by
  unfold under
  congr 1
  funext d
  obtain ⟨h1, h2⟩ := h d
  obtain ⟨D, d1, d2⟩ := C139_spinmaps Y nside S S' _ _ h1
  unfold initSpinmaps initSpinmapsG
  dsimp only [Option.map_none]
  rw [d1, d2]
  have hidx : (gdata d).map (·.ghostIdx) = (gdata' d).map (·.ghostIdx) := by
    revert h2
    generalize gdata d = l
    generalize gdata' d = l'
    intro h2
    induction h2 with
    | nil => rfl
    | cons h _ ih => rw [List.map_cons, List.map_cons, h.ghostIdx, ih]
  have hl := ghostLoop_congr (D := SpinDict)
    (f := fun g => spinmapsOf Y S.alm g.blm (min g.mmax S.maxSpin) nside g.symmetric g.mueller S.inputV
      S.beamV)
    (f' := fun g => spinmapsOf Y S'.alm g.blm (min g.mmax S'.maxSpin) nside g.symmetric g.mueller
      S'.inputV S'.beamV) (l := gdata d) (l' := gdata' d)
    (h2.imp fun g g' k => by
      obtain ⟨D, k1, k2⟩ := C139_spinmaps Y nside S S' _ _ k
      rw [k1, k2])
  simp only [hidx, hl]

/-- **C139.** A focal plane scans a sky in two settings: arrays with other band limits, beams with other
band limits or more azimuthal modes, another `max_spin`, with and without V.  If the coefficients of sky and
beams are the same as far as they are used, whole scans give the same maps and the same stored data, with
all options. -/
theorem C139_scans (w : World E) (Y : Harmonics) (nside : Nat) (S S' : Setting)
    (data data' : BinBeam → BeamData) (gdata gdata' : BinBeam → List BeamData)
    (h : ∀ d, SameBeam S S' (data d) (data' d) ∧ List.Forall₂ (SameBeam S S') (gdata d) (gdata' d)) :
    let world := under w Y S.maxSpin nside S.inputV S.beamV data gdata S.alm
    let world' := under w Y S'.maxSpin nside S'.inputV S'.beamV data' gdata' S'.alm
    (∀ o beams scatter size i, scanAll world o beams scatter size i =
      scanAll world' o beams scatter size i) ∧
    ∀ o beams scatter size r x, ScanStored.scanInstrument world o beams scatter size r x =
      ScanStored.scanInstrument world' o beams scatter size r x := by
  intro world world'
  have e : world = world' := same_worlds w Y nside S S' data data' gdata gdata' h
  rw [e]
  exact ⟨fun _ _ _ _ _ => rfl, fun _ _ _ _ _ _ => rfl⟩

/-! ### Non-vacuity -/

namespace Whole

/-- A sky up to `l = 5` without V, and `max_spin` 4. -/
def short : Setting := ⟨Conv.rows 5 3 (Conv.coef 1), false, false, 4, 5, Conv.coef 1⟩

/-- The same sky with a V of 0, `max_spin` 3 and V of the beam. -/
def long : Setting := ⟨Conv.rows 5 4 (Conv.coef 1), true, true, 3, 5, Conv.coef 1⟩

/-- Coefficients of a beam without V, and others beyond `m = 3`. -/
def noV (c : Nat) (i : Nat) : Nat → Nat → ℂ := if i = 3 then fun _ _ => 0 else Conv.bcoef c i

def odd (c : Nat) (i l m : Nat) : ℂ := if 3 < m then 1 else noV c i l m

/-- A beam with V, band limit 9 and `mmax` 7. -/
def longBeam (c : Nat) : BeamData := ⟨Conv.rows 9 4 (odd c), 7, false, none, 0⟩

/-- A beam without V, with band limit 6 and `mmax` 3. -/
def shortBeam (c : Nat) : BeamData := ⟨Conv.rows 6 3 (noV c), 3, false, none, 0⟩

theorem same (c : Nat) : SameBeam short long (shortBeam c) (longBeam c) := by
  refine ⟨rfl, rfl, rfl, fun _ => rfl, 6, 9, noV c, odd c,
    ⟨Conv.rows_ok _ _ _, Conv.rows_ok _ _ _, by simp [short], by simp [short], by simp [shortBeam, short],
      by simp [shortBeam, short], by simp [shortBeam], by simp [shortBeam]⟩,
    ⟨Conv.rows_ok _ _ _, Conv.rows_ok _ _ _, by simp [long, Conv.rows], by simp [longBeam, Conv.rows],
      by simp [longBeam, long], by simp [longBeam, long], by simp [longBeam], by simp [longBeam]⟩, rfl,
    ?_, ?_⟩
  · intro i l m _ _ _ _
    show withV false (Conv.coef 1) i l m = withV true (Conv.coef 1) i l m
    rw [withV_true]
    unfold withV
    split
    · rename_i hi
      rw [hi.1]
      simp [Conv.coef]
    · rfl
  · intro i l m _ _ _ hm
    have hm : (m : Int) ≤ 3 := hm
    show withV false (noV c) i l m = withV true (odd c) i l m
    rw [withV_true]
    unfold withV odd
    rw [if_neg (show ¬ 3 < m by omega)]
    split
    · rename_i hi
      rw [hi.1]
      rfl
    · rfl

open Rec

/-- The hypotheses of `C139_scans` are met, with a ghost. -/
example (beams : List Pair) :
    scanAll (under w Conv.Y 4 1 false false (fun _ => shortBeam 2) (fun _ => [shortBeam 3])
      (Conv.rows 5 3 (Conv.coef 1))) o beams true 2 i =
    scanAll (under w Conv.Y 3 1 true true (fun _ => longBeam 2) (fun _ => [longBeam 3])
      (Conv.rows 5 4 (Conv.coef 1))) o beams true 2 i :=
  (C139_scans w Conv.Y 1 short long _ _ _ _ fun _ => ⟨same 2, .cons (same 3) .nil⟩).1 o beams true 2 i

end Whole

end Verif.Props
