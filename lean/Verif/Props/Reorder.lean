import Verif.Spec.Reorder
import Verif.Props.Turning

/-!
# C149: the order of the samples
-/

noncomputable section

namespace Verif.Props

open Verif.Chunks Verif.Timeline Verif.Spinmaps Verif.MapMaking Verif.ScanInstrument Verif.Spec

variable {E E' E'' : Type}

theorem detects_same {x : Ext} {q : QExt} {M M' : Motion} {t t' : Nat} (h : SameSample x q M t M' t')
    (interp : Bool) (nside : Nat) (sm : Spinmaps SpinDict) (b : BinBeam) :
    detects M' x interp nside sm b t' = detects M x interp nside sm b t := by
  have e : ∀ d (g : Timeline.Beam), M'.signal x interp nside d g t' = M.signal x interp nside d g t := by
    intro d g
    unfold Motion.signal
    congr 1
    unfold sampleAt
    rw [h.alpha, h.rot, h.pix, h.radec]
  unfold detects
  simp only [e]

theorem pairObs_same {x : Ext} {q : QExt} {M M' : Motion} {t t' : Nat} (h : SameSample x q M t M' t')
    (varphi : ℝ) (nside : Nat) (c : ℝ) (val val' : BinBeam → Nat → ℝ)
    (hv : ∀ b, val' b t' = val b t) (p : Pair) :
    pairObs M' x q varphi nside c val' p t' = pairObs M x q varphi nside c val p t := by
  have e : ∀ b d, obsAt M' x q varphi nside b t' d = obsAt M x q varphi nside b t d := by
    intro b d
    unfold obsAt
    rw [h.alpha, h.rot, h.bin]
  unfold pairObs
  rw [h.flag]
  simp only [e, hv]

theorem mapsOf_append (n : Nat) (a b : List Obs) : mapsOf n (a ++ b) = coadd (mapsOf n a) (mapsOf n b) := by
  unfold mapsOf coadd
  rw [List.zipWith_map, List.zipWith_self]
  exact List.map_congr_left fun p _ => cellAt_append a b p

/-- **C149.** Two missions in which the same `N` samples are taken in a different order (sample `t` of the second
one is sample `σ t` of the first one) by the same detectors, which may be listed in a different order, have
the same maps.  The chunks and the numbers of ranks may be different. -/
theorem C149_order (w : World E) (w' : World E') (hxw : w'.x = w.x) (hqw : w'.q = w.q)
    (hvw : w'.varphi = w.varphi) (hnw : w'.nsideOut = w.nsideOut) (hx : ExtOk w.x) (hq : PixOk w.q)
    (hns : 0 < w.nsideOut) (M M' : Motion) (o : Opts) (hbin : o.binning = true)
    (hpre : o.preview = false) (hgr : o.ground = false) (hre : o.reuseSpinmaps = false) (N : Nat)
    (σ : Nat → Nat) (hσ : ((List.range N).map σ).Perm (List.range N))
    (hs : ∀ t, t < N → SameSample w.x w.q M (σ t) M' t)
    (chunks : List Chunk) (hmi : Mission N chunks) (hang : ∀ c ∈ chunks, c.hwpang = none) (i : Inst E)
    (hi : Ready w chunks i) (hrot : Rotates N chunks i.rot M.rot)
    (hhwp : Plate w.fsamp N i.hwp M.alpha) (hst : Steady w M chunks i.el)
    (chunks' : List Chunk) (hmi' : Mission N chunks') (hang' : ∀ c ∈ chunks', c.hwpang = none)
    (i' : Inst E') (hi' : Ready w' chunks' i') (hrot' : Rotates N chunks' i'.rot M'.rot)
    (hhwp' : Plate w'.fsamp N i'.hwp M'.alpha) (hst' : Steady w' M' chunks' i'.el)
    (beams beams' : List Pair) (hbeams : beams'.Perm beams) (nside : Nat) (sm : Pair → Spinmaps SpinDict)
    (hm : ∀ p ∈ beams, MapsOk w nside (sm p) p) (hm' : ∀ p ∈ beams, MapsOk w' nside (sm p) p)
    (size size' : Nat) (hsize : 0 < size) (hsize' : 0 < size') :
    ∃ m, scanAll w o beams true size i = .ok m ∧ scanAll w' o beams' true size' i' = .ok m := by
  have h1 := all_spec w hq hns M o hbin hgr (fun p => detects M w.x o.interp nside (sm p)) N chunks
    hmi i hi (moves_spec w.fsamp M N chunks hmi hang i.rot i.hwp hrot hhwp) hst beams size hsize
    fun p hp => pairGood_scan w hx M chunks o hpre hre nside (sm p) p (hm p hp)
  have h2 := all_spec w' (hqw ▸ hq) (hnw ▸ hns) M' o hbin hgr
    (fun p => detects M' w'.x o.interp nside (sm p)) N chunks'
    hmi' i' hi' (moves_spec w'.fsamp M' N chunks' hmi' hang' i'.rot i'.hwp hrot' hhwp') hst' beams' size'
    hsize' fun p hp => pairGood_scan w' (hxw ▸ hx) M' chunks' o hpre hre nside (sm p) p
      (hm' p (hbeams.mem_iff.1 hp))
  refine ⟨_, h1, h2.trans ?_⟩
  rw [hnw]
  congr 1
  apply mapsOf_perm
  refine (hbeams.flatMap_right _).trans (List.Perm.flatMap_left _ fun p _ => ?_)
  unfold missionObs
  rw [hxw, hqw, hvw, hnw]
  have e : ((List.range N).flatMap fun t => pairObs M' w.x w.q w.varphi w.nsideOut o.ctalk
      (detects M' w.x o.interp nside (sm p)) p t) = ((List.range N).map σ).flatMap fun t =>
        pairObs M w.x w.q w.varphi w.nsideOut o.ctalk (detects M w.x o.interp nside (sm p)) p t := by
    rw [List.flatMap_map]
    apply flatMap_congr'
    intro t ht
    have ht := hs t (List.mem_range.1 ht)
    exact pairObs_same ht _ _ _ _ _ (fun b => detects_same ht _ _ _ _) p
  exact (e ▸ List.Perm.refl _ : List.Perm _ _).trans (hσ.flatMap_right _)

/-- **C149, parts of a mission.** The maps of a mission of `N₁ + N₂` samples are the sums of the maps of two
missions, one with the first `N₁` samples and one with the others, scanned apart, perhaps with other
chunks and other numbers of ranks. -/
theorem C149_parts (w : World E) (w₁ : World E') (w₂ : World E'')
    (hx₁ : w₁.x = w.x) (hq₁ : w₁.q = w.q) (hv₁ : w₁.varphi = w.varphi) (hn₁ : w₁.nsideOut = w.nsideOut)
    (hx₂ : w₂.x = w.x) (hq₂ : w₂.q = w.q) (hv₂ : w₂.varphi = w.varphi) (hn₂ : w₂.nsideOut = w.nsideOut)
    (hx : ExtOk w.x) (hq : PixOk w.q)
    (hns : 0 < w.nsideOut) (M M₁ M₂ : Motion) (o : Opts) (hbin : o.binning = true)
    (hpre : o.preview = false) (hgr : o.ground = false) (hre : o.reuseSpinmaps = false) (N₁ N₂ : Nat)
    (hs₁ : ∀ t, t < N₁ → SameSample w.x w.q M t M₁ t)
    (hs₂ : ∀ t, t < N₂ → SameSample w.x w.q M (N₁ + t) M₂ t)
    (chunks : List Chunk) (hmi : Mission (N₁ + N₂ : Nat) chunks) (hang : ∀ c ∈ chunks, c.hwpang = none) (i : Inst E)
    (hi : Ready w chunks i) (hrot : Rotates (N₁ + N₂) chunks i.rot M.rot)
    (hhwp : Plate w.fsamp (N₁ + N₂) i.hwp M.alpha) (hst : Steady w M chunks i.el)
    (chunks₁ : List Chunk) (hmi₁ : Mission N₁ chunks₁) (hang₁ : ∀ c ∈ chunks₁, c.hwpang = none)
    (i₁ : Inst E') (hi₁ : Ready w₁ chunks₁ i₁) (hrot₁ : Rotates N₁ chunks₁ i₁.rot M₁.rot)
    (hhwp₁ : Plate w₁.fsamp N₁ i₁.hwp M₁.alpha) (hst₁ : Steady w₁ M₁ chunks₁ i₁.el)
    (chunks₂ : List Chunk) (hmi₂ : Mission N₂ chunks₂) (hang₂ : ∀ c ∈ chunks₂, c.hwpang = none)
    (i₂ : Inst E'') (hi₂ : Ready w₂ chunks₂ i₂) (hrot₂ : Rotates N₂ chunks₂ i₂.rot M₂.rot)
    (hhwp₂ : Plate w₂.fsamp N₂ i₂.hwp M₂.alpha) (hst₂ : Steady w₂ M₂ chunks₂ i₂.el)
    (beams : List Pair) (nside : Nat) (sm : Pair → Spinmaps SpinDict)
    (hm : ∀ p ∈ beams, MapsOk w nside (sm p) p ∧ MapsOk w₁ nside (sm p) p ∧ MapsOk w₂ nside (sm p) p)
    (size size₁ size₂ : Nat) (hsize : 0 < size) (hsize₁ : 0 < size₁) (hsize₂ : 0 < size₂) :
    ∃ m₁ m₂, scanAll w₁ o beams true size₁ i₁ = .ok m₁ ∧ scanAll w₂ o beams true size₂ i₂ = .ok m₂ ∧
      scanAll w o beams true size i = .ok (coadd m₁ m₂) := by
  have h0 := all_spec w hq hns M o hbin hgr (fun p => detects M w.x o.interp nside (sm p)) _ chunks
    hmi i hi (moves_spec w.fsamp M _ chunks hmi hang i.rot i.hwp hrot hhwp) hst beams size hsize
    fun p hp => pairGood_scan w hx M chunks o hpre hre nside (sm p) p (hm p hp).1
  have h1 := all_spec w₁ (hq₁ ▸ hq) (hn₁ ▸ hns) M₁ o hbin hgr
    (fun p => detects M₁ w₁.x o.interp nside (sm p)) N₁ chunks₁
    hmi₁ i₁ hi₁ (moves_spec w₁.fsamp M₁ N₁ chunks₁ hmi₁ hang₁ i₁.rot i₁.hwp hrot₁ hhwp₁) hst₁ beams size₁
    hsize₁ fun p hp => pairGood_scan w₁ (hx₁ ▸ hx) M₁ chunks₁ o hpre hre nside (sm p) p (hm p hp).2.1
  have h2 := all_spec w₂ (hq₂ ▸ hq) (hn₂ ▸ hns) M₂ o hbin hgr
    (fun p => detects M₂ w₂.x o.interp nside (sm p)) N₂ chunks₂
    hmi₂ i₂ hi₂ (moves_spec w₂.fsamp M₂ N₂ chunks₂ hmi₂ hang₂ i₂.rot i₂.hwp hrot₂ hhwp₂) hst₂ beams size₂
    hsize₂ fun p hp => pairGood_scan w₂ (hx₂ ▸ hx) M₂ chunks₂ o hpre hre nside (sm p) p (hm p hp).2.2
  refine ⟨_, _, h1, h2, h0.trans ?_⟩
  rw [hn₁, hn₂, ← mapsOf_append]
  congr 1
  apply mapsOf_perm
  have e : ∀ p ∈ beams, missionObs w M o (N₁ + N₂) (detects M w.x o.interp nside (sm p)) p =
      missionObs w₁ M₁ o N₁ (detects M₁ w₁.x o.interp nside (sm p)) p ++
      missionObs w₂ M₂ o N₂ (detects M₂ w₂.x o.interp nside (sm p)) p := by
    intro p _
    unfold missionObs
    rw [List.range_add, List.flatMap_append, List.flatMap_map, hx₁, hq₁, hv₁, hn₁, hx₂, hq₂, hv₂, hn₂]
    congr 1
    · apply flatMap_congr'
      intro t ht
      have ht := hs₁ t (List.mem_range.1 ht)
      exact (pairObs_same ht _ _ _ _ _ (fun b => detects_same ht _ _ _ _) p).symm
    · apply flatMap_congr'
      intro t ht
      have ht := hs₂ t (List.mem_range.1 ht)
      exact (pairObs_same ht _ _ _ _ _ (fun b => detects_same ht _ _ _ _) p).symm
  rw [flatMap_congr' e]
  exact (List.flatMap_append_perm _ _ _).symm

namespace Turn

open Rec Whole

/-- A plate with the settings `a`, one in each sample. -/
def steps (a : List ℝ) : Hwp.State ℝ := ⟨.stepped, 1, ⟨1, 0, 0⟩, 0, 0, a, ⟨a, 0⟩⟩

/-- The instrument with this plate, which is scanned in `cs`. -/
def stepping (a : List ℝ) (cs : List Chunk) : Inst Unit :=
  { i 30 with hwp := steps a, chunks := cs.map fun c => (c, false) }

def moving (alpha : Nat → ℝ) : Motion := { M ![1, 0, 0, 0] 30 with alpha := alpha }

theorem steps_plate (N : Nat) (a : List ℝ) (hA : a ≠ []) (hr : ∀ x ∈ a, 0 ≤ x ∧ x < 360) (alpha : Nat → ℝ)
    (h : ∀ t, t < N → ∃ x, Spec.scheduled 1 a t = some x ∧ alpha t = x * (Real.pi / 180)) :
    Plate (w ![1, 0, 0, 0]).fsamp N (steps a) alpha := by
  have ht : Hwp.truncInt ((1 : ℝ) / 1) = ((1 : Nat) : Int) := by
    unfold Hwp.truncInt
    simp
  refine .stepped 1 one_pos 1 0 0 a one_ne_zero ht hA hr ?_ h
  have ht' : Hwp.truncInt ((w ![1, 0, 0, 0]).fsamp / 1) = 1 := ht
  unfold Hwp.setHwpMod
  rw [if_neg (by simp), if_pos rfl, ht']
  rfl

theorem stepping_ready (a : List ℝ) (cs : List Chunk) : Ready (w ![1, 0, 0, 0]) cs (stepping a cs) :=
  ⟨rfl, rfl, rfl, .inl rfl, rfl⟩

theorem moving_steady (alpha : Nat → ℝ) (cs : List Chunk) :
    Steady (w ![1, 0, 0, 0]) (moving alpha) cs () := by
  refine ⟨fun _ _ => True, trivial, fun first e _ => ⟨(), ?_, (), rfl, trivial⟩⟩
  induction cs with
  | nil => rfl
  | cons c cs ih =>
    refine ⟨_, (), rfl, ⟨rfl, ?_, ?_⟩, ih⟩
    · simp [moving, M]
    · intro k _
      rfl

theorem one_mission (n : Nat) (hn : 0 < n) : Mission n [{ start := 0, stop := n, cidx := some 0 }] := by
  refine ⟨.cons (by simpa using hn) (.nil _), ?_⟩
  intro i c h
  rcases i with _ | i
  · obtain rfl := Option.some.inj h
    rfl
  · simp at h

theorem there : Plate (w ![1, 0, 0, 0]).fsamp 3 (steps [0, 45 / 2, 45]) Whole.alpha := plate

/-- The hypotheses of `C149_order` are met: a plate that steps back instead of forth, with the detector and the
empty place in the other order, on more ranks. -/
example : ∃ m, scanAll (w ![1, 0, 0, 0]) o beams true 1 (stepping [0, 45 / 2, 45] chunks) = .ok m ∧
    scanAll (w ![1, 0, 0, 0]) o beams.reverse true 2
      (stepping [45, 45 / 2, 0] [{ start := 0, stop := 3, cidx := some 0 }]) = .ok m :=
  C149_order (w ![1, 0, 0, 0]) (w ![1, 0, 0, 0]) rfl rfl rfl rfl ext_ok pix_ok one_pos
    (moving Whole.alpha) (moving fun t => Whole.alpha (2 - t)) o rfl rfl rfl rfl 3 (fun t => 2 - t) (by decide)
    (fun t _ => ⟨rfl, rfl, rfl, fun _ _ => rfl, fun _ => rfl, fun _ _ _ => rfl⟩) chunks mission_ok (by decide)
    _ (stepping_ready _ _) (.fixed rfl fun _ _ => rfl) there (moving_steady _ _)
    [{ start := 0, stop := 3, cidx := some 0 }] (one_mission 3 (by decide)) (by decide)
    _ (stepping_ready _ _) (.fixed rfl fun _ _ => rfl)
    (steps_plate 3 _ (by simp) (by
      intro a ha
      simp only [List.mem_cons, List.not_mem_nil, or_false] at ha
      rcases ha with rfl | rfl | rfl <;> norm_num) _ (by
      intro t h
      interval_cases t
      · exact ⟨45, rfl, by show Real.pi / 4 = _; ring⟩
      · exact ⟨45 / 2, rfl, by show Real.pi / 8 = _; ring⟩
      · exact ⟨0, rfl, by show (0 : ℝ) = _; simp⟩)) (moving_steady _ _)
    beams beams.reverse (List.reverse_perm _) 1 (fun _ => sm) (maps_ok' _) (maps_ok' _) 1 2 one_pos two_pos

/-- Those of `C149_parts` are met: one sample with the first setting, and two with the others. -/
example : ∃ m₁ m₂,
    scanAll (w ![1, 0, 0, 0]) o beams true 1
      (stepping [0] [{ start := 0, stop := 1, cidx := some 0 }]) = .ok m₁ ∧
    scanAll (w ![1, 0, 0, 0]) o beams true 1
      (stepping [45 / 2, 45] [{ start := 0, stop := 2, cidx := some 0 }]) = .ok m₂ ∧
    scanAll (w ![1, 0, 0, 0]) o beams true 2 (stepping [0, 45 / 2, 45] chunks) = .ok (coadd m₁ m₂) :=
  C149_parts (w ![1, 0, 0, 0]) (w ![1, 0, 0, 0]) (w ![1, 0, 0, 0]) rfl rfl rfl rfl rfl rfl rfl rfl ext_ok pix_ok
    one_pos (moving Whole.alpha) (moving Whole.alpha) (moving fun t => Whole.alpha (1 + t)) o rfl rfl rfl rfl 1 2
    (fun t _ => ⟨rfl, rfl, rfl, fun _ _ => rfl, fun _ => rfl, fun _ _ _ => rfl⟩)
    (fun t _ => ⟨rfl, rfl, rfl, fun _ _ => rfl, fun _ => rfl, fun _ _ _ => rfl⟩) chunks mission_ok (by decide)
    _ (stepping_ready _ _) (.fixed rfl fun _ _ => rfl) there (moving_steady _ _)
    [{ start := 0, stop := 1, cidx := some 0 }] (one_mission 1 (by decide)) (by decide)
    _ (stepping_ready _ _) (.fixed rfl fun _ _ => rfl)
    (steps_plate 1 _ (by simp) (by simp) _ (by
      intro t h
      interval_cases t
      exact ⟨0, rfl, by show (0 : ℝ) = _; simp⟩)) (moving_steady _ _)
    [{ start := 0, stop := 2, cidx := some 0 }] (one_mission 2 (by decide)) (by decide)
    _ (stepping_ready _ _) (.fixed rfl fun _ _ => rfl)
    (steps_plate 2 _ (by simp) (by
      intro a ha
      simp only [List.mem_cons, List.not_mem_nil, or_false] at ha
      rcases ha with rfl | rfl <;> norm_num) _ (by
      intro t h
      interval_cases t
      · exact ⟨45 / 2, rfl, by show Real.pi / 8 = _; ring⟩
      · exact ⟨45, rfl, by show Real.pi / 4 = _; ring⟩)) (moving_steady _ _)
    beams 1 (fun _ => sm) (fun p hp => ⟨maps_ok' _ p hp, maps_ok' _ p hp, maps_ok' _ p hp⟩) 2 1 1 two_pos one_pos one_pos

end Turn

end Verif.Props
