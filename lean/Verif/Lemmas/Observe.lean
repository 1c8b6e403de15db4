import Verif.Lemmas.Convolution
import Verif.Props.Spinmaps
import Verif.Props.Timeline

/-! # A detector: maps and scan together -/

noncomputable section

namespace Verif.Spinmaps

open Verif.Alm Verif.Spin Verif.Spec Verif.Timeline Verif.Props Complex

/-- The maps of a beam. -/
def dictOf (Y : Harmonics) (nside Ls : Nat) (a : Nat → Nat → Nat → ℂ) (maxSpin : Int)
    (inputV beamV : Bool) (Lb : Detector → Nat) (b : Detector → Nat → Nat → Nat → ℂ)
    (g : Detector) : SpinDict :=
  dictSpec Y nside (min Ls (Lb g)) a (b g) (min g.data.mmax maxSpin) g.data.symmetric
    g.data.mueller inputV beamV

theorem sampleAt_inRange (x : Ext) (hx : ExtOk x) (interp : Bool) (q : Quat.Q) (nside : Nat)
    (hns : 0 < nside) (t : ℝ) (bore : Quat.Q) (alpha : ℝ) :
    InRange nside (sampleAt x interp q nside t bore alpha) := by
  intro iw hiw
  unfold sampleAt at hiw
  cases interp with
  | true => exact hx.weights _ _ _ hns iw hiw
  | false =>
    simp only [Bool.false_eq_true, if_false, List.mem_singleton] at hiw
    rw [hiw]
    exact hx.pix _ _ _ _ hns

theorem observe_spec (Y : Harmonics) (x : Ext) (hx : ExtOk x) (mission : List Chunks.Chunk)
    {Ls : Nat} {alm : List (List ℂ)} {a : Nat → Nat → Nat → ℂ} {maxSpin : Int}
    {inputV beamV : Bool} {main : Detector} {ghosts : List Detector} {Lb : Detector → Nat}
    {b : Detector → Nat → Nat → Nat → ℂ}
    (h : DetectorOk Ls alm a maxSpin inputV beamV main ghosts Lb b) (nside : Nat) (hns : 0 < nside)
    (s : Sub) (interp savePoint : Bool) (st : State) (i n : Nat)
    (hs : SubOk mission st st.qBore s i n) :
    observe Y x mission alm maxSpin nside inputV beamV main ghosts s interp savePoint st =
      .ok ((List.range n).map fun k =>
        signal (dictOf Y nside Ls a maxSpin inputV beamV Lb b main)
          (main.point.polang * Real.pi / 180) (sampleOf x st interp nside i main.point k) +
        ((ghosts.filter fun g => !g.point.dead).map fun g =>
          signal (dictOf Y nside Ls a maxSpin inputV beamV Lb b g)
            (g.point.polang * Real.pi / 180) (sampleOf x st interp nside i g.point k)).sum) := by
  obtain ⟨k, hk⟩ := h.numbers
  let D := dictOf Y nside Ls a maxSpin inputV beamV Lb b
  have hD : ∀ g ∈ main :: ghosts, spinmapsOf Y alm g.data.blm (min g.data.mmax maxSpin) nside
      g.data.symmetric g.data.mueller inputV beamV = .ok (D g) :=
    fun g hg => spinmapsOf_spec Y nside (h.input g hg)
  have hshare : ∀ g ∈ ghosts, ∀ g' ∈ ghosts, g.data.ghostIdx = g'.data.ghostIdx → D g = D g' := by
    intro g hg g' hg' e
    obtain ⟨e1, e2, e3⟩ := h.share g hg g' hg' e
    show dictOf _ _ _ _ _ _ _ _ _ g = dictOf _ _ _ _ _ _ _ _ _ g'
    unfold dictOf
    rw [e1, e2, e3]
  -- maps by the data of a ghost
  let dd : BeamData → SpinDict := fun d =>
    match ghosts.find? (fun g => decide (g.data.ghostIdx = d.ghostIdx)) with
    | some g => D g
    | none => []
  have hdd : ∀ g ∈ ghosts, ∀ d : BeamData, g.data.ghostIdx = d.ghostIdx → dd d = D g := by
    intro g hg d e
    show (match ghosts.find? (fun g => decide (g.data.ghostIdx = d.ghostIdx)) with
      | some g => D g
      | none => []) = D g
    rcases hf : ghosts.find? (fun g => decide (g.data.ghostIdx = d.ghostIdx)) with _ | g'
    · have := List.find?_eq_none.1 hf g hg
      simp [e] at this
    · have h1 := List.find?_some hf
      have h2 := List.mem_of_find?_eq_some hf
      simp only [decide_eq_true_eq] at h1
      rw [hf]
      exact hshare g' h2 g hg (by rw [h1, e])
  obtain ⟨sm, m1, m2, m3, m4⟩ := C57_lookup_partial (fun d : BeamData => d.ghostIdx)
    (fun g => spinmapsOf Y alm g.blm (min g.mmax maxSpin) nside g.symmetric g.mueller inputV beamV)
    main.data (ghosts.map (·.data)) k (by
      intro n
      rw [← hk n]
      constructor
      · rintro ⟨d, hd, e⟩
        obtain ⟨g, hg, rfl⟩ := List.mem_map.1 hd
        exact ⟨g, hg, e⟩
      · rintro ⟨g, hg, e⟩
        exact ⟨g.data, List.mem_map.2 ⟨g, hg, rfl⟩, e⟩)
    (D main) (hD main List.mem_cons_self) dd (by
      intro d hd
      obtain ⟨g, hg, rfl⟩ := List.mem_map.1 hd
      rw [hdd g hg g.data rfl]
      exact hD g (List.mem_cons_of_mem _ hg)) (by
      intro d hd d' hd' e
      obtain ⟨g, hg, rfl⟩ := List.mem_map.1 hd
      obtain ⟨g', hg', rfl⟩ := List.mem_map.1 hd'
      rw [hdd g hg _ rfl, hdd g' hg' _ rfl]
      exact hshare g hg g' hg' e)
  -- maps by the pointing of a ghost
  let dp : Timeline.Beam → SpinDict := fun d =>
    match ghosts.find? (fun g => decide (g.data.ghostIdx = d.ghostIdx)) with
    | some g => D g
    | none => []
  have hdp : ∀ g ∈ ghosts, dp g.point = D g := by
    intro g hg
    have := hdd g hg ⟨[], 0, false, none, g.point.ghostIdx⟩ (h.ghost g hg).2.symm
    exact this
  have hok : ∀ g ∈ main :: ghosts, DictOk (12 * nside ^ 2) (D g) := fun g hg =>
    dictF_ok nside _ _ _ (h.input g hg).spin0 _
  unfold observe
  have hi : initSpinmaps Y alm none maxSpin nside inputV beamV main.data (ghosts.map (·.data)) =
      .ok sm := m1
  rw [hi]
  simp only [bind, Except.bind]
  obtain ⟨ret, tod, t1, t2, t3⟩ := C46_detector_timeline x hx mission main.point
    (ghosts.map (·.point)) s interp savePoint { st with maps := sm } nside i n hns
    ⟨hs.chunk, hs.times, hs.bore, hs.hwp⟩ h.live h.main_ghost
    (by
      show DictOk _ sm.main
      rw [m2]
      exact hok main List.mem_cons_self) dp (by
      intro p hp _
      obtain ⟨g, hg, rfl⟩ := List.mem_map.1 hp
      refine ⟨(h.ghost g hg).1, ?_, ?_⟩
      · have := m4 g.data (List.mem_map.2 ⟨g, hg, rfl⟩)
        rw [hdd g hg _ rfl] at this
        rw [hdp g hg, (h.ghost g hg).2]
        exact this
      · rw [hdp g hg]
        exact hok g (List.mem_cons_of_mem _ hg))
  rw [t1]
  simp only [pure, Except.pure]
  rw [t2, t3]
  congr 1
  apply List.map_congr_left
  intro j _
  congr 1
  · show measures x _ interp nside i st.qBore sm.main main.point j = _
    rw [m2]
    rfl
  · rw [List.filter_map, List.map_map]
    congr 1
    apply List.map_congr_left
    intro g hg
    have hg := (List.mem_filter.1 hg).1
    show measures x _ interp nside i st.qBore (dp g.point) g.point j = _
    rw [hdp g hg]
    rfl

end Verif.Spinmaps
