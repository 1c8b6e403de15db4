import Verif.Spec.BestFit
import Verif.Spec.Reorder
import Verif.Props.Solve
import Verif.Props.Reorder
import Verif.Lemmas.CrossTalk

/-!
# C150: the solved map is the best fit
-/

noncomputable section

namespace Verif.Props

open Verif.Chunks Verif.Timeline Verif.Spinmaps Verif.MapMaking Verif.ScanInstrument Verif.Spec

variable {E : Type}

namespace BestFit

theorem cross (l : List Obs) (v e : Fin 3 → ℝ) :
    (l.map fun o => o.residual v * (e 0 + o.c * e 1 + o.s * e 2)).sum =
      dotProduct e ((l.map fun o => o.d • o.w).sum) -
        dotProduct e (((l.map fun o => Matrix.vecMulVec o.w o.w).sum).mulVec v) := by
  induction l with
  | nil => simp
  | cons o l ih =>
    simp only [List.map_cons, List.sum_cons, Matrix.add_mulVec, dotProduct_add, ih]
    have : o.residual v * (e 0 + o.c * e 1 + o.s * e 2) = dotProduct e (o.d • o.w) -
        dotProduct e ((Matrix.vecMulVec o.w o.w).mulVec v) := by
      simp [dotProduct, Matrix.mulVec, Matrix.vecMulVec, Fin.sum_univ_three, Obs.w, Obs.residual]
      ring
    rw [this]
    ring

theorem expand (l : List Obs) (v u : Fin 3 → ℝ) : misfit l u = misfit l v -
    2 * (l.map fun o => o.residual v * ((u - v) 0 + o.c * (u - v) 1 + o.s * (u - v) 2)).sum +
    (l.map fun o => (o.w 0 * (u - v) 0 + o.w 1 * (u - v) 1 + o.w 2 * (u - v) 2) ^ 2).sum := by
  unfold misfit
  induction l with
  | nil => simp
  | cons o l ih =>
    simp only [List.map_cons, List.sum_cons, ih]
    simp only [Obs.residual, Obs.w, Pi.sub_apply, Matrix.cons_val_zero, Matrix.cons_val_one, Matrix.cons_val]
    ring

/-- The solution of a pixel satisfies the normal equations. -/
theorem normal (q : QExt) (hs : SolveOk q) {nside : Nat} {m : Maps} {os : List Obs} (h : Holds nside m os)
    (hu : ∀ o ∈ os, o.c ^ 2 + o.s ^ 2 = 1) (fill : ℝ) {p : Nat} (hp : p < 12 * nside ^ 2)
    (h3 : ThreeAngles (here p os)) : ∃ v, (solveForMap q m fill)[p]? = some v ∧
      (projAt os p).mulVec v = vecAt os p := by
  obtain ⟨c, hc⟩ : ∃ c, m[p]? = some c := ⟨_, List.getElem?_eq_getElem (by rw [h.npix]; exact hp)⟩
  obtain ⟨c1, c2⟩ := h.cells p c hc
  have hd := (C88_regular h hu hc).2 h3
  refine ⟨q.solve c.vec c.proj fill, ?_, ?_⟩
  · unfold solveForMap
    rw [List.getElem?_map, hc]
    rfl
  · have := hs.regular c.vec c.proj fill (hits_ne c2 hd) hd
    rw [c2, c1] at this
    rwa [← c1] at this ⊢

theorem unique (os : List Obs) (hu : ∀ o ∈ os, o.c ^ 2 + o.s ^ 2 = 1) (p : Nat) (h3 : ThreeAngles (here p os))
    (u v : Fin 3 → ℝ) (h : (projAt os p).mulVec u = (projAt os p).mulVec v) : u = v := by
  by_contra hne
  have := proj_pos os hu p h3 (u - v) (sub_ne_zero.2 hne)
  rw [Matrix.mulVec_sub, h, sub_self, dotProduct_zero] at this
  exact lt_irrefl _ this

theorem fits (os : List Obs) (hu : ∀ o ∈ os, o.c ^ 2 + o.s ^ 2 = 1) (p : Nat) (h3 : ThreeAngles (here p os))
    (v : Fin 3 → ℝ) (h : (projAt os p).mulVec v = vecAt os p) :
    BestFit (here p os) v ∧ ((here p os).map fun o => o.residual v).sum = 0 ∧
      ((here p os).map fun o => o.residual v * o.c).sum = 0 ∧
      ((here p os).map fun o => o.residual v * o.s).sum = 0 := by
  have hz : ∀ e : Fin 3 → ℝ,
      ((here p os).map fun o => o.residual v * (e 0 + o.c * e 1 + o.s * e 2)).sum = 0 := by
    intro e
    rw [cross]
    have h' := h
    unfold projAt vecAt at h'
    rw [h', sub_self]
  refine ⟨fun u hne => ?_, ?_, ?_, ?_⟩
  · have h1 := expand (here p os) v u
    rw [hz, ← quad] at h1
    have h2 := proj_pos os hu p h3 (u - v) (sub_ne_zero.2 hne)
    unfold projAt at h2
    linarith
  · simpa using hz ![1, 0, 0]
  · simpa using hz ![0, 1, 0]
  · simpa using hz ![0, 0, 1]

end BestFit

/-- **C150.** In a pixel that has been seen under three angles the solution fits the observations of the
pixel, of all detectors and all times, better than any other values of I, Q and U: the sum of the squared
residuals is smaller.  The residuals have mean zero and are not correlated with the angles.  This holds for all
observations, also if they do not come from a sky that is constant over the pixel. -/
theorem C150_best_fit (q : QExt) (hs : SolveOk q) {nside : Nat} {m : Maps} {os : List Obs}
    (h : Holds nside m os) (hu : ∀ o ∈ os, o.c ^ 2 + o.s ^ 2 = 1) (fill : ℝ) {p : Nat}
    (hp : p < 12 * nside ^ 2) (h3 : ThreeAngles (here p os)) :
    ∃ v, (solveForMap q m fill)[p]? = some v ∧ BestFit (here p os) v ∧
      ((here p os).map fun o => o.residual v).sum = 0 ∧
      ((here p os).map fun o => o.residual v * o.c).sum = 0 ∧
      ((here p os).map fun o => o.residual v * o.s).sum = 0 := by
  obtain ⟨v, h1, h2⟩ := BestFit.normal q hs h hu fill hp h3
  exact ⟨v, h1, BestFit.fits os hu p h3 v h2⟩

/-- **C150, whole scans.** After a scan by any number of ranks of detectors with any beams, ghosts and
cross-talk the solved map fits the timelines best, in each pixel that has been seen under three angles. -/
theorem C150_scan (w : World E) (hx : ExtOk w.x) (hq : PixOk w.q) (hs : SolveOk w.q) (iau : Bool)
    (hxq : Agree w.x w.q iau) (hns : 0 < w.nsideOut) (M : Motion)
    (o : Opts) (hbin : o.binning = true) (hpre : o.preview = false) (hgr : o.ground = false)
    (hre : o.reuseSpinmaps = false) (N : Nat) (chunks : List Chunk) (hmi : Mission N chunks)
    (hang : ∀ c ∈ chunks, c.hwpang = none) (i : Inst E) (hi : Ready w chunks i)
    (hrot : Rotates N chunks i.rot M.rot) (hhwp : Plate w.fsamp N i.hwp M.alpha)
    (hst : Steady w M chunks i.el) (hbore : ∀ t, t < N → IsRot (M.bore t)) (beams : List Pair)
    (hoff : ∀ p ∈ beams, ∀ e, (live p.1 = some e ∨ live p.2 = some e) →
      IsRot (w.x.detOffset e.beam.az e.beam.el 0)) (nside : Nat)
    (sm : Pair → Spinmaps SpinDict) (hm : ∀ p ∈ beams, MapsOk w nside (sm p) p)
    (size : Nat) (hsize : 0 < size) (fill : ℝ) :
    ∃ m, scanAll w o beams true size i = .ok m ∧ ∀ p, p < 12 * w.nsideOut ^ 2 →
      ThreeAngles (here p (seenBy M w N beams)) → ∃ v, (solveForMap w.q m fill)[p]? = some v ∧
        BestFit (here p (beams.flatMap fun p => (List.range N).flatMap
          (pairObs M w.x w.q w.varphi w.nsideOut o.ctalk (detects M w.x o.interp nside (sm p)) p))) v := by
  obtain ⟨m, h1, hH⟩ := C96_maps w hx hq hns M o hbin hpre hgr hre N chunks hmi hang i hi hrot hhwp hst beams
    nside sm hm size hsize
  refine ⟨m, h1, fun p hp h3 => ?_⟩
  have h2 : (beams.flatMap fun p => (List.range N).flatMap (pairObs M w.x w.q w.varphi w.nsideOut o.ctalk
      (detects M w.x o.interp nside (sm p)) p)).map blank = (seenBy M w N beams).map blank := by
    unfold seenBy
    simp only [List.map_flatMap]
    apply flatMap_congr'
    intro p _
    apply flatMap_congr'
    intro t _
    exact FocalScan.talk_blank M w.x w.q w.varphi w.nsideOut _ _ _ _ p t
  rw [← three_blank, ← here_blank, ← h2, here_blank, three_blank] at h3
  obtain ⟨v, v1, v2, -⟩ := C150_best_fit w.q hs hH (by
    intro ob hob
    obtain ⟨p, hp, hob⟩ := List.mem_flatMap.1 hob
    obtain ⟨t, ht, hob⟩ := List.mem_flatMap.1 hob
    obtain ⟨e, d, he, rfl, -⟩ := obs_cases hob
    dsimp only [obsAt]
    have eo : offset w.x (M.rot t) e.beam = qOff w.x (M.rot t) e.beam := rfl
    rw [eo, hxq _ _ _ _ _ _ (hbore t (List.mem_range.1 ht)) (qOff_rot w.x _ _ (hoff p hp e he))]
    dsimp only
    rw [mul_pow]
    have h1 : ((if iau = true then 1 else -1 : ℝ)) ^ 2 = 1 := by cases iau <;> norm_num
    rw [h1, one_mul]
    exact Real.cos_sq_add_sin_sq _) fill hp h3
  exact ⟨v, v1, v2⟩

/-- **C150, noise.** If noise is added to the observations, the solved map changes by the map that is solved
from the noise alone: the error does not depend on the sky. -/
theorem C150_noise {κ : Type} (q : QExt) (hs : SolveOk q) {nside : Nat} (ks : List κ) (obs : κ → Obs)
    (noise : κ → ℝ) (hu : ∀ k ∈ ks, (obs k).c ^ 2 + (obs k).s ^ 2 = 1) {m mn m' : Maps}
    (h : Holds nside m (ks.map obs)) (hn : Holds nside mn (ks.map fun k => (obs k).reading (noise k)))
    (h' : Holds nside m' (ks.map fun k => (obs k).reading ((obs k).d + noise k))) (fill : ℝ) {p : Nat}
    (hp : p < 12 * nside ^ 2) (h3 : ThreeAngles (here p (ks.map obs))) :
    ∃ v n, (solveForMap q m fill)[p]? = some v ∧ (solveForMap q mn fill)[p]? = some n ∧
      (solveForMap q m' fill)[p]? = some (v + n) := by
  have hb : ∀ f : κ → ℝ, (ks.map fun k => (obs k).reading (f k)).map blank = (ks.map obs).map blank := by
    intro f
    simp [blank, Obs.reading, Function.comp_def]
  have hb3 : ∀ f : κ → ℝ, ThreeAngles (here p (ks.map fun k => (obs k).reading (f k))) := by
    intro f
    rwa [← three_blank, ← here_blank, hb, here_blank, three_blank]
  have hu' : ∀ f : κ → ℝ, ∀ o ∈ ks.map (fun k => (obs k).reading (f k)), o.c ^ 2 + o.s ^ 2 = 1 := by
    intro f o ho
    obtain ⟨k, hk, rfl⟩ := List.mem_map.1 ho
    exact hu k hk
  have hu0 : ∀ o ∈ ks.map obs, o.c ^ 2 + o.s ^ 2 = 1 := by
    intro o ho
    obtain ⟨k, hk, rfl⟩ := List.mem_map.1 ho
    exact hu k hk
  obtain ⟨v, v1, v2⟩ := BestFit.normal q hs h hu0 fill hp h3
  obtain ⟨n, n1, n2⟩ := BestFit.normal q hs hn (hu' _) fill hp (hb3 _)
  obtain ⟨x, x1, x2⟩ := BestFit.normal q hs h' (hu' _) fill hp (hb3 _)
  have hP : ∀ f : κ → ℝ, projAt (ks.map fun k => (obs k).reading (f k)) p = projAt (ks.map obs) p := by
    intro f
    unfold projAt
    have e : ∀ os : List Obs, ((here p os).map fun o => Matrix.vecMulVec o.w o.w) =
        (here p (os.map blank)).map fun o => Matrix.vecMulVec o.w o.w := by
      intro os
      rw [here_blank, List.map_map]
      rfl
    rw [e, hb, ← e]
  have hV : vecAt (ks.map fun k => (obs k).reading ((obs k).d + noise k)) p =
      vecAt (ks.map obs) p + vecAt (ks.map fun k => (obs k).reading (noise k)) p := by
    unfold vecAt here
    clear h hn h' h3 hb hb3 hu' hu0 v1 v2 n1 n2 x1 x2 hP hu
    induction ks with
    | nil => simp
    | cons k ks ih =>
      simp only [List.map_cons, List.filter_cons, Obs.reading] at ih ⊢
      split
      · simp only [List.map_cons, List.sum_cons, ih]
        have : ∀ a b : ℝ, ∀ u : Fin 3 → ℝ, (a + b) • u = a • u + b • u := fun a b u => add_smul a b u
        rw [this]
        simp only [Obs.w]
        abel
      · exact ih
  refine ⟨v, n, v1, n1, ?_⟩
  rw [x1]
  congr 1
  apply BestFit.unique _ hu0 p h3
  rw [hP] at n2 x2
  rw [x2, Matrix.mulVec_add, v2, n2, hV]

/-- **C150, the same again.** Observations that are made again, with the same results, do not change the
solved map. -/
theorem C150_again (q : QExt) (hs : SolveOk q) {nside : Nat} {m : Maps} {os : List Obs}
    (h : Holds nside m os) (hu : ∀ o ∈ os, o.c ^ 2 + o.s ^ 2 = 1) (fill : ℝ) {p : Nat}
    (hp : p < 12 * nside ^ 2) (hsee : ThreeAngles (here p os) ∨ here p os = []) :
    (solveForMap q (coadd m m) fill)[p]? = (solveForMap q m fill)[p]? := by
  have h2 : Holds nside (coadd m m) (os ++ os) := holds_add h h
  rcases hsee with h3 | h0
  · obtain ⟨v, v1, v2⟩ := BestFit.normal q hs h hu fill hp h3
    have hh : here p (os ++ os) = here p os ++ here p os := by simp [here]
    have h3' : ThreeAngles (here p (os ++ os)) := by
      obtain ⟨o1, m1, o2, m2, o3, m3, hr⟩ := h3
      rw [hh]
      exact ⟨o1, List.mem_append_left _ m1, o2, List.mem_append_left _ m2, o3, List.mem_append_left _ m3, hr⟩
    have hu' : ∀ o ∈ os ++ os, o.c ^ 2 + o.s ^ 2 = 1 := fun o ho => hu o (by simpa using ho)
    obtain ⟨x, x1, x2⟩ := BestFit.normal q hs h2 hu' fill hp h3'
    rw [v1, x1]
    congr 1
    apply BestFit.unique _ hu' p h3'
    rw [x2]
    have eV : vecAt (os ++ os) p = vecAt os p + vecAt os p := by
      unfold vecAt
      rw [hh, List.map_append, List.sum_append]
    have eP : projAt (os ++ os) p = projAt os p + projAt os p := by
      unfold projAt
      rw [hh, List.map_append, List.sum_append]
    rw [eV, eP, Matrix.add_mulVec, v2]
  · obtain ⟨c, hc⟩ : ∃ c, m[p]? = some c := ⟨_, List.getElem?_eq_getElem (by rw [h.npix]; exact hp)⟩
    obtain ⟨c', hc'⟩ : ∃ c, (coadd m m)[p]? = some c := ⟨_, List.getElem?_eq_getElem (by rw [h2.npix]; exact hp)⟩
    have e1 := C88_hits h hc
    have e2 := C88_hits h2 hc'
    have hh : here p (os ++ os) = [] := by
      have : here p (os ++ os) = here p os ++ here p os := by simp [here]
      rw [this, h0]
      rfl
    rw [h0] at e1
    rw [hh] at e2
    unfold solveForMap
    rw [List.getElem?_map, List.getElem?_map, hc, hc', Option.map_some, Option.map_some,
      hs.empty _ _ _ (by simpa using e2), hs.empty _ _ _ (by simpa using e1)]

/-- Four observations of pixel 4 that no sky explains, and two of pixel 7. -/
def sixObs : List Obs :=
  [⟨4, 1, 0, 2⟩, ⟨4, 0, 1, 3⟩, ⟨4, -1, 0, 5⟩, ⟨4, 0, -1, 1⟩, ⟨7, 1, 0, 1⟩, ⟨7, 0, 1, 1⟩]

theorem sixObs_unit : ∀ o ∈ sixObs, o.c ^ 2 + o.s ^ 2 = 1 := by simp [sixObs]

theorem sixObs_three : ThreeAngles (here 4 sixObs) := by
  refine ⟨⟨4, 1, 0, 2⟩, by simp [here, sixObs], ⟨4, 0, 1, 3⟩, by simp [here, sixObs], ⟨4, -1, 0, 5⟩,
    by simp [here, sixObs], ?_, ?_, ?_⟩ <;> norm_num

/-- The hypotheses of `C150_best_fit` are met, by observations that do not fit together: the misfit is positive
for all values. -/
example (fill : ℝ) : (∃ v, (solveForMap Rec.qp (mapsOf (12 * 1 ^ 2) sixObs) fill)[4]? = some v ∧
      BestFit (here 4 sixObs) v) ∧ ∀ v, 0 < misfit (here 4 sixObs) v := by
  obtain ⟨v, h1, h2, -⟩ := C150_best_fit Rec.qp Rec.solve_ok (holds_mapsOf 1 sixObs) sixObs_unit fill
    (by norm_num : 4 < 12 * 1 ^ 2) sixObs_three
  refine ⟨⟨v, h1, h2⟩, fun v => ?_⟩
  have e : misfit (here 4 sixObs) v = (2 - (v 0 + v 1)) ^ 2 + ((3 - (v 0 + v 2)) ^ 2 +
      ((5 - (v 0 + -v 1)) ^ 2 + (1 - (v 0 + -v 2)) ^ 2)) := by
    simp [misfit, here, sixObs, Obs.residual]
  rw [e]
  nlinarith [sq_nonneg (2 - (v 0 + v 1) - (3 - (v 0 + v 2)) + (5 - (v 0 + -v 1)) - (1 - (v 0 + -v 2))),
    sq_nonneg (2 - (v 0 + v 1) + (3 - (v 0 + v 2))), sq_nonneg ((3 - (v 0 + v 2)) + (5 - (v 0 + -v 1))),
    sq_nonneg ((5 - (v 0 + -v 1)) + (1 - (v 0 + -v 2))), sq_nonneg (2 - (v 0 + v 1) + (1 - (v 0 + -v 2)))]

/-- The hypotheses of `C150_again` are met, in a pixel that is solved and in one without observations. -/
example (fill : ℝ) : ∀ p ∈ [4, 5],
    (solveForMap Rec.qp (coadd (mapsOf (12 * 1 ^ 2) sixObs) (mapsOf (12 * 1 ^ 2) sixObs)) fill)[p]? =
      (solveForMap Rec.qp (mapsOf (12 * 1 ^ 2) sixObs) fill)[p]? := by
  intro p hp
  simp only [List.mem_cons, List.not_mem_nil, or_false] at hp
  rcases hp with rfl | rfl
  · exact C150_again Rec.qp Rec.solve_ok (holds_mapsOf 1 sixObs) sixObs_unit fill (by norm_num) (.inl sixObs_three)
  · exact C150_again Rec.qp Rec.solve_ok (holds_mapsOf 1 sixObs) sixObs_unit fill (by norm_num)
      (.inr (by simp [here, sixObs]))

/-- The hypotheses of `C150_noise` are met. -/
example (noise : Obs → ℝ) (fill : ℝ) : ∃ v n,
    (solveForMap Rec.qp (mapsOf (12 * 1 ^ 2) sixObs) fill)[4]? = some v ∧
    (solveForMap Rec.qp (mapsOf (12 * 1 ^ 2) (sixObs.map fun k => k.reading (noise k))) fill)[4]? = some n ∧
    (solveForMap Rec.qp (mapsOf (12 * 1 ^ 2) (sixObs.map fun k => k.reading (k.d + noise k))) fill)[4]? =
      some (v + n) :=
  C150_noise Rec.qp Rec.solve_ok sixObs id noise sixObs_unit (by rw [List.map_id]; exact holds_mapsOf 1 sixObs)
    (holds_mapsOf 1 _) (holds_mapsOf 1 _) fill (by norm_num) (by rw [List.map_id]; exact sixObs_three)

open Rec Whole in
/-- The hypotheses of `C150_scan` are met. -/
example (fill : ℝ) : ∃ (sm : Pair → Spinmaps SpinDict) (m : Maps), scanAll w o beams true 2 i = .ok m ∧
    ∃ v, (solveForMap qp m fill)[0]? = some v ∧
      BestFit (here 0 (beams.flatMap fun p => (List.range 3).flatMap
        (pairObs M w.x w.q w.varphi w.nsideOut o.ctalk (detects M w.x o.interp 1 (sm p)) p))) v := by
  classical
  choose sm h using fun p : {p // p ∈ beams} => ideal_maps w one_pos Conv.Y (ideal p.1 p.2)
  obtain ⟨m, h1, h2⟩ := C150_scan w ext_ok pix_ok solve_ok false agree one_pos M o
    rfl rfl rfl rfl 3 chunks mission_ok (by decide) i ready rotates plate repeats.steady
    (fun _ _ => one_rot) beams (fun _ _ _ _ => one_rot) 1
    (fun p => if hp : p ∈ beams then sm ⟨p, hp⟩ else ⟨[], none, []⟩) (by
      intro p hp
      rw [dif_pos hp]
      exact (h ⟨p, hp⟩).1) 2 two_pos fill
  exact ⟨_, m, h1, h2 0 (by decide) Whole.three⟩

end Verif.Props
