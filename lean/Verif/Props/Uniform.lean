import Verif.Spec.Uniform
import Verif.Props.PairDiff

/-!
# Property C141: a uniform sky
-/

noncomputable section

namespace Verif.Props

open Verif.Chunks Verif.Timeline Verif.Spinmaps Verif.MapMaking Verif.Spec Verif.ScanStored
open Verif.ScanInstrument hiding live
open Complex (exp I)

variable {E : Type}

theorem scalar_zero (Y : Harmonics) (nside L : Nat) {f : Nat → Nat → ℂ}
    (h : ∀ l m, l ≤ L → m ≤ l → f l m = 0) (p : Nat) : scalarAt Y nside L f p = 0 := by
  unfold scalarAt
  apply Finset.sum_eq_zero
  intro l hl
  have hl := Finset.mem_range.1 hl
  rw [h l 0 (by omega) (by omega), Finset.sum_eq_zero]
  · simp
  · intro m hm
    have hm := Finset.mem_range.1 hm
    rw [h l (m + 1) (by omega) (by omega)]
    simp

theorem spin_zero (Y : Harmonics) (nside L : Nat) (s : Int) {F G : Nat → Nat → ℂ}
    (hF : ∀ l m, l ≤ L → m ≤ l → F l m = 0) (hG : ∀ l m, l ≤ L → m ≤ l → G l m = 0) (p : Nat) :
    spinAt Y nside L s F G p = 0 := by
  unfold spinAt
  apply Finset.sum_eq_zero
  intro l hl
  have hl := Finset.mem_range.1 hl
  rw [hF l 0 (by omega) (by omega), hG l 0 (by omega) (by omega), Finset.sum_eq_zero]
  · simp [zeroCoef]
  · intro m hm
    have hm := Finset.mem_range.1 hm
    rw [hF l (m + 1) (by omega) (by omega), hG l (m + 1) (by omega) (by omega)]
    simp

theorem scalar_monopole (Y : Harmonics) (hc : LowestConstant Y) (nside L : Nat) {f : Nat → Nat → ℂ}
    (h : ∀ l m, l ≤ L → m ≤ l → l ≠ 0 → f l m = 0) (p : Nat) :
    scalarAt Y nside L f p = (f 0 0).re * (1 / √(4 * Real.pi)) := by
  unfold scalarAt
  rw [Finset.sum_eq_single 0]
  · rw [show Y nside 0 0 0 p = _ from hc nside p, Complex.ofReal_re]
    simp only [Finset.range_zero, Finset.sum_empty, add_zero]
  · intro l hl h0
    have hl := Finset.mem_range.1 hl
    rw [h l 0 (by omega) (by omega) h0, Finset.sum_eq_zero]
    · simp
    · intro m hm
      have hm := Finset.mem_range.1 hm
      rw [h l (m + 1) (by omega) (by omega) h0]
      simp
  · intro h
    simp at h

/-- The maps of a uniform sky. -/
theorem uniform_values (Y : Harmonics) (hc : LowestConstant Y) (nside : Nat) {L : Nat} {T : ℝ}
    {a : Nat → Nat → Nat → ℂ} (hu : Uniform L T a) (b : Nat → Nat → Nat → ℂ) (v : Bool) (p : Nat) :
    valuesOld Y nside L a b v .s0a0 0 p = ((T * (b 0 0 0).re : ℝ) : ℂ) ∧
      (∀ s : Int, 0 < s → valuesOld Y nside L a b v .s0a0 s p = 0) ∧
      ∀ s, valuesOld Y nside L a b v .s2a4 s p = 0 := by
  have ha : ∀ i l m, i < 4 → i ≠ 0 → l ≤ L → m ≤ l → a i l m = 0 := by
    intro i l m hi h0 hl hm
    rw [hu i l m hi hl hm, if_neg (by omega)]
  have ha0 : ∀ l m, l ≤ L → m ≤ l → l ≠ 0 → a 0 l m = 0 := by
    intro l m hl hm h0
    rw [hu 0 l m (by omega) hl hm, if_neg (by omega)]
  have hV : ∀ s : Nat, rawReal Y nside L (a 3) (b 3) s p = 0 := by
    intro s
    unfold rawReal
    dsimp only
    split
    · rw [scalar_zero]
      · simp
      · intro l m hl hm
        rw [ha 3 l m (by omega) (by omega) hl hm, zero_mul]
    · apply spin_zero
      · intro l m hl hm
        rw [ha 3 l m (by omega) (by omega) hl hm, zero_mul]
      · intro l m hl hm
        rw [ha 3 l m (by omega) (by omega) hl hm, zero_mul]
  have hpi : √(4 * Real.pi) ≠ 0 := (Real.sqrt_pos.2 (by positivity)).ne'
  have hm : ∀ l m, l ≤ L → m ≤ l → minus2 (a 1) (a 2) l m = 0 := by
    intro l m hl hm
    unfold minus2
    rw [ha 1 l m (by omega) (by omega) hl hm, ha 2 l m (by omega) (by omega) hl hm]
    simp
  have hp : ∀ l m, l ≤ L → m ≤ l → plus2 (a 1) (a 2) l m = 0 := by
    intro l m hl hm
    unfold plus2
    rw [ha 1 l m (by omega) (by omega) hl hm, ha 2 l m (by omega) (by omega) hl hm]
    simp
  refine ⟨?_, fun s hs => ?_, fun s => ?_⟩
  · show rawReal Y nside L (a 0) (b 0) 0 p + (if v then rawReal Y nside L (a 3) (b 3) 0 p else 0) = _
    rw [hV 0, ite_self, add_zero]
    unfold rawReal
    simp only [if_true]
    rw [scalar_monopole Y hc nside L fun l m hl hm h0 => by rw [ha0 l m hl hm h0, zero_mul],
      hu 0 0 0 (by omega) (by omega) le_rfl]
    simp only [and_self, if_true, not_lt_zero', if_false]
    rw [Complex.re_ofReal_mul]
    congr 1
    field_simp
  · show rawReal Y nside L (a 0) (b 0) s.toNat p +
      (if v then rawReal Y nside L (a 3) (b 3) s.toNat p else 0) = _
    rw [hV, ite_self, add_zero]
    unfold rawReal
    have hs0 : s.toNat ≠ 0 := by omega
    simp only [if_neg hs0]
    apply spin_zero
    · intro l m hl hm
      by_cases h0 : l = 0
      · rw [if_pos (by omega), mul_zero]
      · rw [ha0 l m hl hm h0, zero_mul]
    · intro l m hl hm
      by_cases h0 : l = 0
      · rw [if_pos (by omega), star_zero, mul_zero]
      · rw [ha0 l m hl hm h0, zero_mul]
  · show rawComplex Y nside L (minus2 (a 1) (a 2)) (plus2 (a 1) (a 2)) (b 1) (b 2) s p = 0
    unfold rawComplex
    dsimp only
    split
    · apply spin_zero
      · intro l m hl hm'
        rw [hp l m hl hm', zero_mul]
      · intro l m hl hm'
        rw [hm l m hl hm', zero_mul]
    · split
      · rw [spin_zero, star_zero]
        · intro l m hl hm'
          rw [hm l m hl hm', zero_mul]
        · intro l m hl hm'
          rw [hp l m hl hm', zero_mul]
      · rw [scalar_zero, scalar_zero]
        · simp
        · intro l m hl hm'
          rw [hm l m hl hm', hp l m hl hm']
          simp
        · intro l m hl hm'
          rw [hm l m hl hm', hp l m hl hm']
          simp

theorem look_const {x : Smp} (hw : (x.w.map Prod.snd).sum = 1) {f : Nat → ℂ} {c : ℂ}
    (h : ∀ p, f p = c) : look x f = c := by
  unfold look
  have : ∀ l : List (Int × ℝ), (l.map fun iw => f iw.1.toNat * (iw.2 : ℂ)).sum =
      c * (((l.map Prod.snd).sum : ℝ) : ℂ) := by
    intro l
    induction l with
    | nil => simp
    | cons y l ih =>
      rw [List.map_cons, List.map_cons, List.sum_cons, List.sum_cons, ih, h]
      push_cast
      ring
  rw [this, hw]
  simp

theorem look_zero {x : Smp} {f : Nat → ℂ} (h : ∀ p, f p = 0) : look x f = 0 := by
  unfold look
  simp [h]

theorem sumR_uniform {x : Smp} (hw : (x.w.map Prod.snd).sum = 1) {f : Int → Nat → ℂ} {r : ℝ}
    (h0 : ∀ p, f 0 p = (r : ℂ)) (h : ∀ s, 0 < s → ∀ p, f s p = 0) (symmetric : Bool) {maxSpin : Int}
    (hm : 0 ≤ maxSpin) : sumR x (spinsUnpol symmetric maxSpin) f = r := by
  have e : ∃ n : Nat, spinsUnpol symmetric maxSpin = 0 :: (List.range n).map fun k : Nat => (k : Int) + 1 := by
    unfold spinsUnpol
    split
    · exact ⟨0, rfl⟩
    · refine ⟨maxSpin.toNat, ?_⟩
      rw [show (maxSpin + 1).toNat = maxSpin.toNat + 1 by omega]
      unfold intRange
      rw [List.range_succ_eq_map, List.map_cons, List.map_map]
      congr 1
      apply List.map_congr_left
      intro k _
      simp only [Function.comp, Nat.cast_succ]
      omega
  obtain ⟨n, e⟩ := e
  unfold sumR
  rw [e, List.map_cons, List.sum_cons, List.sum_eq_zero, add_zero]
  · rw [look_const hw h0]
    simp
  · intro y hy
    obtain ⟨s, hs, rfl⟩ := List.mem_map.1 hy
    obtain ⟨k, -, rfl⟩ := List.mem_map.1 hs
    rw [look_zero (h _ (by omega))]
    simp

theorem sampleAt_weights (x : Ext) (interp : Bool) (hw : interp = true → Weighted x) (q : Quat.Q)
    (nside : Nat) (hns : 0 < nside) (t : ℝ) (bore : Quat.Q) (alpha : ℝ) :
    ((sampleAt x interp q nside t bore alpha).w.map Prod.snd).sum = 1 := by
  unfold sampleAt
  split
  · rename_i h
    exact hw h _ _ _ hns
  · simp

/-- A beam sees the temperature of a uniform sky times its amplitude. -/
theorem uniform_signal {x : Ext} (hx : ExtOk x) {interp : Bool} (hw : interp = true → Weighted x)
    (Y : Harmonics) (hc : LowestConstant Y) {nside : Nat} (hns : 0 < nside) {L : Nat} {T : ℝ}
    {a : Nat → Nat → Nat → ℂ} (hu : Uniform L T a) (b : Nat → Nat → Nat → ℂ) {maxSpin : Int}
    (hm : 0 ≤ maxSpin) (symmetric inputV beamV : Bool) (M : Motion) (q : Timeline.Beam) (t : Nat) :
    M.signal x interp nside (dictSpec Y nside L a b maxSpin symmetric none inputV beamV) q t =
      T * (b 0 0 0).re := by
  unfold Motion.signal
  rw [signal_dictSpec Y nside _ _ _ _ hm _ _ _ _ _ _ (sampleAt_inRange x hx interp _ nside hns _ _ _)]
  unfold signalF
  have hv := uniform_values Y hc nside hu b (beamV && inputV)
  have e1 : sumR (sampleAt x interp (offset x (M.rot t) q) nside (M.time t) (M.bore t) (M.alpha t))
      (spinsUnpol symmetric maxSpin) (values Y nside L a b none inputV beamV .s0a0) =
      T * (b 0 0 0).re :=
    sumR_uniform (sampleAt_weights x interp hw _ nside hns _ _ _) (fun p => (hv p).1)
      (fun s hs p => (hv p).2.1 s hs) symmetric hm
  have e2 : sumC (sampleAt x interp (offset x (M.rot t) q) nside (M.time t) (M.bore t) (M.alpha t))
      (spinsPol symmetric maxSpin) (values Y nside L a b none inputV beamV .s2a4) = 0 := by
    unfold sumC
    apply List.sum_eq_zero
    intro y hy
    obtain ⟨s, -, rfl⟩ := List.mem_map.1 hy
    rw [show look _ (values Y nside L a b none inputV beamV .s2a4 s) = 0 from
      look_zero fun p => (hv p).2.2 s, zero_mul]
  rw [e1, e2]
  simp

/-- What a detector sees of a uniform sky. -/
theorem uniform_detects {w : World E} {M : Motion} {interp : Bool} (hx : ExtOk w.x)
    (hw : interp = true → Weighted w.x) {Y : Harmonics} (hc : LowestConstant Y) {maxSpin : Int}
    {nside : Nat} (hns : 0 < nside) {inputV beamV : Bool} {data : BinBeam → BeamData}
    {gdata : BinBeam → List BeamData} {Ls : Nat} {sky : List (List ℂ)} {a : Nat → Nat → Nat → ℂ} {T : ℝ}
    (hu : Uniform Ls T a) {L : BeamData → Nat} {b : BeamData → Nat → Nat → Nat → ℂ} {d : BinBeam}
    {p2 : Option BinBeam} (k : PairOk Ls sky a maxSpin inputV beamV data gdata L b d p2)
    (hmu : ∀ g ∈ data d :: gdata d, g.mueller = none) {s : Spinmaps SpinDict}
    (hs : MapsOk (under w Y maxSpin nside inputV beamV data gdata sky) nside s (some d, p2))
    {e : BinBeam} (he : ScanInstrument.live (some d) = some e ∨ ScanInstrument.live p2 = some e)
    (t : Nat) : detects M w.x interp nside s e t = T * gainOf data gdata b d e := by
  obtain ⟨s', h1, h2, h3⟩ := pair_maps w Y hns k
  rcases hs with h | ⟨d1, h4, h5, -⟩
  · cases h
  rcases h1 with h | ⟨d', h4', h5', -⟩
  · cases h
  obtain rfl := Option.some.inj (h4.symm.trans h4')
  obtain rfl := Except.ok.inj (h5.symm.trans h5')
  have hul : ∀ n, Uniform (min Ls n) T a := fun n i l m hi hl hm =>
    hu i l m hi (le_trans hl (min_le_left _ _)) hm
  have one : ∀ g ∈ data d :: gdata d, ∀ q : Timeline.Beam,
      M.signal w.x interp nside (dictSpec Y nside (min Ls (L g)) a (b g) (min g.mmax maxSpin)
        g.symmetric g.mueller inputV beamV) q t = T * (b g 0 0 0).re := by
    intro g hg q
    rw [hmu g hg]
    exact uniform_signal hx hw Y hc hns (hul _) _ (k.input g hg).spin0 _ _ _ M q t
  unfold detects gainOf
  rw [h2, one _ List.mem_cons_self, mul_add, ← List.sum_map_mul_left]
  congr 2
  apply List.map_congr_left
  intro g hg
  obtain ⟨g1, g2⟩ := List.mem_filter.1 hg
  obtain ⟨-, g', hg', eg⟩ := (k.main e he).2 g g1 (by simpa using g2)
  have hf : ∃ y, (gdata d).find? (fun g' => g'.ghostIdx == g.ghostIdx) = some y := by
    rw [← Option.isSome_iff_exists, List.find?_isSome]
    exact ⟨g', hg', by simpa using eg⟩
  obtain ⟨y, hy⟩ := hf
  have hy1 := List.mem_of_find?_eq_some hy
  have hy2 : y.ghostIdx = g.ghostIdx := by simpa using List.find?_some hy
  have hm := h3 y hy1
  rw [hy2] at hm
  unfold ghostMaps
  rw [hy, hm]
  exact one y (List.mem_cons_of_mem _ hy1) g

theorem uniform_maps (w : World E) (Y : Harmonics) {maxSpin : Int} {nside : Nat} (hns : 0 < nside)
    {inputV beamV : Bool} {data : BinBeam → BeamData} {gdata : BinBeam → List BeamData} {Ls : Nat}
    {sky : List (List ℂ)} {a : Nat → Nat → Nat → ℂ} {L : BeamData → Nat}
    {b : BeamData → Nat → Nat → Nat → ℂ} {p : Pair}
    (hp : p = (none, none) ∨ ∃ d, p.1 = some d ∧
      PairOk Ls sky a maxSpin inputV beamV data gdata L b d p.2) :
    ∃ sm : Spinmaps SpinDict,
      MapsOk (under w Y maxSpin nside inputV beamV data gdata sky) nside sm p := by
  rcases hp with h | ⟨d, hd, k⟩
  · exact ⟨⟨[], none, []⟩, .inl h⟩
  obtain ⟨sm, h1, -⟩ := pair_maps w Y hns k
  refine ⟨sm, ?_⟩
  have e : p = (some d, p.2) := Prod.ext hd rfl
  rw [e]
  exact h1

/-! ## C141: a uniform sky -/

/-- **C141, timelines.** A sky that is unpolarized and has the temperature `T` everywhere is scanned, with
any detectors (asymmetric beams, ghosts, cross-talk; no Mueller matrices), any motion of telescope and
plate, with or without interpolation, and timelines are stored.  The timeline of each detector is constant:
`T` times the sum of the monopoles of its main beam and its live ghosts, plus the fraction that comes
from the other detector of the pair. -/
theorem C141_timelines (w : World E) (M : Motion) (o : SOpts) (halm : o.hasAlm = true)
    (htod : o.saveTod = true) (N : Nat) (chunks : List Chunk) (i : Inst E)
    (hs : Session w M o.toOpts N chunks i) (hw : o.interp = true → Weighted w.x) (Y : Harmonics)
    (hc : LowestConstant Y) (maxSpin : Int) (nside : Nat) (hns : 0 < nside) (inputV beamV : Bool)
    (data : BinBeam → BeamData) (gdata : BinBeam → List BeamData) (Ls : Nat) (sky : List (List ℂ))
    (a : Nat → Nat → Nat → ℂ) (T : ℝ) (hu : Uniform Ls T a) (L : BeamData → Nat)
    (b : BeamData → Nat → Nat → Nat → ℂ) (beams : List SPair)
    (hnd : ((liveBeams beams).map SBeam.idx).Nodup)
    (hp : ∀ p ∈ beams, plain p = (none, none) ∨ ∃ d, (plain p).1 = some d ∧
      PairOk Ls sky a maxSpin inputV beamV data gdata L b d (plain p).2)
    (hmu : ∀ p ∈ beams, ∀ d, (plain p).1 = some d → ∀ g ∈ data d :: gdata d, g.mueller = none)
    (store : Store) (size : Nat) (hsize : 0 < size) :
    ∃ res : List (Inst E × Store), (List.range size).mapM (fun r => ScanStored.scanInstrument
        (under w Y maxSpin nside inputV beamV data gdata sky) o beams true size r (i, store)) =
        Except.ok (ε := PyErr) res ∧
      ∀ p ∈ beams, ∀ d, (plain p).1 = some d → ∀ e partner, InPair p e partner →
        ∃ x ∈ res, ∀ c ∈ chunks, Data.dataOf x.2 c (some e.det) .tod =
          .ok (List.replicate (c.stop - c.start).toNat (T * (gainOf data gdata b d e.bin +
            match ScanStored.live partner with
            | some e' => o.ctalk * gainOf data gdata b d e'.bin
            | none => 0))) := by
  classical
  have hmaps : ∀ p : SPair, ∃ sm : Spinmaps SpinDict, p ∈ beams →
      MapsOk (under w Y maxSpin nside inputV beamV data gdata sky) nside sm (plain p) := by
    intro p
    by_cases hb : p ∈ beams
    · obtain ⟨sm, h⟩ := uniform_maps w Y (nside := nside) hns (hp p hb)
      exact ⟨sm, fun _ => h⟩
    · exact ⟨⟨[], none, []⟩, fun h => (hb h).elim⟩
  choose sm hsm using hmaps
  have hun := session_under hs Y maxSpin nside inputV beamV data gdata sky
  obtain ⟨res, h1, -, h2, -⟩ := C105_stored_partial _ hun.ext hun.pix hun.nside M o halm hun.binning
    hun.preview hun.ground hun.reuse N chunks hun.mission hun.hwpang i hun.ready hun.rotates hun.plate
    hun.steady store beams hnd nside sm hsm size hsize
  refine ⟨res, h1, fun p hpb d hd e partner hin => ?_⟩
  obtain ⟨x, hx, hst⟩ := h2 p hpb
  refine ⟨x, hx, fun c hcc => ?_⟩
  rw [(hst c hcc).tod htod e partner hin]
  obtain ⟨d', hd', k⟩ := (hp p hpb).resolve_left (by
    intro h
    rw [h] at hd
    cases hd)
  obtain rfl := Option.some.inj (hd.symm.trans hd')
  have hmp := hsm p hpb
  have e0 : plain p = (some d, (plain p).2) := Prod.ext hd rfl
  rw [e0] at hmp
  have hdet : ∀ f : SBeam, f.bin.beam.dead = false → (p.1 = some f ∨ p.2 = some f) → ∀ t,
      detects M w.x o.interp nside (sm p) f.bin t = T * gainOf data gdata b d f.bin := by
    intro f hf hm t
    refine uniform_detects hs.ext hw hc hns hu k (hmu p hpb d hd) hmp ?_ t
    rcases hm with hm | hm
    · left
      have : (plain p).1 = some f.bin := by simp [plain, hm]
      rw [this] at hd
      rw [← hd]
      simp [ScanInstrument.live, hf]
    · right
      have : (plain p).2 = some f.bin := by simp [plain, hm]
      rw [this]
      simp [ScanInstrument.live, hf]
  obtain ⟨hdead, hpos⟩ := hin
  have he : p.1 = some e ∨ p.2 = some e := by
    rcases hpos with rfl | rfl
    · exact .inl rfl
    · exact .inr rfl
  congr 1
  unfold ScanStored.samples
  rw [List.eq_replicate_iff]
  refine ⟨by simp, fun y hy => ?_⟩
  obtain ⟨t, -, rfl⟩ := List.mem_map.1 hy
  show recorded M w.x o.interp nside (sm p) o.ctalk e partner _ = _
  unfold recorded
  cases partner with
  | none =>
    rw [hdet e hdead he]
    simp [ScanStored.live]
  | some e' =>
    have he' : p.1 = some e' ∨ p.2 = some e' := by
      rcases hpos with rfl | rfl
      · exact .inr rfl
      · exact .inl rfl
    by_cases hd' : e'.bin.beam.dead = true
    · simp only [hd', if_true]
      rw [hdet e hdead he]
      simp [ScanStored.live, hd']
    · have hd' : e'.bin.beam.dead = false := by simpa using hd'
      simp only [hd', Bool.false_eq_true, if_false]
      rw [hdet e hdead he, hdet e' hd' he']
      simp only [ScanStored.live, hd', Bool.false_eq_true, if_false]
      ring

theorem pairObs_blank' (M : Motion) (x : Ext) (q : QExt) (varphi : ℝ) (nsideOut : Nat) (c c' : ℝ)
    (val val' : BinBeam → Nat → ℝ) (p : Pair) (t : Nat) :
    (pairObs M x q varphi nsideOut c val p t).map blank =
      (pairObs M x q varphi nsideOut c' val' p t).map blank := by
  unfold pairObs
  split
  · rfl
  · split <;> rfl

/-- **C141, maps.** A sky that is unpolarized and has the temperature `T` everywhere is scanned, with
any beams and ghosts (no Mueller matrices), cross-talk, motion of telescope and plate, wrong detector
angles, number of ranks, with or without interpolation.  If all detectors have the same amplitude `K`
(main beam, live ghosts and cross-talk together), the solved map is uniform and unpolarized: in
every pixel seen under three angles it is `(K T, 0, 0)`; pixels not seen are filled. -/
theorem C141_map (w : World E) (M : Motion) (o : Opts) (N : Nat) (chunks : List Chunk) (i : Inst E)
    (hs : Session w M o N chunks i) (hso : SolveOk w.q) (iau : Bool) (hxq : Agree w.x w.q iau)
    (hbore : ∀ t, t < N → IsRot (M.bore t)) (hw : o.interp = true → Weighted w.x) (Y : Harmonics)
    (hc : LowestConstant Y) (maxSpin : Int) (nside : Nat) (hns : 0 < nside) (inputV beamV : Bool)
    (data : BinBeam → BeamData) (gdata : BinBeam → List BeamData) (Ls : Nat) (sky : List (List ℂ))
    (a : Nat → Nat → Nat → ℂ) (T : ℝ) (hu : Uniform Ls T a) (L : BeamData → Nat)
    (b : BeamData → Nat → Nat → Nat → ℂ) (K : ℝ) (beams : List Pair)
    (hp : ∀ p ∈ beams, p = (none, none) ∨ ∃ d, p.1 = some d ∧
      PairOk Ls sky a maxSpin inputV beamV data gdata L b d p.2 ∧
      (∀ g ∈ data d :: gdata d, g.mueller = none) ∧ Level (gainOf data gdata b d) o.ctalk K p)
    (hrot : ∀ p ∈ beams, ∀ e, (ScanInstrument.live p.1 = some e ∨ ScanInstrument.live p.2 = some e) →
      IsRot (w.x.detOffset e.beam.az e.beam.el 0))
    (size : Nat) (hsize : 0 < size) (fill : ℝ) :
    ∃ m, scanAll (under w Y maxSpin nside inputV beamV data gdata sky) o beams true size i = .ok m ∧
      ∀ p, p < 12 * w.nsideOut ^ 2 →
        (ThreeAngles (here p (seenBy M w N beams)) →
          (solveForMap w.q m fill)[p]? = some ![K * T, 0, 0]) ∧
        (here p (seenBy M w N beams) = [] → (solveForMap w.q m fill)[p]? = some fun _ => fill) := by
  classical
  have hmaps : ∀ p : Pair, ∃ sm : Spinmaps SpinDict, p ∈ beams →
      MapsOk (under w Y maxSpin nside inputV beamV data gdata sky) nside sm p := by
    intro p
    by_cases hb : p ∈ beams
    · obtain ⟨sm, h⟩ := uniform_maps w Y (nside := nside) hns
        ((hp p hb).imp id fun ⟨d, h1, h2, _⟩ => ⟨d, h1, h2⟩)
      exact ⟨sm, fun _ => h⟩
    · exact ⟨⟨[], none, []⟩, fun h => (hb h).elim⟩
  choose sm hsm using hmaps
  have hun := session_under hs Y maxSpin nside inputV beamV data gdata sky
  obtain ⟨m, h1, hH⟩ := C96_maps _ hun.ext hun.pix hun.nside M o hun.binning hun.preview hun.ground
    hun.reuse N chunks hun.mission hun.hwpang i hun.ready hun.rotates hun.plate hun.steady beams nside sm
    hsm size hsize
  refine ⟨m, h1, ?_⟩
  have hH : Holds w.nsideOut m (beams.flatMap fun p => (List.range N).flatMap
    (pairObs M w.x w.q w.varphi w.nsideOut o.ctalk (detects M w.x o.interp nside (sm p)) p)) := hH
  generalize hos : (beams.flatMap fun p => (List.range N).flatMap
    (pairObs M w.x w.q w.varphi w.nsideOut o.ctalk (detects M w.x o.interp nside (sm p)) p)) = os at hH
  have h2 : os.map blank = (seenBy M w N beams).map blank := by
    rw [← hos]
    unfold seenBy
    simp only [List.map_flatMap]
    apply flatMap_congr'
    intro p _
    apply flatMap_congr'
    intro t _
    exact pairObs_blank' M w.x w.q w.varphi w.nsideOut _ 0 _ _ p t
  have h3 : ∀ ob ∈ os, ob.c ^ 2 + ob.s ^ 2 = 1 ∧ ob.d = K * T := by
    intro ob hob
    rw [← hos] at hob
    obtain ⟨p, hpb, hob⟩ := List.mem_flatMap.1 hob
    obtain ⟨t, ht, hob⟩ := List.mem_flatMap.1 hob
    have ht := List.mem_range.1 ht
    have unit : ∀ e v, (ScanInstrument.live p.1 = some e ∨ ScanInstrument.live p.2 = some e) →
        (obsAt M w.x w.q w.varphi w.nsideOut e t v).c ^ 2 +
          (obsAt M w.x w.q w.varphi w.nsideOut e t v).s ^ 2 = 1 := by
      intro e v he
      dsimp only [obsAt]
      have eo : Timeline.offset w.x (M.rot t) e.beam = qOff w.x (M.rot t) e.beam := rfl
      rw [eo, hxq _ _ _ _ _ _ (hbore t ht) (qOff_rot w.x _ _ (hrot p hpb e he))]
      dsimp only
      rw [mul_pow]
      have h1 : ((if iau = true then 1 else -1 : ℝ)) ^ 2 = 1 := by cases iau <;> norm_num
      rw [h1, one_mul]
      exact Real.cos_sq_add_sin_sq _
    rcases hp p hpb with rfl | ⟨d, hd, k, hmu, hlev⟩
    · exfalso
      unfold pairObs at hob
      split at hob
      · cases hob
      · simp [ScanInstrument.live] at hob
    have hmp := hsm p hpb
    have e0 : p = (some d, p.2) := Prod.ext hd rfl
    have hmp' : MapsOk (under w Y maxSpin nside inputV beamV data gdata sky) nside (sm p)
        (some d, p.2) := by
      rw [← e0]
      exact hmp
    have hdet : ∀ e, (ScanInstrument.live p.1 = some e ∨ ScanInstrument.live p.2 = some e) →
        detects M w.x o.interp nside (sm p) e t = T * gainOf data gdata b d e := by
      intro e he
      rw [hd] at he
      exact uniform_detects hs.ext hw hc hns hu k hmu hmp' he t
    unfold pairObs at hob
    split at hob
    · cases hob
    split at hob
    · rename_i A B hA hB
      obtain ⟨l1, l2⟩ := hlev.both A B hA hB
      simp only [List.mem_cons, List.not_mem_nil, or_false] at hob
      rcases hob with rfl | rfl
      · refine ⟨unit A _ (.inl hA), ?_⟩
        show detects M w.x o.interp nside (sm p) A t + o.ctalk * detects M w.x o.interp nside (sm p) B t = _
        rw [hdet A (.inl hA), hdet B (.inr hB), ← l1]
        ring
      · refine ⟨unit B _ (.inr hB), ?_⟩
        show detects M w.x o.interp nside (sm p) B t + o.ctalk * detects M w.x o.interp nside (sm p) A t = _
        rw [hdet A (.inl hA), hdet B (.inr hB), ← l2]
        ring
    · rename_i A hA hB
      simp only [List.mem_cons, List.not_mem_nil, or_false] at hob
      subst hob
      refine ⟨unit A _ (.inl hA), ?_⟩
      show detects M w.x o.interp nside (sm p) A t = _
      rw [hdet A (.inl hA), hlev.onlyA A hA hB, mul_comm]
    · rename_i B hA hB
      simp only [List.mem_cons, List.not_mem_nil, or_false] at hob
      subst hob
      refine ⟨unit B _ (.inr hB), ?_⟩
      show detects M w.x o.interp nside (sm p) B t = _
      rw [hdet B (.inr hB), hlev.onlyB B hA hB, mul_comm]
    · cases hob
  intro p hp
  obtain ⟨c, hc⟩ : ∃ c, m[p]? = some c :=
    ⟨_, List.getElem?_eq_getElem (by rw [hH.npix]; exact hp)⟩
  obtain ⟨c1, c2⟩ := hH.cells p c hc
  have hth : ThreeAngles (here p (seenBy M w N beams)) ↔ ThreeAngles (here p os) := by
    rw [← three_blank, ← here_blank, ← h2, here_blank, three_blank]
  have hem : here p (seenBy M w N beams) = [] ↔ here p os = [] := by
    rw [← List.map_eq_nil_iff (f := blank), ← here_blank, ← h2, here_blank, List.map_eq_nil_iff]
  rw [hth, hem]
  unfold solveForMap
  rw [List.getElem?_map, hc, Option.map_some]
  constructor
  · intro h3a
    have hd := (C88_regular hH (fun o ho => (h3 o ho).1) hc).2 h3a
    congr 1
    apply solve_unique w.q hso _ _ _ ![K * T, 0, 0] (hits_ne c2 hd) hd
    rw [c1, c2]
    exact vec_proj os (fun _ => ![K * T, 0, 0]) p fun o ho => by
      rw [(h3 o ho).2]
      simp
  · intro he
    congr 1
    apply hso.empty
    rw [C88_hits hH hc, he]
    simp

/-! ### Non-vacuity -/

namespace Whole

open Rec Classical

/-- Harmonics of the right size. -/
def Y1 : Harmonics := fun nside s l m p => ((1 / √(4 * Real.pi) : ℝ) : ℂ) * Conv.Y nside s l m p

theorem Y1_ok : LowestConstant Y1 ∧ Conjugation Y1 ∧ Vanishing Y1 := by
  refine ⟨fun nside p => ?_, fun nside s l m p => ?_, fun nside s l m p h => ?_⟩
  · simp [Y1, Conv.Y]
  · unfold Y1
    rw [star_mul', Conv.Y_conj]
    simp only [Complex.star_def, Complex.conj_ofReal]
    ring
  · unfold Y1
    rw [Conv.Y_vanishing nside s l m p h, mul_zero]

/-- A sky of temperature 3. -/
def flat (i l m : Nat) : ℂ := if i = 0 ∧ l = 0 ∧ m = 0 then ((√(4 * Real.pi) * 3 : ℝ) : ℂ) else 0

theorem flat_ok (L : Nat) : Uniform L 3 flat := fun _ _ _ _ _ _ => rfl

theorem ghost_ne : Conv.ghost.data ≠ Conv.main.data := by
  intro h
  have h1 : Conv.rows 6 3 (Conv.bcoef 3) = Conv.rows 6 3 (Conv.bcoef 2) := congrArg (·.blm) h
  have h2 := congrArg (fun l => ((l[0]?).getD [])[0]?) h1
  have e : ∀ f : Nat → Nat → Nat → ℂ,
      (((Conv.rows 6 3 f)[0]?).getD [])[0]? = some (f 0 0 0) := fun _ => rfl
  rw [e, e] at h2
  simp [Conv.bcoef] at h2

/-- The hypotheses of `C141_timelines` are met: a pair of detectors with an asymmetric main beam of
amplitude 2 and a live ghost of amplitude 3, with cross-talk of a third, sees a sky of temperature 3. -/
example (store : Store) : ∃ res : List (Inst Unit × Store),
    (List.range 2).mapM (fun r => ScanStored.scanInstrument (under w Y1 4 1 false false
      (fun _ => Conv.main.data) (fun _ => [Conv.ghost.data]) (Conv.rows 5 3 flat))
      { so with ctalk := 1 / 3 } [(none, none), (some sA, some sB)] true 2 r (i, store)) =
      Except.ok (ε := PyErr) res ∧
    ∃ x ∈ res, ∀ c ∈ chunks, Data.dataOf x.2 c (some sA.det) .tod =
      .ok (List.replicate (c.stop - c.start).toNat 20) := by
  have hs : Session w M ({ so with ctalk := 1 / 3 } : SOpts).toOpts 3 chunks i :=
    ⟨ext_ok, pix_ok, one_pos, rfl, rfl, rfl, rfl, mission_ok, by decide, ready, rotates, plate,
      repeats.steady⟩
  obtain ⟨res, h1, h2⟩ := C141_timelines w M { so with ctalk := 1 / 3 } rfl rfl 3 chunks i hs
    (by intro h; cases h) Y1 Y1_ok.1 4 1 one_pos false false (fun _ => Conv.main.data)
    (fun _ => [Conv.ghost.data]) 5 (Conv.rows 5 3 flat) flat 3 (flat_ok 5) (fun _ => 6)
    (fun g => if g = Conv.main.data then Conv.bcoef 2 else Conv.bcoef 3)
    [(none, none), (some sA, some sB)] (by
      simp [liveBeams, ScanStored.live, sA, sB, ghostly, quarter, Demo.main])
    (by
      intro p hp
      simp only [List.mem_cons, List.not_mem_nil, or_false] at hp
      rcases hp with rfl | rfl
      · exact .inl rfl
      · exact .inr ⟨ghostly, rfl, pair_ok _⟩)
    (by
      intro p _ d _ g hg
      simp only [List.mem_cons, List.not_mem_nil, or_false] at hg
      rcases hg with rfl | rfl <;> rfl) store 2 two_pos
  refine ⟨res, h1, ?_⟩
  obtain ⟨x, hx, h3⟩ := h2 (some sA, some sB) (by simp) ghostly rfl sA (some sB) ⟨rfl, .inl rfl⟩
  refine ⟨x, hx, fun c hc => ?_⟩
  rw [h3 c hc]
  have hg : ∀ e : BinBeam, (e = sA.bin ∨ e = sB.bin) → gainOf (fun _ => Conv.main.data) (fun _ => [Conv.ghost.data])
      (fun g => if g = Conv.main.data then Conv.bcoef 2 else Conv.bcoef 3) ghostly e = 5 := by
    intro e he
    have h2 : (e.ghosts.filter fun g => !g.dead).map Timeline.Beam.ghostIdx = [0] := by
      rcases he with rfl | rfl <;> rfl
    have h3 : ∀ g ∈ e.ghosts.filter fun g => !g.dead, g.ghostIdx = 0 := by
      intro g hg
      have := List.mem_map_of_mem (f := Timeline.Beam.ghostIdx) hg
      rw [h2] at this
      simpa using this
    have h4 : (e.ghosts.filter fun g => !g.dead).length = 1 := by
      rw [← List.length_map (f := Timeline.Beam.ghostIdx), h2]
      rfl
    unfold gainOf
    have h5 : (e.ghosts.filter fun g => !g.dead).map (fun g =>
        match ([Conv.ghost.data].find? fun g' => g'.ghostIdx == g.ghostIdx) with
        | some g' => ((if g' = Conv.main.data then Conv.bcoef 2 else Conv.bcoef 3) 0 0 0).re
        | none => 0) = List.replicate 1 3 := by
      rw [List.eq_replicate_iff]
      refine ⟨by rw [List.length_map, h4], fun y hy => ?_⟩
      obtain ⟨g, hg, rfl⟩ := List.mem_map.1 hy
      have : [Conv.ghost.data].find? (fun g' => g'.ghostIdx == g.ghostIdx) = some Conv.ghost.data := by
        rw [h3 g hg]
        rfl
      rw [this]
      dsimp only
      rw [if_neg ghost_ne]
      simp [Conv.bcoef]
    have h6 : ((if Conv.main.data = Conv.main.data then Conv.bcoef 2 else Conv.bcoef 3) 0 0 0).re = 2 := by
      rw [if_pos rfl]
      simp [Conv.bcoef]
    refine (congrArg₂ (· + ·) h6 (congrArg List.sum h5)).trans ?_
    simp
    norm_num
  have hl : ScanStored.live (some sB) = some sB := rfl
  rw [hl]
  dsimp only
  rw [hg _ (.inl rfl), hg _ (.inr rfl)]
  norm_num

/-- The hypotheses of `C141_map` are met: a detector with an asymmetric beam of amplitude 2 and an angle
that is wrong by 7 degrees sees a sky of temperature 3; the map is 6 in pixel 0, and unpolarized. -/
example (fill : ℝ) : ∃ m, scanAll (under w Y1 4 1 false false (fun _ => Conv.main.data) (fun _ => [])
      (Conv.rows 5 3 flat)) o beams true 2 i = .ok m ∧
    (solveForMap qp m fill)[0]? = some ![6, 0, 0] ∧ (solveForMap qp m fill)[5]? = some fun _ => fill := by
  have hs : Session w M o 3 chunks i :=
    ⟨ext_ok, pix_ok, one_pos, rfl, rfl, rfl, rfl, mission_ok, by decide, ready, rotates, plate,
      repeats.steady⟩
  have hg : gainOf (fun _ => Conv.main.data) (fun _ => []) (fun _ => Conv.bcoef 2)
      ⟨det.point, [], 0⟩ ⟨det.point, [], 0⟩ = 2 := by
    simp [gainOf, Conv.bcoef]
  have hlive : ScanInstrument.live (some ⟨det.point, [], 0⟩) = some (⟨det.point, [], 0⟩ : BinBeam) := rfl
  obtain ⟨m, h1, h2⟩ := C141_map w M o 3 chunks i hs solve_ok false agree (fun _ _ => one_rot)
    (by intro h; cases h) Y1 Y1_ok.1 4 1 one_pos false false (fun _ => Conv.main.data) (fun _ => []) 5
    (Conv.rows 5 3 flat) flat 3 (flat_ok 5) (fun _ => 6) (fun _ => Conv.bcoef 2) 2 beams
    (by
      intro p hp
      simp only [beams, List.mem_cons, List.not_mem_nil, or_false] at hp
      rcases hp with rfl | rfl
      · refine .inr ⟨_, rfl, ⟨?_, ⟨0, fun n => ?_⟩, by simp, ?_⟩, ?_, ?_, ?_, ?_⟩
        · intro g hg
          obtain rfl := List.mem_singleton.1 hg
          exact ⟨Conv.rows_ok _ _ _, Conv.rows_ok _ _ _, by simp, by simp, by decide, by decide, by simp [Conv.main],
            by simp [Conv.main]⟩
        · simp
        · rintro f (hf | hf)
          · obtain rfl := Option.some.inj (hlive.symm.trans hf)
            exact ⟨rfl, by simp⟩
          · cases hf
        · intro g hg
          obtain rfl := List.mem_singleton.1 hg
          rfl
        · intro A B hA hB
          cases hB
        · intro A hA _
          obtain rfl := Option.some.inj (hlive.symm.trans hA)
          exact hg
        · intro B hA _
          cases hlive.symm.trans hA
      · exact .inl rfl)
    (fun p _ e _ => one_rot) 2 two_pos fill
  refine ⟨m, h1, ?_, (h2 5 (by decide)).2 nowhere⟩
  have h3 := (h2 0 (by decide)).1 three
  have e : (2 : ℝ) * 3 = 6 := by norm_num
  rw [e] at h3
  exact h3

end Whole

end Verif.Props
