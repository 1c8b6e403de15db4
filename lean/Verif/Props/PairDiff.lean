import Verif.Spec.PairDiff
import Verif.Props.ScanStored
import Verif.Props.WholeScans

/-!
# Property C138: sum and difference of the detectors of a pair
-/

noncomputable section

namespace Verif.Props

open Verif.Chunks Verif.Timeline Verif.Spinmaps Verif.MapMaking Verif.Spec Verif.ScanStored
open Verif.ScanInstrument hiding live
open Complex (exp I)

variable {E : Type}

theorem signalF_quarter (unpol pol s02 : List Int) (f : Mode → Int → Nat → ℂ) (psi : ℝ) (x : Smp) :
    signalF false unpol pol s02 f psi x + signalF false unpol pol s02 f (psi + Real.pi / 2) x =
        2 * sumR x unpol (f .s0a0) ∧
      signalF false unpol pol s02 f psi x - signalF false unpol pol s02 f (psi + Real.pi / 2) x =
        2 * (exp (I * (4 * x.alpha + 2 * psi)) * sumC x pol (f .s2a4)).re := by
  have e : exp (I * (4 * x.alpha + 2 * ((psi + Real.pi / 2 : ℝ) : ℂ))) =
      -exp (I * (4 * x.alpha + 2 * psi)) := by
    rw [show I * (4 * (x.alpha : ℂ) + 2 * ((psi + Real.pi / 2 : ℝ) : ℂ)) =
      I * (4 * x.alpha + 2 * psi) + Real.pi * I by push_cast; ring, Complex.exp_add,
      Complex.exp_pi_mul_I]
    ring
  unfold signalF
  rw [e, neg_mul, Complex.neg_re]
  simp only [Bool.false_eq_true, if_false]
  constructor <;> ring

/-- Rows of the sky from two descriptions. -/
def mixRows (K : Nat → Bool) (a a' : Nat → Nat → Nat → ℂ) : Nat → Nat → Nat → ℂ :=
  fun i => if K i then a i else a' i

theorem mix_input {Ls Lb : Nat} {sky sky' blm : List (List ℂ)} {a a' b : Nat → Nat → Nat → ℂ}
    {maxSpin : Int} {symmetric : Bool} {mueller : Option Spin.Mat4} {inputV beamV : Bool}
    (K : Nat → Bool) (hK : ∀ i, K i = true → sky[i]? = sky'[i]?)
    (h : InputOk Ls Lb sky blm a b maxSpin symmetric mueller inputV beamV)
    (h' : InputOk Ls Lb sky' blm a' b maxSpin symmetric mueller inputV beamV) :
    InputOk Ls Lb sky' blm (mixRows K a a') b maxSpin symmetric mueller inputV beamV :=
  ⟨fun i hi => by
    by_cases hk : K i = true
    · obtain ⟨r, h1, h2⟩ := h.sky i hi
      refine ⟨r, by rw [← hK i hk, h1], ?_⟩
      unfold mixRows
      rw [if_pos hk]
      exact h2
    · obtain ⟨r, h1, h2⟩ := h'.sky i hi
      refine ⟨r, h1, ?_⟩
      unfold mixRows
      rw [if_neg hk]
      exact h2, h'.beam, h'.skyV, h'.beamV, h'.spin0, h'.spin, h'.sym, h'.mueller⟩

theorem mix_pair {Ls : Nat} {sky sky' : List (List ℂ)} {a a' : Nat → Nat → Nat → ℂ} {maxSpin : Int}
    {inputV beamV : Bool} {data : BinBeam → BeamData} {gdata : BinBeam → List BeamData}
    {L : BeamData → Nat} {b : BeamData → Nat → Nat → Nat → ℂ} {d : BinBeam} {e : Option BinBeam}
    (K : Nat → Bool) (hK : ∀ i, K i = true → sky[i]? = sky'[i]?)
    (h : PairOk Ls sky a maxSpin inputV beamV data gdata L b d e)
    (h' : PairOk Ls sky' a' maxSpin inputV beamV data gdata L b d e) :
    PairOk Ls sky' (mixRows K a a') maxSpin inputV beamV data gdata L b d e :=
  ⟨fun g hg => mix_input K hK (h.input g hg) (h'.input g hg), h'.numbers, h'.share, h'.main⟩

theorem sum_map_two {α : Type} (l : List α) (f g : α → ℝ) :
    (l.map fun x => f x + g x).sum = (l.map f).sum + (l.map g).sum := by
  induction l with
  | nil => simp
  | cons x l ih =>
    simp only [List.map_cons, List.sum_cons, ih]
    ring

theorem sum_map_sub {α : Type} (l : List α) (f g : α → ℝ) :
    (l.map fun x => f x - g x).sum = (l.map f).sum - (l.map g).sum := by
  induction l with
  | nil => simp
  | cons x l ih =>
    simp only [List.map_cons, List.sum_cons, ih]
    ring

/-- What an orthogonal pair detects, under two skies. -/
theorem pair_detects {w : World E} {M : Motion} {interp : Bool} {Y : Harmonics} {maxSpin : Int}
    {nside : Nat} (hx : ExtOk w.x) (hns : 0 < nside) {inputV beamV : Bool}
    {data : BinBeam → BeamData} {gdata : BinBeam → List BeamData} {Ls : Nat}
    {sky sky' : List (List ℂ)} {a a' : Nat → Nat → Nat → ℂ} {L : BeamData → Nat}
    {b : BeamData → Nat → Nat → Nat → ℂ} {A B : SBeam} (ho : Orthogonal A B)
    (k : PairOk Ls sky a maxSpin inputV beamV data gdata L b A.bin (some B.bin))
    (k' : PairOk Ls sky' a' maxSpin inputV beamV data gdata L b A.bin (some B.bin))
    (hmu : ∀ g ∈ data A.bin :: gdata A.bin, g.mueller = none) {s s' : Spinmaps SpinDict}
    (hs : MapsOk (under w Y maxSpin nside inputV beamV data gdata sky) nside s
      (some A.bin, some B.bin))
    (hs' : MapsOk (under w Y maxSpin nside inputV beamV data gdata sky') nside s'
      (some A.bin, some B.bin)) (t : Nat) :
    (sky[0]? = sky'[0]? → sky[3]? = sky'[3]? →
      detects M w.x interp nside s A.bin t + detects M w.x interp nside s B.bin t =
        detects M w.x interp nside s' A.bin t + detects M w.x interp nside s' B.bin t) ∧
    (sky[1]? = sky'[1]? → sky[2]? = sky'[2]? →
      detects M w.x interp nside s A.bin t - detects M w.x interp nside s B.bin t =
        detects M w.x interp nside s' A.bin t - detects M w.x interp nside s' B.bin t) := by
  -- the spin maps are determined
  have hdet : ∀ {sky : List (List ℂ)} {a : Nat → Nat → Nat → ℂ} {s : Spinmaps SpinDict},
      PairOk Ls sky a maxSpin inputV beamV data gdata L b A.bin (some B.bin) →
      MapsOk (under w Y maxSpin nside inputV beamV data gdata sky) nside s (some A.bin, some B.bin) →
      s.main = dictSpec Y nside (min Ls (L (data A.bin))) a (b (data A.bin))
        (min (data A.bin).mmax maxSpin) (data A.bin).symmetric (data A.bin).mueller inputV beamV ∧
      ∀ g ∈ gdata A.bin, pyGet s.ghosts g.ghostIdx = .ok (some (dictSpec Y nside (min Ls (L g)) a (b g)
        (min g.mmax maxSpin) g.symmetric g.mueller inputV beamV)) := by
    intro sky a s k hs
    obtain ⟨s', h1, h2, h3⟩ := pair_maps w Y hns k
    rcases hs with h | ⟨d, h4, h5, -⟩
    · cases h
    rcases h1 with h | ⟨d', h4', h5', -⟩
    · cases h
    obtain rfl := Option.some.inj (h4.symm.trans h4')
    obtain rfl := Except.ok.inj (h5.symm.trans h5')
    exact ⟨h2, h3⟩
  have hr : ∀ g : Timeline.Beam, InRange nside (sampleAt w.x interp (offset w.x (M.rot t) g) nside
      (M.time t) (M.bore t) (M.alpha t)) := fun g =>
    sampleAt_inRange w.x hx interp _ nside hns _ _ _
  have hlive : ScanInstrument.live (some A.bin) = some A.bin := by
    simp [ScanInstrument.live, ho.alive]
  -- a beam and the same beam turned by 90 degrees
  have hbeam : ∀ (a : Nat → Nat → Nat → ℂ) (g : BeamData), g ∈ data A.bin :: gdata A.bin →
      ∀ (D : SpinDict), D = dictSpec Y nside (min Ls (L g)) a (b g) (min g.mmax maxSpin) g.symmetric
        g.mueller inputV beamV → ∀ q : Timeline.Beam, ∃ y : Smp,
      let f := values Y nside (min Ls (L g)) a (b g) none inputV beamV
      M.signal w.x interp nside D q t + M.signal w.x interp nside D (quarter q) t =
        2 * sumR y (spinsUnpol g.symmetric (min g.mmax maxSpin)) (f .s0a0) ∧
      M.signal w.x interp nside D q t - M.signal w.x interp nside D (quarter q) t =
        2 * (exp (I * (4 * y.alpha + 2 * ((q.polang * Real.pi / 180 : ℝ) : ℂ))) *
          sumC y (spinsPol g.symmetric (min g.mmax maxSpin)) (f .s2a4)).re ∧
      y = sampleAt w.x interp (offset w.x (M.rot t) q) nside (M.time t) (M.bore t) (M.alpha t) := by
    intro a g hg D hD q
    refine ⟨sampleAt w.x interp (offset w.x (M.rot t) q) nside (M.time t) (M.bore t) (M.alpha t), ?_⟩
    have h0 := (k.input g hg).spin0
    have e1 : M.signal w.x interp nside D q t = signalF false
        (spinsUnpol g.symmetric (min g.mmax maxSpin)) (spinsPol g.symmetric (min g.mmax maxSpin))
        (spinsS0a2 g.symmetric (min g.mmax maxSpin))
        (values Y nside (min Ls (L g)) a (b g) none inputV beamV) (q.polang * Real.pi / 180)
        (sampleAt w.x interp (offset w.x (M.rot t) q) nside (M.time t) (M.bore t) (M.alpha t)) := by
      unfold Motion.signal
      rw [hD, signal_dictSpec Y nside _ _ _ _ h0 _ _ _ _ _ _ (hr q), hmu g hg]
      rfl
    have e2 : M.signal w.x interp nside D (quarter q) t = signalF false
        (spinsUnpol g.symmetric (min g.mmax maxSpin)) (spinsPol g.symmetric (min g.mmax maxSpin))
        (spinsS0a2 g.symmetric (min g.mmax maxSpin))
        (values Y nside (min Ls (L g)) a (b g) none inputV beamV)
        (q.polang * Real.pi / 180 + Real.pi / 2)
        (sampleAt w.x interp (offset w.x (M.rot t) q) nside (M.time t) (M.bore t) (M.alpha t)) := by
      unfold Motion.signal
      rw [hD, signal_dictSpec Y nside _ _ _ _ h0 _ _ _ _ _ _ (hr (quarter q)), hmu g hg]
      have : (quarter q).polang * Real.pi / 180 = q.polang * Real.pi / 180 + Real.pi / 2 := by
        show (q.polang + 90) * Real.pi / 180 = _
        ring
      rw [this]
      rfl
    obtain ⟨f1, f2⟩ := signalF_quarter (spinsUnpol g.symmetric (min g.mmax maxSpin))
      (spinsPol g.symmetric (min g.mmax maxSpin)) (spinsS0a2 g.symmetric (min g.mmax maxSpin))
      (values Y nside (min Ls (L g)) a (b g) none inputV beamV) (q.polang * Real.pi / 180)
      (sampleAt w.x interp (offset w.x (M.rot t) q) nside (M.time t) (M.bore t) (M.alpha t))
    rw [e1, e2]
    exact ⟨f1, f2, rfl⟩
  -- sums and differences of all beams
  have hall : ∀ s : Spinmaps SpinDict,
      detects M w.x interp nside s A.bin t + detects M w.x interp nside s B.bin t =
        (M.signal w.x interp nside s.main A.bin.beam t +
          M.signal w.x interp nside s.main (quarter A.bin.beam) t) +
        ((A.bin.ghosts.filter fun g => !g.dead).map fun g =>
          M.signal w.x interp nside (ghostMaps s g) g t +
            M.signal w.x interp nside (ghostMaps s g) (quarter g) t).sum ∧
      detects M w.x interp nside s A.bin t - detects M w.x interp nside s B.bin t =
        (M.signal w.x interp nside s.main A.bin.beam t -
          M.signal w.x interp nside s.main (quarter A.bin.beam) t) +
        ((A.bin.ghosts.filter fun g => !g.dead).map fun g =>
          M.signal w.x interp nside (ghostMaps s g) g t -
            M.signal w.x interp nside (ghostMaps s g) (quarter g) t).sum := by
    intro s
    have hB : detects M w.x interp nside s B.bin t =
        M.signal w.x interp nside s.main (quarter A.bin.beam) t +
        ((A.bin.ghosts.filter fun g => !g.dead).map fun g =>
          M.signal w.x interp nside (ghostMaps s g) (quarter g) t).sum := by
      unfold detects
      rw [ho.beam, ho.ghosts, List.filter_map, List.map_map]
      rfl
    rw [hB, sum_map_two, sum_map_sub]
    unfold detects
    constructor <;> ring
  -- one beam, under two skies with common rows
  have key : ∀ (K : Nat → Bool), (∀ i, K i = true → sky[i]? = sky'[i]?) → ∀ g ∈ data A.bin :: gdata A.bin,
      ∀ D D' : SpinDict,
      D = dictSpec Y nside (min Ls (L g)) a (b g) (min g.mmax maxSpin) g.symmetric
        g.mueller inputV beamV →
      D' = dictSpec Y nside (min Ls (L g)) (mixRows K a a') (b g) (min g.mmax maxSpin) g.symmetric
        g.mueller inputV beamV → ∀ q : Timeline.Beam,
      (K 0 = true → K 3 = true →
        M.signal w.x interp nside D q t + M.signal w.x interp nside D (quarter q) t =
          M.signal w.x interp nside D' q t + M.signal w.x interp nside D' (quarter q) t) ∧
      (K 1 = true → K 2 = true →
        M.signal w.x interp nside D q t - M.signal w.x interp nside D (quarter q) t =
          M.signal w.x interp nside D' q t - M.signal w.x interp nside D' (quarter q) t) := by
    intro K _ g hg D D' hD hD' q
    obtain ⟨y, y1, y2, y3⟩ := hbeam a g hg D hD q
    obtain ⟨y', y1', y2', y3'⟩ := hbeam _ g hg D' hD' q
    obtain rfl : y = y' := y3.trans y3'.symm
    refine ⟨fun h0 h3 => ?_, fun h1 h2 => ?_⟩
    · rw [y1, y1']
      have : values Y nside (min Ls (L g)) (mixRows K a a') (b g) none inputV beamV .s0a0 =
          values Y nside (min Ls (L g)) a (b g) none inputV beamV .s0a0 := by
        funext s p
        simp only [values, valuesOld, mixRows, h0, h3, if_true]
      rw [this]
    · rw [y2, y2']
      have : values Y nside (min Ls (L g)) (mixRows K a a') (b g) none inputV beamV .s2a4 =
          values Y nside (min Ls (L g)) a (b g) none inputV beamV .s2a4 := by
        funext s p
        simp only [values, valuesOld, mixRows, h1, h2, if_true]
      rw [this]
  have hghost : ∀ g ∈ A.bin.ghosts.filter (fun g => !g.dead), ∃ g' ∈ gdata A.bin,
      g'.ghostIdx = g.ghostIdx := by
    intro g hg
    obtain ⟨g1, g2⟩ := List.mem_filter.1 hg
    exact ((k.main A.bin (.inl hlive)).2 g g1 (by simpa using g2)).2
  have maps : ∀ (K : Nat → Bool) (hK : ∀ i, K i = true → sky[i]? = sky'[i]?), ∀ g ∈ A.bin.ghosts.filter
      (fun g => !g.dead), ∃ g' ∈ gdata A.bin,
        ghostMaps s g = dictSpec Y nside (min Ls (L g')) a (b g') (min g'.mmax maxSpin) g'.symmetric
          g'.mueller inputV beamV ∧
        ghostMaps s' g = dictSpec Y nside (min Ls (L g')) (mixRows K a a') (b g') (min g'.mmax maxSpin)
          g'.symmetric g'.mueller inputV beamV := by
    intro K hK g hg
    obtain ⟨g', hg', e⟩ := hghost g hg
    have q1 := (hdet k hs).2 g' hg'
    have q2 := (hdet (mix_pair K hK k k') hs').2 g' hg'
    rw [e] at q1 q2
    unfold ghostMaps
    rw [q1, q2]
    exact ⟨g', hg', rfl, rfl⟩
  refine ⟨fun h0 h3 => ?_, fun h1 h2 => ?_⟩
  · let K : Nat → Bool := fun i => i = 0 ∨ i = 3
    have hK : ∀ i, K i = true → sky[i]? = sky'[i]? := by
      intro i hi
      have : i = 0 ∨ i = 3 := by simpa [K] using hi
      rcases this with rfl | rfl
      · exact h0
      · exact h3
    rw [(hall s).1, (hall s').1]
    congr 1
    · exact (key K hK _ List.mem_cons_self _ _ (hdet k hs).1 (hdet (mix_pair K hK k k') hs').1 _).1
        (by simp [K]) (by simp [K])
    · congr 1
      apply List.map_congr_left
      intro g hg
      obtain ⟨g', hg', e1, e2⟩ := maps K hK g hg
      exact (key K hK g' (List.mem_cons_of_mem _ hg') _ _ e1 e2 g).1 (by simp [K]) (by simp [K])
  · let K : Nat → Bool := fun i => i = 1 ∨ i = 2
    have hK : ∀ i, K i = true → sky[i]? = sky'[i]? := by
      intro i hi
      have : i = 1 ∨ i = 2 := by simpa [K] using hi
      rcases this with rfl | rfl
      · exact h1
      · exact h2
    rw [(hall s).2, (hall s').2]
    congr 1
    · exact (key K hK _ List.mem_cons_self _ _ (hdet k hs).1 (hdet (mix_pair K hK k k') hs').1 _).2
        (by simp [K]) (by simp [K])
    · congr 1
      apply List.map_congr_left
      intro g hg
      obtain ⟨g', hg', e1, e2⟩ := maps K hK g hg
      exact (key K hK g' (List.mem_cons_of_mem _ hg') _ _ e1 e2 g).2 (by simp [K]) (by simp [K])

theorem zipWith_samples (f : ℝ → ℝ → ℝ) (u v : Nat → ℝ) (a b : Int) :
    List.zipWith f (ScanStored.samples u a b) (ScanStored.samples v a b) = ScanStored.samples (fun t => f (u t) (v t)) a b := by
  unfold ScanStored.samples
  rw [List.zipWith_map, List.zipWith_self]

/-- **C138.** Two skies are scanned, with any focal plane, cross-talk, plate rotation and number of ranks,
and timelines are stored.  For a pair of detectors at right angles (no Mueller matrix): if the skies
have the same I and V, the sum of the two timelines is the same, whatever the polarization; if they have
the same polarization, the difference of the two timelines is the same, whatever I and V are. -/
theorem C138_pairs (w : World E) (M : Motion) (o : SOpts) (halm : o.hasAlm = true)
    (htod : o.saveTod = true) (N : Nat) (chunks : List Chunk)
    (i : Inst E) (hs : Session w M o.toOpts N chunks i) (Y : Harmonics) (maxSpin : Int) (nside : Nat)
    (hns : 0 < nside) (inputV beamV : Bool) (data : BinBeam → BeamData)
    (gdata : BinBeam → List BeamData) (Ls : Nat) (sky1 sky2 : List (List ℂ))
    (a1 a2 : Nat → Nat → Nat → ℂ) (L : BeamData → Nat) (b : BeamData → Nat → Nat → Nat → ℂ)
    (beams : List SPair) (hnd : ((liveBeams beams).map SBeam.idx).Nodup)
    (hp : ∀ p ∈ beams, plain p = (none, none) ∨ ∃ d, (plain p).1 = some d ∧
      PairOk Ls sky1 a1 maxSpin inputV beamV data gdata L b d (plain p).2 ∧
      PairOk Ls sky2 a2 maxSpin inputV beamV data gdata L b d (plain p).2)
    (store : Store) (size : Nat) (hsize : 0 < size) :
    let scan := fun sky => (List.range size).mapM fun r =>
      ScanStored.scanInstrument (under w Y maxSpin nside inputV beamV data gdata sky) o beams true size r
        (i, store)
    ∃ res1 res2 : List (Inst E × Store), scan sky1 = Except.ok (ε := PyErr) res1 ∧
      scan sky2 = Except.ok (ε := PyErr) res2 ∧
      ∀ A B, (some A, some B) ∈ beams → Orthogonal A B →
        (∀ g ∈ data A.bin :: gdata A.bin, g.mueller = none) →
        ∃ x1 ∈ res1, ∃ x2 ∈ res2, ∀ c ∈ chunks, ∃ tA1 tB1 tA2 tB2 : List ℝ,
          Data.dataOf x1.2 c (some A.det) .tod = .ok tA1 ∧
          Data.dataOf x1.2 c (some B.det) .tod = .ok tB1 ∧
          Data.dataOf x2.2 c (some A.det) .tod = .ok tA2 ∧
          Data.dataOf x2.2 c (some B.det) .tod = .ok tB2 ∧
          (sky1[0]? = sky2[0]? → sky1[3]? = sky2[3]? → sumOf tA1 tB1 = sumOf tA2 tB2) ∧
          (sky1[1]? = sky2[1]? → sky1[2]? = sky2[2]? → diffOf tA1 tB1 = diffOf tA2 tB2) := by
  intro scan
  classical
  have hmaps : ∀ (sky : List (List ℂ)) (a : Nat → Nat → Nat → ℂ),
      (∀ p ∈ beams, plain p = (none, none) ∨ ∃ d, (plain p).1 = some d ∧
        PairOk Ls sky a maxSpin inputV beamV data gdata L b d (plain p).2) →
      ∃ sm : SPair → Spinmaps SpinDict, ∀ p ∈ beams,
        MapsOk (under w Y maxSpin nside inputV beamV data gdata sky) nside (sm p) (plain p) := by
    intro sky a h
    have : ∀ p : SPair, ∃ sm : Spinmaps SpinDict, p ∈ beams →
        MapsOk (under w Y maxSpin nside inputV beamV data gdata sky) nside sm (plain p) := by
      intro p
      by_cases hb : p ∈ beams
      swap
      · exact ⟨⟨[], none, []⟩, fun h => (hb h).elim⟩
      rcases h p hb with h | ⟨d, hd, k⟩
      · exact ⟨⟨[], none, []⟩, fun _ => .inl h⟩
      obtain ⟨sm, h1, -⟩ := pair_maps w Y hns k
      refine ⟨sm, fun _ => ?_⟩
      have e : plain p = (some d, (plain p).2) := Prod.ext hd rfl
      rw [e]
      exact h1
    choose sm h using this
    exact ⟨sm, h⟩
  obtain ⟨sm1, m1⟩ := hmaps sky1 a1 fun p h => (hp p h).imp id fun ⟨d, h1, h2, _⟩ => ⟨d, h1, h2⟩
  obtain ⟨sm2, m2⟩ := hmaps sky2 a2 fun p h => (hp p h).imp id fun ⟨d, h1, _, h2⟩ => ⟨d, h1, h2⟩
  have run : ∀ (sky : List (List ℂ)) (sm : SPair → Spinmaps SpinDict),
      (∀ p ∈ beams, MapsOk (under w Y maxSpin nside inputV beamV data gdata sky) nside (sm p) (plain p)) →
      ∃ res : List (Inst E × Store), scan sky = Except.ok (ε := PyErr) res ∧
        ∀ p ∈ beams, ∃ x ∈ res, ∀ c ∈ chunks, StoredOn M w.x o nside sm p c x.2 := by
    intro sky sm m
    have hu := session_under hs Y maxSpin nside inputV beamV data gdata sky
    obtain ⟨res, h1, -, h2, -⟩ := C105_stored_partial _ hu.ext hu.pix hu.nside M o halm hu.binning
      hu.preview hu.ground hu.reuse N chunks hu.mission hu.hwpang i hu.ready hu.rotates hu.plate hu.steady
      store beams hnd nside sm m size hsize
    exact ⟨res, h1, h2⟩
  obtain ⟨res1, r1, s1⟩ := run sky1 sm1 m1
  obtain ⟨res2, r2, s2⟩ := run sky2 sm2 m2
  refine ⟨res1, res2, r1, r2, fun A B hAB ho hmu => ?_⟩
  obtain ⟨x1, hx1, t1⟩ := s1 _ hAB
  obtain ⟨x2, hx2, t2⟩ := s2 _ hAB
  refine ⟨x1, hx1, x2, hx2, fun c hc => ?_⟩
  have hAd : A.bin.beam.dead = false := ho.alive
  have hBd : B.bin.beam.dead = false := by
    rw [ho.beam]
    exact hAd
  have iA : InPair (some A, some B) A (some B) := ⟨hAd, .inl rfl⟩
  have iB : InPair (some A, some B) B (some A) := ⟨hBd, .inr rfl⟩
  obtain ⟨d, hd, k1, k2⟩ := (hp _ hAB).resolve_left (by simp [plain])
  obtain rfl : A.bin = d := Option.some.inj hd
  have hdt := fun t => pair_detects (M := M) (interp := o.interp) (Y := Y) hs.ext hns ho k1 k2 hmu
    (m1 _ hAB) (m2 _ hAB) t
  refine ⟨_, _, _, _, (t1 c hc).tod htod A _ iA, (t1 c hc).tod htod B _ iB,
    (t2 c hc).tod htod A _ iA, (t2 c hc).tod htod B _ iB, fun h0 h3 => ?_, fun h1 h2 => ?_⟩
  · unfold sumOf
    rw [zipWith_samples, zipWith_samples]
    congr 1
    funext t
    have h := (hdt t).1 h0 h3
    unfold recorded
    simp only [hAd, hBd, Bool.false_eq_true, if_false]
    linear_combination (1 + o.ctalk) * h
  · unfold diffOf
    rw [zipWith_samples, zipWith_samples]
    congr 1
    funext t
    have h := (hdt t).2 h1 h2
    unfold recorded
    simp only [hAd, hBd, Bool.false_eq_true, if_false]
    linear_combination (1 - o.ctalk) * h

/-! ### Non-vacuity -/

namespace Whole

open Rec Classical

/-- A detector with an asymmetric beam, a live and a dead ghost, and its partner. -/
def sA : SBeam := ⟨ghostly, 5⟩

def sB : SBeam := ⟨⟨quarter Demo.main, [quarter Demo.ghost, quarter Demo.dead], 90⟩, 6⟩

theorem orthogonal : Orthogonal sA sB := ⟨rfl, rfl, rfl⟩

theorem pair_ok (f : Nat → Nat → Nat → ℂ) : PairOk 5 (Conv.rows 5 3 f) f 4 false false
    (fun _ => Conv.main.data) (fun _ => [Conv.ghost.data]) (fun _ => 6)
    (fun g => if g = Conv.main.data then Conv.bcoef 2 else Conv.bcoef 3) sA.bin (some sB.bin) := by
  have h := ghostly_ok 1
  refine ⟨fun g hg => ?_, h.numbers, h.share, ?_⟩
  · have k := h.input g hg
    exact ⟨Conv.rows_ok _ _ _, k.beam, by simp, k.beamV, k.spin0, k.spin, k.sym, k.mueller⟩
  · rintro d (hd | hd)
    · exact h.main d (.inl hd)
    · obtain rfl := Option.some.inj hd
      refine ⟨rfl, fun g hg hd => ?_⟩
      simp only [sB, List.mem_cons, List.not_mem_nil, or_false] at hg
      rcases hg with rfl | rfl
      · exact ⟨rfl, _, List.mem_singleton_self _, rfl⟩
      · cases hd

/-- Coefficients of a sky with the intensity of `Conv.coef 1` and another polarization. -/
def repolarized (i : Nat) : Nat → Nat → ℂ := if i = 0 then Conv.coef 1 0 else Conv.coef 2 i

/-- The hypotheses of `C138_pairs` are met: with cross-talk of a third, the sums of the two timelines are the
same under two skies that differ in polarization. -/
example (store : Store) : ∃ res1 res2 : List (Inst Unit × Store),
    (List.range 2).mapM (fun r => ScanStored.scanInstrument (under w Conv.Y 4 1 false false
      (fun _ => Conv.main.data) (fun _ => [Conv.ghost.data]) (Conv.rows 5 3 (Conv.coef 1)))
      { so with ctalk := 1 / 3 } [(none, none), (some sA, some sB)] true 2 r (i, store)) =
      Except.ok (ε := PyErr) res1 ∧
    (List.range 2).mapM (fun r => ScanStored.scanInstrument (under w Conv.Y 4 1 false false
      (fun _ => Conv.main.data) (fun _ => [Conv.ghost.data]) (Conv.rows 5 3 repolarized))
      { so with ctalk := 1 / 3 } [(none, none), (some sA, some sB)] true 2 r (i, store)) =
      Except.ok (ε := PyErr) res2 ∧
    ∃ x1 ∈ res1, ∃ x2 ∈ res2, ∀ c ∈ chunks, ∃ tA1 tB1 tA2 tB2 : List ℝ,
      Data.dataOf x1.2 c (some sA.det) .tod = .ok tA1 ∧ Data.dataOf x1.2 c (some sB.det) .tod = .ok tB1 ∧
      Data.dataOf x2.2 c (some sA.det) .tod = .ok tA2 ∧ Data.dataOf x2.2 c (some sB.det) .tod = .ok tB2 ∧
      sumOf tA1 tB1 = sumOf tA2 tB2 := by
  have hs : Session w M ({ so with ctalk := 1 / 3 } : SOpts).toOpts 3 chunks i :=
    ⟨ext_ok, pix_ok, one_pos, rfl, rfl, rfl, rfl, mission_ok, by decide, ready, rotates, plate,
      repeats.steady⟩
  obtain ⟨res1, res2, h1, h2, h⟩ := C138_pairs w M { so with ctalk := 1 / 3 } rfl rfl 3 chunks i hs Conv.Y 4 1
    one_pos false false (fun _ => Conv.main.data) (fun _ => [Conv.ghost.data]) 5
    (Conv.rows 5 3 (Conv.coef 1)) (Conv.rows 5 3 repolarized) (Conv.coef 1) repolarized (fun _ => 6)
    (fun g => if g = Conv.main.data then Conv.bcoef 2 else Conv.bcoef 3)
    [(none, none), (some sA, some sB)] (by
      simp [liveBeams, ScanStored.live, sA, sB, ghostly, quarter, Demo.main])
    (by
      intro p hp
      simp only [List.mem_cons, List.not_mem_nil, or_false] at hp
      rcases hp with rfl | rfl
      · exact .inl rfl
      · exact .inr ⟨ghostly, rfl, pair_ok _, pair_ok _⟩) store 2 two_pos
  obtain ⟨x1, hx1, x2, hx2, h3⟩ := h sA sB (by simp) orthogonal (by
    intro g hg
    simp only [List.mem_cons, List.not_mem_nil, or_false] at hg
    rcases hg with rfl | rfl <;> rfl)
  refine ⟨res1, res2, h1, h2, x1, hx1, x2, hx2, fun c hc => ?_⟩
  obtain ⟨tA1, tB1, tA2, tB2, k1, k2, k3, k4, k5, -⟩ := h3 c hc
  exact ⟨tA1, tB1, tA2, tB2, k1, k2, k3, k4, k5 rfl rfl⟩

end Whole

end Verif.Props
