import Verif.Spec.CrossTalk
import Verif.Lemmas.FocalScan

/-!
# Lemmas: pairs that cross-talk
-/

noncomputable section

namespace Verif.FocalScan

open Verif.Beam Verif.Timeline Verif.Spinmaps Verif.MapMaking Verif.ScanInstrument Verif.Spec Verif.Chunks
open Verif.ScanObjects (ObjPair ObjWorld Coefs PairOf Prepared Settled Coarse skyMaker beamSees)
open Verif.Props (C118_again_partial)
open Verif.CrossTalk

variable {E : Type}

/-- Cross-talk `c` in the pair multiplies I by `kI` and Q, U by `kP`. -/
def Talks (c kI kP : ℝ) (p : Pair) : Prop :=
  (Twins p ∧ kI = 1 + c ∧ kP = 1 - c) ∨ ((c = 0 ∨ Single p) ∧ kI = 1 ∧ kP = 1)

/-- Twins look at the same pixel with opposite cosine and sine. -/
theorem twin_obs {x : Ext} {q : QExt} {iau : Bool} (hxq : Agree x q iau) {M : Motion} {varphi : ℝ}
    {nside : Nat} {a b : BinBeam} {t : Nat} (hrb : IsRot (M.bore t))
    (hra : IsRot (x.detOffset a.beam.az a.beam.el 0)) (h1 : b.beam.az = a.beam.az)
    (h2 : b.beam.el = a.beam.el) (h3 : ∃ k : ℤ, b.polangBin = a.polangBin + 90 + 180 * k) (d d' : ℝ) :
    (obsAt M x q varphi nside b t d').pix = (obsAt M x q varphi nside a t d).pix ∧
    (obsAt M x q varphi nside b t d').c = -(obsAt M x q varphi nside a t d).c ∧
    (obsAt M x q varphi nside b t d').s = -(obsAt M x q varphi nside a t d).s := by
  obtain ⟨k, hk⟩ := h3
  have ho : offset x (M.rot t) b.beam = offset x (M.rot t) a.beam := by
    unfold offset
    rw [h1, h2]
  have hr : IsRot (offset x (M.rot t) a.beam) := Verif.Props.qOff_rot x _ _ hra
  unfold obsAt
  dsimp only
  rw [ho, hxq _ _ _ _ _ _ hrb hr, hxq _ _ _ _ _ _ hrb hr]
  dsimp only
  set r := (x.bore2pix (offset x (M.rot t) a.beam) (M.time t) (M.bore t) nside).2
  have e : 2 * ((r + b.polangBin + 2 * (M.alpha t * 180 / Real.pi - varphi)) * Real.pi / 180) =
      2 * ((r + a.polangBin + 2 * (M.alpha t * 180 / Real.pi - varphi)) * Real.pi / 180) + Real.pi +
        k * (2 * Real.pi) := by
    rw [hk]
    ring
  rw [e, Real.cos_add_int_mul_two_pi, Real.sin_add_int_mul_two_pi, Real.cos_add_pi, Real.sin_add_pi]
  refine ⟨rfl, rfl, by ring⟩

theorem talk_blank (M : Motion) (x : Ext) (q : QExt) (varphi : ℝ) (nsideOut : Nat) (c c' : ℝ)
    (val val' : BinBeam → Nat → ℝ) (p : Pair) (t : Nat) :
    (pairObs M x q varphi nsideOut c val p t).map MapMaking.blank =
      (pairObs M x q varphi nsideOut c' val' p t).map MapMaking.blank := by
  unfold pairObs
  split
  · rfl
  · split <;> rfl

/-- What is binned if the pair cross-talks, `X` being the sky that each detector sees. -/
theorem talk_obs {x : Ext} {q : QExt} {iau : Bool} (hxq : Agree x q iau) {M : Motion} {varphi : ℝ}
    {nside : Nat} {t : Nat} {p : Pair} {c kI kP : ℝ} {val : BinBeam → Nat → ℝ} {I : Nat → ℝ} {P : Nat → ℂ}
    (hrb : IsRot (M.bore t))
    (hro : ∀ e, (live p.1 = some e ∨ live p.2 = some e) → IsRot (x.detOffset e.beam.az e.beam.el 0))
    (ht : Talks c kI kP p)
    (h : ∀ e, (live p.1 = some e ∨ live p.2 = some e) →
      let ob := obsAt M x q varphi nside e t (val e t)
      let X := stokes iau (I ob.pix.toNat) (P ob.pix.toNat)
      ob.c ^ 2 + ob.s ^ 2 = 1 ∧ ob.d = X 0 + ob.c * X 1 + ob.s * X 2) {ob : Obs}
    (hob : ob ∈ pairObs M x q varphi nside c val p t) :
    let X := stokes iau (kI * I ob.pix.toNat) (kP * P ob.pix.toNat)
    ob.c ^ 2 + ob.s ^ 2 = 1 ∧ ob.d = X 0 + ob.c * X 1 + ob.s * X 2 := by
  have key : ∀ (e : BinBeam) (v : ℝ) (ob' : Obs), ob' = obsAt M x q varphi nside e t v →
      ob'.c = (obsAt M x q varphi nside e t (val e t)).c ∧
      ob'.s = (obsAt M x q varphi nside e t (val e t)).s ∧
      ob'.pix = (obsAt M x q varphi nside e t (val e t)).pix ∧ ob'.d = v := by
    rintro e v ob' rfl
    exact ⟨rfl, rfl, rfl, rfl⟩
  have solo : ∀ e, (live p.1 = some e ∨ live p.2 = some e) →
      ob = obsAt M x q varphi nside e t (val e t) → kI = 1 → kP = 1 →
      let X := stokes iau (kI * I ob.pix.toNat) (kP * P ob.pix.toNat)
      ob.c ^ 2 + ob.s ^ 2 = 1 ∧ ob.d = X 0 + ob.c * X 1 + ob.s * X 2 := by
    rintro e he rfl rfl rfl
    rw [Complex.ofReal_one, one_mul, one_mul]
    exact h e he
  have both : ∀ e e', (live p.1 = some e ∨ live p.2 = some e) → (live p.1 = some e' ∨ live p.2 = some e') →
      e'.beam.az = e.beam.az → e'.beam.el = e.beam.el →
      (∃ k : ℤ, e'.polangBin = e.polangBin + 90 + 180 * k) → kI = 1 + c → kP = 1 - c →
      ob = obsAt M x q varphi nside e t (val e t + c * val e' t) →
      let X := stokes iau (kI * I ob.pix.toNat) (kP * P ob.pix.toNat)
      ob.c ^ 2 + ob.s ^ 2 = 1 ∧ ob.d = X 0 + ob.c * X 1 + ob.s * X 2 := by
    intro e e' he he' a1 a2 a3 b1 b2 ho
    obtain ⟨k1, k2, k3, k4⟩ := key e _ ob ho
    obtain ⟨m1, m2, m3⟩ := twin_obs (varphi := varphi) (nside := nside) hxq hrb (hro e he) a1 a2 a3
      (val e t) (val e' t)
    obtain ⟨n1, n2⟩ := h e he
    obtain ⟨n3, n4⟩ := h e' he'
    rw [m1, m2, m3] at n4
    have v1 : (obsAt M x q varphi nside e t (val e t)).d = val e t := rfl
    have v2 : (obsAt M x q varphi nside e' t (val e' t)).d = val e' t := rfl
    rw [v1] at n2
    rw [v2] at n4
    rw [k1, k2, k3, k4, b1, b2]
    refine ⟨n1, ?_⟩
    generalize hob' : obsAt M x q varphi nside e t (val e t) = oa at n2 n4 ⊢
    rw [n2, n4]
    have r : (((1 - c : ℝ) : ℂ) * P oa.pix.toNat).re =
        (1 - c) * (P oa.pix.toNat).re := Complex.re_ofReal_mul _ _
    have i : (((1 - c : ℝ) : ℂ) * P oa.pix.toNat).im =
        (1 - c) * (P oa.pix.toNat).im := Complex.im_ofReal_mul _ _
    simp only [stokes, Matrix.cons_val_zero, Matrix.cons_val_one, Matrix.cons_val]
    rw [r, i]
    ring
  unfold pairObs at hob
  split at hob
  · cases hob
  split at hob
  · rename_i a b ha hb
    simp only [List.mem_cons, List.not_mem_nil, or_false] at hob
    rcases ht with ⟨⟨h1, -⟩ | ⟨a', b', h1, h2, g1, g2, g3⟩, b1, b2⟩ | ⟨rfl | h1, b1, b2⟩
    · rw [h1] at ha
      cases ha
    · rw [ha] at h1
      rw [hb] at h2
      cases h1
      cases h2
      rcases hob with hob | hob
      · exact both a b (.inl ha) (.inr hb) g1 g2 g3 b1 b2 hob
      · refine both b a (.inr hb) (.inl ha) g1.symm g2.symm ?_ b1 b2 hob
        obtain ⟨k, hk⟩ := g3
        exact ⟨-1 - k, by rw [hk]; push_cast; ring⟩
    · rcases hob with hob | hob
      · exact solo a (.inl ha) (by rw [hob, zero_mul, add_zero]) b1 b2
      · exact solo b (.inr hb) (by rw [hob, zero_mul, add_zero]) b1 b2
    · rcases h1 with h1 | h1
      · rw [h1] at ha
        cases ha
      · rw [h1] at hb
        cases hb
  · rename_i a ha hb
    simp only [List.mem_cons, List.not_mem_nil, or_false] at hob
    rcases ht with ⟨⟨h1, -⟩ | ⟨a', b', h1, h2, -⟩, -, -⟩ | ⟨-, b1, b2⟩
    · rw [h1] at ha
      cases ha
    · rw [hb] at h2
      cases h2
    · exact solo a (.inl ha) hob b1 b2
  · rename_i b ha hb
    simp only [List.mem_cons, List.not_mem_nil, or_false] at hob
    rcases ht with ⟨⟨-, h1⟩ | ⟨a', b', h1, h2, -⟩, -, -⟩ | ⟨-, b1, b2⟩
    · rw [h1] at hb
      cases hb
    · rw [ha] at h1
      cases h1
    · exact solo b (.inr hb) hob b1 b2
  · cases hob

/-- C119 with cross-talk and plates. -/
theorem objects_talk (Y : Harmonics) (hY : Conjugation Y) (s : ObjWorld E) (hf : LimitFree s.env)
    (hx : ExtOk s.w.x) (hq : PixOk s.w.q) (hso : SolveOk s.w.q) (iau : Bool) (hxq : Agree s.w.x s.w.q iau)
    (hns : 0 < s.w.nsideOut) (M : Motion) (o : Opts) (hbin : o.binning = true)
    (hpre : o.preview = false) (hgr : o.ground = false) (hre : o.reuseSpinmaps = false)
    (hint : o.interp = false) (N : Nat) (chunks : List Chunk)
    (hmi : Mission N chunks) (hang : ∀ c ∈ chunks, c.hwpang = none)
    (hbore : ∀ t, t < N → IsRot (M.bore t)) {Ls : Nat} {alm : List (List ℂ)}
    {sky : Nat → Nat → Nat → ℂ} {inputV beamV : Bool} (blmOf : Nat → List (List ℂ))
    (muOf : Nat → Spin.Mat4) (hs : s.sky = skyMaker Y alm s.w.nsideOut inputV beamV blmOf muOf)
    (hsky : RealSky Ls sky) (hrows : HasRows Ls (nrows inputV) alm sky)
    (hlen : inputV = true → alm.length = 4) (c : Coefs) (hb : RealBeam c.L c.b) (hax : AxiSym c.b)
    (hrows' : HasRows c.L (nrows beamV) (blmOf c.n) c.b)
    (hlen' : beamV = true → (blmOf c.n).length = 4) (err : ℝ) (h : Heap ℝ) (beams : List ObjPair)
    (qs : List Pair) (mu : Option Nat) (tr : ℝ) (kp : ℂ) (hmu : PlateIs Y muOf Ls inputV c mu tr kp)
    (kI kP : ℝ)
    (htalk : ∀ q ∈ qs, Talks o.ctalk kI kP q) (hp : List.Forall₂ (SharesBeam s h Ls c mu err) beams qs)
    (l : List (Inst E × Bool × Nat))
    (hl : ∀ x ∈ l, Ready s.w chunks x.1 ∧ Rotates N chunks x.1.rot M.rot ∧
      Plate s.w.fsamp N x.1.hwp M.alpha ∧ Steady s.w M chunks x.1.el ∧ 0 < x.2.2 ∧
      (x.2.1 = false → x.2.2 = 1)) (fill : ℝ) :
    ∃ ms h', ScanObjects.scans s o beams l h = .ok (ms, h') ∧ ms.length = l.length ∧ ∀ m ∈ ms,
      ∀ p, p < 12 * s.w.nsideOut ^ 2 →
        (ThreeAngles (here p (seenBy M s.w N qs)) →
          (solveForMap s.w.q m fill)[p]? = some (stokes iau
            (kI * smoothI Y s.w.nsideOut (min Ls c.L) (skyOf inputV sky) (beamOf beamV (behind tr kp c.b)) p)
            (kP * (smoothP Y s.w.nsideOut (min Ls c.L) (skyOf inputV sky) (beamOf beamV (behind tr kp c.b)) p *
              Complex.exp (2 * ((err + 2 * s.w.varphi) * Real.pi / 180 : ℝ) * Complex.I))))) ∧
        (here p (seenBy M s.w N qs) = [] →
          (solveForMap s.w.q m fill)[p]? = some fun _ => fill) := by
  -- the pointing of each pair
  obtain ⟨q, hq1, hq2⟩ : ∃ q : ObjPair → Pair, beams.map q = qs ∧
      ∀ p ∈ beams, SharesBeam s h Ls c mu err p (q p) := by
    refine ⟨fun p => ((ScanObjects.readPair h p).toOption).getD (none, none), ?_⟩
    have hread : ∀ p q', SharesBeam s h Ls c mu err p q' →
        ((ScanObjects.readPair h p).toOption).getD (none, none) = q' := by
      intro p q' hpq
      rcases hpq with ⟨rfl, rfl⟩ | ⟨_, _, _, _, _, _, _, _, _, _, hpo, _⟩
      · rfl
      · rw [ScanObjects.readPair_of hpo]
        rfl
    clear hl htalk
    induction hp with
    | nil => exact ⟨rfl, by simp⟩
    | cons h1 _ ih =>
      refine ⟨by rw [List.map_cons, ih.1, hread _ _ h1], ?_⟩
      intro p hpm
      rcases List.mem_cons.1 hpm with rfl | hpm
      · dsimp only
        rw [hread _ _ h1]
        exact h1
      · exact ih.2 p hpm
  have hmaps : ∀ p : ObjPair, ∃ sm, p ∈ beams → Prepared s s.w.nsideOut h p (q p) sm sm ∧
      Settled s.env h p ∧ ∀ (e : BinBeam), (live (q p).1 = some e ∨ live (q p).2 = some e) → ∀ t,
        detects M s.w.x false s.w.nsideOut sm e t =
          let y := sampleAt s.w.x false (offset s.w.x (M.rot t) e.beam) s.w.nsideOut (M.time t)
            (M.bore t) (M.alpha t)
          convolved Y s.w.nsideOut (min Ls c.L) {0} {2} (skyOf inputV sky)
            (turned (2 * y.alpha + e.beam.polang * Real.pi / 180) (beamOf beamV (behind tr kp c.b))) y := by
    intro p
    by_cases hpm : p ∈ beams
    · obtain ⟨sm, h1, h2, h3⟩ := shares_maps Y hY s hx s.w.nsideOut hns blmOf muOf hs hsky
        hrows hlen c hb hax hrows' hlen' h err p (q p) mu (hq2 p hpm) tr kp hmu
      exact ⟨sm, fun _ => ⟨h1, h2, h3 M false⟩⟩
    · exact ⟨⟨[], none, []⟩, fun h => (hpm h).elim⟩
  choose sm hsm using hmaps
  obtain ⟨ms, h', h1, h2, h3⟩ := C118_again_partial s hf hx hq hns M o hbin hpre hgr hre N chunks hmi hang
    s.w.nsideOut q sm beams l hl h (fun p hpm => ⟨(hsm p hpm).1, (hsm p hpm).2.1⟩)
  refine ⟨ms, h', h1, h2, fun m hm p hpp => ?_⟩
  have hH := h3 m hm
  rw [hint] at hH
  refine solved s.w.q hso hH (seen := seenBy M s.w N qs) ?_ (fun p => stokes iau
    (kI * smoothI Y s.w.nsideOut (min Ls c.L) (skyOf inputV sky) (beamOf beamV (behind tr kp c.b)) p)
    (kP * (smoothP Y s.w.nsideOut (min Ls c.L) (skyOf inputV sky) (beamOf beamV (behind tr kp c.b)) p *
      Complex.exp (2 * ((err + 2 * s.w.varphi) * Real.pi / 180 : ℝ) * Complex.I)))) ?_ fill p hpp
  · rw [← hq1]
    unfold seenBy
    rw [List.flatMap_map]
    simp only [List.map_flatMap]
    apply flatMap_congr'
    intro p _
    apply flatMap_congr'
    intro t _
    exact talk_blank M s.w.x s.w.q s.w.varphi s.w.nsideOut _ _ _ _ (q p) t
  · intro ob hob
    obtain ⟨p, hpm, hob⟩ := List.mem_flatMap.1 hob
    obtain ⟨t, ht, hob⟩ := List.mem_flatMap.1 hob
    have hpe : ∀ e, (live (q p).1 = some e ∨ live (q p).2 = some e) →
        e.beam.polang = e.polangBin + err ∧ IsRot (s.w.x.detOffset e.beam.az e.beam.el 0) := by
      intro e he
      rcases hq2 p hpm with ⟨rfl, e2⟩ | ⟨_, _, _, _, _, _, _, _, _, _, _, hlive⟩
      · rw [e2] at he
        rcases he with he | he <;> cases he
      · exact hlive e he
    have hsee := fun e he => shares_sample Y hY s.w.x hx s.w.q iau hxq hsky (behind_real tr kp hax hb) s.w.nsideOut hns err
      s.w.varphi M e t (hbore t (List.mem_range.1 ht)) (hpe e he).2 (hpe e he).1
      (detects M s.w.x false s.w.nsideOut (sm p) e t) (by rw [(hsm p hpm).2.2 e he t]; rfl)
    exact talk_obs (I := smoothI Y s.w.nsideOut (min Ls c.L) (skyOf inputV sky) (beamOf beamV (behind tr kp c.b)))
      (P := fun p => smoothP Y s.w.nsideOut (min Ls c.L) (skyOf inputV sky) (beamOf beamV (behind tr kp c.b)) p *
        Complex.exp (2 * ((err + 2 * s.w.varphi) * Real.pi / 180 : ℝ) * Complex.I)) hxq (hbore t (List.mem_range.1 ht)) (fun e he => (hpe e he).2)
      (htalk _ (by rw [← hq1]; exact List.mem_map_of_mem hpm)) hsee hob

end Verif.FocalScan
