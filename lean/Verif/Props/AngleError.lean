import Verif.Spec.AngleError
import Verif.Props.ScanInstrument
import Verif.Props.ScanFiltered
import Verif.Lemmas.Interrupted

/-!
# C143: angles that are wrong in the same way for all detectors
-/

noncomputable section

namespace Verif.Props

open Verif.Chunks Verif.Timeline Verif.Spinmaps Verif.MapMaking Verif.ScanInstrument Verif.Spec

variable {E : Type}

/-- `turnStokes` as a matrix. -/
def turnMat (iau : Bool) (theta : ℝ) : Matrix (Fin 3) (Fin 3) ℝ :=
  let g : ℝ := if iau then 1 else -1
  !![1, 0, 0; 0, Real.cos theta, -(g * Real.sin theta); 0, g * Real.sin theta, Real.cos theta]

theorem turnMat_mul (iau : Bool) (theta : ℝ) (x : Fin 3 → ℝ) :
    (turnMat iau theta).mulVec x = turnStokes iau theta x := by
  have e : Complex.exp (theta * Complex.I) = (Real.cos theta : ℂ) + (Real.sin theta : ℂ) * Complex.I := by
    rw [Complex.exp_mul_I, Complex.ofReal_cos, Complex.ofReal_sin]
  unfold turnStokes turnMat
  rw [e]
  generalize Real.cos theta = C
  generalize Real.sin theta = S
  cases iau <;>
  · funext k
    fin_cases k <;> simp [Matrix.mulVec, dotProduct, Fin.sum_univ_three] <;> ring

theorem turnMat_orth (iau : Bool) (theta : ℝ) : (turnMat iau theta).transpose * turnMat iau theta = 1 := by
  have h := Real.sin_sq_add_cos_sq theta
  cases iau <;>
  · ext i j
    fin_cases i <;> fin_cases j <;>
      simp [turnMat, Matrix.mul_apply, Fin.sum_univ_three] <;> nlinarith

theorem turnMat_det (iau : Bool) (theta : ℝ) : (turnMat iau theta).det = 1 := by
  have h := Real.sin_sq_add_cos_sq theta
  cases iau <;> simp [turnMat, Matrix.det_fin_three] <;> nlinarith

/-- An observation under an angle that is wrong by `theta / 2`. -/
def turnObs (iau : Bool) (theta : ℝ) (o : Obs) : Obs :=
  let w := (turnMat iau theta).mulVec o.w
  ⟨o.pix, w 1, w 2, o.d⟩

theorem turnObs_w (iau : Bool) (theta : ℝ) (o : Obs) :
    (turnObs iau theta o).w = (turnMat iau theta).mulVec o.w := by
  funext k
  fin_cases k
  · simp [turnObs, Obs.w, turnMat, Matrix.mulVec, dotProduct, Fin.sum_univ_three]
  · rfl
  · rfl

theorem here_turn (iau : Bool) (theta : ℝ) (p : Nat) (os : List Obs) :
    here p (os.map (turnObs iau theta)) = (here p os).map (turnObs iau theta) := by
  unfold here
  rw [List.filter_map]
  rfl

theorem vec_turn (iau : Bool) (theta : ℝ) (p : Nat) (os : List Obs) :
    vecAt (os.map (turnObs iau theta)) p = (turnMat iau theta).mulVec (vecAt os p) := by
  unfold vecAt
  rw [here_turn, List.map_map]
  induction here p os with
  | nil => simp
  | cons o l ih =>
    simp only [List.map_cons, List.sum_cons, ih, Function.comp_apply, Matrix.mulVec_add, turnObs_w,
      Matrix.mulVec_smul]
    rfl

theorem proj_turn (iau : Bool) (theta : ℝ) (p : Nat) (os : List Obs) :
    projAt (os.map (turnObs iau theta)) p =
      turnMat iau theta * projAt os p * (turnMat iau theta).transpose := by
  unfold projAt
  rw [here_turn, List.map_map]
  induction here p os with
  | nil => simp
  | cons o l ih =>
    simp only [List.map_cons, List.sum_cons, ih, Function.comp_apply, Matrix.mul_add, Matrix.add_mul,
      turnObs_w]
    congr 1
    rw [Matrix.mul_vecMulVec, Matrix.vecMulVec_mul, Matrix.vecMul_transpose]

theorem solve_turn {q : QExt} (hs : SolveOk q) (iau : Bool) (theta : ℝ) {c c' : Cell} {os : List Obs} {p : Nat}
    (hp : sym c.proj = projAt os p) (hv : c.vec = vecAt os p)
    (hp' : sym c'.proj = projAt (os.map (turnObs iau theta)) p)
    (hv' : c'.vec = vecAt (os.map (turnObs iau theta)) p) (fill : ℝ) :
    ((sym c.proj).det ≠ 0 → q.solve c'.vec c'.proj fill = turnStokes iau theta (q.solve c.vec c.proj fill)) ∧
    (c.proj 0 = 0 → q.solve c.vec c.proj fill = (fun _ => fill) ∧
      q.solve c'.vec c'.proj fill = fun _ => fill) := by
  rw [proj_turn] at hp'
  rw [vec_turn] at hv'
  constructor
  · intro hd
    have hd' : (sym c'.proj).det ≠ 0 := by
      rw [hp', Matrix.det_mul, Matrix.det_mul, Matrix.det_transpose, turnMat_det, ← hp]
      simpa using hd
    have h0 := hits_ne hp hd
    have h0' : c'.proj 0 ≠ 0 := hits_ne (os := os.map (turnObs iau theta)) (p := p)
      (by rw [proj_turn]; exact hp') hd'
    have hinj : Function.Injective (sym c'.proj).mulVec :=
      Matrix.mulVec_injective_iff_isUnit.2 ((Matrix.isUnit_iff_isUnit_det _).2 hd'.isUnit)
    apply hinj
    rw [hs.regular _ _ fill h0' hd', ← turnMat_mul, Matrix.mulVec_mulVec, hp', Matrix.mul_assoc,
      turnMat_orth, Matrix.mul_one, ← Matrix.mulVec_mulVec, ← hp, hs.regular _ _ fill h0 hd, hv', hv]
  · intro h0
    refine ⟨hs.empty _ _ fill h0, hs.empty _ _ fill ?_⟩
    have : c'.proj 0 = (sym c'.proj) 0 0 := rfl
    rw [this, hp', ← hp]
    have e : (sym c.proj) 0 0 = 0 := h0
    cases iau <;> simp [turnMat, Matrix.mul_apply, Matrix.vecMul, dotProduct, Fin.sum_univ_three, e]

theorem obs_misread {x : Ext} {q : QExt} {iau : Bool} (ha : Agree x q iau)
    (hdet : ∀ az el, IsRot (x.detOffset az el 0)) {N : Nat} {M : Motion}
    (hbore : ∀ t, t < N → IsRot (M.bore t)) (varphi delta e : ℝ) (nside : Nat) (b : BinBeam) {t : Nat}
    (ht : t < N) (d : ℝ) :
    obsAt M x q (varphi + delta) nside (misread e b) t d =
      turnObs iau (2 * (e - 2 * delta) * Real.pi / 180) (obsAt M x q varphi nside b t d) := by
  have ho : IsRot (offset x (M.rot t) b.beam) := by
    unfold offset
    refine isRot_mult _ _ ?_ (hdet _ _)
    unfold IsRot
    rw [Fin.sum_univ_four]
    simp
  have h1 := ha (M.bore t) (offset x (M.rot t) b.beam) (M.time t) b.polangBin
    (M.alpha t * 180 / Real.pi - varphi) nside (hbore t ht) ho
  have h2 := ha (M.bore t) (offset x (M.rot t) b.beam) (M.time t) (b.polangBin + e)
    (M.alpha t * 180 / Real.pi - (varphi + delta)) nside (hbore t ht) ho
  unfold obsAt
  have eb : (misread e b).beam = b.beam := rfl
  have ep : (misread e b).polangBin = b.polangBin + e := rfl
  rw [eb, ep, h1, h2]
  dsimp only
  set A := 2 * ((((x.bore2pix (offset x (M.rot t) b.beam) (M.time t) (M.bore t) nside).2 + b.polangBin +
    2 * (M.alpha t * 180 / Real.pi - varphi)) * Real.pi / 180)) with hA
  have hB : 2 * ((((x.bore2pix (offset x (M.rot t) b.beam) (M.time t) (M.bore t) nside).2 + (b.polangBin + e) +
    2 * (M.alpha t * 180 / Real.pi - (varphi + delta))) * Real.pi / 180)) =
      A + 2 * (e - 2 * delta) * Real.pi / 180 := by
    rw [hA]
    ring
  rw [hB, Real.cos_add, Real.sin_add]
  cases iau <;> simp [turnObs, turnMat, Matrix.mulVec, dotProduct, Obs.w, Fin.sum_univ_three] <;> ring_nf <;> simp

/-- **C143.** Two whole scans of the same sky, with any beams, ghosts, plates and cross-talk.  In the second
one the nominal angles of all detectors are higher by `e` degrees with the same true angles
(`polang` raised and `polang_error` lowered by `e`), and `varphi` is higher by `delta` degrees.  In
each pixel that can be solved, I is the same and the polarization is turned by
`2 (e - 2 delta)` degrees; pixels that were not seen are the same. -/
theorem C143_turned (w : World E) (hx : ExtOk w.x) (hq : PixOk w.q) (hsol : SolveOk w.q) (iau : Bool)
    (ha : Agree w.x w.q iau) (hdet : ∀ az el, IsRot (w.x.detOffset az el 0)) (hns : 0 < w.nsideOut)
    (M : Motion) (o : Opts) (hbin : o.binning = true)
    (hpre : o.preview = false) (hgr : o.ground = false) (hre : o.reuseSpinmaps = false) (N : Nat)
    (hbore : ∀ t, t < N → IsRot (M.bore t))
    (chunks : List Chunk) (hmi : Mission N chunks) (hang : ∀ c ∈ chunks, c.hwpang = none) (i : Inst E)
    (hi : Ready w chunks i) (hrot : Rotates N chunks i.rot M.rot)
    (hhwp : Plate w.fsamp N i.hwp M.alpha) (hst : Steady w M chunks i.el)
    (e delta : ℝ) (beams : List Pair) (nside : Nat) (sm : Pair → Spinmaps SpinDict)
    (hm : ∀ p ∈ beams, MapsOk w nside (sm p) p)
    (hm' : ∀ p ∈ beams, MapsOk w nside (sm p) (misreadPair e p))
    (size size' : Nat) (hsize : 0 < size) (hsize' : 0 < size') (fill : ℝ) :
    ∃ m m', scanAll w o beams true size i = .ok m ∧
      scanAll { w with varphi := w.varphi + delta } o (beams.map (misreadPair e)) true size' i = .ok m' ∧
      ∀ (p : Nat) (c : Cell), m[p]? = some c →
        ((sym c.proj).det ≠ 0 → ∃ s, (solveForMap w.q m fill)[p]? = some s ∧
          (solveForMap w.q m' fill)[p]? = some (turnStokes iau (2 * (e - 2 * delta) * Real.pi / 180) s)) ∧
        (c.proj 0 = 0 → (solveForMap w.q m fill)[p]? = some (fun _ => fill) ∧
          (solveForMap w.q m' fill)[p]? = some fun _ => fill) := by
  have hback : ∀ p, misreadPair (-e) (misreadPair e p) = p := by
    rintro ⟨b, b'⟩
    have : ∀ b, misread (-e) (misread e b) = b := fun b => by simp [misread]
    cases b <;> cases b' <;> simp [misreadPair, this]
  let w' : World E := { w with varphi := w.varphi + delta }
  have g1 := all_spec w hq hns M o hbin hgr (fun p => detects M w.x o.interp nside (sm p)) N chunks
    hmi i hi (moves_spec w.fsamp M N chunks hmi hang i.rot i.hwp hrot hhwp) hst beams size hsize
    fun p hp => pairGood_scan w hx M chunks o hpre hre nside (sm p) p (hm p hp)
  have hst' : Steady w' M chunks i.el := by
    obtain ⟨P, p1, p2⟩ := hst
    refine ⟨P, p1, fun first e he => ?_⟩
    obtain ⟨e', q1, q2⟩ := p2 first e he
    refine ⟨e', ?_, q2⟩
    clear p1 p2 q2 he hi hrot hmi hang
    induction chunks generalizing e with
    | nil => exact q1
    | cons c cs ih =>
      obtain ⟨p, e1, h1, h2, h3⟩ := q1
      exact ⟨p, e1, h1, h2, ih e1 h3⟩
  have g2 := all_spec w' hq hns M o hbin hgr
    (fun p => detects M w.x o.interp nside (sm (misreadPair (-e) p))) N chunks
    hmi i ⟨hi.chunks, hi.maps, hi.rot, hi.period, hi.hwp⟩
    (moves_spec w.fsamp M N chunks hmi hang i.rot i.hwp hrot hhwp) hst'
    (beams.map (misreadPair e)) size' hsize' fun p' hp' => by
      obtain ⟨p, hp, rfl⟩ := List.mem_map.1 hp'
      rw [hback]
      exact pairGood_scan w' hx M chunks o hpre hre nside (sm p) _ (hm' p hp)
  have hobs : ((beams.map (misreadPair e)).flatMap fun p => missionObs w' M o N
        (detects M w.x o.interp nside (sm (misreadPair (-e) p))) p) =
      (beams.flatMap fun p => missionObs w M o N (detects M w.x o.interp nside (sm p)) p).map
        (turnObs iau (2 * (e - 2 * delta) * Real.pi / 180)) := by
    rw [List.flatMap_map, List.map_flatMap]
    apply flatMap_congr'
    intro p hp
    rw [hback]
    unfold missionObs
    rw [List.map_flatMap]
    apply flatMap_congr'
    intro t ht
    have ht := List.mem_range.1 ht
    have ho : ∀ b d, obsAt M w.x w.q (w.varphi + delta) w.nsideOut (misread e b) t d = _ :=
      fun b d => obs_misread ha hdet hbore w.varphi delta e w.nsideOut b ht d
    have hl : ∀ b, live (b.map (misread e)) = (live b).map (misread e) := by
      intro b
      cases b with
      | none => rfl
      | some b =>
        simp only [Option.map_some, live]
        have : (misread e b).beam.dead = b.beam.dead := rfl
        rw [this]
        split <;> rfl
    have hd : ∀ b, detects M w.x o.interp nside (sm p) (misread e b) t =
        detects M w.x o.interp nside (sm p) b t := fun _ => rfl
    unfold pairObs
    split
    · rfl
    · show (match live (p.1.map (misread e)), live (p.2.map (misread e)) with
        | some a, some b => _ | some a, none => _ | none, some b => _ | none, none => _) = _
      rw [hl, hl]
      have eq : w'.q = w.q := rfl
      have ex : w'.x = w.x := rfl
      have en : w'.nsideOut = w.nsideOut := rfl
      have ev : w'.varphi = w.varphi + delta := rfl
      rw [eq, ex, en, ev]
      cases live p.1 <;> cases live p.2 <;>
        simp only [Option.map_none, Option.map_some, hd, ho, List.map_cons, List.map_nil]
  rw [hobs] at g2
  refine ⟨_, _, g1, g2, fun p c hc => ?_⟩
  generalize (beams.flatMap fun p => missionObs w M o N (detects M w.x o.interp nside (sm p)) p) = os at hc ⊢
  have hlt : p < 12 * w.nsideOut ^ 2 := by
    have := (List.getElem?_eq_some_iff.1 hc).1
    simpa [mapsOf] using this
  have hget : ∀ os, (mapsOf (12 * w.nsideOut ^ 2) os)[p]? = some (cellAt os p) := by
    intro os
    simp [mapsOf, hlt]
  rw [hget] at hc
  obtain rfl := Option.some.inj hc
  have key := solve_turn hsol iau (2 * (e - 2 * delta) * Real.pi / 180) (cellAt_proj os p) (cellAt_vec os p)
    (cellAt_proj (os.map (turnObs iau (2 * (e - 2 * delta) * Real.pi / 180))) p) (cellAt_vec _ p) fill
  have en : w'.nsideOut = w.nsideOut := rfl
  unfold solveForMap
  rw [en, List.getElem?_map, List.getElem?_map, hget, hget]
  simp only [Option.map_some]
  exact ⟨fun hd => ⟨_, rfl, by rw [key.1 hd]⟩, fun h0 => ⟨by rw [(key.2 h0).1], by rw [(key.2 h0).2]⟩⟩

/-! Quarter turns of the plate -/

theorem signal_quarter {d : SpinDict} (hd : isOld d = true) (psi : ℝ) (y : Smp) (k : Int) :
    Timeline.signal d psi { y with alpha := y.alpha + k * (Real.pi / 2) } = Timeline.signal d psi y := by
  have hr : ∀ e, spinSumReal e { y with alpha := y.alpha + k * (Real.pi / 2) } = spinSumReal e y :=
    fun _ => rfl
  have hs : ∀ e, spinSum e { y with alpha := y.alpha + k * (Real.pi / 2) } = spinSum e y := fun _ => rfl
  unfold Timeline.signal
  rw [hd]
  simp only [if_true, add_zero, hr, hs]
  congr 3
  have h1 : Complex.I * (4 * ((y.alpha + k * (Real.pi / 2) : ℝ) : ℂ) + 2 * (psi : ℂ)) =
      Complex.I * (4 * (y.alpha : ℂ) + 2 * (psi : ℂ)) + (k : ℂ) * (2 * Real.pi * Complex.I) := by
    push_cast
    ring
  rw [h1, Complex.exp_add, Complex.exp_int_mul_two_pi_mul_I, mul_one]

theorem motion_quarter {M M' : Motion} (h1 : M'.time = M.time) (h2 : M'.bore = M.bore) (h3 : M'.rot = M.rot)
    {t : Nat} (hk : ∃ k : Int, M'.alpha t = M.alpha t + k * (Real.pi / 2)) (x : Ext) (interp : Bool)
    (nside : Nat) {d : SpinDict} (hd : isOld d = true ∨ d = []) (b : Timeline.Beam) :
    M'.signal x interp nside d b t = M.signal x interp nside d b t := by
  obtain ⟨k, hk⟩ := hk
  unfold Motion.signal
  rw [h1, h2, h3, hk]
  have e : sampleAt x interp (offset x (M.rot t) b) nside (M.time t) (M.bore t)
      (M.alpha t + k * (Real.pi / 2)) =
      { sampleAt x interp (offset x (M.rot t) b) nside (M.time t) (M.bore t) (M.alpha t) with
        alpha := (sampleAt x interp (offset x (M.rot t) b) nside (M.time t) (M.bore t) (M.alpha t)).alpha +
          k * (Real.pi / 2) } := by
    unfold sampleAt
    split <;> rfl
  rcases hd with hd | rfl
  · rw [e, signal_quarter hd]
  · simp [Timeline.signal, part, spinSum, spinSumReal]

theorem obs_quarter {x : Ext} {q : QExt} {iau : Bool} (ha : Agree x q iau)
    (hdet : ∀ az el, IsRot (x.detOffset az el 0)) {N : Nat} {M M' : Motion}
    (hbore : ∀ t, t < N → IsRot (M.bore t))
    (h1 : M'.time = M.time) (h2 : M'.bore = M.bore) (h3 : M'.rot = M.rot)
    {t : Nat} (hk : ∃ k : Int, M'.alpha t = M.alpha t + k * (Real.pi / 2))
    (varphi : ℝ) (nside : Nat) (b : BinBeam) (ht : t < N) (d : ℝ) :
    obsAt M' x q varphi nside b t d = obsAt M x q varphi nside b t d := by
  obtain ⟨k, hk⟩ := hk
  have ho : IsRot (offset x (M.rot t) b.beam) := by
    unfold offset
    refine isRot_mult _ _ ?_ (hdet _ _)
    unfold IsRot
    rw [Fin.sum_univ_four]
    simp
  have g1 := ha (M.bore t) (offset x (M.rot t) b.beam) (M.time t) b.polangBin
    (M.alpha t * 180 / Real.pi - varphi) nside (hbore t ht) ho
  have g2 := ha (M.bore t) (offset x (M.rot t) b.beam) (M.time t) b.polangBin
    ((M.alpha t + k * (Real.pi / 2)) * 180 / Real.pi - varphi) nside (hbore t ht) ho
  unfold obsAt
  rw [h1, h2, h3, hk, g1, g2]
  dsimp only
  set A := 2 * ((((x.bore2pix (offset x (M.rot t) b.beam) (M.time t) (M.bore t) nside).2 + b.polangBin +
    2 * (M.alpha t * 180 / Real.pi - varphi)) * Real.pi / 180)) with hA
  have hB : 2 * ((((x.bore2pix (offset x (M.rot t) b.beam) (M.time t) (M.bore t) nside).2 + b.polangBin +
    2 * ((M.alpha t + k * (Real.pi / 2)) * 180 / Real.pi - varphi)) * Real.pi / 180)) =
      A + k * (2 * Real.pi) := by
    have := Real.pi_ne_zero
    rw [hA]
    field_simp
    ring
  rw [hB, Real.cos_add_int_mul_two_pi, Real.sin_add_int_mul_two_pi]

theorem same_maps (w : World E) (hx : ExtOk w.x) (hq : PixOk w.q) (iau : Bool)
    (ha : Agree w.x w.q iau) (hdet : ∀ az el, IsRot (w.x.detOffset az el 0)) (hns : 0 < w.nsideOut)
    (M M' : Motion) (o : Opts) (hbin : o.binning = true)
    (hpre : o.preview = false) (hgr : o.ground = false) (hre : o.reuseSpinmaps = false) (N : Nat)
    (hbore : ∀ t, t < N → IsRot (M.bore t))
    (h1 : M'.time = M.time) (h2 : M'.bore = M.bore) (h3 : M'.rot = M.rot) (h4 : M'.flag = M.flag)
    (hquarter : ∀ t, t < N → ∃ k : Int, M'.alpha t = M.alpha t + k * (Real.pi / 2))
    (chunks : List Chunk) (hmi : Mission N chunks) (hang : ∀ c ∈ chunks, c.hwpang = none) (i i' : Inst E)
    (hi : Ready w chunks i) (hrot : Rotates N chunks i.rot M.rot)
    (hhwp : Plate w.fsamp N i.hwp M.alpha) (hst : Steady w M chunks i.el)
    (hi' : Ready w chunks i') (hrot' : Rotates N chunks i'.rot M'.rot)
    (hhwp' : Plate w.fsamp N i'.hwp M'.alpha) (hst' : Steady w M' chunks i'.el)
    (beams : List Pair) (nside : Nat) (sm : Pair → Spinmaps SpinDict)
    (hm : ∀ p ∈ beams, MapsOk w nside (sm p) p)
    (hd : ∀ p ∈ beams, p ≠ (none, none) → ∀ b t, t < N →
      detects M' w.x o.interp nside (sm p) b t = detects M w.x o.interp nside (sm p) b t)
    (size size' : Nat) (hsize : 0 < size) (hsize' : 0 < size') :
    ∃ m, scanAll w o beams true size i = .ok m ∧ scanAll w o beams true size' i' = .ok m := by
  have g1 := all_spec w hq hns M o hbin hgr (fun p => detects M w.x o.interp nside (sm p)) N chunks
    hmi i hi (moves_spec w.fsamp M N chunks hmi hang i.rot i.hwp hrot hhwp) hst beams size hsize
    fun p hp => pairGood_scan w hx M chunks o hpre hre nside (sm p) p (hm p hp)
  have g2 := all_spec w hq hns M' o hbin hgr (fun p => detects M' w.x o.interp nside (sm p)) N chunks
    hmi i' hi' (moves_spec w.fsamp M' N chunks hmi hang i'.rot i'.hwp hrot' hhwp') hst' beams size' hsize'
    fun p hp => pairGood_scan w hx M' chunks o hpre hre nside (sm p) p (hm p hp)
  refine ⟨_, g1, ?_⟩
  rw [g2]
  congr 2
  apply flatMap_congr'
  intro p hp
  unfold missionObs
  apply flatMap_congr'
  intro t ht
  have ht := List.mem_range.1 ht
  have ho : ∀ b d, obsAt M' w.x w.q w.varphi w.nsideOut b t d = obsAt M w.x w.q w.varphi w.nsideOut b t d :=
    fun b d => obs_quarter ha hdet hbore h1 h2 h3 (hquarter t ht) w.varphi w.nsideOut b ht d
  by_cases hn : p = (none, none)
  · subst hn
    unfold pairObs
    rw [h4]
    rfl
  · have hd := fun b => hd p hp hn b t ht
    unfold pairObs
    rw [h4]
    split
    · rfl
    · simp only [hd, ho]

/-- **C143.** Without Mueller matrices, the angle of the plate counts only up to quarter turns: if it
differs, in each sample, by some number of them, the maps are the same. -/
theorem C143_quarter_turns (w : World E) (hx : ExtOk w.x) (hq : PixOk w.q) (iau : Bool)
    (ha : Agree w.x w.q iau) (hdet : ∀ az el, IsRot (w.x.detOffset az el 0)) (hns : 0 < w.nsideOut)
    (M M' : Motion) (o : Opts) (hbin : o.binning = true)
    (hpre : o.preview = false) (hgr : o.ground = false) (hre : o.reuseSpinmaps = false) (N : Nat)
    (hbore : ∀ t, t < N → IsRot (M.bore t))
    (h1 : M'.time = M.time) (h2 : M'.bore = M.bore) (h3 : M'.rot = M.rot) (h4 : M'.flag = M.flag)
    (hquarter : ∀ t, t < N → ∃ k : Int, M'.alpha t = M.alpha t + k * (Real.pi / 2))
    (chunks : List Chunk) (hmi : Mission N chunks) (hang : ∀ c ∈ chunks, c.hwpang = none) (i i' : Inst E)
    (hi : Ready w chunks i) (hrot : Rotates N chunks i.rot M.rot)
    (hhwp : Plate w.fsamp N i.hwp M.alpha) (hst : Steady w M chunks i.el)
    (hi' : Ready w chunks i') (hrot' : Rotates N chunks i'.rot M'.rot)
    (hhwp' : Plate w.fsamp N i'.hwp M'.alpha) (hst' : Steady w M' chunks i'.el)
    (beams : List Pair) (nside : Nat) (sm : Pair → Spinmaps SpinDict)
    (hm : ∀ p ∈ beams, MapsOk w nside (sm p) p)
    (hold : ∀ p ∈ beams, p ≠ (none, none) →
      isOld (sm p).main = true ∧ ∀ d, some d ∈ (sm p).ghosts → isOld d = true)
    (size size' : Nat) (hsize : 0 < size) (hsize' : 0 < size') :
    ∃ m, scanAll w o beams true size i = .ok m ∧ scanAll w o beams true size' i' = .ok m := by
  refine same_maps w hx hq iau ha hdet hns M M' o hbin hpre hgr hre N hbore h1 h2 h3 h4 hquarter chunks hmi
    hang i i' hi hrot hhwp hst hi' hrot' hhwp' hst' beams nside sm hm ?_ size size' hsize hsize'
  intro p hp hn b t ht
  obtain ⟨o1, o2⟩ := hold p hp hn
  have hk := hquarter t ht
  unfold detects
  rw [motion_quarter h1 h2 h3 hk _ _ _ (.inl o1)]
  congr 2
  apply List.map_congr_left
  intro g _
  apply motion_quarter h1 h2 h3 hk
  unfold ghostMaps
  split
  next d hg => exact .inl (o2 d (Interrupted.pyGet_mem hg))
  next => exact .inr rfl

theorem motion_half {M M' : Motion} (h1 : M'.time = M.time) (h2 : M'.bore = M.bore) (h3 : M'.rot = M.rot)
    {t : Nat} (hk : ∃ k : Int, M'.alpha t = M.alpha t + k * Real.pi) (x : Ext) (interp : Bool)
    (nside : Nat) (d : SpinDict) (b : Timeline.Beam) :
    M'.signal x interp nside d b t = M.signal x interp nside d b t := by
  obtain ⟨k, hk⟩ := hk
  unfold Motion.signal
  rw [h1, h2, h3, hk]
  generalize offset x (M.rot t) b = q
  have e : sampleAt x interp q nside (M.time t) (M.bore t) (M.alpha t + k * Real.pi) =
      { sampleAt x interp q nside (M.time t) (M.bore t) (M.alpha t) with
        alpha := (sampleAt x interp q nside (M.time t) (M.bore t) (M.alpha t)).alpha + k * Real.pi } := by
    unfold sampleAt
    split <;> rfl
  rw [e]
  generalize sampleAt x interp q nside (M.time t) (M.bore t) (M.alpha t) = y
  generalize b.polang * Real.pi / 180 = psi
  have hr : ∀ e, spinSumReal e { y with alpha := y.alpha + k * Real.pi } = spinSumReal e y :=
    fun _ => rfl
  have hs : ∀ e, spinSum e { y with alpha := y.alpha + k * Real.pi } = spinSum e y := fun _ => rfl
  have hsee : ∀ e, see { y with alpha := y.alpha + k * Real.pi } e = see y e := fun _ => rfl
  have ex : ∀ z : ℂ, ∀ n : Int, Complex.exp (z + n * (2 * Real.pi * Complex.I)) = Complex.exp z := by
    intro z n
    rw [Complex.exp_add, Complex.exp_int_mul_two_pi_mul_I, mul_one]
  have e4 : Complex.exp (Complex.I * (4 * ((y.alpha + k * Real.pi : ℝ) : ℂ) + 2 * (psi : ℂ))) =
      Complex.exp (Complex.I * (4 * (y.alpha : ℂ) + 2 * (psi : ℂ))) := by
    rw [← ex (Complex.I * (4 * (y.alpha : ℂ) + 2 * (psi : ℂ))) (2 * k)]
    congr 1
    push_cast
    ring
  have e2 : ∀ z : ℂ, Complex.exp (Complex.I * (2 * ((y.alpha + k * Real.pi : ℝ) : ℂ) + z)) =
      Complex.exp (Complex.I * (2 * (y.alpha : ℂ) + z)) := by
    intro z
    rw [← ex (Complex.I * (2 * (y.alpha : ℂ) + z)) k]
    congr 1
    push_cast
    ring
  have e20 := e2 0
  simp only [add_zero] at e20
  have hp : pairS0a2 (Timeline.part d .s0a2) psi { y with alpha := y.alpha + k * Real.pi } =
      pairS0a2 (Timeline.part d .s0a2) psi y := by
    funext s
    unfold pairS0a2
    simp only [hsee, e20]
    have ea : Complex.exp (Complex.I * (2 * ((y.alpha + k * Real.pi : ℝ) : ℂ) + 2 * (psi : ℂ) - s * (y.pa : ℂ))) =
        Complex.exp (Complex.I * (2 * (y.alpha : ℂ) + 2 * (psi : ℂ) - s * (y.pa : ℂ))) := by
      have := e2 (2 * (psi : ℂ) - s * (y.pa : ℂ))
      rwa [← add_sub_assoc, ← add_sub_assoc] at this
    have eb : Complex.exp (Complex.I * (2 * ((y.alpha + k * Real.pi : ℝ) : ℂ) - 2 * (psi : ℂ) + s * (y.pa : ℂ))) =
        Complex.exp (Complex.I * (2 * (y.alpha : ℂ) - 2 * (psi : ℂ) + s * (y.pa : ℂ))) := by
      have := e2 (- 2 * (psi : ℂ) + s * (y.pa : ℂ))
      rw [← add_assoc, ← add_assoc] at this
      simpa [sub_eq_add_neg] using this
    rw [ea, eb]
  unfold Timeline.signal
  simp only [hr, hs, e4, e20, hp]

/-- **C143.** With any beams, ghosts and Mueller matrices, the angle of the plate counts only up to half
turns. -/
theorem C143_half_turns (w : World E) (hx : ExtOk w.x) (hq : PixOk w.q) (iau : Bool)
    (ha : Agree w.x w.q iau) (hdet : ∀ az el, IsRot (w.x.detOffset az el 0)) (hns : 0 < w.nsideOut)
    (M M' : Motion) (o : Opts) (hbin : o.binning = true)
    (hpre : o.preview = false) (hgr : o.ground = false) (hre : o.reuseSpinmaps = false) (N : Nat)
    (hbore : ∀ t, t < N → IsRot (M.bore t))
    (h1 : M'.time = M.time) (h2 : M'.bore = M.bore) (h3 : M'.rot = M.rot) (h4 : M'.flag = M.flag)
    (hhalf : ∀ t, t < N → ∃ k : Int, M'.alpha t = M.alpha t + k * Real.pi)
    (chunks : List Chunk) (hmi : Mission N chunks) (hang : ∀ c ∈ chunks, c.hwpang = none) (i i' : Inst E)
    (hi : Ready w chunks i) (hrot : Rotates N chunks i.rot M.rot)
    (hhwp : Plate w.fsamp N i.hwp M.alpha) (hst : Steady w M chunks i.el)
    (hi' : Ready w chunks i') (hrot' : Rotates N chunks i'.rot M'.rot)
    (hhwp' : Plate w.fsamp N i'.hwp M'.alpha) (hst' : Steady w M' chunks i'.el)
    (beams : List Pair) (nside : Nat) (sm : Pair → Spinmaps SpinDict)
    (hm : ∀ p ∈ beams, MapsOk w nside (sm p) p)
    (size size' : Nat) (hsize : 0 < size) (hsize' : 0 < size') :
    ∃ m, scanAll w o beams true size i = .ok m ∧ scanAll w o beams true size' i' = .ok m := by
  refine same_maps w hx hq iau ha hdet hns M M' o hbin hpre hgr hre N hbore h1 h2 h3 h4
    (fun t ht => ?_) chunks hmi hang i i' hi hrot hhwp hst hi' hrot' hhwp' hst' beams nside sm hm ?_ size size'
    hsize hsize'
  · obtain ⟨k, hk⟩ := hhalf t ht
    exact ⟨2 * k, by rw [hk]; push_cast; ring⟩
  · intro p hp hn b t ht
    unfold detects
    rw [motion_half h1 h2 h3 (hhalf t ht)]
    congr 2
    apply List.map_congr_left
    intro g _
    exact motion_half h1 h2 h3 (hhalf t ht) _ _ _ _ _

namespace Sieved

open Rec Whole

theorem misread_ok (e : ℝ) : ∀ p ∈ [(some b, none), (some b, some b)],
    MapsOk w 1 sm (misreadPair e p) := by
  intro p hp
  have hb : ∀ x, live (some (misread e b)) = some x → x.beam.ghost = false ∧
      DictOk (12 * 1 ^ 2) sm.main ∧ ∀ g ∈ x.ghosts, g.dead = false → g.ghost = true ∧
        ∃ d, pyGet sm.ghosts g.ghostIdx = .ok (some d) ∧ DictOk (12 * 1 ^ 2) d := by
    intro x hx
    obtain rfl := Option.some.inj hx
    exact ⟨rfl, sm_ok, by intro g hg; cases hg⟩
  simp only [List.mem_cons, List.not_mem_nil, or_false] at hp
  rcases hp with rfl | rfl
  · refine .inr ⟨_, rfl, rfl, one_pos, ?_⟩
    rintro x (hx | hx)
    · exact hb x hx
    · cases hx
  · refine .inr ⟨_, rfl, rfl, one_pos, ?_⟩
    rintro x (hx | hx)
    · exact hb x hx
    · exact hb x hx

/-- The hypotheses of `C143_turned` are met: a detector and a pair of detectors, whose angles are thought
to be 10 degrees higher, with `varphi` 3 degrees higher. -/
example : ∃ m m', scanAll w o [(some b, none), (some b, some b)] true 1 i = .ok m ∧
    scanAll { w with varphi := w.varphi + 3 } o ([(some b, none), (some b, some b)].map (misreadPair 10)) true
      2 i = .ok m' := by
  obtain ⟨m, m', h1, h2, -⟩ := C143_turned w ext_ok pix_ok solve_ok false agree (fun _ _ => by
      show IsRot ![1, 0, 0, 0]
      unfold IsRot
      rw [Fin.sum_univ_four]
      simp) one_pos M o rfl rfl rfl rfl 3 (fun _ _ => by
      show IsRot ![1, 0, 0, 0]
      unfold IsRot
      rw [Fin.sum_univ_four]
      simp) chunks mission_ok (by decide) i ready rotates plate (steady _) 10 3
    [(some b, none), (some b, some b)] 1 (fun _ => sm) (fun p hp => by
      have := misread_ok 0 p hp
      have e : misreadPair 0 p = p := by
        rcases p with ⟨_ | _, _ | _⟩ <;> simp [misreadPair, misread]
      rwa [e] at this) (misread_ok 10) 1 2 one_pos two_pos 0
  exact ⟨m, m', h1, h2⟩

/-- The same plate, half a turn further. -/
def half : Inst Unit :=
  { i with hwp := ⟨.stepped, 1, ⟨1, 0, 0⟩, 0, 0, [180, 405 / 2, 225], ⟨[180, 405 / 2, 225], 0⟩⟩ }

def halfM : Motion := { M with alpha := fun t => M.alpha t + Real.pi }

theorem half_plate : Plate w.fsamp 3 half.hwp halfM.alpha := by
  have ht : Hwp.truncInt ((1 : ℝ) / 1) = ((1 : Nat) : Int) := by
    unfold Hwp.truncInt
    simp
  refine .stepped 1 one_pos 1 0 0 [180, 405 / 2, 225] one_ne_zero ht (by simp) ?_ ?_ ?_
  · intro a ha
    simp only [List.mem_cons, List.not_mem_nil, or_false] at ha
    rcases ha with rfl | rfl | rfl <;> norm_num
  · have ht' : Hwp.truncInt (w.fsamp / 1) = 1 := ht
    unfold Hwp.setHwpMod
    rw [if_neg (by simp), if_pos rfl, ht']
    rfl
  · intro t h
    interval_cases t
    · exact ⟨180, rfl, by show (0 : ℝ) + Real.pi = _; ring⟩
    · exact ⟨405 / 2, rfl, by show Real.pi / 8 + Real.pi = _; ring⟩
    · exact ⟨225, rfl, by show Real.pi / 4 + Real.pi = _; ring⟩

theorem half_steady (cs : List Chunk) : Steady w halfM cs () := by
  refine ⟨fun _ _ => True, trivial, fun first e _ => ⟨(), ?_, (), rfl, trivial⟩⟩
  induction cs with
  | nil => rfl
  | cons c cs ih =>
    obtain ⟨p, h1, h2⟩ := points (!first) c
    exact ⟨p, (), h1, ⟨h2.times, h2.bore, h2.flag⟩, ih⟩

/-- The hypotheses of `C143_quarter_turns` are met: plates that step through 0, 22.5 and 45 degrees and
through 180, 202.5 and 225 degrees. -/
example : ∃ m, scanAll w o beams true 1 i = .ok m ∧ scanAll w o beams true 2 half = .ok m :=
  C143_quarter_turns w ext_ok pix_ok false agree (fun _ _ => by
      show IsRot ![1, 0, 0, 0]
      unfold IsRot
      rw [Fin.sum_univ_four]
      simp) one_pos M halfM o rfl rfl rfl rfl 3 (fun _ _ => by
      show IsRot ![1, 0, 0, 0]
      unfold IsRot
      rw [Fin.sum_univ_four]
      simp) rfl rfl rfl rfl (fun t _ => ⟨2, by show M.alpha t + Real.pi = _; push_cast; ring⟩)
    chunks mission_ok (by decide) i half ready rotates plate (steady _)
    ⟨rfl, rfl, rfl, .inl rfl, rfl⟩ (.fixed rfl fun _ _ => rfl) half_plate (half_steady _) beams 1
    (fun _ => sm) maps (fun p _ _ => ⟨by decide +kernel, fun d hd => by cases hd⟩) 1 2 one_pos two_pos

/-- The hypotheses of `C143_half_turns` are met, with the same plates. -/
example : ∃ m, scanAll w o beams true 1 i = .ok m ∧ scanAll w o beams true 2 half = .ok m :=
  C143_half_turns w ext_ok pix_ok false agree (fun _ _ => by
      show IsRot ![1, 0, 0, 0]
      unfold IsRot
      rw [Fin.sum_univ_four]
      simp) one_pos M halfM o rfl rfl rfl rfl 3 (fun _ _ => by
      show IsRot ![1, 0, 0, 0]
      unfold IsRot
      rw [Fin.sum_univ_four]
      simp) rfl rfl rfl rfl (fun t _ => ⟨1, by show M.alpha t + Real.pi = _; push_cast; ring⟩)
    chunks mission_ok (by decide) i half ready rotates plate (steady _)
    ⟨rfl, rfl, rfl, .inl rfl, rfl⟩ (.fixed rfl fun _ _ => rfl) half_plate (half_steady _) beams 1
    (fun _ => sm) maps 1 2 one_pos two_pos

end Sieved

end Verif.Props
