import Verif.Spec.Turning
import Verif.Props.ScanInstrument
import Verif.Props.Quat

/-!
# C142: turning the instrument
-/

noncomputable section

namespace Verif.Props

open Verif.Chunks Verif.Timeline Verif.Spinmaps Verif.MapMaking Verif.ScanInstrument Verif.Spec

variable {E E' : Type}

theorem zRot_rot (a : ℝ) : IsRot (zRot a) := by
  unfold IsRot zRot
  rw [Fin.sum_univ_four]
  simp

theorem offset_zRot (x : Ext) (a : ℝ) (b : Timeline.Beam) :
    offset x a b = Quat.quatLeftMult (zRot a) (x.detOffset b.az b.el 0) := rfl

theorem binOff_zRot (off : Quat.Q) (p : ℝ) : binOff off p = Quat.quatLeftMult off (zRot (-p)) := by
  unfold binOff zRot radians
  dsimp only
  congr 3 <;> ring_nf

theorem zRot_add (a b : ℝ) : Quat.quatLeftMult (zRot a) (zRot b) = zRot (a + b) := by
  have h : (a + b) * Real.pi / 180 / 2 = a * Real.pi / 180 / 2 + b * Real.pi / 180 / 2 := by ring
  unfold zRot
  rw [h, Real.cos_add, Real.sin_add]
  funext i
  fin_cases i <;> simp [Quat.quatLeftMult]

theorem sample_total {x : Ext} {q : QExt} (hj : Joined x q) {N : Nat} {M M' : Motion}
    (hs : SameTotal N M M') (interp : Bool) (nside : Nat) (b : Timeline.Beam) {t : Nat} (ht : t < N) :
    sampleAt x interp (offset x (M'.rot t) b) nside (M'.time t) (M'.bore t) (M'.alpha t) =
      sampleAt x interp (offset x (M.rot t) b) nside (M.time t) (M.bore t) (M.alpha t) := by
  rw [hs.time t ht, hs.alpha t ht]
  unfold sampleAt
  have hd := hj.det b.az b.el
  cases interp with
  | true =>
    simp only [if_true]
    rw [offset_zRot, offset_zRot, hj.radec _ _ _ _ hd (hs.bore' t ht), hj.radec _ _ _ _ hd (hs.bore t ht)]
    rcases hs.total t ht with e | e
    · rw [e]
    · rw [e, hj.radecSign]
  | false =>
    simp only [Bool.false_eq_true, if_false]
    rw [offset_zRot, offset_zRot, hj.pix _ _ _ _ _ hd (hs.bore' t ht), hj.pix _ _ _ _ _ hd (hs.bore t ht)]
    rcases hs.total t ht with e | e
    · rw [e]
    · rw [e, hj.pixSign]

theorem detects_total {x : Ext} {q : QExt} (hj : Joined x q) {N : Nat} {M M' : Motion}
    (hs : SameTotal N M M') (interp : Bool) (nside : Nat) (sm : Spinmaps SpinDict) (b : BinBeam) {t : Nat}
    (ht : t < N) : detects M' x interp nside sm b t = detects M x interp nside sm b t := by
  unfold detects Motion.signal
  simp only [sample_total hj hs interp nside _ ht]

theorem obs_total {x : Ext} {q : QExt} (hj : Joined x q) {N : Nat} {M M' : Motion}
    (hs : SameTotal N M M') (varphi : ℝ) (nside : Nat) (b : BinBeam) {t : Nat} (ht : t < N) (d : ℝ) :
    obsAt M' x q varphi nside b t d = obsAt M x q varphi nside b t d := by
  unfold obsAt
  rw [hs.time t ht, hs.alpha t ht]
  have hr : IsRot (Quat.quatLeftMult (x.detOffset b.beam.az b.beam.el 0) (zRot (-b.polangBin))) :=
    isRot_mult _ _ (hj.det _ _) (zRot_rot _)
  have e : ∀ a, binOff (offset x a b.beam) b.polangBin =
      Quat.quatLeftMult (zRot a) (Quat.quatLeftMult (x.detOffset b.beam.az b.beam.el 0)
        (zRot (-b.polangBin))) := fun a => by
    rw [binOff_zRot, offset_zRot, C26_assoc]
  rw [e, e, hj.bin _ _ _ _ _ _ hr (hs.bore' t ht), hj.bin _ _ _ _ _ _ hr (hs.bore t ht)]
  rcases hs.total t ht with e | e
  · rw [e]
  · rw [e, hj.binSign]

theorem pairObs_total {x : Ext} {q : QExt} (hj : Joined x q) {N : Nat} {M M' : Motion}
    (hs : SameTotal N M M') (varphi : ℝ) (nside : Nat) (c : ℝ) (val val' : BinBeam → Nat → ℝ)
    (hv : ∀ b t, t < N → val' b t = val b t) (p : Pair) {t : Nat} (ht : t < N) :
    pairObs M' x q varphi nside c val' p t = pairObs M x q varphi nside c val p t := by
  unfold pairObs
  rw [hs.flag t ht]
  simp only [obs_total hj hs _ _ _ ht, hv _ t ht]

/-- **C142.** Two strategies, which may rotate the instrument in different ways and point the telescope in
different ways, with different chunks and numbers of ranks.  If the boresight turned by the rotation
of the instrument is the same in each sample, and time, HWP angle and flags are the same, the maps are
the same. -/
theorem C142_turned (w : World E) (w' : World E') (hxw : w'.x = w.x) (hqw : w'.q = w.q)
    (hvw : w'.varphi = w.varphi) (hnw : w'.nsideOut = w.nsideOut) (hx : ExtOk w.x) (hq : PixOk w.q)
    (hj : Joined w.x w.q) (hns : 0 < w.nsideOut) (M M' : Motion) (o : Opts) (hbin : o.binning = true)
    (hpre : o.preview = false) (hgr : o.ground = false) (hre : o.reuseSpinmaps = false) (N : Nat)
    (hs : SameTotal N M M')
    (chunks : List Chunk) (hmi : Mission N chunks) (hang : ∀ c ∈ chunks, c.hwpang = none) (i : Inst E)
    (hi : Ready w chunks i) (hrot : Rotates N chunks i.rot M.rot)
    (hhwp : Plate w.fsamp N i.hwp M.alpha) (hst : Steady w M chunks i.el)
    (chunks' : List Chunk) (hmi' : Mission N chunks') (hang' : ∀ c ∈ chunks', c.hwpang = none)
    (i' : Inst E') (hi' : Ready w' chunks' i') (hrot' : Rotates N chunks' i'.rot M'.rot)
    (hhwp' : Plate w'.fsamp N i'.hwp M'.alpha) (hst' : Steady w' M' chunks' i'.el)
    (beams : List Pair) (nside : Nat) (sm : Pair → Spinmaps SpinDict)
    (hm : ∀ p ∈ beams, MapsOk w nside (sm p) p) (hm' : ∀ p ∈ beams, MapsOk w' nside (sm p) p)
    (size size' : Nat) (hsize : 0 < size) (hsize' : 0 < size') :
    ∃ m, scanAll w o beams true size i = .ok m ∧ scanAll w' o beams true size' i' = .ok m := by
  have h1 := all_spec w hq hns M o hbin hgr (fun p => detects M w.x o.interp nside (sm p)) N chunks
    hmi i hi (moves_spec w.fsamp M N chunks hmi hang i.rot i.hwp hrot hhwp) hst beams size hsize
    fun p hp => pairGood_scan w hx M chunks o hpre hre nside (sm p) p (hm p hp)
  have h2 := all_spec w' (hqw ▸ hq) (hnw ▸ hns) M' o hbin hgr
    (fun p => detects M' w'.x o.interp nside (sm p)) N chunks'
    hmi' i' hi' (moves_spec w'.fsamp M' N chunks' hmi' hang' i'.rot i'.hwp hrot' hhwp') hst' beams size'
    hsize' fun p hp => pairGood_scan w' (hxw ▸ hx) M' chunks' o hpre hre nside (sm p) p (hm' p hp)
  refine ⟨_, h1, h2.trans ?_⟩
  rw [hnw]
  congr 2
  apply flatMap_congr'
  intro p _
  unfold missionObs
  apply flatMap_congr'
  intro t ht
  have ht := List.mem_range.1 ht
  rw [hxw, hqw, hvw, hnw]
  exact pairObs_total hj hs _ _ _ _ _ (fun b t ht => detects_total hj hs _ _ _ _ ht) p ht

theorem zRot_turns (a : ℝ) (k : Int) : zRot (a + 360 * k) = zRot a ∨ zRot (a + 360 * k) = -zRot a := by
  have h : (a + 360 * k) * Real.pi / 180 / 2 = a * Real.pi / 180 / 2 + k * Real.pi := by ring
  unfold zRot
  rw [h, Real.cos_add_int_mul_pi, Real.sin_add_int_mul_pi]
  rcases Int.even_or_odd k with hk | hk
  · left
    rw [hk.neg_one_zpow]
    simp
  · right
    rw [hk.neg_one_zpow]
    funext i
    fin_cases i <;> simp

theorem mult_neg (p q : Quat.Q) : Quat.quatLeftMult p (-q) = -Quat.quatLeftMult p q := by
  funext i
  fin_cases i <;> simp [Quat.quatLeftMult] <;> ring

/-- **C142.** This is so if the angles of the instrument differ by full turns, by different numbers of them
in different samples. -/
theorem C142_full_turns (N : Nat) (M M' : Motion) (h1 : M'.time = M.time) (h2 : M'.bore = M.bore)
    (h3 : M'.alpha = M.alpha) (h4 : M'.flag = M.flag) (hbore : ∀ t, t < N → IsRot (M.bore t))
    (hrot : ∀ t, t < N → ∃ k : Int, M'.rot t = M.rot t + 360 * k) : SameTotal N M M' := by
  refine ⟨by simp [h1], by simp [h3], by simp [h4], fun t ht => ?_, hbore, by rw [h2]; exact hbore⟩
  obtain ⟨k, hk⟩ := hrot t ht
  rw [hk, h2]
  rcases zRot_turns (M.rot t) k with e | e
  · left
    rw [e]
  · right
    rw [e, mult_neg]

/-- **C142.** And if the strategy does not rotate the instrument, but points the telescope with the turned
boresight. -/
theorem C142_in_boresight (N : Nat) (M : Motion) (hbore : ∀ t, t < N → IsRot (M.bore t)) :
    SameTotal N M { M with rot := fun _ => 0, bore := fun t => Quat.quatLeftMult (M.bore t) (zRot (M.rot t)) } := by
  refine ⟨fun _ _ => rfl, fun _ _ => rfl, fun _ _ => rfl, fun t _ => .inl ?_, hbore, fun t ht =>
    isRot_mult _ _ (hbore t ht) (zRot_rot _)⟩
  have : zRot 0 = ![1, 0, 0, 0] := by simp [zRot]
  dsimp only
  rw [this, (C26_unit _).2]

/-! Detectors on the boresight -/

theorem sample_roll {x : Ext} (hr : Rolls x) (interp : Bool) (nside : Nat) (a r t : ℝ) (bore : Quat.Q)
    (hb : IsRot bore) (alpha : ℝ) (b : Timeline.Beam) (haz : b.az = 0) (hel : b.el = 0) :
    ∃ n : Int, sampleAt x interp (offset x (r + a) b) nside t bore alpha =
      { sampleAt x interp (offset x r b) nside t bore alpha with
        pa := (sampleAt x interp (offset x r b) nside t bore alpha).pa + a * Real.pi / 180 -
          n * (2 * Real.pi) } := by
  have e : ∀ r, offset x r b = zRot r := fun r => by
    rw [offset_zRot, haz, hel, hr.centre, (C26_unit _).2]
  rw [e, e, ← zRot_add]
  unfold sampleAt
  cases interp with
  | true =>
    obtain ⟨n, hn⟩ := hr.radec a (zRot r) t bore (zRot_rot r) hb
    refine ⟨n, ?_⟩
    simp only [if_true]
    rw [hn]
    simp only [Smp.mk.injEq, true_and, and_true]
    ring
  | false =>
    obtain ⟨n, hn⟩ := hr.pix a (zRot r) t bore nside (zRot_rot r) hb
    refine ⟨n, ?_⟩
    simp only [Bool.false_eq_true, if_false]
    rw [hn]
    simp only [Smp.mk.injEq, true_and, and_true]
    ring

theorem signal_roll {d : SpinDict} (hd : Round d) (psi delta : ℝ) (y : Smp) (n : Int) :
    Timeline.signal d psi { y with pa := y.pa + delta - n * (2 * Real.pi) } =
      Timeline.signal d (psi - delta) y := by
  obtain ⟨m, m', rfl⟩ := hd
  have hold : isOld [(.s0a0, ⟨m, [0]⟩), (.s2a4, ⟨m', [2]⟩)] = true := by simp [isOld]
  have e1 : part [(.s0a0, ⟨m, [0]⟩), (.s2a4, ⟨m', [2]⟩)] .s0a0 = ⟨m, [0]⟩ := rfl
  have e2 : part [(.s0a0, ⟨m, [0]⟩), (.s2a4, ⟨m', [2]⟩)] .s2a4 = ⟨m', [2]⟩ := rfl
  unfold Timeline.signal
  rw [hold, e1, e2]
  simp only [if_true, add_zero]
  congr 1
  · congr 1
    unfold spinSum
    cases m' with
    | nil => simp
    | cons m0 m' =>
      simp only [List.zipWith_cons_cons, List.zipWith_nil_left, List.sum_cons, List.sum_nil, add_zero]
      have hs : see { y with pa := y.pa + delta - n * (2 * Real.pi) } m0 = see y m0 := rfl
      rw [hs, mul_left_comm, mul_left_comm (Complex.exp _) (see y m0), ← Complex.exp_add, ← Complex.exp_add]
      congr 1
      have : Complex.I * (4 * (y.alpha : ℂ) + 2 * (psi : ℂ)) +
          -Complex.I * ((2 : Int) : ℂ) * ((y.pa + delta - n * (2 * Real.pi) : ℝ) : ℂ) =
          Complex.I * (4 * (y.alpha : ℂ) + 2 * ((psi - delta : ℝ) : ℂ)) +
            -Complex.I * ((2 : Int) : ℂ) * ((y.pa : ℝ) : ℂ) + ((2 * n : Int) : ℂ) * (2 * Real.pi * Complex.I) := by
        push_cast
        ring
      rw [this, Complex.exp_add _ (((2 * n : Int) : ℂ) * _), Complex.exp_int_mul_two_pi_mul_I, mul_one]
  · unfold spinSumReal
    cases m with
    | nil => rfl
    | cons m0 m =>
      simp only [List.zipWith_cons_cons, List.zipWith_nil_left]
      simp [see]

theorem detects_roll {x : Ext} (hr : Rolls x) {N : Nat} {M M' : Motion} {a : ℝ}
    (h1 : M'.time = M.time) (h2 : M'.bore = M.bore)
    (h3 : M'.alpha = M.alpha) (hbore : ∀ t, t < N → IsRot (M.bore t))
    (hrot : ∀ t, t < N → M.rot t = M'.rot t + a) (interp : Bool) (nside : Nat) (sm : Spinmaps SpinDict)
    (hd : Round sm.main) (b : BinBeam) (haz : b.beam.az = 0) (hel : b.beam.el = 0) (hg : b.ghosts = [])
    {t : Nat} (ht : t < N) :
    detects M' x interp nside sm (lowered a b) t = detects M x interp nside sm b t := by
  have hg' : (lowered a b).ghosts = [] := hg
  unfold detects
  rw [hg, hg']
  simp only [List.filter_nil, List.map_nil, List.sum_nil, add_zero]
  unfold Motion.signal
  rw [h1, h2, h3, hrot t ht]
  obtain ⟨n, hn⟩ := sample_roll hr interp nside a (M'.rot t) (M.time t) (M.bore t) (hbore t ht) (M.alpha t)
    b.beam haz hel
  rw [hn, signal_roll hd]
  show Timeline.signal sm.main ((b.beam.polang - a) * Real.pi / 180) _ = _
  congr 1
  ring

theorem obs_roll {x : Ext} {q : QExt} (hr : Rolls x) {N : Nat} {M M' : Motion} {a : ℝ}
    (h1 : M'.time = M.time) (h2 : M'.bore = M.bore) (h3 : M'.alpha = M.alpha)
    (hrot : ∀ t, t < N → M.rot t = M'.rot t + a) (varphi : ℝ) (nside : Nat) (b : BinBeam)
    (haz : b.beam.az = 0) (hel : b.beam.el = 0) {t : Nat} (ht : t < N) (d : ℝ) :
    obsAt M' x q varphi nside (lowered a b) t d = obsAt M x q varphi nside b t d := by
  have e : ∀ r p (b : Timeline.Beam), b.az = 0 → b.el = 0 → binOff (offset x r b) p = zRot (r - p) := by
    intro r p b haz hel
    rw [binOff_zRot, offset_zRot, haz, hel, hr.centre, (C26_unit _).2, zRot_add, sub_eq_add_neg]
  unfold obsAt
  rw [e _ _ _ haz hel, e _ _ (lowered a b).beam haz hel, h1, h2, h3, hrot t ht]
  have : M'.rot t - (lowered a b).polangBin = M'.rot t + a - b.polangBin := by
    show M'.rot t - (b.polangBin - a) = _
    ring
  rw [this]

theorem live_lowered (a : ℝ) (b : Option BinBeam) : live (b.map (lowered a)) = (live b).map (lowered a) := by
  cases b with
  | none => rfl
  | some b =>
    simp only [Option.map_some, live]
    have : (lowered a b).beam.dead = b.beam.dead := rfl
    rw [this]
    split <;> rfl

/-- **C142.** For detectors on the boresight with azimuthally symmetric beams, without ghosts and Mueller
matrix, turning the instrument by `a` degrees more is lowering their polarization angles by `a`
degrees: the maps are the same. -/
theorem C142_polarization (w : World E) (hx : ExtOk w.x) (hq : PixOk w.q)
    (hr : Rolls w.x) (hns : 0 < w.nsideOut) (M M' : Motion) (a : ℝ) (o : Opts) (hbin : o.binning = true)
    (hpre : o.preview = false) (hgr : o.ground = false) (hre : o.reuseSpinmaps = false) (N : Nat)
    (h1 : M'.time = M.time) (h2 : M'.bore = M.bore) (h3 : M'.alpha = M.alpha) (h4 : M'.flag = M.flag)
    (hbore : ∀ t, t < N → IsRot (M.bore t)) (hmore : ∀ t, t < N → M.rot t = M'.rot t + a)
    (chunks : List Chunk) (hmi : Mission N chunks) (hang : ∀ c ∈ chunks, c.hwpang = none) (i i' : Inst E)
    (hi : Ready w chunks i) (hrot : Rotates N chunks i.rot M.rot)
    (hhwp : Plate w.fsamp N i.hwp M.alpha) (hst : Steady w M chunks i.el)
    (hi' : Ready w chunks i') (hrot' : Rotates N chunks i'.rot M'.rot)
    (hhwp' : Plate w.fsamp N i'.hwp M'.alpha) (hst' : Steady w M' chunks i'.el)
    (beams : List Pair) (nside : Nat) (sm : Pair → Spinmaps SpinDict)
    (hm : ∀ p ∈ beams, MapsOk w nside (sm p) p)
    (hm' : ∀ p ∈ beams, MapsOk w nside (sm p) (loweredPair a p))
    (hc : ∀ p ∈ beams, Round (sm p).main ∧ ∀ b, (live p.1 = some b ∨ live p.2 = some b) →
      b.beam.az = 0 ∧ b.beam.el = 0 ∧ b.ghosts = [])
    (size size' : Nat) (hsize : 0 < size) (hsize' : 0 < size') :
    ∃ m, scanAll w o beams true size i = .ok m ∧
      scanAll w o (beams.map (loweredPair a)) true size' i' = .ok m := by
  have hback : ∀ p, loweredPair (-a) (loweredPair a p) = p := by
    rintro ⟨b, b'⟩
    have : ∀ b, lowered (-a) (lowered a b) = b := fun b => by simp [lowered]
    cases b <;> cases b' <;> simp [loweredPair, this]
  have g1 := all_spec w hq hns M o hbin hgr (fun p => detects M w.x o.interp nside (sm p)) N chunks
    hmi i hi (moves_spec w.fsamp M N chunks hmi hang i.rot i.hwp hrot hhwp) hst beams size hsize
    fun p hp => pairGood_scan w hx M chunks o hpre hre nside (sm p) p (hm p hp)
  have g2 := all_spec w hq hns M' o hbin hgr
    (fun p => detects M' w.x o.interp nside (sm (loweredPair (-a) p))) N chunks
    hmi i' hi' (moves_spec w.fsamp M' N chunks hmi hang i'.rot i'.hwp hrot' hhwp') hst'
    (beams.map (loweredPair a)) size' hsize' fun p' hp' => by
      obtain ⟨p, hp, rfl⟩ := List.mem_map.1 hp'
      rw [hback]
      exact pairGood_scan w hx M' chunks o hpre hre nside (sm p) _ (hm' p hp)
  refine ⟨_, g1, g2.trans ?_⟩
  rw [List.flatMap_map]
  congr 2
  apply flatMap_congr'
  intro p hp
  rw [hback]
  obtain ⟨hround, hdet⟩ := hc p hp
  unfold missionObs
  apply flatMap_congr'
  intro t ht
  have ht := List.mem_range.1 ht
  have hd : ∀ b, (live p.1 = some b ∨ live p.2 = some b) →
      detects M' w.x o.interp nside (sm p) (lowered a b) t = detects M w.x o.interp nside (sm p) b t :=
    fun b hb => detects_roll hr h1 h2 h3 hbore hmore _ _ _ hround b (hdet b hb).1 (hdet b hb).2.1
      (hdet b hb).2.2 ht
  have ho : ∀ b, (live p.1 = some b ∨ live p.2 = some b) → ∀ d,
      obsAt M' w.x w.q w.varphi w.nsideOut (lowered a b) t d = obsAt M w.x w.q w.varphi w.nsideOut b t d :=
    fun b hb d => obs_roll hr h1 h2 h3 hmore _ _ b (hdet b hb).1 (hdet b hb).2.1 ht d
  unfold pairObs
  rw [h4]
  split
  · rfl
  · show (match live (p.1.map (lowered a)), live (p.2.map (lowered a)) with
      | some a, some b => _ | some a, none => _ | none, some b => _ | none, none => _) = _
    rw [live_lowered, live_lowered]
    cases ea : live p.1 with
    | none =>
      cases eb : live p.2 with
      | none => rfl
      | some b => simp only [Option.map_none, Option.map_some, hd b (.inr eb), ho b (.inr eb)]
    | some b' =>
      cases eb : live p.2 with
      | none => simp only [Option.map_none, Option.map_some, hd b' (.inl ea), ho b' (.inl ea)]
      | some b =>
        simp only [Option.map_some, hd b (.inr eb), ho b (.inr eb), hd b' (.inl ea), ho b' (.inl ea)]

namespace Turn

open Rec Whole

/-- A sky of one pixel, with position angles that do not depend on the sign of the quaternions. -/
def ext : Ext where
  detOffset := fun _ _ _ => ![1, 0, 0, 0]
  bore2pix := fun o _ b _ => (0, -Complex.arg (zc (Quat.quatLeftMult b o) ^ 2) * 180 / Real.pi)
  bore2radec := fun o _ b => (0, 0, -Complex.arg (zc (Quat.quatLeftMult b o) ^ 2) * 180 / Real.pi)
  weights := fun _ _ _ => [(0, 1)]
  ang2pix := fun _ _ _ => 0

theorem ext_ok : ExtOk ext := by
  constructor
  · intro q t b n hn
    have : (0 : Int) < (n : Int) ^ 2 := by positivity
    exact ⟨le_refl _, by show (0 : Int) < _; omega⟩
  · intro n th ph hn iw hiw
    have : (0 : Int) < (n : Int) ^ 2 := by positivity
    have h : iw = (0, 1) := by simpa [ext] using hiw
    rw [h]
    exact ⟨le_refl _, by show (0 : Int) < _; omega⟩

theorem zc_neg (q : Quat.Q) : zc (-q) = -zc q := by
  unfold zc
  have : ((-q) 0 : ℂ) + ((-q) 3 : ℝ) * Complex.I = -((q 0 : ℂ) + q 3 * Complex.I) := by
    simp only [Pi.neg_apply]
    push_cast
    ring
  rw [this]
  simp only [neg_eq_zero]
  split
  · simp only [Pi.neg_apply]
    push_cast
    ring
  · rfl

theorem neg_mult (p q : Quat.Q) : Quat.quatLeftMult (-p) q = -Quat.quatLeftMult p q := by
  funext i
  fin_cases i <;> simp [Quat.quatLeftMult] <;> ring

theorem one_rot : IsRot ![1, 0, 0, 0] := by
  unfold IsRot
  rw [Fin.sum_univ_four]
  simp

theorem joined : Joined ext qp := by
  refine ⟨?_, ?_, ?_, ?_, ?_, ?_, fun _ _ => one_rot⟩
  · intro r off t bore n _ _
    simp only [ext, C26_assoc]
  · intro r off t bore _ _
    simp only [ext, C26_assoc]
  · intro r off t bore h n _ _
    simp only [qp, C26_assoc]
  · intro off t bore n
    simp only [ext, neg_mult, zc_neg, neg_sq]
  · intro off t bore
    simp only [ext, neg_mult, zc_neg, neg_sq]
  · intro off t bore h n
    have : ∀ z : ℂ, (star (-z) / (‖-z‖ : ℂ)) ^ 4 = (star z / (‖z‖ : ℂ)) ^ 4 := fun z => by
      rw [star_neg, norm_neg, neg_div, Even.neg_pow (by decide)]
    simp only [qp, neg_mult, zc_neg, this]

theorem zRot_rz (a : ℝ) : zRot a = rz (a * Real.pi / 180) := rfl

theorem arg_roll (u : ℂ) (hu : u ≠ 0) (a : ℝ) : ∃ n : Int,
    -Complex.arg ((u * Complex.exp (((a * Real.pi / 180 : ℝ) : ℂ) / 2 * Complex.I)) ^ 2) * 180 / Real.pi =
      -Complex.arg (u ^ 2) * 180 / Real.pi - a + 360 * n := by
  have hp := Real.pi_ne_zero
  have e : (u * Complex.exp (((a * Real.pi / 180 : ℝ) : ℂ) / 2 * Complex.I)) ^ 2 =
      u ^ 2 * Complex.exp (((a * Real.pi / 180 : ℝ) : ℂ) * Complex.I) := by
    rw [mul_pow, ← Complex.exp_nat_mul]
    congr 2
    push_cast
    ring
  have h1 : ((Complex.arg (u ^ 2 * Complex.exp (((a * Real.pi / 180 : ℝ) : ℂ) * Complex.I)) : ℝ) : Real.Angle) =
      ((Complex.arg (u ^ 2) + a * Real.pi / 180 : ℝ) : Real.Angle) := by
    have hc := Complex.arg_cos_add_sin_mul_I_coe_angle ((a * Real.pi / 180 : ℝ) : Real.Angle)
    rw [Real.Angle.cos_coe, Real.Angle.sin_coe, Complex.ofReal_cos, Complex.ofReal_sin,
      ← Complex.exp_mul_I] at hc
    rw [Complex.arg_mul_coe_angle (pow_ne_zero 2 hu) (Complex.exp_ne_zero _), hc, Real.Angle.coe_add]
  rw [Real.Angle.angle_eq_iff_two_pi_dvd_sub] at h1
  obtain ⟨k, hk⟩ := h1
  refine ⟨-k, ?_⟩
  rw [e]
  have : Complex.arg (u ^ 2 * Complex.exp (((a * Real.pi / 180 : ℝ) : ℂ) * Complex.I)) =
      Complex.arg (u ^ 2) + a * Real.pi / 180 + 2 * Real.pi * k := by linarith
  rw [this]
  push_cast
  field_simp
  ring

theorem rolls : Rolls ext := by
  refine ⟨?_, ?_, rfl⟩
  · intro a off t bore n ho hb
    obtain ⟨k, hk⟩ := arg_roll (zc (Quat.quatLeftMult bore off)) (zc_ne _ (isRot_mult _ _ hb ho)) a
    refine ⟨k, ?_⟩
    simp only [ext, ← C26_assoc, zRot_rz, zc_rz, Prod.mk.injEq, true_and]
    exact hk
  · intro a off t bore ho hb
    obtain ⟨k, hk⟩ := arg_roll (zc (Quat.quatLeftMult bore off)) (zc_ne _ (isRot_mult _ _ hb ho)) a
    refine ⟨k, ?_⟩
    simp only [ext, ← C26_assoc, zRot_rz, zc_rz, Prod.mk.injEq, true_and]
    exact hk

/-- Maps of a polarized sky seen by a symmetric beam. -/
def sm : Spinmaps SpinDict :=
  ⟨[(.s0a0, ⟨[List.replicate 12 3], [0]⟩), (.s2a4, ⟨[List.replicate 12 1], [2]⟩)], none, []⟩

theorem sm_ok : DictOk (12 * 1 ^ 2) sm.main := by
  refine ⟨?_, .inl rfl, ?_, ?_, ?_, ?_⟩
  · intro x hx
    simp only [sm, List.mem_cons, List.not_mem_nil, or_false] at hx
    rcases hx with rfl | rfl <;>
      exact ⟨rfl, by simp, by intro m hm; rw [List.mem_singleton.1 hm]; simp⟩
  · intro s hs
    have hs : s ∈ [(0 : Int)] := hs
    rw [List.mem_singleton.1 hs]
  · exact List.nodup_nil
  · intro s hs
    cases hs
  · intro h
    cases h

/-- A strategy that points with the boresight `b` in each sample. -/
def w (b : Quat.Q) : World Unit := { Whole.w with
  x := ext
  spinmaps := fun _ => .ok sm
  implement := fun e c _ _ => .ok (⟨(List.range (c.stop - c.start).toNat).map fun k =>
      ((c.start.toNat + k : Nat) : ℝ), List.replicate (c.stop - c.start).toNat b, none, none⟩, e) }

def M (b : Quat.Q) (a : ℝ) : Motion := { Whole.M with bore := fun _ => b, rot := fun _ => a }

/-- An instrument turned by `a` degrees. -/
def i (a : ℝ) : Inst Unit := { Whole.i with rot := { Whole.rot with angle := a, startAng := a } }

theorem ready (b : Quat.Q) (a : ℝ) : Ready (w b) chunks (i a) := ⟨rfl, rfl, rfl, .inl rfl, rfl⟩

theorem rotates (b : Quat.Q) (a : ℝ) : Rotates 3 chunks (i a).rot (M b a).rot := .fixed rfl fun _ _ => rfl

theorem steady (b : Quat.Q) (a : ℝ) (cs : List Chunk) : Steady (w b) (M b a) cs () := by
  refine ⟨fun _ _ => True, trivial, fun first e _ => ⟨(), ?_, (), rfl, trivial⟩⟩
  induction cs with
  | nil => rfl
  | cons c cs ih =>
    refine ⟨_, (), rfl, ⟨rfl, ?_, ?_⟩, ih⟩
    · simp [M]
    · intro k _
      rfl

/-- A detector on the boresight, and a place without detectors. -/
def beams : List Pair := [(some ⟨⟨false, false, 0, 0, 0, 10⟩, [], 10⟩, none), (none, none)]

theorem maps_ok (b : Quat.Q) (a : ℝ) : ∀ p ∈ beams, MapsOk (w b) 1 sm (loweredPair a p) := by
  intro p hp
  simp only [beams, List.mem_cons, List.not_mem_nil, or_false] at hp
  rcases hp with rfl | rfl
  · refine .inr ⟨_, rfl, rfl, one_pos, ?_⟩
    rintro b (hb | hb)
    · obtain rfl := Option.some.inj hb
      exact ⟨rfl, sm_ok, by intro g hg; cases hg⟩
    · cases hb
  · exact .inl rfl

theorem maps_ok' (b : Quat.Q) : ∀ p ∈ beams, MapsOk (w b) 1 sm p := by
  intro p hp
  have := maps_ok b 0 p hp
  have e : loweredPair 0 p = p := by
    rcases p with ⟨_ | _, _ | _⟩ <;> simp [loweredPair, lowered]
  rwa [e] at this

/-- The hypotheses of `C142_turned` are met: an instrument turned by 30 degrees on one rank, and a turned
boresight on two; `C142_in_boresight` says that the motions point alike. -/
example : ∃ m, scanAll (w ![1, 0, 0, 0]) o beams true 1 (i 30) = .ok m ∧
    scanAll (w (Quat.quatLeftMult ![1, 0, 0, 0] (zRot 30))) o beams true 2 (i 0) = .ok m :=
  C142_turned (w ![1, 0, 0, 0]) (w (Quat.quatLeftMult ![1, 0, 0, 0] (zRot 30))) rfl rfl rfl rfl ext_ok pix_ok
    joined one_pos (M ![1, 0, 0, 0] 30) (M (Quat.quatLeftMult ![1, 0, 0, 0] (zRot 30)) 0) o rfl rfl rfl rfl 3
    (C142_in_boresight 3 (M ![1, 0, 0, 0] 30) fun _ _ => one_rot) chunks mission_ok (by decide) (i 30)
    (ready _ _) (rotates _ _) plate (steady _ _ _) chunks mission_ok (by decide) (i 0) (ready _ _)
    (rotates _ _) plate (steady _ _ _) beams 1 (fun _ => sm) (maps_ok' _) (maps_ok' _) 1 2 one_pos two_pos

/-- The same with a full turn more (`C142_full_turns`). -/
example : ∃ m, scanAll (w ![1, 0, 0, 0]) o beams true 1 (i 30) = .ok m ∧
    scanAll (w ![1, 0, 0, 0]) o beams true 1 (i 390) = .ok m :=
  C142_turned (w ![1, 0, 0, 0]) (w ![1, 0, 0, 0]) rfl rfl rfl rfl ext_ok pix_ok
    joined one_pos (M ![1, 0, 0, 0] 30) (M ![1, 0, 0, 0] 390) o rfl rfl rfl rfl 3
    (C142_full_turns 3 (M ![1, 0, 0, 0] 30) (M ![1, 0, 0, 0] 390) rfl rfl rfl rfl (fun _ _ => one_rot)
      fun _ _ => ⟨1, by simp only [M]; norm_num⟩) chunks mission_ok (by decide) (i 30)
    (ready _ _) (rotates _ _) plate (steady _ _ _) chunks mission_ok (by decide) (i 390) (ready _ _)
    (rotates _ _) plate (steady _ _ _) beams 1 (fun _ => sm) (maps_ok' _) (maps_ok' _) 1 1 one_pos one_pos

/-- The hypotheses of `C142_polarization` are met. -/
example : ∃ m, scanAll (w ![1, 0, 0, 0]) o beams true 1 (i 30) = .ok m ∧
    scanAll (w ![1, 0, 0, 0]) o (beams.map (loweredPair 30)) true 2 (i 0) = .ok m :=
  C142_polarization (w ![1, 0, 0, 0]) ext_ok pix_ok rolls one_pos (M ![1, 0, 0, 0] 30) (M ![1, 0, 0, 0] 0) 30 o
    rfl rfl rfl rfl 3 rfl rfl rfl rfl (fun _ _ => one_rot) (fun _ _ => by simp [M]) chunks mission_ok
    (by decide) (i 30) (i 0) (ready _ _) (rotates _ _) plate (steady _ _ _) (ready _ _) (rotates _ _) plate
    (steady _ _ _) beams 1 (fun _ => sm) (maps_ok' _) (maps_ok _ _) (by
      intro p hp
      refine ⟨⟨_, _, rfl⟩, ?_⟩
      simp only [beams, List.mem_cons, List.not_mem_nil, or_false] at hp
      rcases hp with rfl | rfl
      · rintro b (hb | hb)
        · obtain rfl := Option.some.inj hb
          exact ⟨rfl, rfl, rfl⟩
        · cases hb
      · rintro b (hb | hb) <;> cases hb) 1 2 one_pos two_pos

end Turn

end Verif.Props
