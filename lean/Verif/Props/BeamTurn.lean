import Verif.Spec.BeamTurn
import Verif.Props.Turning
import Verif.Props.Convolution
import Verif.Props.Tables

/-!
# C148: turning a beam about its axis
-/

noncomputable section

namespace Verif.Props

open Verif.Chunks Verif.Timeline Verif.Spinmaps Verif.MapMaking Verif.ScanInstrument Verif.Spec
open Verif.Beam (Heap LimitFree)
open Verif.ScanObjects (ObjPair ObjWorld Coefs skyMaker)
open Verif.FocalScan (SharesBeam)

variable {E : Type}

namespace BeamTurn

theorem beamMode_axis (psi : ℝ) (f g : Nat → Nat → ℂ) (s : Int) (l : Nat) :
    beamMode (fun l m => f l m * Complex.exp (-Complex.I * m * psi))
      (fun l m => g l m * Complex.exp (-Complex.I * m * psi)) s l =
      beamMode f g s l * Complex.exp (-Complex.I * s * psi) := by
  unfold beamMode extended
  split
  · rw [zero_mul]
  · split
    · rename_i h
      have e : ((s.toNat : Nat) : ℂ) = (s : ℂ) := by
        have := congrArg (Int.cast : Int → ℂ) (Int.toNat_of_nonneg h)
        rwa [Int.cast_natCast] at this
      show f l s.toNat * Complex.exp (-Complex.I * ((s.toNat : Nat) : ℂ) * psi) = _
      rw [e]
    · rename_i h
      have e : ((s.natAbs : Nat) : ℂ) = -(s : ℂ) := by
        have h1 : ((s.natAbs : Nat) : Int) = -s := by omega
        have := congrArg (Int.cast : Int → ℂ) h1
        rw [Int.cast_natCast, Int.cast_neg] at this
        exact this
      show _ * star (g l s.natAbs * Complex.exp (-Complex.I * ((s.natAbs : Nat) : ℂ) * psi)) = _
      have e2 : star (Complex.exp (-Complex.I * (-(s : ℂ)) * psi)) = Complex.exp (-Complex.I * s * psi) := by
        show (starRingEnd ℂ) (Complex.exp _) = _
        rw [← Complex.exp_conj]
        simp
      rw [e, star_mul', e2, ← mul_assoc]

theorem axis_I (psi : ℝ) (v : Bool) (b : Nat → Nat → Nat → ℂ) (l : Nat) (s : Int) :
    (beamOf v (aboutAxis psi b)).I l s = (beamOf v b).I l s * Complex.exp (-Complex.I * s * psi) :=
  beamMode_axis psi (b 0) (b 0) s l

theorem axis_V (psi : ℝ) (v : Bool) (b : Nat → Nat → Nat → ℂ) (l : Nat) (s : Int) :
    (beamOf v (aboutAxis psi b)).V l s = (beamOf v b).V l s * Complex.exp (-Complex.I * s * psi) := by
  unfold beamOf
  dsimp only
  split
  · exact beamMode_axis psi (b 3) (b 3) s l
  · rw [zero_mul]

theorem axis_P (psi : ℝ) (v : Bool) (b : Nat → Nat → Nat → ℂ) (l : Nat) (s : Int) :
    (beamOf v (aboutAxis psi b)).P l s = (beamOf v b).P l s * Complex.exp (-Complex.I * s * psi) := by
  rw [FocalScan.beamOf_P, FocalScan.beamOf_P]
  exact beamMode_axis psi (b 1) (b 2) s l

theorem synth_smul (Y : Harmonics) (nside L : Nat) (s : Int) (A : Nat → Int → ℂ) (c : ℂ) (p : Nat) :
    synth Y nside L s (fun l m => c * A l m) p = c * synth Y nside L s A p := by
  unfold synth
  simp only [Finset.mul_sum, mul_assoc]

theorem look_w (x y : Smp) (h : x.w = y.w) (f : Nat → ℂ) : look x f = look y f := by
  unfold look
  rw [h]

/-- What a turned beam sees is what the beam sees at a larger position angle. -/
theorem convolved_axis (Y : Harmonics) (nside L : Nat) (S T : Finset Int) (sky : Sky) (chi psi : ℝ) (v : Bool)
    (b : Nat → Nat → Nat → ℂ) (y y' : Smp) (hw : y'.w = y.w) (n : Int)
    (hp : y'.pa = y.pa + psi - n * (2 * Real.pi)) :
    convolved Y nside L S T sky (turned chi (beamOf v (aboutAxis psi b))) y =
      convolved Y nside L S T sky (turned chi (beamOf v b)) y' := by
  have phase : ∀ s : Int, Complex.exp (-Complex.I * (s : ℂ) * (y'.pa : ℂ)) =
      Complex.exp (-Complex.I * s * psi) * Complex.exp (-Complex.I * (s : ℂ) * (y.pa : ℂ)) := by
    intro s
    rw [← Complex.exp_add, hp]
    have : -Complex.I * (s : ℂ) * ((y.pa + psi - n * (2 * Real.pi) : ℝ) : ℂ) =
        -Complex.I * s * psi + -Complex.I * (s : ℂ) * (y.pa : ℂ) +
          ((s * n : Int) : ℂ) * (2 * Real.pi * Complex.I) := by
      push_cast
      ring
    rw [this, Complex.exp_add _ (((s * n : Int) : ℂ) * _), Complex.exp_int_mul_two_pi_mul_I, mul_one]
  unfold convolved
  refine congrArg Complex.re (congrArg₂ (· + ·) ?_ ?_)
  · refine Finset.sum_congr rfl fun s _ => ?_
    rw [phase, ← mul_assoc, look_w y' y hw]
    refine congrArg (· * _) ?_
    rw [mul_comm (look y _), look_smul]
    refine congrArg (look y) (funext fun p => ?_)
    rw [← synth_smul]
    unfold synth
    refine Finset.sum_congr rfl fun l _ => Finset.sum_congr rfl fun m _ => ?_
    show ((beamOf v (aboutAxis psi b)).I l s * _ + (beamOf v (aboutAxis psi b)).V l s * _) * _ =
      (_ * ((beamOf v b).I l s * _ + (beamOf v b).V l s * _)) * _
    rw [axis_I, axis_V]
    ring
  · refine Finset.sum_congr rfl fun s _ => ?_
    rw [phase, ← mul_assoc, look_w y' y hw]
    refine congrArg (· * _) ?_
    rw [mul_comm (look y _), look_smul]
    refine congrArg (look y) (funext fun p => ?_)
    rw [← synth_smul]
    unfold synth
    refine Finset.sum_congr rfl fun l _ => Finset.sum_congr rfl fun m _ => ?_
    beta_reduce
    rw [turned_P, turned_P, axis_P]
    ring

/-- A symmetric beam: turning it is lowering the polarization angle. -/
theorem convolved_round (Y : Harmonics) (nside L : Nat) (S T : Finset Int) (sky : Sky) (chi psi : ℝ) (v : Bool)
    (b : Nat → Nat → Nat → ℂ) (hb : AxiSym b) (y : Smp) :
    convolved Y nside L S T sky (turned chi (beamOf v (aboutAxis psi b))) y =
      convolved Y nside L S T sky (turned (chi - psi) (beamOf v b)) y := by
  unfold convolved
  refine congrArg Complex.re (congrArg₂ (· + ·) ?_ ?_)
  · refine Finset.sum_congr rfl fun s _ => ?_
    refine congrArg (· * _) (congrArg (look y) (funext fun p => ?_))
    unfold synth
    refine Finset.sum_congr rfl fun l _ => Finset.sum_congr rfl fun m _ => ?_
    show ((beamOf v (aboutAxis psi b)).I l s * _ + (beamOf v (aboutAxis psi b)).V l s * _) * _ =
      ((beamOf v b).I l s * _ + (beamOf v b).V l s * _) * _
    rw [axis_I, axis_V]
    rcases eq_or_ne s 0 with rfl | hs
    · simp
    · rw [FocalScan.beamOf_I hb v hs, FocalScan.beamOf_V hb v hs]
      simp
  · refine Finset.sum_congr rfl fun s _ => ?_
    refine congrArg (· * _) (congrArg (look y) (funext fun p => ?_))
    unfold synth
    refine Finset.sum_congr rfl fun l _ => Finset.sum_congr rfl fun m _ => ?_
    beta_reduce
    rw [turned_P, turned_P, axis_P]
    rcases eq_or_ne s 2 with rfl | hs
    · have : Complex.exp (2 * ((chi - psi : ℝ) : ℂ) * Complex.I) =
          Complex.exp (2 * (chi : ℂ) * Complex.I) * Complex.exp (-Complex.I * ((2 : Int) : ℂ) * psi) := by
        rw [← Complex.exp_add]
        congr 1
        push_cast
        ring
      rw [this]
      ring
    · rw [FocalScan.beamOf_P_zero hb v hs]
      simp

theorem convolved_shift (Y : Harmonics) (nside L : Nat) (S T : Finset Int) (sky : Sky) (chi psi : ℝ) (v : Bool)
    (b : Nat → Nat → Nat → ℂ) (y : Smp) :
    convolved Y nside L S T sky (turned chi (beamOf v (aboutAxis psi b))) y =
      convolved Y nside L S T sky (turned chi (beamOf v b)) { y with pa := y.pa + psi } :=
  convolved_axis Y nside L S T sky chi psi v b y { y with pa := y.pa + psi } rfl 0 (by simp)

theorem realBeam_axis {L : Nat} {b : Nat → Nat → Nat → ℂ} (hb : RealBeam L b) (psi : ℝ) :
    RealBeam L (aboutAxis psi b) := by
  intro l hl
  simpa [aboutAxis] using hb l hl

theorem axiSym_axis {b : Nat → Nat → Nat → ℂ} (hb : AxiSym b) (psi : ℝ) : AxiSym (aboutAxis psi b) := by
  refine ⟨fun l m hm => ?_, fun l m hm => ?_, fun l m => ?_⟩
  · simp [aboutAxis, (hb.1 l m hm).1, (hb.1 l m hm).2]
  · simp [aboutAxis, hb.2.1 l m hm]
  · simp [aboutAxis, hb.2.2 l m]

end BeamTurn

section
attribute [local irreducible] convolved sampleOf turned beamOf

/-- **C148.** If a user turns the beam of a detector and those of its ghosts, each about its own axis by its
own angle `psi`, by giving the coefficients the phases `exp(-i m psi)`, each beam measures in each sample
what the beam that is not turned measures if its position angle is larger by `psi`, whatever the HWP angle and
the polarization angle. -/
theorem C148_position (Y : Harmonics) (hY : Conjugation Y) (x : Ext) (hx : ExtOk x)
    (mission : List Chunks.Chunk)
    {Ls : Nat} {alm : List (List ℂ)} {a : Nat → Nat → Nat → ℂ} {maxSpin : Int}
    {inputV beamV : Bool} {main : Detector} {ghosts : List Detector} {Lb : Detector → Nat}
    {b : Detector → Nat → Nat → Nat → ℂ} (psi : Detector → ℝ)
    (h : DetectorOk Ls alm a maxSpin inputV beamV main ghosts Lb fun g => aboutAxis (psi g) (b g))
    (ha : RealSky Ls a) (hb : ∀ g ∈ main :: ghosts, RealBeam (Lb g) (b g))
    (hm : ∀ g ∈ main :: ghosts, g.data.mueller = none)
    (nside : Nat) (hns : 0 < nside)
    (s : Sub) (interp savePoint : Bool) (st : State) (i n : Nat)
    (hs : SubOk mission st st.qBore s i n)
    (sees : Detector → Nat → ℝ)
    (hsees : ∀ g k, sees g k =
      let y := sampleOf x st interp nside i g.point k
      convolved Y nside (min Ls (Lb g)) (spinsI g.data.symmetric (min g.data.mmax maxSpin))
        (spinsP g.data.symmetric (min g.data.mmax maxSpin)) (skyOf inputV a)
        (turned (2 * y.alpha + g.point.polang * Real.pi / 180) (beamOf beamV (b g)))
        { y with pa := y.pa + psi g }) :
    observe Y x mission alm maxSpin nside inputV beamV main ghosts s interp savePoint st =
      .ok ((List.range n).map fun k => sees main k +
        ((ghosts.filter fun g => !g.point.dead).map fun g => sees g k).sum) := by
  refine C71_convolution Y hY x hx mission h ha (fun g hg => BeamTurn.realBeam_axis (hb g hg) _) hm nside hns s
    interp savePoint st i n hs sees fun g k => ?_
  rw [hsees]
  dsimp only
  rw [BeamTurn.convolved_shift]

/-- **C148, rolling.** A detector on the boresight without ghosts, whose beam is turned by `psi` degrees about its
axis, measures the timeline that it would measure with the beam as it was and an instrument that is turned by
`psi` degrees more. -/
theorem C148_rolled (Y : Harmonics) (hY : Conjugation Y) (x : Ext) (hx : ExtOk x) (hr : Rolls x)
    (mission : List Chunks.Chunk)
    {Ls : Nat} {alm : List (List ℂ)} {a : Nat → Nat → Nat → ℂ} {maxSpin : Int}
    {inputV beamV : Bool} {point : Timeline.Beam} {data : BeamData} {blm' : List (List ℂ)} {Lb : Nat}
    {b : Nat → Nat → Nat → ℂ} (psi : ℝ)
    (h : DetectorOk Ls alm a maxSpin inputV beamV ⟨point, data⟩ [] (fun _ => Lb) fun _ => b)
    (h' : HasRows Lb (nrows beamV) blm' (aboutAxis (psi * Real.pi / 180) b))
    (hl' : beamV = true → blm'.length = 4)
    (haz : point.az = 0) (hel : point.el = 0)
    (ha : RealSky Ls a) (hb : RealBeam Lb b) (hm : data.mueller = none)
    (nside : Nat) (hns : 0 < nside)
    (s : Sub) (interp savePoint : Bool) (st : State) (i n : Nat)
    (hs : SubOk mission st st.qBore s i n) (hrot : ∀ q ∈ st.qBore, IsRot q) :
    ∃ tod, observe Y x mission alm maxSpin nside inputV beamV ⟨point, { data with blm := blm' }⟩ [] s interp
        savePoint st = .ok tod ∧ tod.length = n ∧
      observe Y x mission alm maxSpin nside inputV beamV ⟨point, data⟩ [] s interp savePoint
        { st with rotAngle := st.rotAngle + psi } = .ok tod := by
  have hin := h.input ⟨point, data⟩ (by simp)
  have hd : DetectorOk Ls alm a maxSpin inputV beamV ⟨point, { data with blm := blm' }⟩ [] (fun _ => Lb)
      fun g => aboutAxis ((fun _ => psi * Real.pi / 180) g) ((fun _ => b) g) :=
    ⟨h.live, h.main_ghost, fun g hg => by
      have hg := List.mem_singleton.1 hg
      subst hg
      exact ⟨hin.sky, h', hin.skyV, hl', hin.spin0, hin.spin, hin.sym, hin.mueller⟩,
      by simp, ⟨0, fun n => by simp⟩, by simp⟩
  have e1 := C148_position Y hY x hx mission (fun _ => psi * Real.pi / 180) hd ha (fun _ _ => hb)
    (by simpa using hm) nside hns s interp savePoint st i n hs _ (fun _ _ => rfl)
  have e2 := C71_convolution Y hY x hx mission h ha (fun _ _ => hb) (by simpa using hm) nside hns s interp
    savePoint { st with rotAngle := st.rotAngle + psi } i n ⟨hs.chunk, hs.times, hs.bore, hs.hwp⟩ _ (fun _ _ => rfl)
  refine ⟨_, e1, by simp, e2.trans ?_⟩
  congr 1
  apply List.map_congr_left
  intro k hk
  have hk := List.mem_range.1 hk
  simp only [List.filter_nil, List.map_nil, List.sum_nil, add_zero]
  obtain ⟨m, hm⟩ := sample_roll hr interp nside psi st.rotAngle ((st.ctime[i + k]?).getD 0)
    ((st.qBore[i + k]?).getD 0) (by
      have := hs.bore
      rw [List.getElem?_eq_getElem (by omega)]
      exact hrot _ (List.getElem_mem _)) (alphaAt st.hwpAng k) point haz hel
  have e : sampleOf x { st with rotAngle := st.rotAngle + psi } interp nside i point k =
      { sampleOf x st interp nside i point k with
        pa := (sampleOf x st interp nside i point k).pa + psi * Real.pi / 180 - m * (2 * Real.pi) } := by
    unfold sampleOf
    exact hm
  rw [e]
  dsimp only
  rw [← BeamTurn.convolved_shift]
  exact (BeamTurn.convolved_axis Y nside _ _ _ _ _ (psi * Real.pi / 180) _ _ (sampleOf x st interp nside i point k)
    { sampleOf x st interp nside i point k with
      pa := (sampleOf x st interp nside i point k).pa + psi * Real.pi / 180 - m * (2 * Real.pi) } rfl m rfl).symm

/-- **C148, symmetric beams.** Turning a beam that is symmetric around its axis by `psi` degrees is lowering the
polarization angle of the detector by `psi` degrees, wherever it is in the focal plane. -/
theorem C148_symmetric (Y : Harmonics) (hY : Conjugation Y) (x : Ext) (hx : ExtOk x)
    (mission : List Chunks.Chunk)
    {Ls : Nat} {alm : List (List ℂ)} {a : Nat → Nat → Nat → ℂ} {maxSpin : Int}
    {inputV beamV : Bool} {point : Timeline.Beam} {data : BeamData} {blm' : List (List ℂ)} {Lb : Nat}
    {b : Nat → Nat → Nat → ℂ} (psi : ℝ)
    (h : DetectorOk Ls alm a maxSpin inputV beamV ⟨point, data⟩ [] (fun _ => Lb) fun _ => b)
    (h' : HasRows Lb (nrows beamV) blm' (aboutAxis (psi * Real.pi / 180) b))
    (hl' : beamV = true → blm'.length = 4)
    (ha : RealSky Ls a) (hb : RealBeam Lb b) (hax : AxiSym b) (hm : data.mueller = none)
    (nside : Nat) (hns : 0 < nside)
    (s : Sub) (interp savePoint : Bool) (st : State) (i n : Nat)
    (hs : SubOk mission st st.qBore s i n) :
    ∃ tod, observe Y x mission alm maxSpin nside inputV beamV ⟨point, { data with blm := blm' }⟩ [] s interp
        savePoint st = .ok tod ∧ tod.length = n ∧
      observe Y x mission alm maxSpin nside inputV beamV ⟨{ point with polang := point.polang - psi }, data⟩ [] s
        interp savePoint st = .ok tod := by
  have hin := h.input ⟨point, data⟩ (by simp)
  have hd : DetectorOk Ls alm a maxSpin inputV beamV ⟨point, { data with blm := blm' }⟩ [] (fun _ => Lb)
      fun _ => aboutAxis (psi * Real.pi / 180) b :=
    ⟨h.live, h.main_ghost, fun g hg => by
      have hg := List.mem_singleton.1 hg
      subst hg
      exact ⟨hin.sky, h', hin.skyV, hl', hin.spin0, hin.spin, hin.sym, hin.mueller⟩,
      by simp, ⟨0, fun n => by simp⟩, by simp⟩
  have hd2 : DetectorOk Ls alm a maxSpin inputV beamV ⟨{ point with polang := point.polang - psi }, data⟩ []
      (fun _ => Lb) fun _ => b :=
    ⟨h.live, h.main_ghost, fun g hg => by
      have hg := List.mem_singleton.1 hg
      subst hg
      exact hin, by simp, ⟨0, fun n => by simp⟩, by simp⟩
  have e1 := C71_convolution Y hY x hx mission hd ha (fun _ _ => BeamTurn.realBeam_axis hb _)
    (by simpa using hm) nside hns s interp savePoint st i n hs _ (fun _ _ => rfl)
  have e2 := C71_convolution Y hY x hx mission hd2 ha (fun _ _ => hb) (by simpa using hm) nside hns s interp
    savePoint st i n hs _ (fun _ _ => rfl)
  refine ⟨_, e1, by simp, e2.trans ?_⟩
  congr 1
  apply List.map_congr_left
  intro k hk
  simp only [List.filter_nil, List.map_nil, List.sum_nil, add_zero]
  rw [BeamTurn.convolved_round Y nside _ _ _ _ _ _ _ _ hax]
  have : ∀ al : ℝ, 2 * al + (point.polang - psi) * Real.pi / 180 =
      2 * al + point.polang * Real.pi / 180 - psi * Real.pi / 180 := fun al => by ring
  have e : sampleOf x st interp nside i { point with polang := point.polang - psi } k =
      sampleOf x st interp nside i point k := by
    unfold sampleOf
    rfl
  rw [this, e]

end

/-- **C148, maps.** If all beams of a focal plane are symmetric and turned by `psi`, and the map-maker is not told,
I of the maps of any number of scans is right and `Q + iU` is turned by `-2 psi`. -/
theorem C148_maps (Y : Harmonics) (hY : Conjugation Y) (s : ObjWorld E) (hf : LimitFree s.env)
    (hx : ExtOk s.w.x) (hq : PixOk s.w.q) (hso : SolveOk s.w.q) (iau : Bool) (hxq : Agree s.w.x s.w.q iau)
    (hns : 0 < s.w.nsideOut) (M : Motion) (o : Opts) (hbin : o.binning = true)
    (hpre : o.preview = false) (hgr : o.ground = false) (hre : o.reuseSpinmaps = false)
    (hint : o.interp = false) (hct : o.ctalk = 0) (N : Nat) (chunks : List Chunk)
    (hmi : Mission N chunks) (hang : ∀ c ∈ chunks, c.hwpang = none)
    (hbore : ∀ t, t < N → IsRot (M.bore t)) {Ls : Nat} {alm : List (List ℂ)}
    {sky : Nat → Nat → Nat → ℂ} {inputV beamV : Bool} (blmOf : Nat → List (List ℂ))
    (muOf : Nat → Spin.Mat4) (hs : s.sky = skyMaker Y alm s.w.nsideOut inputV beamV blmOf muOf)
    (hsky : RealSky Ls sky) (hrows : HasRows Ls (nrows inputV) alm sky)
    (hlen : inputV = true → alm.length = 4) (c : Coefs) (b : Nat → Nat → Nat → ℂ) (psi : ℝ)
    (hc : c.b = aboutAxis psi b) (hb : RealBeam c.L b) (hax : AxiSym b)
    (hrows' : HasRows c.L (nrows beamV) (blmOf c.n) c.b)
    (hlen' : beamV = true → (blmOf c.n).length = 4) (err : ℝ) (h : Heap ℝ) (beams : List ObjPair)
    (qs : List Pair) (hp : List.Forall₂ (SharesBeam s h Ls c none err) beams qs)
    (l : List (Inst E × Bool × Nat))
    (hl : ∀ x ∈ l, Ready s.w chunks x.1 ∧ Rotates N chunks x.1.rot M.rot ∧
      Plate s.w.fsamp N x.1.hwp M.alpha ∧ Steady s.w M chunks x.1.el ∧ 0 < x.2.2 ∧
      (x.2.1 = false → x.2.2 = 1)) (fill : ℝ) :
    ∃ ms h', ScanObjects.scans s o beams l h = .ok (ms, h') ∧ ms.length = l.length ∧ ∀ m ∈ ms,
      ∀ p, p < 12 * s.w.nsideOut ^ 2 →
        (ThreeAngles (here p (seenBy M s.w N qs)) →
          (solveForMap s.w.q m fill)[p]? = some (MapMaking.stokes iau
            (smoothI Y s.w.nsideOut (min Ls c.L) (skyOf inputV sky) (beamOf beamV b) p)
            (smoothP Y s.w.nsideOut (min Ls c.L) (skyOf inputV sky) (beamOf beamV b) p *
              Complex.exp (-2 * psi * Complex.I) *
              Complex.exp (2 * ((err + 2 * s.w.varphi) * Real.pi / 180 : ℝ) * Complex.I)))) ∧
        (here p (seenBy M s.w N qs) = [] →
          (solveForMap s.w.q m fill)[p]? = some fun _ => fill) := by
  have := C119_objects Y hY s hf hx hq hso iau hxq hns M o hbin hpre hgr hre hint hct N chunks hmi hang hbore blmOf
    muOf hs hsky hrows hlen c (hc ▸ BeamTurn.realBeam_axis hb psi) (hc ▸ BeamTurn.axiSym_axis hax psi) hrows' hlen'
    err h beams qs hp l hl fill
  have e1 : ∀ p, smoothI Y s.w.nsideOut (min Ls c.L) (skyOf inputV sky) (beamOf beamV c.b) p =
      smoothI Y s.w.nsideOut (min Ls c.L) (skyOf inputV sky) (beamOf beamV b) p := by
    intro p
    unfold smoothI
    congr 2
    funext l m
    rw [hc, BeamTurn.axis_I, BeamTurn.axis_V]
    simp
  have e2 : ∀ p, smoothP Y s.w.nsideOut (min Ls c.L) (skyOf inputV sky) (beamOf beamV c.b) p =
      smoothP Y s.w.nsideOut (min Ls c.L) (skyOf inputV sky) (beamOf beamV b) p *
        Complex.exp (-2 * psi * Complex.I) := by
    intro p
    unfold smoothP
    rw [mul_comm, ← BeamTurn.synth_smul]
    congr 1
    funext l m
    rw [hc, BeamTurn.axis_P]
    have : -Complex.I * ((2 : Int) : ℂ) * (psi : ℂ) = -2 * psi * Complex.I := by
      push_cast
      ring
    rw [this]
    ring
  simpa only [e1, e2] using this

/-! ## The hypotheses are met -/

namespace BeamTurn

theorem ok (f : Nat → Nat → Nat → ℂ) : DetectorOk 5 (Conv.rows 5 3 (Conv.coef 1)) (Conv.coef 1) 4 false false
    ⟨Demo.main, ⟨Conv.rows 6 3 f, 4, false, none, 0⟩⟩ [] (fun _ => 6) fun _ => f :=
  ⟨rfl, rfl, fun g hg => by
    have hg := List.mem_singleton.1 hg
    subst hg
    exact ⟨Conv.rows_ok _ _ _, Conv.rows_ok _ _ _, by simp, by simp, by simp, by norm_num, by simp, by simp⟩,
    by simp, ⟨0, fun n => by simp⟩, by simp⟩

/-- A beam that is not symmetric, turned by 1 rad: the hypotheses of `C148_position` are met. -/
example : ∃ t, observe Conv.Y Demo.ext Demo.mission (Conv.rows 5 3 (Conv.coef 1)) 4 1 false false
      ⟨Demo.main, ⟨Conv.rows 6 3 (aboutAxis 1 (Conv.bcoef 2)), 4, false, none, 0⟩⟩ [] Demo.sub true true Demo.st =
        .ok t :=
  ⟨_, C148_position Conv.Y Conv.Y_conj Demo.ext Demo.ext_ok Demo.mission (fun _ => 1) (ok _)
    (Conv.coef_real 1 5) (fun _ _ => Conv.bcoef_real _ _) (by simp) 1 one_pos Demo.sub true true Demo.st 1 2
    Demo.sub_ok _ (fun _ _ => rfl)⟩

/-- The same beam, turned by 30 degrees: those of `C148_rolled`, with the pointing of C142. -/
example : ∃ t, observe Conv.Y Turn.ext Demo.mission (Conv.rows 5 3 (Conv.coef 1)) 4 1 false false
      ⟨Demo.main, ⟨Conv.rows 6 3 (aboutAxis (30 * Real.pi / 180) (Conv.bcoef 2)), 4, false, none, 0⟩⟩ [] Demo.sub
        false true Demo.st = .ok t ∧ t.length = 2 ∧
    observe Conv.Y Turn.ext Demo.mission (Conv.rows 5 3 (Conv.coef 1)) 4 1 false false
      ⟨Demo.main, ⟨Conv.rows 6 3 (Conv.bcoef 2), 4, false, none, 0⟩⟩ [] Demo.sub
        false true { Demo.st with rotAngle := 0 + 30 } = .ok t :=
  C148_rolled Conv.Y Conv.Y_conj Turn.ext Turn.ext_ok Turn.rolls Demo.mission 30 (ok (Conv.bcoef 2))
    (Conv.rows_ok _ _ _) (by simp) rfl rfl (Conv.coef_real 1 5) (Conv.bcoef_real _ _) rfl 1 one_pos Demo.sub false
    true Demo.st 1 2 Demo.sub_ok (by
      intro q hq
      rw [List.eq_of_mem_replicate hq]
      unfold IsRot
      rw [Fin.sum_univ_four]
      simp)

/-- A Gaussian beam, turned by 30 degrees: those of `C148_symmetric`. -/
example : ∃ t, observe Conv.Y Demo.ext Demo.mission (Conv.rows 5 3 (Conv.coef 1)) 4 1 false false
      ⟨Demo.main, ⟨Conv.rows 6 3 (aboutAxis (30 * Real.pi / 180) (FocalScan.gaussRows 60 1)), 4, false, none, 0⟩⟩ []
        Demo.sub true true Demo.st = .ok t ∧ t.length = 2 ∧
    observe Conv.Y Demo.ext Demo.mission (Conv.rows 5 3 (Conv.coef 1)) 4 1 false false
      ⟨{ Demo.main with polang := 0 - 30 }, ⟨Conv.rows 6 3 (FocalScan.gaussRows 60 1), 4, false, none, 0⟩⟩ [] Demo.sub
        true true Demo.st = .ok t :=
  C148_symmetric Conv.Y Conv.Y_conj Demo.ext Demo.ext_ok Demo.mission 30 (ok (FocalScan.gaussRows 60 1))
    (Conv.rows_ok _ _ _) (by simp) (Conv.coef_real 1 5) (FocalScan.gaussRows_real _ _ _)
    (FocalScan.gaussRows_axi _ _) rfl 1 one_pos Demo.sub true true Demo.st 1 2 Demo.sub_ok

/-- The sky seen through Gaussian beams that are turned by 1 rad. -/
def s' : ObjWorld Unit :=
  ⟨Whole.w, Gridded.env, skyMaker Conv.Y (Conv.rows 5 3 (Conv.coef 1)) 1 false false
    (fun _ => Conv.rows 5 3 (aboutAxis 1 (FocalScan.gaussRows 60 1))) fun _ => 0,
    fun _ _ _ _ => .error .runtimeError, 4⟩

open Gridded Rec Whole in
/-- The focal plane of C144 with beams turned by 1 rad: the hypotheses of `C148_maps` are met. -/
example (fill : ℝ) :
    let r := (FocalPlane.inputFocalPlane env (Tables.column Tables.TableRow.az Gridded.rows)
      (Tables.column Tables.TableRow.el Gridded.rows) (Tables.column Tables.TableRow.polang Gridded.rows)
      (some (Gridded.rows.map fun r => (.bool r.dead.1, .bool r.dead.2))) true kw).run FocalPlane.emptyPlane
    ∃ ms h', ScanObjects.scans s' o r.2.beams [(i, false, 1), (i, true, 2)] r.2.heap =
        .ok (ms, h') ∧ ms.length = 2 ∧ ∀ m ∈ ms,
      (solveForMap qp m fill)[0]? = some (MapMaking.stokes false
        (smoothI Conv.Y 1 5 (skyOf false (Conv.coef 1)) (beamOf false (FocalScan.gaussRows 60 1)) 0)
        (smoothP Conv.Y 1 5 (skyOf false (Conv.coef 1)) (beamOf false (FocalScan.gaussRows 60 1)) 0 *
          Complex.exp (-2 * (1 : ℝ) * Complex.I) *
          Complex.exp (2 * ((7 + 2 * 0) * Real.pi / 180 : ℝ) * Complex.I))) := by
  intro r
  obtain ⟨-, hsh⟩ := Tables.table_shares s' rfl (fun _ => 0) FocalPlane.emptyPlane .start rfl Gridded.rows _ .given kw
    topt (by norm_num) (fun _ _ => one_rot) ⟨1, 5, aboutAxis 1 (FocalScan.gaussRows 60 1)⟩ rfl
    (fun a ha => by simp [s', env, ha]) 5 (by decide) (by decide) (by decide)
  obtain ⟨ms, h', h2, h3, h4⟩ := C148_maps Conv.Y Conv.Y_conj s' free ext_ok pix_ok solve_ok false agree one_pos M o
    rfl rfl rfl rfl rfl rfl 3 chunks mission_ok (by decide) (fun _ _ => one_rot) (beamV := false) _ _ rfl
    (Conv.coef_real 1 5) (Conv.rows_ok _ _ _) (by simp) _ (FocalScan.gaussRows 60 1) 1 rfl
    (FocalScan.gaussRows_real _ _ _) (FocalScan.gaussRows_axi _ _) (Conv.rows_ok _ _ _) (by simp) 7 r.2.heap r.2.beams
    _ hsh [(i, false, 1), (i, true, 2)] go fill
  refine ⟨ms, h', h2, h3, fun m hm => (h4 m hm 0 (by decide)).1 ?_⟩
  rw [table_eq]
  show ThreeAngles (here 0 (seenBy M Gridded.s.w 3 _))
  rw [seen_same]
  exact Whole.three

end BeamTurn

end Verif.Props
