import Verif.Spec.MapPlate
import Verif.Lemmas.ScanObjects
import Verif.Props.ScanObjects
import Verif.Props.BeamCoef
import Verif.Props.FocalPlane

/-!
# Lemmas: from the focal plane to the map
-/

noncomputable section

namespace Verif.FocalScan

open Verif.Beam Verif.Timeline Verif.Spinmaps Verif.MapMaking Verif.ScanInstrument Verif.Spec Verif.Chunks
open Verif.ScanObjects (ObjPair ObjWorld Coefs PairOf Prepared Settled Coarse skyMaker beamSees plateSees)
open Verif.Props (C88_regular C88_hits C118_plates_partial C118_again_partial signal_dictSpec three_blank here_blank
  solve_unique hits_ne vec_proj)

variable {E : Type}

/-! ### solving -/

/-- Maps of observations of a sky `X` are solved by `X`. -/
theorem solved (q : QExt) (hs : SolveOk q) {m : Maps} {nside : Nat} {os seen : List Obs}
    (hH : Holds nside m os) (h2 : os.map blank = seen.map blank) (X : Nat → Fin 3 → ℝ)
    (h3 : ∀ ob ∈ os, ob.c ^ 2 + ob.s ^ 2 = 1 ∧
      ob.d = X ob.pix.toNat 0 + ob.c * X ob.pix.toNat 1 + ob.s * X ob.pix.toNat 2) (fill : ℝ) (p : Nat)
    (hp : p < 12 * nside ^ 2) :
    (ThreeAngles (here p seen) → (solveForMap q m fill)[p]? = some (X p)) ∧
    (here p seen = [] → (solveForMap q m fill)[p]? = some fun _ => fill) := by
  obtain ⟨c, hc⟩ : ∃ c, m[p]? = some c :=
    ⟨_, List.getElem?_eq_getElem (by rw [hH.npix]; exact hp)⟩
  obtain ⟨c1, c2⟩ := hH.cells p c hc
  have hth : ThreeAngles (here p seen) ↔ ThreeAngles (here p os) := by
    rw [← three_blank, ← here_blank, ← h2, here_blank, three_blank]
  have hem : here p seen = [] ↔ here p os = [] := by
    rw [← List.map_eq_nil_iff (f := blank), ← here_blank, ← h2, here_blank, List.map_eq_nil_iff]
  rw [hth, hem]
  unfold solveForMap
  rw [List.getElem?_map, hc, Option.map_some]
  constructor
  · intro h3a
    have hd := (C88_regular hH (fun o ho => (h3 o ho).1) hc).2 h3a
    congr 1
    apply solve_unique q hs _ _ _ (X p) (hits_ne c2 hd) hd
    rw [c1, c2]
    exact vec_proj os X p fun o ho => (h3 o ho).2
  · intro he
    congr 1
    apply hs.empty
    rw [C88_hits hH hc, he]
    simp

/-! ### beams that are symmetric around their axis -/

theorem beamMode_zero {f g : Nat → Nat → ℂ} {k : Nat} (hf : ∀ l m, m ≠ k → f l m = 0)
    (hg : ∀ l m, m ≠ k → g l m = 0) {s : Int} (h : s ≠ k) (h' : s ≠ -k) (l : Nat) :
    beamMode f g s l = 0 := by
  unfold beamMode extended
  split
  · rfl
  · split
    · exact hf _ _ (by omega)
    · rw [hg _ _ (by omega)]
      simp

theorem beamOf_I {b : Nat → Nat → Nat → ℂ} (hb : AxiSym b) (v : Bool) {s : Int} (h : s ≠ 0) (l : Nat) :
    (beamOf v b).I l s = 0 :=
  beamMode_zero (k := 0) (fun l m hm => (hb.1 l m hm).1) (fun l m hm => (hb.1 l m hm).1) (by simpa using h)
    (by simpa using h) l

theorem beamOf_V {b : Nat → Nat → Nat → ℂ} (hb : AxiSym b) (v : Bool) {s : Int} (h : s ≠ 0) (l : Nat) :
    (beamOf v b).V l s = 0 := by
  unfold beamOf
  dsimp only
  split
  · exact beamMode_zero (k := 0) (fun l m hm => (hb.1 l m hm).2) (fun l m hm => (hb.1 l m hm).2)
      (by simpa using h) (by simpa using h) l
  · rfl

theorem beamOf_P (v : Bool) (b : Nat → Nat → Nat → ℂ) (l : Nat) (s : Int) :
    (beamOf v b).P l s = beamMode (b 1) (b 2) s l := by
  unfold Stokes.P beamOf
  dsimp only
  rw [show s - 2 + 2 = s by ring]
  have : (Complex.I : ℂ) ≠ 0 := Complex.I_ne_zero
  field_simp
  ring

theorem beamOf_P_zero {b : Nat → Nat → Nat → ℂ} (hb : AxiSym b) (v : Bool) {s : Int} (h : s ≠ 2) (l : Nat) :
    (beamOf v b).P l s = 0 := by
  rw [beamOf_P]
  unfold beamMode extended
  split
  · rfl
  · split
    · exact hb.2.1 _ _ (by omega)
    · rw [hb.2.2]
      simp

/-- Only the azimuthal numbers 0 and 2 of such a beam see anything. -/
theorem convolved_axi (Y : Harmonics) (nside L : Nat) (sky : Sky) {b : Nat → Nat → Nat → ℂ} (hb : AxiSym b)
    (v : Bool) (psi : ℝ) (x : Smp) (S T : Finset Int) (hS : 0 ∈ S) (hT : 2 ∈ T) :
    convolved Y nside L S T sky (turned psi (beamOf v b)) x =
      convolved Y nside L {0} {2} sky (turned psi (beamOf v b)) x := by
  have hz : ∀ s, synth Y nside L s (fun _ _ => 0) = fun _ => 0 := by
    intro s
    funext p
    unfold synth
    simp
  have hl : look x (fun _ => 0) = 0 := by
    unfold look
    simp
  unfold convolved
  congr 2
  · rw [Finset.sum_singleton]
    refine Finset.sum_eq_single_of_mem 0 hS fun s _ hs => ?_
    have : (fun l m => (turned psi (beamOf v b)).I l s * sky.I l m +
        (turned psi (beamOf v b)).V l s * sky.V l m) = fun _ _ => 0 := by
      funext l m
      show (beamOf v b).I l s * _ + (beamOf v b).V l s * _ = 0
      rw [beamOf_I hb v hs, beamOf_V hb v hs]
      simp
    rw [this, hz, hl, zero_mul]
  · rw [Finset.sum_singleton]
    refine Finset.sum_eq_single_of_mem 2 hT fun s _ hs => ?_
    have : (fun l m => (turned psi (beamOf v b)).P l s * sky.P l m) = fun _ _ => 0 := by
      funext l m
      rw [turned_P, beamOf_P_zero hb v hs]
      simp
    rw [this, hz, hl, zero_mul]

/-! ### behind a plate -/

/-- The beam behind a half-wave plate at angle 0. -/
def behind (t : ℝ) (k : ℂ) (b : Nat → Nat → Nat → ℂ) : Nat → Nat → Nat → ℂ := fun i l m =>
  if i = 0 then t * b i l m else if i = 1 then k * b i l m else b i l m

/-- Mueller matrix number `mu` (if there is one) multiplies I by `t` and P by `k` for the beam `c`. -/
def PlateIs (Y : Harmonics) (muOf : Nat → Spin.Mat4) (Ls : Nat) (inputV : Bool) (c : Coefs)
    (mu : Option Nat) (t : ℝ) (k : ℂ) : Prop :=
  (mu = none ∧ t = 1 ∧ k = 1) ∨ ∃ n M, mu = some n ∧ Vanishing Y ∧ muOf n = realMat M ∧ HalfWave M t k ∧
    inputV = false ∧ CoPolar c.b ∧ 4 ≤ min Ls c.L

theorem behind_axi (t : ℝ) (k : ℂ) {b : Nat → Nat → Nat → ℂ} (h : AxiSym b) : AxiSym (behind t k b) := by
  refine ⟨fun l m hm => ?_, fun l m hm => ?_, fun l m => ?_⟩ <;> unfold behind
  · simp [h.1 l m hm]
  · simp [h.2.1 l m hm]
  · simp [h.2.2 l m]

theorem behind_real (t : ℝ) (k : ℂ) {L : Nat} {b : Nat → Nat → Nat → ℂ} (h : AxiSym b)
    (hb : RealBeam L b) : RealBeam L (behind t k b) := by
  intro l hl
  obtain ⟨h1, h2, -⟩ := hb l hl
  unfold behind
  refine ⟨?_, by simpa using h2, ?_⟩
  · simp only [if_true, star_mul', h1]
    congr 1
    exact Complex.conj_ofReal t
  · simp [h.2.1 l 0 (by norm_num), h.2.2 l 0]

theorem behind_one (b : Nat → Nat → Nat → ℂ) : behind 1 1 b = b := by
  funext i l m
  unfold behind
  split <;> simp

theorem beamMode_zero_left (k : ℂ) (f g : Nat → Nat → ℂ) (hg : ∀ l m, g l m = 0) (s : Int) (l : Nat) :
    beamMode (fun l m => k * f l m) g s l = k * beamMode f g s l := by
  unfold beamMode extended
  split
  · simp
  · split
    · rfl
    · simp [hg]

theorem behind_I (t : ℝ) (k : ℂ) (v : Bool) (b : Nat → Nat → Nat → ℂ) (l : Nat) (s : Int) :
    (beamOf v (behind t k b)).I l s = t * (beamOf v b).I l s := by
  show beamMode _ _ s l = t * beamMode _ _ s l
  unfold beamMode extended behind
  split
  · simp
  · split
    · rfl
    · simp only [if_true, star_mul']
      rw [show star (t : ℂ) = t from Complex.conj_ofReal t]
      ring

theorem behind_P (t : ℝ) (k : ℂ) (v : Bool) {b : Nat → Nat → Nat → ℂ} (h : AxiSym b) (l : Nat) (s : Int) :
    (beamOf v (behind t k b)).P l s = k * (beamOf v b).P l s := by
  rw [beamOf_P, beamOf_P]
  exact beamMode_zero_left k (b 1) (b 2) h.2.2 s l

theorem behind_smoothI (Y : Harmonics) (nside L : Nat) (t : ℝ) (k : ℂ) (v : Bool) (b a : Nat → Nat → Nat → ℂ)
    (p : Nat) : smoothI Y nside L (skyOf false a) (beamOf v (behind t k b)) p =
      t * smoothI Y nside L (skyOf false a) (beamOf v b) p := by
  unfold smoothI
  have : (fun l m => (beamOf v (behind t k b)).I l 0 * (skyOf false a).I l m +
      (beamOf v (behind t k b)).V l 0 * (skyOf false a).V l m) = fun l m => (t : ℂ) *
      ((beamOf v b).I l 0 * (skyOf false a).I l m + (beamOf v b).V l 0 * (skyOf false a).V l m) := by
    funext l m
    rw [behind_I, show (skyOf false a).V l m = 0 from rfl]
    ring
  rw [this, ← synth_smul, Complex.re_ofReal_mul]

theorem behind_smoothP (Y : Harmonics) (nside L : Nat) (t : ℝ) (k : ℂ) (v : Bool) {b : Nat → Nat → Nat → ℂ}
    (h : AxiSym b) (sky : Sky) (p : Nat) : smoothP Y nside L sky (beamOf v (behind t k b)) p =
      k * smoothP Y nside L sky (beamOf v b) p := by
  unfold smoothP
  rw [synth_smul]
  congr 1
  funext l m
  rw [behind_P t k v h]
  ring

open Complex in
/-- The polarization of a symmetric beam behind a half-wave plate. -/
theorem halfWave_P {M : Fin 4 → Fin 4 → ℝ} {t : ℝ} {k : ℂ} (hM : HalfWave M t k) (alpha psi : ℝ) (v : Bool)
    {b : Nat → Nat → Nat → ℂ} (h : CoPolar b) (l : Nat) (s : Int) :
    (turnedPlate alpha M (turned (-psi) (beamOf v b))).P l s =
      (turned (2 * alpha + psi) (beamOf v (behind t k b))).P l s := by
  obtain ⟨w, hw, -, -, -, -, -, -, -, -, -, e02, -, e32, e22, -, e12, -⟩ := w_entries M
  obtain ⟨⟨-, a1, a2, -, -⟩, ⟨b1, b2, b3, b4⟩, -, c1, c2⟩ := hM
  have hk : w 1 2 = k := by
    rw [e12, b1, b2, b3, b4]
    conv_rhs => rw [← re_add_im k]
    push_cast
    ring
  have h22 : w 2 2 = 0 := by
    rw [e22, b1, b2, b3, b4]
    push_cast
    ring
  rw [plate_P alpha M _ l s hw, h22, e02, e32, hk, a1, a2, c1, c2, zero_mul, turned_P,
    behind_P t k v h.1, turned_Pbar, beamPbar, beamOf_P]
  have hm : beamMode (b 2) (b 1) (s - 4) l = beamMode (b 1) (b 2) s l := by
    by_cases hs : s = 2
    · subst hs
      unfold beamMode extended
      rw [show |(2 : Int) - 4| = |2| from rfl]
      split
      · rfl
      · rw [if_neg (by norm_num), if_pos (by norm_num)]
        show (-1) ^ 2 * star (b 1 l 2) = b 1 l 2
        rw [h.2]
        ring
    · rw [← beamOf_P false b l s, beamOf_P_zero h.1 false hs]
      unfold beamMode extended
      split
      · rfl
      · split
        · exact h.1.2.2 _ _
        · rw [h.1.2.1 _ _ (by omega)]
          simp
  rw [hm]
  simp only [ofReal_zero, mul_zero, zero_mul, add_zero, zero_add]
  have e : exp (I * (4 * alpha)) * exp (-(I * (2 * ((-psi : ℝ) : ℂ)))) =
      exp (I * (2 * ((2 * alpha + psi : ℝ) : ℂ))) := by
    rw [← exp_add]
    congr 1
    push_cast
    ring
  rw [← e]
  ring

theorem halfWave_I {M : Fin 4 → Fin 4 → ℝ} {t : ℝ} {k : ℂ} (hM : HalfWave M t k) (alpha psi : ℝ) (v : Bool)
    (b : Nat → Nat → Nat → ℂ) (l : Nat) (s : Int) :
    (turnedPlate alpha M (turned (-psi) (beamOf v b))).I l s =
      (turned (2 * alpha + psi) (beamOf v (behind t k b))).I l s := by
  obtain ⟨w, hw, e00, e30, -, -, e10, e20, -⟩ := w_entries M
  obtain ⟨⟨a0, -, -, a1, a2⟩, -, c0, -, -⟩ := hM
  rw [plate_I alpha M _ l s hw, e00, e30, e10, e20, a0, a1, a2, c0]
  show _ = (beamOf v (behind t k b)).I l s
  rw [behind_I]
  have : (turned (-psi) (beamOf v b)).I l s = (beamOf v b).I l s := rfl
  rw [this]
  simp

/-- What a beam sees behind a half-wave plate. -/
theorem halfWave_convolved (Y : Harmonics) (nside L : Nat) (a : Nat → Nat → Nat → ℂ)
    {M : Fin 4 → Fin 4 → ℝ} {t : ℝ} {k : ℂ} (hM : HalfWave M t k) (alpha psi : ℝ) (v : Bool)
    {b : Nat → Nat → Nat → ℂ} (h : CoPolar b) (x : Smp) (S T : Finset Int) :
    convolved Y nside L S T (skyOf false a) (turnedPlate alpha M (turned (-psi) (beamOf v b))) x =
      convolved Y nside L S T (skyOf false a) (turned (2 * alpha + psi) (beamOf v (behind t k b))) x := by
  unfold convolved
  have hv : ∀ l m, (skyOf false a).V l m = 0 := fun _ _ => rfl
  simp only [halfWave_P hM alpha psi v h, halfWave_I hM alpha psi v b, hv, mul_zero]

theorem halfWave_ok {M : Fin 4 → Fin 4 → ℝ} {t : ℝ} {k : ℂ} (hM : HalfWave M t k) (psi : ℝ) :
    PlateOk M false ∧ AngleOk psi M false := by
  obtain ⟨⟨-, a1, a2, a3, a4⟩, ⟨b1, b2, b3, b4⟩, -⟩ := hM
  refine ⟨⟨⟨by rw [a1, a3], a2, a4⟩, by simp⟩, .inr ⟨by rw [b1, b4]; ring, by rw [b2, b3]⟩, .inr ⟨a3, by simp⟩⟩

/-! ### pairs that share a beam -/

/-- Beams that are not coarse keep their maps. -/
theorem prepared_same {s : ObjWorld E} {nside : Nat} {h : Heap ℝ} {p : ObjPair} {q : Pair}
    {sm sm' : Spinmaps SpinDict} (hp : Prepared s nside h p q sm sm') (hs : Settled s.env h p) :
    Prepared s nside h p q sm sm := by
  cases hp with
  | empty => exact .empty sm sm
  | pair a gs B v M sy mu M0 q da da' d ok fresh mmax fewer read size main main' ghosts dict dict'
      dicts =>
    have e : M0 = M a := ScanObjects.coarse_iff (fresh a (by simp)) (ok.blm a (by simp)) mmax (hs a rfl)
    subst e
    exact .pair a gs B v M sy mu _ q da da d ok fresh mmax fewer read size main main ghosts dict dict
      dicts

theorem plain_settled {env : Env ℝ} {o : Obj ℝ} {n : Nat} {mm : Int} {sym : Bool}
    {mu : Option Nat} (h : Plain env o n mm sym mu) : ¬ Coarse env o := by
  rintro ⟨v, f, M, h1, -⟩
  rw [h.load] at h1
  cases h1

theorem lone_family {h : Heap ℝ} {r : Ref} (hr : r < h.size) (hl : Lone (h.cell r)) : Family h r [] :=
  ⟨⟨hr, hl.main, hl.ghosts⟩, hl.count, by simp⟩

/-- The detectors of such a pair have no ghosts. -/
theorem lone_bin {h : Heap ℝ} {r : Option Ref} {b : BinBeam} (hr : ∀ x, r = some x → Lone (h.cell x))
    {o : Option BinBeam} (ho : ScanObjects.OneOf h r o) (hb : live o = some b) : b.ghosts = [] := by
  cases ho with
  | none => cases hb
  | some r c hd =>
    have e := ScanObjects.live_some hb
    cases e
    have := hd.ghosts
    rw [(hr r rfl).ghosts] at this
    exact List.forall₂_nil_left_iff.1 this

/-- Maps for a pair that shares a beam. -/
theorem shares_maps (Y : Harmonics) (hY : Conjugation Y) (s : ObjWorld E) (hx : ExtOk s.w.x)
    (nside : Nat) (hns : 0 < nside) {Ls : Nat} {alm : List (List ℂ)} {sky : Nat → Nat → Nat → ℂ}
    {inputV beamV : Bool} (blmOf : Nat → List (List ℂ)) (muOf : Nat → Spin.Mat4)
    (hs : s.sky = skyMaker Y alm nside inputV beamV blmOf muOf) (hsky : RealSky Ls sky)
    (hrows : HasRows Ls (nrows inputV) alm sky) (hlen : inputV = true → alm.length = 4)
    (c : Coefs) (hb : RealBeam c.L c.b) (hax : AxiSym c.b)
    (hrows' : HasRows c.L (nrows beamV) (blmOf c.n) c.b) (hlen' : beamV = true → (blmOf c.n).length = 4)
    (h : Heap ℝ) (err : ℝ) (p : ObjPair) (q : Pair) (mu : Option Nat)
    (hp : SharesBeam s h Ls c mu err p q) (t : ℝ) (k : ℂ) (hmu : PlateIs Y muOf Ls inputV c mu t k) :
    ∃ sm, Prepared s nside h p q sm sm ∧ Settled s.env h p ∧
      ∀ (Mo : Motion) (interp : Bool) (e : BinBeam), (live q.1 = some e ∨ live q.2 = some e) → ∀ T,
        detects Mo s.w.x interp nside sm e T =
          let y := sampleAt s.w.x interp (offset s.w.x (Mo.rot T) e.beam) nside (Mo.time T) (Mo.bore T)
            (Mo.alpha T)
          convolved Y nside (min Ls c.L) {0} {2} (skyOf inputV sky)
            (turned (2 * y.alpha + e.beam.polang * Real.pi / 180) (beamOf beamV (behind t k c.b))) y := by
  rcases hp with ⟨rfl, rfl⟩ | ⟨a, mm, sym, e1, ha, hpl, k0, k1, k2, hB, hq, hlive⟩
  · refine ⟨⟨[], none, []⟩, .empty _ _, fun a e => (by cases e), fun Mo interp e he => ?_⟩
    rcases he with he | he <;> cases he
  obtain ⟨p1, p2⟩ := p
  dsimp only at e1 hB
  subst e1
  obtain ⟨sv, hsv, hsy⟩ := hpl.symmetric
  have hset : Settled s.env h (some a, p2) := by
    intro x ex
    cases ex
    exact plain_settled hpl
  have hB' : ∃ B : Option (Ref × List Ref), p2 = B.map Prod.fst ∧ (∀ b ∈ B, Family h b.1 b.2 ∧ b.2 = []) := by
    cases p2 with
    | none => exact ⟨none, rfl, by simp⟩
    | some b =>
      refine ⟨some (b, []), rfl, ?_⟩
      intro x hx
      cases hx
      exact ⟨lone_family (hB b rfl).1 (hB b rfl).2, rfl⟩
  obtain ⟨B, rfl, hB'⟩ := hB'
  have hBnil : B.elim [] Prod.snd = ([] : List Ref) := by
    cases B with
    | none => rfl
    | some b => exact (hB' b rfl).2
  have hin : InputOk Ls c.L alm (blmOf c.n) sky c.b (min mm s.maxSpin) sv.truthy (mu.map muOf) inputV
      beamV := by
    refine ⟨hrows, hrows', hlen, hlen', k0, k1, ?_, fun hne => ?_⟩
    rotate_left
    · rcases hmu with ⟨rfl, -, -⟩ | ⟨_, _, _, _, _, _, _, _, h4⟩
      · exact (hne rfl).elim
      · exact h4
    intro e
    rw [hsy] at e
    rw [e, if_pos rfl] at k2
    exact k2
  obtain ⟨plates, hpl2⟩ : ∃ plates : Nat → Fin 4 → Fin 4 → ℝ, ∀ n, mu = some n → Vanishing Y ∧
      muOf n = realMat (plates n) ∧ HalfWave (plates n) t k ∧ inputV = false ∧ CoPolar c.b := by
    rcases hmu with ⟨rfl, -, -⟩ | ⟨n, M, rfl, g1, g2, g3, g4, g5, -⟩
    · exact ⟨fun _ _ _ => 0, by simp⟩
    · refine ⟨fun _ => M, fun n' e => ?_⟩
      cases e
      exact ⟨g1, g2, g3, g4, g5⟩
  obtain ⟨sm, sm', h1, h2⟩ := C118_plates_partial Y hY s hx nside hns blmOf muOf hs hsky h a [] B
    (fun _ => c) (fun _ => mm) (fun _ => sv) (fun _ => mu) plates mm q
    ⟨lone_family ha hpl.toLone, fun b hb => (hB' b hb).1, by
      intro x hx
      rw [hBnil] at hx
      obtain rfl : x = a := by simpa using hx
      exact .made mm hpl.fresh hpl.load hpl.mmax, by
      intro x hx
      obtain rfl : x = a := by simpa using hx
      exact hsv, by
      intro x hx
      obtain rfl : x = a := by simpa using hx
      exact hpl.plate⟩
    (by
      intro x hx
      rw [hBnil] at hx
      obtain rfl : x = a := by simpa using hx
      exact hpl.fresh) hpl.mmax (fun b hb => by rw [(hB' b hb).2]) hq
    (fun _ _ => hb) (fun _ _ => hin) hin (fun _ _ n e => by
      obtain ⟨g1, g2, g3, g4, -⟩ := hpl2 n e
      rw [g4]
      exact ⟨g1, g2, (halfWave_ok g3 0).1⟩)
  refine ⟨sm, prepared_same h1 hset, hset, fun Mo interp e he T => ?_⟩
  have hg : e.ghosts = [] := by
    rcases he with he | he
    · exact lone_bin (fun x ex => by cases ex; exact hpl.toLone) hq.1 he
    · exact lone_bin (fun x ex => (hB x ex).2) hq.2 he
  rw [h2 Mo interp e he (fun _ _ n en pt _ => by
    obtain ⟨-, -, g3, g4, -⟩ := hpl2 n en
    rw [g4]
    exact (halfWave_ok g3 _).2) sm mm (.inl ⟨rfl, rfl⟩) T, hg]
  simp only [List.filter_nil, List.map_nil, List.sum_nil, add_zero]
  have hsee : plateSees Y s.w.x nside Ls sky inputV beamV interp Mo c (mu.map plates) sv.truthy
      (min mm s.maxSpin) e.beam T =
      let y := sampleAt s.w.x interp (offset s.w.x (Mo.rot T) e.beam) nside (Mo.time T) (Mo.bore T)
        (Mo.alpha T)
      convolved Y nside (min Ls c.L) (spinsI sv.truthy (min mm s.maxSpin))
        (spinsP sv.truthy (min mm s.maxSpin)) (skyOf inputV sky)
        (turned (2 * y.alpha + e.beam.polang * Real.pi / 180) (beamOf beamV (behind t k c.b))) y := by
    rcases hmu with ⟨rfl, rfl, rfl⟩ | ⟨n, -, rfl, -⟩
    · rw [behind_one]
      rfl
    · obtain ⟨-, -, g3, rfl, g5⟩ := hpl2 n rfl
      exact halfWave_convolved Y nside _ sky g3 _ _ beamV g5 _ _ _
  rw [hsee]
  refine convolved_axi Y nside _ _ (behind_axi t k hax) beamV _ _ _ _ ?_ ?_
  · unfold spinsI
    rw [hsy]
    cases sym
    · rw [if_neg (by simp)] at k2 ⊢
      simp only [Finset.mem_Icc]
      omega
    · simp
  · unfold spinsP
    rw [hsy]
    cases sym
    · rw [if_neg (by simp)] at k2 ⊢
      simp only [Finset.mem_Icc]
      omega
    · simp

open Complex in
/-- A sample of a detector of such a pair. -/
theorem shares_sample (Y : Harmonics) (hY : Conjugation Y) (x : Ext) (hx : ExtOk x) (q : QExt)
    (iau : Bool) (hxq : Agree x q iau) {Ls L : Nat} {a b : Nat → Nat → Nat → ℂ}
    {inputV beamV : Bool} (ha : RealSky Ls a) (hb : RealBeam L b)
    (nside : Nat) (hns : 0 < nside) (err varphi : ℝ) (M : Motion) (e : BinBeam) (t : Nat)
    (hrb : IsRot (M.bore t)) (hro : IsRot (x.detOffset e.beam.az e.beam.el 0))
    (hpol : e.beam.polang = e.polangBin + err) (d : ℝ)
    (hd : d = convolved Y nside (min Ls L) {0} {2} (skyOf inputV a)
      (turned (2 * M.alpha t + e.beam.polang * Real.pi / 180) (beamOf beamV b))
      (sampleAt x false (offset x (M.rot t) e.beam) nside (M.time t) (M.bore t) (M.alpha t))) :
    let ob := obsAt M x q varphi nside e t d
    let X := stokes iau (smoothI Y nside (min Ls L) (skyOf inputV a) (beamOf beamV b) ob.pix.toNat)
      (smoothP Y nside (min Ls L) (skyOf inputV a) (beamOf beamV b) ob.pix.toNat *
        exp (2 * ((err + 2 * varphi) * Real.pi / 180 : ℝ) * I))
    ob.c ^ 2 + ob.s ^ 2 = 1 ∧ ob.d = X 0 + ob.c * X 1 + ob.s * X 2 := by
  have hsig : M.signal x false nside (dictSpec Y nside (min Ls L) a b 0 true none inputV beamV)
      e.beam t = d := by
    rw [hd]
    unfold Motion.signal
    rw [signal_dictSpec Y nside _ _ _ _ le_rfl _ _ _ _ _ _
      (sampleAt_inRange x hx false _ nside hns _ _ _)]
    exact signal_old Y hY nside _ a b (fun i hi l hl => ha i hi l (le_trans hl (min_le_left _ _)))
      (fun l hl => hb l (le_trans hl (min_le_right _ _))) _ le_rfl true _ _ _ _ _
  exact ideal_sample Y hY x hx q iau hxq (maxSpin := 0) le_rfl ha hb nside hns err varphi M e t hrb hro
    hpol d hsig.symm

/-! ### Gaussian beams -/

/-- The coefficients of a Gaussian beam. -/
def gaussRows (F A : ℝ) (i l m : Nat) : ℂ :=
  if i = 0 then (if m = 0 then ((A * Real.exp (-(l * (l + 1)) * sigma F ^ 2 / 2) : ℝ) : ℂ) else 0)
  else if i = 1 then
    (if m = 2 then ((A * Real.exp (-(l * (l + 1) - 4) * sigma F ^ 2 / 2) : ℝ) : ℂ) else 0)
  else 0

theorem gaussRows_axi (F A : ℝ) : AxiSym (gaussRows F A) := by
  refine ⟨fun l m hm => ?_, fun l m hm => ?_, fun l m => ?_⟩ <;> simp [gaussRows, *]

theorem gaussRows_real (F A : ℝ) (L : Nat) : RealBeam L (gaussRows F A) := by
  intro l _
  refine ⟨?_, by simp [gaussRows], by simp [gaussRows]⟩
  simp only [gaussRows, if_true]
  exact Complex.conj_ofReal _

theorem gaussRows_has (fs : BeamCoef.Files) (G : BeamCoef.Attrs) (hG : G.btype = "Gaussian") (L : Nat)
    (hL : 1 ≤ L) (hl : G.lmax = L) {rows : List (List ℂ)} {mm : Int}
    (h : BeamCoef.blm fs G = .ok (rows, mm)) : HasRows L 3 rows (gaussRows G.fwhm G.amplitude) := by
  obtain ⟨b, m2, p2, e, h0, h1, h2⟩ := Props.C76_gaussian fs G hG L hL hl
  rw [e] at h
  cases h
  intro i hi
  match i, hi with
  | 0, _ => exact ⟨b, rfl, h0⟩
  | 1, _ => exact ⟨m2, rfl, h1⟩
  | 2, _ => exact ⟨p2, rfl, h2⟩

theorem smoothI_gauss (Y : Harmonics) (nside L : Nat) (sky : Sky) (F A : ℝ) (p : Nat) :
    smoothI Y nside L sky (beamOf false (gaussRows F A)) p = gaussI Y nside L sky F A p := by
  unfold smoothI gaussI
  congr 2
  funext l m
  have e1 : (beamOf false (gaussRows F A)).I l 0 =
      ((A * Real.exp (-(l * (l + 1)) * sigma F ^ 2 / 2) : ℝ) : ℂ) := by
    unfold beamOf beamMode extended
    simp [gaussRows]
  have e2 : (beamOf false (gaussRows F A)).V l 0 = 0 := rfl
  rw [e1, e2, zero_mul, add_zero]

theorem smoothP_gauss (Y : Harmonics) (nside L : Nat) (sky : Sky) (F A : ℝ) (p : Nat) :
    smoothP Y nside L sky (beamOf false (gaussRows F A)) p = gaussP Y nside L sky F A p := by
  unfold smoothP gaussP
  congr 1
  funext l m
  rw [beamOf_P]
  unfold beamMode extended
  by_cases h : l < 2
  · rw [if_pos h, if_pos (by simpa using h), zero_mul]
  · rw [if_neg h, if_neg (by simpa using h), if_pos (by norm_num)]
    simp [gaussRows]

/-! ### grids -/

theorem grid_flat {α : Type} (r : Nat) (f : Nat → Nat → α) (n : Nat) :
    ((List.range n).flatMap fun c => (List.range r).map (f c)) =
      (List.range (n * r)).map fun i => f (i / r) (i % r) := by
  induction n with
  | zero => simp
  | succ n ih =>
    rw [List.range_succ, List.flatMap_append, ih, Nat.succ_mul, List.range_add, List.map_append]
    congr 1
    simp only [List.flatMap_cons, List.flatMap_nil, List.append_nil, List.map_map]
    apply List.map_congr_left
    intro e he
    have he : e < r := List.mem_range.1 he
    show f n e = f ((n * r + e) / r) ((n * r + e) % r)
    rw [Nat.mul_comm, Nat.mul_add_div (by omega), Nat.div_eq_of_lt he, Nat.add_zero, Nat.mul_add_mod,
      Nat.mod_eq_of_lt he]

theorem arg_eq (kw : Dict ℝ) (k : Key) (d : Val ℝ) (hd : Dict.get? defaults k = some d) :
    arg kw k = (Dict.get? kw k).getD d := by
  unfold arg
  rw [hd]
  rcases h : Dict.get? kw k with _ | v <;> rfl

/-- A detector that has the attributes the user asked for points accordingly. -/
theorem det_of {h : Heap ℝ} {r : Ref} (hl : Lone (h.cell r)) {vd va ve vp vq : Val ℝ}
    {az el pol err : ℝ} (hd : (h.cell r).attr .dead = some vd) (ha : (h.cell r).attr .az = some va)
    (he : (h.cell r).attr .el = some ve) (hp : (h.cell r).attr .polang = some vp)
    (hq : (h.cell r).attr .polangError = some vq) (na : va.toNum = some az) (ne : ve.toNum = some el)
    (np : vp.toNum = some pol) (nq : vq.toNum = some err) :
    ScanObjects.OneOf h (some r) (some (det vd.truthy az el pol err)) := by
  refine .some _ _ ⟨⟨⟨vd, hd, rfl⟩, hl.main.symm, ?_, ⟨va, ha, na⟩, ⟨ve, he, ne⟩,
    ⟨vp, vq, pol, err, hp, hq, np, nq, rfl⟩⟩, ?_, ⟨vp, hp, np⟩⟩
  · rw [hl.main]
    rfl
  · rw [hl.ghosts]
    exact .nil

theorem degrees_width {env : Env ℝ} (hpi : env.pi = Real.pi) (L : Int) :
    Beam.degrees env ((14 / 10) * 2 * env.pi / L) * 60 = 1.4 * 360 / L * 60 := by
  unfold Beam.degrees
  rw [hpi]
  have := Real.pi_ne_zero
  field_simp
  norm_num

theorem grid_good {kw : Dict ℝ} {abDiff : Val ℝ} {F A pol diff err : ℝ} {L : Nat} {mm : Int}
    {dead sym : Bool} {mu : Option Nat} (h : GridOptions kw abDiff F A pol diff err L mm dead sym mu) (hL : 0 < L) :
    FocalPlane.GoodOptions kw ∧ ∃ q, ((Dict.get? kw .polang).getD (.num 0)).add abDiff = .ok q := by
  refine ⟨⟨?_, ⟨L, ?_, fun _ => by exact_mod_cast hL⟩, ?_, ?_⟩, ?_⟩
  · intro x hx
    have := h.known x hx
    simp only [parameters, List.mem_cons, List.not_mem_nil, or_false] at this
    rcases this with e | e | e | e | e | e | e | e | e | e | e | e | e | e | e | e | e | e | e | e | e |
      e | e <;> rw [e] <;> rfl
  · rw [arg_eq kw _ (.int 700) rfl, h.lmax]
  · rw [arg_eq kw _ .none rfl]
    rcases h.mmax with ⟨e, -⟩ | ⟨m, e, -⟩
    · exact .inl e
    · exact .inr ⟨m, by rw [e]; rfl⟩
  · rw [arg_eq kw _ .none rfl]
    rcases h.fwhm with ⟨e, -⟩ | ⟨x, e, -⟩
    · exact .inl e
    · exact .inr ⟨x, by rw [e]; rfl⟩
  · obtain ⟨w, w1, -⟩ := ScanObjects.add_toNum h.polang h.diff
    exact ⟨w, w1⟩

/-- The pairs of a new focal plane share a Gaussian beam. -/
theorem grid_shares (s : ObjWorld E) (hpi : s.env.pi = Real.pi) (rng : Nat → ℝ)
    (p : FocalPlane.Plane ℝ)
    (hr : FocalPlane.PReachable s.env rng (fun _ op => FocalPlane.NoCount op) p)
    (nrow ncol : Int) (fov : ℝ) (noPairs : Bool) (abDiff : Val ℝ) (combine : Bool)
    (hnew : combine = false ∨ p.beams = []) (kw : Dict ℝ) {F A pol diff err : ℝ} {L : Nat} {mm : Int}
    {dead sym : Bool} {mu : Option Nat} (hkw : GridOptions kw abDiff F A pol diff err L mm dead sym mu)
    (hok : ((FocalPlane.createFocalPlane s.env nrow ncol fov noPairs abDiff combine kw).run p).1 = .ok ())
    (hrot : ∀ az el, IsRot (s.w.x.detOffset az el 0)) (c : Coefs) (hcL : c.L = L)
    (hload : ∀ a, GaussianOf a F A L → s.env.loadBlm a = .ok (.obj c.n, none)) (Ls : Nat)
    (h0 : 0 ≤ min mm s.maxSpin) (h1 : min mm s.maxSpin ≤ (min Ls L : Nat))
    (h2 : if sym then 2 ≤ min Ls L else 2 ≤ min mm s.maxSpin) :
    let p' := ((FocalPlane.createFocalPlane s.env nrow ncol fov noPairs abDiff combine kw).run p).2
    List.Forall₂ (SharesBeam s p'.heap Ls c mu err) p'.beams
      (grid nrow ncol fov pol diff err dead noPairs) := by
  intro p'
  obtain ⟨n1, n2, ⟨l, b1, b2, b3⟩, -, hat, -⟩ := FocalPlane.C69_grid s.env rng p hr nrow ncol fov noPairs
    abDiff combine kw hok
  have hdet := FocalPlane.C69_detectors s.env rng p hr nrow ncol fov noPairs abDiff combine kw hok
  have hb : p'.beams = l := by
    rcases hnew with rfl | e
    · exact b1
    · rw [b1, e]
      cases combine <;> rfl
  have hlen : l.length = ncol.toNat * nrow.toNat := by
    zify
    rw [b2, Int.toNat_of_nonneg n1, Int.toNat_of_nonneg n2]
    ring
  have hlim : LimVal .lmax (arg kw .lmax) ∧ LimVal .mmax (arg kw .mmax) ∧ LimVal .fwhm (arg kw .fwhm) := by
    refine ⟨⟨fun _ => .inr ⟨L, ?_⟩, by simp⟩, ⟨fun _ => ?_, by simp⟩, ⟨by simp, fun _ => ?_⟩⟩
    · rw [arg_eq kw _ (.int 700) rfl, hkw.lmax]
    · rw [arg_eq kw _ .none rfl]
      rcases hkw.mmax with ⟨e, -⟩ | ⟨m, e, -⟩
      · exact .inl e
      · exact .inr ⟨m, by rw [e]; rfl⟩
    · rw [arg_eq kw _ .none rfl]
      rcases hkw.fwhm with ⟨e, -⟩ | ⟨x, e, -⟩
      · exact .inl e
      · exact .inr ⟨x, by rw [e]; rfl⟩
  rw [hb]
  unfold grid
  rw [grid_flat nrow.toNat (fun c e => (some (det dead (position fov ncol c) (position fov nrow e) pol err),
    some (det (dead || noPairs) (position fov ncol c) (position fov nrow e) (pol + diff) err)))]
  refine List.forall₂_iff_get.2 ⟨by simp [hlen], fun i hi hi' => ?_⟩
  have hi0 : i < ncol.toNat * nrow.toNat := by rwa [hlen] at hi
  have hpos : 0 < nrow.toNat := by
    rcases Nat.eq_zero_or_pos nrow.toNat with e | e
    · rw [e] at hi0
      omega
    · exact e
  set cc := i / nrow.toNat with hcc
  set ee := i % nrow.toNat with hee
  have hdiv : cc * nrow.toNat + ee = i := by
    rw [Nat.mul_comm]
    exact Nat.div_add_mod i nrow.toNat
  have hc : (cc : Int) < ncol := by
    have : cc < ncol.toNat := Nat.div_lt_of_lt_mul (by rwa [Nat.mul_comm])
    omega
  have he : (ee : Int) < nrow := by
    have : ee < nrow.toNat := Nat.mod_lt _ hpos
    omega
  have hpair := b3 cc ee hc he
  obtain ⟨az, el, vd, qa, qb, ⟨a1, a2, a3, a4, a5⟩, hcom, t1, t2, t3, t4, t5, t6, -, -, t9, t10⟩ :=
    hat cc ee hc he
  dsimp only at hpair hcom t1 t2 t3 t4 t5 t6 t9 t10
  rw [hdiv] at hpair hcom t1 t2 t3 t4 t5 t6 t9 t10
  have hcell : ∀ r, r = p.heap.size + 2 * i ∨ r = p.heap.size + 2 * i + 1 →
      r < p'.heap.size ∧ Lone (p'.heap.cell r) ∧ (p'.heap.cell r).attr .blm = none ∧
      Limits (p'.heap.cell r) L mm F := by
    intro r hrr
    obtain ⟨⟨d1, d2, d3, d4, d5⟩, d6⟩ := hdet r (by omega) (by omega)
    obtain ⟨i', L', M', F', f1, f2, f3, f4, f5⟩ := d6 (by rw [hpi]; exact Real.pi_pos) hlim.1 hlim.2.1
      hlim.2.2
    refine ⟨d1, ⟨d2, d3, d4⟩, d5, ?_⟩
    rw [arg_eq kw _ (.int 700) rfl, hkw.lmax] at f1
    cases f1
    have eL : L' = L := by rw [f2]; simp
    subst eL
    have eM : M' = mm := by
      rw [f3, arg_eq kw _ .none rfl]
      rcases hkw.mmax with ⟨e, e'⟩ | ⟨m, e, e'⟩
      · rw [e, e']
      · rw [e, e']
        rfl
    have eF : F' = F := by
      rw [f4, arg_eq kw _ .none rfl]
      rcases hkw.fwhm with ⟨e, e'⟩ | ⟨x, e, e'⟩
      · rw [e, e']
        dsimp only
        rw [degrees_width hpi]
        simp
      · rw [e, e']
        rfl
    rw [← eM, ← eF]
    exact f5
  have hck : ∀ k (d : Val ℝ), k ∈ FocalPlane.commonKeys → Dict.get? defaults k = some d →
      (p'.heap.cell (p.heap.size + 2 * i)).attr k = some ((Dict.get? kw k).getD d) ∧
      (p'.heap.cell (p.heap.size + 2 * i + 1)).attr k = some ((Dict.get? kw k).getD d) := by
    intro k d hk hd
    rw [← arg_eq kw k d hd]
    exact hcom k hk
  obtain ⟨r1, r2, r3, r4⟩ := hcell _ (.inl rfl)
  obtain ⟨s1, s2, s3, s4⟩ := hcell _ (.inr rfl)
  have hge : l.get ⟨i, hi⟩ = (some (p.heap.size + 2 * i), some (p.heap.size + 2 * i + 1)) := by
    rw [List.getElem?_eq_getElem hi] at hpair
    exact Option.some.inj hpair
  have hgg : ((List.range (ncol.toNat * nrow.toNat)).map fun i =>
      (some (det dead (position fov ncol (i / nrow.toNat)) (position fov nrow (i % nrow.toNat)) pol err),
       some (det (dead || noPairs) (position fov ncol (i / nrow.toNat))
        (position fov nrow (i % nrow.toNat)) (pol + diff) err))).get ⟨i, hi'⟩ =
      (some (det dead (position fov ncol cc) (position fov nrow ee) pol err),
       some (det (dead || noPairs) (position fov ncol cc) (position fov nrow ee) (pol + diff) err)) := by
    simp [hcc, hee]
  rw [hge]
  refine (congrArg (SharesBeam s p'.heap Ls c mu err _) hgg).mpr ?_
  have hqb : qb.toNum = some (pol + diff) := by
    obtain ⟨w, w1, w2⟩ := ScanObjects.add_toNum (v := qa) (by rw [a4]; exact hkw.polang) hkw.diff
    rw [a5] at w1
    cases w1
    exact w2
  have hvd : vd.truthy = dead := by rw [a3]; exact hkw.dead
  have herr := hck .polangError (.num 0) (by simp [FocalPlane.commonKeys]) rfl
  refine .inr ⟨p.heap.size + 2 * i, mm, sym, rfl, r1, ⟨r2, r3, hload _ ⟨?_, r4.2.2, r4.1, ?_⟩, r4.2.1, ?_, ?_⟩,
    h0, by rw [hcL]; exact h1, by rw [hcL]; exact h2, ?_, ⟨?_, ?_⟩, ?_⟩
  · rw [(hck .btype _ (by simp [FocalPlane.commonKeys]) rfl).1, hkw.btype]
  · exact ⟨_, (hck .amplitude _ (by simp [FocalPlane.commonKeys]) rfl).1, hkw.amplitude⟩
  · exact ⟨_, (hck .symmetric _ (by simp [FocalPlane.commonKeys]) rfl).1, hkw.symmetric⟩
  · rw [(hck .hwpMueller _ (by simp [FocalPlane.commonKeys]) rfl).1, hkw.plate]
  · intro b hb
    cases hb
    exact ⟨s1, s2⟩
  · have := det_of r2 t9 t1 t3 t5 herr.1 (az := position fov ncol cc) (el := position fov nrow ee)
      (pol := pol) (err := err) (by rw [a1]; rfl) (by rw [a2]; rfl) (by rw [a4]; exact hkw.polang) hkw.error
    rw [hvd] at this
    exact this
  · have := det_of s2 t10 t2 t4 t6 herr.2 (az := position fov ncol cc) (el := position fov nrow ee)
      (pol := pol + diff) (err := err) (by rw [a1]; rfl) (by rw [a2]; rfl) hqb hkw.error
    have e : (if vd.truthy then vd else Val.bool noPairs).truthy = (dead || noPairs) := by
      rw [← hvd]
      cases h : vd.truthy
      · simp [Val.truthy]
      · simp [h]
    rw [e] at this
    exact this
  · intro e he
    rcases he with he | he
    · cases ScanObjects.live_some he
      exact ⟨rfl, hrot _ _⟩
    · cases ScanObjects.live_some he
      exact ⟨rfl, hrot _ _⟩

end Verif.FocalScan
