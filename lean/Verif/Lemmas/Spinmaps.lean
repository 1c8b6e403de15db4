import Verif.Spec.Spinmaps
import Verif.Lemmas.Spin
import Verif.Lemmas.Timeline
import Verif.Props.Alm

/-! # Lemmas about spin maps -/

noncomputable section

namespace Verif.Spinmaps

open Verif.Alm Verif.Spin Verif.Spec Verif.Timeline Verif.Props Complex

theorem coef_spec {L : Nat} {a : List ℂ} {f : Nat → Nat → ℂ} (h : Represents L L a f) (l m : Nat)
    (hm : m ≤ l) (hl : l ≤ L) : coef a (L : Int) l m = f l m := by
  unfold coef
  rw [getidx_eq L l m (by omega) hm, Int.toNat_natCast,
    ((represents_iff L L a f).1 h).2 m l (by omega) hm hl]
  rfl

theorem getlmax_rep {L : Nat} {α : Type} {a : List α} {f : Nat → Nat → α}
    (h : Represents L L a f) : getlmax a.length none = L := by
  rw [rep_length h]; exact getlmax_none L

theorem almxfl_spec {L : Nat} {a fl : List ℂ} {f : Nat → Nat → ℂ} (h : Represents L L a f)
    (g : Nat → ℂ) (hfl : ∀ l, l ≤ L → fl[l]? = some (g l)) :
    Represents L L (almxfl a fl) (fun l m => f l m * g l) := by
  unfold almxfl
  rw [getlmax_rep h, Int.toNat_natCast]
  have e : ((List.range (L + 1)).flatMap fun m => (List.range (L + 1 - m)).map fun k => m + k) =
      (modes L L).map (·.1) := by
    unfold modes
    rw [List.map_flatMap]
    simp only [List.map_map]
    rfl
  show Represents L L (List.zipWith _ a ((List.range (L + 1)).flatMap fun m =>
    (List.range (L + 1 - m)).map fun k => m + k)) _
  rw [e]
  have h2 : Represents L L ((modes L L).map (·.1)) (fun l _ => l) := rfl
  have h3 := represents_zipWith (fun a (l : Nat) => a * (fl[l]?).getD 0) h h2
  refine represents_congr h3 ?_
  intro m l h1 h2 h3
  rw [hfl l h3]
  rfl

/-- Value of a scalar field with stored coefficients `f`. -/
def scalarAt (Y : Harmonics) (nside L : Nat) (f : Nat → Nat → ℂ) (p : Nat) : ℝ :=
  ∑ l ∈ Finset.range (L + 1), ((f l 0).re * (Y nside 0 l 0 p).re +
    ∑ m ∈ Finset.range l, 2 * (f l (m + 1) * Y nside 0 l ((m : Int) + 1) p).re)

/-- The coefficient with `m = 0` that `alm2map_spin` uses. -/
def zeroCoef (F G : ℂ) : ℂ := (((F + G).re / 2 : ℝ) : ℂ) + I * (((F - G).im / 2 : ℝ) : ℂ)

/-- Value of a spin field with coefficients `F` for `+s` and `G`, where `(-1)^s G` are the
coefficients for `-s`. -/
def spinAt (Y : Harmonics) (nside L : Nat) (s : Int) (F G : Nat → Nat → ℂ) (p : Nat) : ℂ :=
  ∑ l ∈ Finset.range (L + 1), (zeroCoef (F l 0) (G l 0) * Y nside s l 0 p +
    ∑ m ∈ Finset.range l, (F l (m + 1) * Y nside s l ((m : Int) + 1) p +
      (-1) ^ (m + 1) * star (G l (m + 1)) * Y nside s l (-((m : Int) + 1)) p))

theorem alm2map_spec (Y : Harmonics) (nside : Nat) {L : Nat} {a : List ℂ} {f : Nat → Nat → ℂ}
    (h : Represents L L a f) :
    alm2map Y nside a = (List.range (12 * nside ^ 2)).map (scalarAt Y nside L f) := by
  unfold alm2map
  rw [getlmax_rep h]
  dsimp only
  apply List.map_congr_left
  intro p _
  unfold scalarAt
  have e : ((L : Int) + 1).toNat = L + 1 := by omega
  rw [e]
  apply Finset.sum_congr rfl
  intro l hl
  have hl : l ≤ L := by rw [Finset.mem_range] at hl; omega
  rw [coef_spec h l 0 (by omega) hl]
  congr 1
  apply Finset.sum_congr rfl
  intro m hm
  rw [Finset.mem_range] at hm
  rw [coef_spec h l (m + 1) (by omega) hl]

/-- The two maps of `alm2map_spin` put together; `F = -(e + i b)` and `G = -(e - i b)`. -/
theorem alm2mapSpin_spec (Y : Harmonics) (nside : Nat) {L : Nat} (s : Int) {e b : List ℂ}
    {fe fb : Nat → Nat → ℂ} (he : Represents L L e fe) (hb : Represents L L b fb) :
    toComplex (alm2mapSpin Y nside s L e b).1 (alm2mapSpin Y nside s L e b).2 =
      (List.range (12 * nside ^ 2)).map
        (spinAt Y nside L s (fun l m => -(fe l m + I * fb l m)) fun l m => -(fe l m - I * fb l m)) := by
  unfold alm2mapSpin toComplex
  dsimp only
  rw [List.zipWith_map, List.zipWith_self]
  apply List.map_congr_left
  intro p _
  rw [mul_comm I, re_add_im]
  unfold spinAt
  have e : ((L : Int) + 1).toNat = L + 1 := by omega
  rw [e]
  apply Finset.sum_congr rfl
  intro l hl
  have hl : l ≤ L := by rw [Finset.mem_range] at hl; omega
  rw [coef_spec he l 0 (by omega) hl, coef_spec hb l 0 (by omega) hl]
  congr 1
  · congr 1
    unfold zeroCoef
    apply Complex.ext
    · simp
      ring
    · simp
      ring
  · apply Finset.sum_congr rfl
    intro m hm
    rw [Finset.mem_range] at hm
    rw [coef_spec he l (m + 1) (by omega) hl, coef_spec hb l (m + 1) (by omega) hl]

/-- `spin2eb` and then `alm2map_spin`. -/
theorem spinField (Y : Harmonics) (nside : Nat) {L : Nat} (s : Int) {m p : List ℂ}
    {fm fp : Nat → Nat → ℂ} (hm : Represents L L m fm) (hp : Represents L L p fp) :
    ∃ e b, spin2eb m p (s : Rat) = .ok (e, b) ∧
      Represents L L e (fun l k => (fp l k + fm l k * (-1) ^ s) / (-2)) ∧
      Represents L L b (fun l k => (fp l k - fm l k * (-1) ^ s) * (I / 2)) ∧
      ∀ s', toComplex (alm2mapSpin Y nside s' L e b).1 (alm2mapSpin Y nside s' L e b).2 =
        (List.range (12 * nside ^ 2)).map (spinAt Y nside L s' fp fun l k => fm l k * (-1) ^ s) := by
  have h1 := represents_zipWith (fun m p => (p + m * (-1) ^ s) / (-2)) hm hp
  have h2 := represents_zipWith (fun m p => (p - m * (-1) ^ s) * (I / 2)) hm hp
  refine ⟨_, _, spin2eb_eq m p (by rw [rep_length hm, rep_length hp]) s, h1, h2, ?_⟩
  intro s'
  rw [alm2mapSpin_spec Y nside s' h1 h2]
  congr 2
  · funext l k
    linear_combination (-(fp l k - fm l k * (-1) ^ s) / 2) * I_sq
  · funext l k
    linear_combination ((fp l k - fm l k * (-1) ^ s) / 2) * I_sq

/-- The row of a beam. -/
theorem bell_spec {L : Nat} {b : List ℂ} {f : Nat → Nat → ℂ} (h : Represents L L b f) (s : Nat)
    (hs : s ≤ L) :
    ∃ bell, blm2bl b (s : Int) true = .ok bell ∧ bell.length = L + 1 ∧
      ∀ l, l ≤ L → bell[l]? = some (if l < s then 0 else f l s) :=
  (blm2bl_spec L b f h s hs).2

/-- Value of a map of `_spinmaps_real`. -/
def rawReal (Y : Harmonics) (nside L : Nat) (a b : Nat → Nat → ℂ) (s : Nat) (p : Nat) : ℂ :=
  let B : Nat → ℂ := fun l => if l < s then 0 else b l s
  if s = 0 then (scalarAt Y nside L (fun l m => a l m * B l) p : ℂ)
  else spinAt Y nside L s (fun l m => a l m * B l) (fun l m => a l m * star (B l)) p

theorem neg_one_pow_sq (s : Nat) : ((-1 : ℂ) ^ s) * (-1) ^ s = 1 := by
  rw [← mul_pow]; simp

theorem spinmapReal_spec (Y : Harmonics) (nside : Nat) {L : Nat} {alm blm : List ℂ}
    {a b : Nat → Nat → ℂ} (ha : Represents L L alm a) (hb : Represents L L blm b) (s : Nat)
    (hs : s ≤ L) :
    spinmapReal Y alm blm nside (s : Int) =
      .ok ((List.range (12 * nside ^ 2)).map (rawReal Y nside L a b s)) := by
  obtain ⟨bell, h1, h2, h3⟩ := bell_spec hb s hs
  unfold spinmapReal
  rw [h1]
  simp only [bind, Except.bind]
  have hf := almxfl_spec ha (fun l => if l < s then 0 else b l s) h3
  by_cases h0 : s = 0
  · subst h0
    simp only [Nat.cast_zero, if_true, pure, Except.pure]
    rw [alm2map_spec Y nside hf, List.map_map]
    congr 1
  · have h0' : ¬ ((s : Int) = 0) := by omega
    simp only [h0', if_false]
    have hm := almxfl_spec ha (fun l => (-1) ^ s * star (if l < s then 0 else b l s))
      (fl := bell.map fun x => (-1) ^ ((s : Int)).natAbs * star x) (by
        intro l hl
        rw [List.getElem?_map, h3 l hl]
        simp)
    obtain ⟨e, c, g1, -, -, g2⟩ := spinField Y nside (s : Int) hm hf
    rw [Rat.intCast_natCast] at g1
    rw [Int.natAbs_natCast] at g1 ⊢
    rw [show (((s : Int) : Rat)) = ((s : Nat) : Rat) by simp, g1]
    simp only [pure, Except.pure]
    rw [getlmax_rep ha, g2]
    congr 2
    funext p
    unfold rawReal
    dsimp only
    rw [if_neg h0]
    congr 1
    funext l m
    rw [zpow_natCast, mul_assoc, mul_comm ((-1 : ℂ) ^ s) (star _), mul_assoc, neg_one_pow_sq,
      mul_one]

/-- Value of a map of `_spinmaps_complex`; `ap`, `a2` are the coefficients of the sky with spin +2
and -2, `bp`, `b2` those of the beam. -/
def rawComplex (Y : Harmonics) (nside L : Nat) (a2 ap b2 bp : Nat → Nat → ℂ) (s : Int) (p : Nat) :
    ℂ :=
  let M : Nat → ℂ := fun l => if l < s.natAbs then 0 else b2 l s.natAbs
  let P : Nat → ℂ := fun l => if l < s.natAbs then 0 else bp l s.natAbs
  if s > 0 then
    spinAt Y nside L s (fun l m => ap l m * M l) (fun l m => a2 l m * star (M l)) p
  else if s < 0 then
    star (spinAt Y nside L |s| (fun l m => a2 l m * P l) (fun l m => ap l m * star (P l)) p)
  else (scalarAt Y nside L (fun l m => (ap l m * M l + a2 l m * star (M l)) / 2) p : ℂ) +
    I * (scalarAt Y nside L (fun l m => (a2 l m * P l - ap l m * star (P l)) * (I / 2)) p : ℂ)

theorem neg_spec {L : Nat} {bell : List ℂ} {g : Nat → ℂ} (s : Int)
    (h : ∀ l, l ≤ L → bell[l]? = some (g l)) :
    ∀ l, l ≤ L → (bell.map fun x => star x * (-1) ^ s.natAbs)[l]? =
      some (star (g l) * (-1) ^ s.natAbs) := by
  intro l hl
  rw [List.getElem?_map, h l hl]
  rfl

theorem cancel_sign (s : Int) (x y : ℂ) :
    x * (star y * (-1) ^ s.natAbs) * (-1) ^ |s| = x * star y := by
  rw [Int.abs_eq_natAbs, zpow_natCast]
  rw [mul_assoc, mul_assoc, neg_one_pow_sq, mul_one]

theorem spinmapComplex_spec (Y : Harmonics) (nside : Nat) {L : Nat} {a2 ap b2 bp : List ℂ}
    {fa2 fap fb2 fbp : Nat → Nat → ℂ} (ha2 : Represents L L a2 fa2) (hap : Represents L L ap fap)
    (hb2 : Represents L L b2 fb2) (hbp : Represents L L bp fbp) (s : Int) (hs : |s| ≤ L) :
    spinmapComplex Y a2 ap b2 bp nside s =
      .ok ((List.range (12 * nside ^ 2)).map (rawComplex Y nside L fa2 fap fb2 fbp s)) := by
  have hsn : |s| = ((s.natAbs : Nat) : Int) := Int.abs_eq_natAbs s
  obtain ⟨bellp, p1, -, p3⟩ := bell_spec hbp s.natAbs (by omega)
  obtain ⟨bellm, m1, -, m3⟩ := bell_spec hb2 s.natAbs (by omega)
  unfold spinmapComplex
  rw [hsn, p1, m1]
  simp only [bind, Except.bind]
  rw [← hsn]
  obtain ⟨e1, c1, g1, x1, y1, z1⟩ := spinField Y nside |s|
    (almxfl_spec ha2 _ (neg_spec s m3)) (almxfl_spec hap _ m3)
  obtain ⟨e2, c2, g2, x2, y2, z2⟩ := spinField Y nside |s|
    (almxfl_spec hap _ (neg_spec s p3)) (almxfl_spec ha2 _ p3)
  simp only [cancel_sign] at x1 y1 z1 x2 y2 z2
  rw [Int.cast_abs] at g1 g2
  rw [getlmax_rep ha2]
  rcases lt_trichotomy s 0 with h | h | h
  · rw [if_neg (by omega), if_pos h, g2]
    simp only [pure, Except.pure]
    rw [z2, List.map_map]
    congr 1
    apply List.map_congr_left
    intro p _
    unfold rawComplex
    dsimp only
    rw [if_neg (by omega), if_pos h]
    rfl
  · rw [if_neg (by omega), if_neg (by omega), g1]
    dsimp only
    rw [g2]
    simp only [pure, Except.pure]
    have x1' := represents_map (fun x => -x) x1
    rw [alm2map_spec Y nside x1', alm2map_spec Y nside y2]
    unfold toComplex
    rw [List.zipWith_map, List.zipWith_self]
    congr 1
    apply List.map_congr_left
    intro p _
    unfold rawComplex
    dsimp only
    rw [if_neg (by omega), if_neg (by omega)]
    congr 4
    funext l m
    ring
  · rw [if_pos h, g1]
    simp only [pure, Except.pure]
    rw [z1]
    congr 1
    apply List.map_congr_left
    intro p _
    unfold rawComplex
    dsimp only
    rw [if_pos h]

theorem spinmapsReal_spec (Y : Harmonics) (nside : Nat) {L : Nat} {alm blm : List ℂ}
    {a b : Nat → Nat → ℂ} (ha : Represents L L alm a) (hb : Represents L L blm b)
    (spins : List Int) (hne : spins ≠ []) (hs : ∀ s ∈ spins, 0 ≤ s ∧ s ≤ L) :
    spinmapsReal Y alm blm spins nside =
      .ok (spins.map fun s => (List.range (12 * nside ^ 2)).map (rawReal Y nside L a b s.toNat)) := by
  unfold spinmapsReal
  rw [if_neg]
  · apply mapM_ok
    intro s h
    have := hs s h
    obtain ⟨n, rfl⟩ := Int.eq_ofNat_of_zero_le this.1
    rw [Int.toNat_natCast]
    exact spinmapReal_spec Y nside ha hb n (by omega)
  · rintro (h | h)
    · exact hne h
    · obtain ⟨s, h1, h2⟩ := List.any_eq_true.1 h
      have := (hs s h1).1
      simp at h2
      omega

theorem spinmapsComplex_spec (Y : Harmonics) (nside : Nat) {L : Nat} {almE almB m2 p2 : List ℂ}
    {fE fB g2 gp : Nat → Nat → ℂ} (hE : Represents L L almE fE) (hB : Represents L L almB fB)
    (h2 : Represents L L m2 g2) (hp : Represents L L p2 gp)
    (spins : List Int) (hs : ∀ s ∈ spins, |s| ≤ L) :
    ∃ blmE blmB, spin2eb m2 p2 2 = .ok (blmE, blmB) ∧
      spinmapsComplex Y almE almB blmE blmB spins nside =
        .ok (spins.map fun s => (List.range (12 * nside ^ 2)).map
          (rawComplex Y nside L (minus2 fE fB) (plus2 fE fB) g2 gp s)) := by
  obtain ⟨e, b, h1, he, hb, -⟩ := spinField Y nside 2 h2 hp
  refine ⟨e, b, h1, ?_⟩
  unfold spinmapsComplex
  rw [eb2spin_eq _ _ (by rw [rep_length hE, rep_length hB])]
  simp only [bind, Except.bind]
  rw [eb2spin_eq _ _ (by rw [rep_length he, rep_length hb])]
  dsimp only
  apply mapM_ok
  intro s h
  apply spinmapComplex_spec Y nside _ _ _ _ s (hs s h)
  · refine represents_congr (represents_zipWith _ hE hB) ?_
    intros
    unfold minus2
    ring
  · refine represents_congr (represents_zipWith _ hE hB) ?_
    intros
    unfold plus2
    ring
  · refine represents_congr (represents_zipWith _ he hb) ?_
    intro m l _ _ _
    simp only [show ((-1 : ℂ) ^ (2 : Int)) = 1 by norm_num]
    linear_combination ((gp l m - g2 l m) / 2) * I_sq
  · refine represents_congr (represents_zipWith _ he hb) ?_
    intro m l _ _ _
    simp only [show ((-1 : ℂ) ^ (2 : Int)) = 1 by norm_num]
    linear_combination (-(gp l m - g2 l m) / 2) * I_sq

/-! ### rows of coefficients -/

theorem nrows_ge (v : Bool) : 3 ≤ nrows v := by unfold nrows; split <;> omega

theorem HasRows.get {L k : Nat} {x : List (List ℂ)} {a : Nat → Nat → Nat → ℂ}
    (h : HasRows L k x a) (i : Nat) (hi : i < k) :
    ∃ r, pyGet x (i : Int) = .ok r ∧ Represents L L r (a i) := by
  obtain ⟨r, h1, h2⟩ := h i hi
  exact ⟨r, pyGet_nat x i r h1, h2⟩

theorem truncRows_spec {Ls N : Nat} (hN : N ≤ Ls) {x : List (List ℂ)} {a : Nat → Nat → Nat → ℂ}
    (v : Bool) (h : HasRows Ls (nrows v) x a) :
    ∃ y, truncRows x (N : Int) v = .ok y ∧ HasRows N (nrows v) y a := by
  have h3 := nrows_ge v
  obtain ⟨r0, g0, e0⟩ := h.get 0 (by omega)
  obtain ⟨r1, g1, e1⟩ := h.get 1 (by omega)
  obtain ⟨r2, g2, e2⟩ := h.get 2 (by omega)
  obtain ⟨out, t1, t2⟩ := C18_trunc_alm_seq Ls Ls N le_rfl hN none (Or.inr ⟨rfl, rfl⟩) [r0, r1, r2]
    [a 0, a 1, a 2] (by simp) (.cons e0 (.cons e1 (.cons e2 .nil)))
  have t2' : List.Forall₂ (Represents N N) out [a 0, a 1, a 2] := by
    rwa [min_eq_left hN] at t2
  rcases t2' with _ | ⟨q0, t3⟩
  rcases t3 with _ | ⟨q1, t4⟩
  rcases t4 with _ | ⟨q2, t5⟩
  cases t5
  rename_i o0 o1 o2
  unfold truncRows
  rw [show ((0 : Int)) = ((0 : Nat) : Int) from rfl, g0,
    show ((1 : Int)) = ((1 : Nat) : Int) from rfl, g1,
    show ((2 : Int)) = ((2 : Nat) : Int) from rfl, g2]
  simp only [bind, Except.bind]
  rw [t1]
  dsimp only
  cases v with
  | false =>
    rw [if_neg (by simp)]
    refine ⟨_, rfl, ?_⟩
    intro i hi
    have hi : i < 3 := hi
    match i, hi with
    | 0, _ => exact ⟨_, rfl, q0⟩
    | 1, _ => exact ⟨_, rfl, q1⟩
    | 2, _ => exact ⟨_, rfl, q2⟩
  | true =>
    rw [if_pos rfl]
    obtain ⟨r3, g3, e3⟩ := h.get 3 (by show 3 < 4; omega)
    rw [show ((3 : Int)) = ((3 : Nat) : Int) from rfl, g3]
    dsimp only
    obtain ⟨o3, t6, q3⟩ := C18_trunc_alm Ls Ls N le_rfl hN none (Or.inr ⟨rfl, rfl⟩) r3 (a 3) e3
    rw [min_eq_left hN] at q3
    rw [t6]
    refine ⟨_, rfl, ?_⟩
    intro i hi
    have hi : i < 4 := hi
    match i, hi with
    | 0, _ => exact ⟨_, rfl, q0⟩
    | 1, _ => exact ⟨_, rfl, q1⟩
    | 2, _ => exact ⟨_, rfl, q2⟩
    | 3, _ => exact ⟨_, rfl, q3⟩

theorem matchBands_spec {Ls Lb : Nat} {alm blm : List (List ℂ)} {a b : Nat → Nat → Nat → ℂ}
    (inputV beamV : Bool) (ha : HasRows Ls (nrows inputV) alm a)
    (hb : HasRows Lb (nrows beamV) blm b) :
    ∃ alm' blm', matchBands alm blm inputV beamV = .ok (alm', blm') ∧
      HasRows (min Ls Lb) (nrows inputV) alm' a ∧ HasRows (min Ls Lb) (nrows beamV) blm' b := by
  have h3 := nrows_ge inputV
  have h4 := nrows_ge beamV
  obtain ⟨a0, g0, e0⟩ := ha.get 0 (by omega)
  obtain ⟨b0, g1, e1⟩ := hb.get 0 (by omega)
  unfold matchBands
  rw [show ((0 : Int)) = ((0 : Nat) : Int) from rfl, g0, g1]
  simp only [bind, Except.bind]
  rw [getlmax_rep e0, getlmax_rep e1]
  rcases lt_trichotomy Ls Lb with h | h | h
  · rw [if_neg (by omega), if_pos (by omega)]
    obtain ⟨y, y1, y2⟩ := truncRows_spec (le_of_lt h) beamV hb
    rw [y1, min_eq_left (le_of_lt h)]
    exact ⟨_, _, rfl, ha, y2⟩
  · rw [if_neg (by omega), if_neg (by omega)]
    subst h
    rw [min_self]
    exact ⟨_, _, rfl, ha, hb⟩
  · rw [if_pos (by omega)]
    obtain ⟨y, y1, y2⟩ := truncRows_spec (le_of_lt h) inputV ha
    rw [y1, min_eq_right (le_of_lt h)]
    exact ⟨_, _, rfl, y2, hb⟩

/-- The maps with values `f s p` for the spins `s`. -/
def mapsWith (nside : Nat) (spins : List Int) (f : Int → Nat → ℂ) : List (List ℂ) :=
  spins.map fun s => (List.range (12 * nside ^ 2)).map (f s)

theorem addMaps_with (nside : Nat) (spins : List Int) (f g : Int → Nat → ℂ) :
    addMaps (mapsWith nside spins f) (mapsWith nside spins g) =
      mapsWith nside spins fun s p => f s p + g s p := by
  unfold addMaps mapsWith
  rw [List.zipWith_map, List.zipWith_self]
  apply List.map_congr_left
  intro s _
  rw [List.zipWith_map, List.zipWith_self]

/-- The dictionary with values `f` for each kind of map; three more kinds with a Mueller matrix. -/
def dictF (nside : Nat) (new : Bool) (unpol pol s02 : List Int) (f : Mode → Int → Nat → ℂ) :
    SpinDict :=
  [(.s0a0, ⟨mapsWith nside unpol (f .s0a0), unpol⟩), (.s2a4, ⟨mapsWith nside pol (f .s2a4), pol⟩)] ++
    if new then [(.s0a2, ⟨mapsWith nside s02 (f .s0a2), s02⟩),
      (.s2a2, ⟨mapsWith nside pol (f .s2a2), pol⟩), (.s2a0, ⟨mapsWith nside pol (f .s2a0), pol⟩)]
    else []

/-- Values of the maps without Mueller matrix. -/
def valuesOld (Y : Harmonics) (nside L : Nat) (a b : Nat → Nat → Nat → ℂ) (v : Bool) :
    Mode → Int → Nat → ℂ
  | .s0a0, s, p => rawReal Y nside L (a 0) (b 0) s.toNat p +
      if v then rawReal Y nside L (a 3) (b 3) s.toNat p else 0
  | _, s, p => rawComplex Y nside L (minus2 (a 1) (a 2)) (plus2 (a 1) (a 2)) (b 1) (b 2) s p

theorem mapsOld_spec (Y : Harmonics) (nside : Nat) {L : Nat} {alm blm : List (List ℂ)}
    {a b : Nat → Nat → Nat → ℂ} (inputV beamV : Bool) (ha : HasRows L (nrows inputV) alm a)
    (hb : HasRows L (nrows beamV) blm b) (unpol pol : List Int) (hne : unpol ≠ [])
    (hu : ∀ s ∈ unpol, 0 ≤ s ∧ s ≤ L) (hp : ∀ s ∈ pol, |s| ≤ L) :
    mapsOld Y alm blm unpol pol nside inputV beamV =
      .ok (dictF nside false unpol pol [] (valuesOld Y nside L a b (beamV && inputV))) := by
  have h3 := nrows_ge inputV
  have h4 := nrows_ge beamV
  obtain ⟨a0, ga0, ea0⟩ := ha.get 0 (by omega)
  obtain ⟨a1, ga1, ea1⟩ := ha.get 1 (by omega)
  obtain ⟨a2, ga2, ea2⟩ := ha.get 2 (by omega)
  obtain ⟨b0, gb0, eb0⟩ := hb.get 0 (by omega)
  obtain ⟨b1, gb1, eb1⟩ := hb.get 1 (by omega)
  obtain ⟨b2, gb2, eb2⟩ := hb.get 2 (by omega)
  obtain ⟨bE, bB, s1, s2⟩ := spinmapsComplex_spec Y nside ea1 ea2 eb1 eb2 pol hp
  have r0 := spinmapsReal_spec Y nside ea0 eb0 unpol hne hu
  unfold mapsOld
  rw [show ((0 : Int)) = ((0 : Nat) : Int) from rfl, show ((1 : Int)) = ((1 : Nat) : Int) from rfl,
    show ((2 : Int)) = ((2 : Nat) : Int) from rfl, ga1, ga2, gb1, gb2]
  simp only [bind, Except.bind]
  rw [s1, ga0, gb0]
  dsimp only
  rw [r0]
  dsimp only
  by_cases hv : beamV = true ∧ inputV = true
  · obtain ⟨hv1, hv2⟩ := hv
    subst hv1
    subst hv2
    obtain ⟨a3, ga3, ea3⟩ := ha.get 3 (by show 3 < 4; omega)
    obtain ⟨b3, gb3, eb3⟩ := hb.get 3 (by show 3 < 4; omega)
    rw [if_pos ⟨rfl, rfl⟩, show ((3 : Int)) = ((3 : Nat) : Int) from rfl, ga3, gb3]
    dsimp only
    rw [spinmapsReal_spec Y nside ea3 eb3 unpol hne hu]
    simp only [pure, Except.pure]
    rw [s2]
    have := addMaps_with nside unpol (fun s p => rawReal Y nside L (a 0) (b 0) s.toNat p)
      (fun s p => rawReal Y nside L (a 3) (b 3) s.toNat p)
    unfold mapsWith at this
    rw [this]
    rfl
  · rw [if_neg hv]
    simp only [pure, Except.pure]
    rw [s2]
    have hv' : (beamV && inputV) = false := by
      rw [Bool.and_eq_false_iff]
      revert hv
      cases beamV <;> cases inputV <;> simp
    rw [hv']
    have e : valuesOld Y nside L a b false .s0a0 =
        fun s => rawReal Y nside L (a 0) (b 0) s.toNat := by
      funext s p
      simp [valuesOld]
    unfold dictF
    rw [e]
    rfl

/-! ### beams with a Mueller matrix -/

/-- `shift_blm`: the modes with spin -2. -/
def shiftM (f g : Nat → Nat → ℂ) (s : Int) : Nat → Nat → ℂ := fun l m =>
  if |(m : Int) + s| ≤ (l : Int) then extended f g l (m + s) else 0

/-- `shift_blm`: the modes with spin +2. -/
def shiftP (f g : Nat → Nat → ℂ) (s : Int) : Nat → Nat → ℂ := fun l m =>
  if |(m : Int) - s| ≤ (l : Int) then extended g f l (m - s) else 0

theorem shift_spec {L : Nat} {m2 p2 : List ℂ} {f g : Nat → Nat → ℂ} (hf : Represents L L m2 f)
    (hg : Represents L L p2 g) (s : Int) (hs : s ≤ L) :
    ∃ m2' p2', shiftBlm m2 p2 s = .ok (m2', p2') ∧ Represents L L m2' (shiftM f g s) ∧
      Represents L L p2' (shiftP f g s) :=
  C21_shift_modes L m2 p2 f g hf hg s hs

theorem scale_spec {L : Nat} {x : List ℂ} {f : Nat → Nat → ℂ} (h : Represents L L x f) (c : ℂ) :
    Represents L L (scale c x) (fun l m => f l m * c) := represents_map _ h

theorem npIadd_spec {L : Nat} {x y : List ℂ} {f g : Nat → Nat → ℂ} (h : Represents L L x f)
    (h' : Represents L L y g) :
    ∃ z, npIadd x y = .ok z ∧ Represents L L z (fun l m => f l m + g l m) := by
  refine ⟨_, ?_, represents_zipWith (· + ·) h h'⟩
  unfold npIadd
  rw [if_pos (by rw [rep_length h, rep_length h'])]

/-- The unpolarized beam for unpolarized (`c = 0`) or V (`c = 3`) skies. -/
def hwpUnpol (b : Nat → Nat → Nat → ℂ) (w : Mat4) (beamV : Bool) (c : Fin 4) : Nat → Nat → ℂ :=
  fun l m => b 0 l m * w 0 c + if beamV then b 3 l m * w 3 c else 0

theorem hwpOne_spec {L : Nat} {blm : List (List ℂ)} {b : Nat → Nat → Nat → ℂ} (beamV : Bool)
    (hb : HasRows L (nrows beamV) blm b) (w : Mat4) :
    (∃ x, hwpOne blm w "s0a0" beamV = .ok x ∧ Represents L L x (hwpUnpol b w beamV 0)) ∧
    ∃ x, hwpOne blm w "s0a0_v" beamV = .ok x ∧ Represents L L x (hwpUnpol b w beamV 3) := by
  have h4 := nrows_ge beamV
  obtain ⟨b0, gb0, eb0⟩ := hb.get 0 (by omega)
  have gb0 : pyGet blm 0 = .ok b0 := gb0
  unfold hwpOne blmxhwp
  simp only [String.reduceEq, if_true, if_false, bind, Except.bind, gb0]
  cases beamV with
  | false =>
    refine ⟨⟨_, rfl, ?_⟩, ⟨_, rfl, ?_⟩⟩
    · refine represents_congr (scale_spec eb0 _) ?_
      intros
      simp [hwpUnpol]
    · refine represents_congr (scale_spec eb0 _) ?_
      intros
      simp [hwpUnpol]
  | true =>
    obtain ⟨b3, gb3, eb3⟩ := hb.get 3 (by show 3 < 4; omega)
    have gb3 : pyGet blm 3 = .ok b3 := gb3
    obtain ⟨z, z1, z2⟩ := npIadd_spec (scale_spec eb0 (w 0 0)) (scale_spec eb3 (w 3 0))
    obtain ⟨y, y1, y2⟩ := npIadd_spec (scale_spec eb0 (w 0 3)) (scale_spec eb3 (w 3 3))
    simp only [if_true, gb3, z1, y1]
    refine ⟨⟨_, rfl, ?_⟩, ⟨_, rfl, ?_⟩⟩
    · exact represents_congr z2 (by intros; simp [hwpUnpol])
    · exact represents_congr y2 (by intros; simp [hwpUnpol])

/-- Spin -2 and +2 coefficients of the beam with Mueller matrix for each polarized mode. -/
def hwpPol (b : Nat → Nat → Nat → ℂ) (w : Mat4) (beamV : Bool) (mode : String) :
    (Nat → Nat → ℂ) × (Nat → Nat → ℂ) :=
  let s2 : ℂ := (Real.sqrt 2 : ℂ)
  if mode = "s2a4" then
    (fun l m => shiftP (b 1) (b 2) 4 l m * w 1 2, fun l m => shiftM (b 1) (b 2) 4 l m * w 2 1)
  else if mode = "s0a2" then
    (fun l m => shiftM (b 1) (b 2) 2 l m * (w 0 2 * s2),
      fun l m => shiftP (b 1) (b 2) 2 l m * (w 2 0 * s2))
  else if mode = "s0a2_v" then
    (fun l m => shiftM (b 1) (b 2) 2 l m * (w 3 2 * s2),
      fun l m => shiftP (b 1) (b 2) 2 l m * (w 2 3 * s2))
  else if mode = "s2a2" then
    (fun l m => shiftP (b 0) (b 0) 2 l m * (w 0 2 * s2) +
        if beamV then shiftP (b 3) (b 3) 2 l m * (w 3 2 * s2) else 0,
      fun l m => shiftM (b 0) (b 0) 2 l m * (w 0 1 * s2) +
        if beamV then shiftM (b 3) (b 3) 2 l m * (w 3 1 * s2) else 0)
  else (fun l m => b 1 l m * w 2 2, fun l m => b 2 l m * w 1 1)

theorem hwpTwo_spec {L : Nat} (hL : 4 ≤ L) {blm : List (List ℂ)} {b : Nat → Nat → Nat → ℂ}
    (beamV : Bool) (hb : HasRows L (nrows beamV) blm b) (w : Mat4) (mode : String)
    (hm : mode = "s2a4" ∨ mode = "s0a2" ∨ mode = "s0a2_v" ∨ mode = "s2a2" ∨ mode = "s2a0") :
    ∃ x y, hwpTwo blm w mode beamV = .ok (x, y) ∧
      Represents L L x (hwpPol b w beamV mode).1 ∧ Represents L L y (hwpPol b w beamV mode).2 := by
  have h4 := nrows_ge beamV
  obtain ⟨b0, gb0, eb0⟩ := hb.get 0 (by omega)
  obtain ⟨b1, gb1, eb1⟩ := hb.get 1 (by omega)
  obtain ⟨b2, gb2, eb2⟩ := hb.get 2 (by omega)
  have gb0 : pyGet blm 0 = .ok b0 := gb0
  have gb1 : pyGet blm 1 = .ok b1 := gb1
  have gb2 : pyGet blm 2 = .ok b2 := gb2
  obtain ⟨x4, y4, p4, q4, r4⟩ := shift_spec eb1 eb2 4 (by omega)
  obtain ⟨x2, y2, p2, q2, r2⟩ := shift_spec eb1 eb2 2 (by omega)
  obtain ⟨x0, y0, p0, q0, r0⟩ := shift_spec eb0 eb0 2 (by omega)
  unfold hwpTwo blmxhwp hwpPol
  rcases hm with rfl | rfl | rfl | rfl | rfl
  · simp only [String.reduceEq, if_true, if_false, bind, Except.bind, gb1, gb2, p4]
    exact ⟨_, _, rfl, scale_spec r4 _, scale_spec q4 _⟩
  · simp only [String.reduceEq, if_true, if_false, bind, Except.bind, gb1, gb2, p2]
    exact ⟨_, _, rfl, scale_spec q2 _, scale_spec r2 _⟩
  · simp only [String.reduceEq, if_true, if_false, bind, Except.bind, gb1, gb2, p2]
    exact ⟨_, _, rfl, scale_spec q2 _, scale_spec r2 _⟩
  · simp only [String.reduceEq, if_true, if_false, bind, Except.bind, gb0, p0]
    cases beamV with
    | false =>
      refine ⟨_, _, rfl, ?_, ?_⟩
      · exact represents_congr (scale_spec r0 _) (by intros; simp)
      · exact represents_congr (scale_spec q0 _) (by intros; simp)
    | true =>
      obtain ⟨b3, gb3, eb3⟩ := hb.get 3 (by show 3 < 4; omega)
      have gb3 : pyGet blm 3 = .ok b3 := gb3
      obtain ⟨x3, y3, p3, q3, r3⟩ := shift_spec eb3 eb3 2 (by omega)
      obtain ⟨z, z1, z2⟩ := npIadd_spec (scale_spec r0 (w 0 2 * (Real.sqrt 2 : ℂ)))
        (scale_spec r3 (w 3 2 * (Real.sqrt 2 : ℂ)))
      obtain ⟨u, u1, u2⟩ := npIadd_spec (scale_spec q0 (w 0 1 * (Real.sqrt 2 : ℂ)))
        (scale_spec q3 (w 3 1 * (Real.sqrt 2 : ℂ)))
      simp only [if_true, gb3, p3, z1, u1]
      exact ⟨_, _, rfl, z2, u2⟩
  · simp only [String.reduceEq, if_true, if_false, bind, Except.bind, gb1, gb2]
    exact ⟨_, _, rfl, scale_spec eb1 _, scale_spec eb2 _⟩

theorem zero_rows {L : Nat} {x : List ℂ} {f : Nat → Nat → ℂ} (h : Represents L L x f) :
    Represents L L (x.map fun x => x * 0) (fun _ _ => 0) :=
  represents_congr (represents_map (fun x => x * 0) h) (by intros; simp)

theorem mapsPol_spec (Y : Harmonics) (nside : Nat) {L : Nat} (hL : 4 ≤ L)
    {almE almB : List ℂ} {aE aB : Nat → Nat → ℂ} (hE : Represents L L almE aE)
    (hB : Represents L L almB aB) {blm : List (List ℂ)} {b : Nat → Nat → Nat → ℂ}
    (v : Bool) (hb : HasRows L (nrows v) blm b) (w : Mat4) (mode : String)
    (hm : mode = "s2a4" ∨ mode = "s0a2" ∨ mode = "s0a2_v" ∨ mode = "s2a2" ∨ mode = "s2a0")
    (pol : List Int) (hp : ∀ s ∈ pol, |s| ≤ L) :
    mapsPol Y almE almB blm w mode v pol nside = .ok (mapsWith nside pol
      (rawComplex Y nside L (minus2 aE aB) (plus2 aE aB) (hwpPol b w v mode).1
        (hwpPol b w v mode).2)) := by
  obtain ⟨x, y, h1, h2, h3⟩ := hwpTwo_spec hL v hb w mode hm
  obtain ⟨bE, bB, s1, s2⟩ := spinmapsComplex_spec Y nside hE hB h2 h3 pol hp
  unfold mapsPol
  rw [h1]
  simp only [bind, Except.bind]
  rw [s1]
  exact s2

theorem mapsS0a2_spec (Y : Harmonics) (nside : Nat) {L : Nat} (hL : 4 ≤ L)
    {alm : List ℂ} {a : Nat → Nat → ℂ} (ha : Represents L L alm a)
    {blm : List (List ℂ)} {b : Nat → Nat → Nat → ℂ}
    (hb : HasRows L 3 blm b) (w : Mat4) (mode : String)
    (hm : mode = "s2a4" ∨ mode = "s0a2" ∨ mode = "s0a2_v" ∨ mode = "s2a2" ∨ mode = "s2a0")
    (pol : List Int) (hp : ∀ s ∈ pol, |s| ≤ L) :
    mapsS0a2 Y alm blm w mode pol nside = .ok (mapsWith nside pol
      (rawComplex Y nside L a a (hwpPol b w false mode).2 (hwpPol b w false mode).1)) := by
  obtain ⟨x, y, h1, h2, h3⟩ := hwpTwo_spec hL false hb w mode hm
  obtain ⟨bE, bB, s1, s2⟩ := spinmapsComplex_spec Y nside (represents_map (fun x => -x) ha)
    (zero_rows ha) h3 h2 pol hp
  unfold mapsS0a2
  rw [h1]
  simp only [bind, Except.bind]
  rw [s1]
  dsimp only
  rw [s2]
  have e1 : minus2 (fun l m => -a l m) (fun _ _ => 0) = a := by
    funext l m
    simp [minus2]
  have e2 : plus2 (fun l m => -a l m) (fun _ _ => 0) = a := by
    funext l m
    simp [plus2]
  rw [e1, e2]
  rfl

/-- Values of the maps with a Mueller matrix; `w` is the matrix in the spin basis. -/
def valuesNew (Y : Harmonics) (nside L : Nat) (a b : Nat → Nat → Nat → ℂ) (w : Mat4)
    (inputV beamV : Bool) : Mode → Int → Nat → ℂ
  | .s0a0, s, p => rawReal Y nside L (a 0) (hwpUnpol b w beamV 0) s.toNat p +
      if inputV then rawReal Y nside L (a 3) (hwpUnpol b w beamV 3) s.toNat p else 0
  | .s2a4, s, p => rawComplex Y nside L (minus2 (a 1) (a 2)) (plus2 (a 1) (a 2))
      (hwpPol b w false "s2a4").1 (hwpPol b w false "s2a4").2 s p
  | .s0a2, s, p => rawComplex Y nside L (a 0) (a 0) (hwpPol b w false "s0a2").2
      (hwpPol b w false "s0a2").1 s p +
      if inputV then rawComplex Y nside L (a 3) (a 3) (hwpPol b w false "s0a2_v").2
        (hwpPol b w false "s0a2_v").1 s p else 0
  | .s2a2, s, p => rawComplex Y nside L (minus2 (a 1) (a 2)) (plus2 (a 1) (a 2))
      (hwpPol b w beamV "s2a2").1 (hwpPol b w beamV "s2a2").2 s p
  | .s2a0, s, p => rawComplex Y nside L (minus2 (a 1) (a 2)) (plus2 (a 1) (a 2))
      (hwpPol b w false "s2a0").1 (hwpPol b w false "s2a0").2 s p

theorem HasRows.three {L : Nat} {v : Bool} {x : List (List ℂ)} {a : Nat → Nat → Nat → ℂ}
    (h : HasRows L (nrows v) x a) : HasRows L (nrows false) x a :=
  fun i hi => h i (lt_of_lt_of_le hi (nrows_ge v))

theorem mapsNew_spec (Y : Harmonics) (nside : Nat) {L : Nat} (hL : 4 ≤ L)
    {alm blm : List (List ℂ)} {a b : Nat → Nat → Nat → ℂ} (inputV beamV : Bool)
    (ha : HasRows L (nrows inputV) alm a) (hb : HasRows L (nrows beamV) blm b) (M : Mat4)
    (unpol pol s02 : List Int) (hne : unpol ≠ [])
    (hu : ∀ s ∈ unpol, 0 ≤ s ∧ s ≤ L) (hp : ∀ s ∈ pol, |s| ≤ L) (h02 : ∀ s ∈ s02, |s| ≤ L) :
    mapsNew Y alm blm M unpol pol s02 nside inputV beamV =
      .ok (dictF nside true unpol pol s02
        (valuesNew Y nside L a b (mueller2spin M) inputV beamV)) := by
  have h3 := nrows_ge inputV
  obtain ⟨a0, ga0, ea0⟩ := ha.get 0 (by omega)
  obtain ⟨a1, ga1, ea1⟩ := ha.get 1 (by omega)
  obtain ⟨a2, ga2, ea2⟩ := ha.get 2 (by omega)
  have ga0 : pyGet alm 0 = .ok a0 := ga0
  have ga1 : pyGet alm 1 = .ok a1 := ga1
  have ga2 : pyGet alm 2 = .ok a2 := ga2
  obtain ⟨⟨c0, k0, l0⟩, ⟨c3, k3, l3⟩⟩ := hwpOne_spec beamV hb (mueller2spin M)
  have r0 := spinmapsReal_spec Y nside ea0 l0 unpol hne hu
  have p24 := mapsPol_spec Y nside hL ea1 ea2 false hb.three (mueller2spin M) "s2a4" (by simp) pol hp
  have p22 := mapsPol_spec Y nside hL ea1 ea2 beamV hb (mueller2spin M) "s2a2" (by simp) pol hp
  have p20 := mapsPol_spec Y nside hL ea1 ea2 false hb.three (mueller2spin M) "s2a0" (by simp) pol hp
  have p02 := mapsS0a2_spec Y nside hL ea0 hb.three (mueller2spin M) "s0a2" (by simp) s02 h02
  unfold mapsNew
  simp only [ga0, ga1, ga2, bind, Except.bind, k0, r0, p24, p22, p20, p02]
  cases inputV with
  | false =>
    simp only [Bool.false_eq_true, if_false, pure, Except.pure]
    have e : valuesNew Y nside L a b (mueller2spin M) false beamV .s0a0 =
        fun s => rawReal Y nside L (a 0) (hwpUnpol b (mueller2spin M) beamV 0) s.toNat := by
      funext s p
      simp [valuesNew]
    have e' : valuesNew Y nside L a b (mueller2spin M) false beamV .s0a2 =
        rawComplex Y nside L (a 0) (a 0) (hwpPol b (mueller2spin M) false "s0a2").2
          (hwpPol b (mueller2spin M) false "s0a2").1 := by
      funext s p
      simp [valuesNew]
    unfold dictF
    rw [e, e']
    rfl
  | true =>
    obtain ⟨a3, ga3, ea3⟩ := ha.get 3 (by show 3 < 4; omega)
    have ga3 : pyGet alm 3 = .ok a3 := ga3
    have r3 := spinmapsReal_spec Y nside ea3 l3 unpol hne hu
    have p02v := mapsS0a2_spec Y nside hL ea3 hb.three (mueller2spin M) "s0a2_v" (by simp) s02 h02
    simp only [if_true, ga3, k3, r3, p02v, pure, Except.pure]
    have e := addMaps_with nside unpol (fun s p => rawReal Y nside L (a 0)
        (hwpUnpol b (mueller2spin M) beamV 0) s.toNat p)
      (fun s p => rawReal Y nside L (a 3) (hwpUnpol b (mueller2spin M) beamV 3) s.toNat p)
    unfold mapsWith at e
    rw [e, addMaps_with]
    rfl

theorem mem_intRange (s : Int) (n : Nat) (x : Int) : x ∈ intRange s n ↔ s ≤ x ∧ x < s + n := by
  unfold intRange
  simp only [List.mem_map, List.mem_range]
  constructor
  · rintro ⟨k, h1, rfl⟩
    omega
  · intro h
    exact ⟨(x - s).toNat, by omega, by omega⟩

theorem scanRows_true {α : Type} (x : List (List α)) (i : Nat) :
    (scanRows (fun _ => true) x i).2 = false := by
  induction x generalizing i with
  | nil => rfl
  | cons r rs ih =>
    unfold scanRows
    rw [if_pos (by simp)]
    exact ih _

/-- The values of all maps. -/
def values (Y : Harmonics) (nside L : Nat) (a b : Nat → Nat → Nat → ℂ) (mueller : Option Mat4)
    (inputV beamV : Bool) : Mode → Int → Nat → ℂ :=
  match mueller with
  | none => valuesOld Y nside L a b (beamV && inputV)
  | some M => valuesNew Y nside L a b (mueller2spin M) inputV beamV

/-- The dictionary that `_init_spinmaps` makes. -/
def dictSpec (Y : Harmonics) (nside L : Nat) (a b : Nat → Nat → Nat → ℂ) (maxSpin : Int)
    (symmetric : Bool) (mueller : Option Mat4) (inputV beamV : Bool) : SpinDict :=
  dictF nside mueller.isSome (spinsUnpol symmetric maxSpin) (spinsPol symmetric maxSpin)
    (spinsS0a2 symmetric maxSpin) (values Y nside L a b mueller inputV beamV)

theorem unpol_range {L : Nat} {maxSpin : Int} (symmetric : Bool) (h : maxSpin ≤ L) :
    ∀ s ∈ spinsUnpol symmetric maxSpin, 0 ≤ s ∧ s ≤ L := by
  intro s hs
  unfold spinsUnpol at hs
  split at hs
  · simp at hs
    omega
  · rw [mem_intRange] at hs
    omega

theorem unpol_ne {maxSpin : Int} (symmetric : Bool) (h : 0 ≤ maxSpin) :
    spinsUnpol symmetric maxSpin ≠ [] := by
  have : (0 : Int) ∈ spinsUnpol symmetric maxSpin := by
    unfold spinsUnpol
    split
    · simp
    · rw [mem_intRange]
      omega
  exact List.ne_nil_of_mem this

theorem pol_range {L : Nat} {maxSpin : Int} (symmetric : Bool) (h : maxSpin ≤ L)
    (h2 : symmetric = true → 2 ≤ L) : ∀ s ∈ spinsPol symmetric maxSpin, |s| ≤ L := by
  intro s hs
  unfold spinsPol at hs
  split at hs
  · simp at hs
    have := h2 ‹_›
    rw [hs, abs_of_pos (by norm_num)]
    omega
  · rw [mem_intRange] at hs
    rw [abs_le]
    omega

theorem s0a2_range {L : Nat} {maxSpin : Int} (symmetric : Bool) (h : maxSpin ≤ L)
    (h2 : symmetric = true → 2 ≤ L) : ∀ s ∈ spinsS0a2 symmetric maxSpin, |s| ≤ L := by
  intro s hs
  unfold spinsS0a2 at hs
  split at hs
  · simp at hs
    rw [hs]
    simp
  · exact pol_range symmetric h h2 s hs

theorem spinmapsOf_spec (Y : Harmonics) (nside : Nat) {Ls Lb : Nat} {alm blm : List (List ℂ)}
    {a b : Nat → Nat → Nat → ℂ} {maxSpin : Int} {symmetric : Bool} {mueller : Option Mat4}
    {inputV beamV : Bool} (h : InputOk Ls Lb alm blm a b maxSpin symmetric mueller inputV beamV) :
    spinmapsOf Y alm blm maxSpin nside symmetric mueller inputV beamV =
      .ok (dictSpec Y nside (min Ls Lb) a b maxSpin symmetric mueller inputV beamV) := by
  obtain ⟨alm', blm', m1, m2, m3⟩ := matchBands_spec inputV beamV h.sky h.beam
  unfold spinmapsOf
  have hc : checkInput (fun _ : ℂ => true) alm blm inputV beamV = .ok () := by
    unfold checkInput
    rw [if_neg (fun e => e.1 (h.skyV e.2)), if_neg (fun e => e.1 (h.beamV e.2))]
    dsimp only
    rw [scanRows_true, scanRows_true, if_neg (by simp)]
  rw [hc]
  simp only [bind, Except.bind]
  rw [m1]
  have hne := unpol_ne symmetric h.spin0
  have hu := unpol_range symmetric h.spin
  have hp := pol_range symmetric h.spin h.sym
  have h02 := s0a2_range symmetric h.spin h.sym
  cases mueller with
  | none =>
    dsimp only
    rw [mapsOld_spec Y nside inputV beamV m2 m3 _ _ hne hu hp]
    rfl
  | some M =>
    dsimp only
    rw [mapsNew_spec Y nside (h.mueller (by simp)) inputV beamV m2 m3 M _ _ _ hne hu hp h02]
    rfl

end Verif.Spinmaps
