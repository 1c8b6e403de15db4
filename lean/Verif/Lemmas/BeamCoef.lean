import Verif.Lemmas.Spinmaps
import Verif.Spec.BeamCoef

/-!
# Lemmas: beam coefficients
-/

noncomputable section

namespace Verif.BeamCoef

open Verif.Alm Verif.Spinmaps Verif.Spec Verif.Props Verif.Timeline

theorem qell_eq (l : Nat) : qell l = deconvFactor true l := by
  unfold qell deconvFactor
  rw [if_pos rfl, mul_div_assoc, Real.sqrt_mul (by norm_num)]
  congr 1
  rw [show (4 : ℝ) = 2 ^ 2 by norm_num, Real.sqrt_sq (by norm_num)]

theorem deconvFactor_pos (d : Bool) (l : Nat) : 0 < deconvFactor d l := by
  unfold deconvFactor
  split
  · apply Real.sqrt_pos.2
    have := Real.pi_pos
    positivity
  · exact one_pos

theorem rep_head {L : Nat} {a : List ℂ} {f : Nat → Nat → ℂ} (h : Represents L L a f) :
    a[0]? = some (f 0 0) := by
  have := ((represents_iff L L a f).1 h).2 0 0 (by omega) le_rfl (by omega)
  simpa [off] using this

theorem rep_head_get {L : Nat} {a : List ℂ} {f : Nat → Nat → ℂ} (h : Represents L L a f) :
    pyGet a 0 = .ok (f 0 0) := pyGet_nat a 0 _ (rep_head h)

/-- The rows of an array represent `f 0`, `f 1`, .... -/
def AllRows (L : Nat) (rows : List (List ℂ)) (f : Nat → Nat → Nat → ℂ) : Prop :=
  ∀ i r, rows[i]? = some r → Represents L L r (f i)

theorem hasRows_all {L k : Nat} {rows : List (List ℂ)} {f : Nat → Nat → Nat → ℂ}
    (h : HasRows L k rows f) (hk : rows.length = k) : AllRows L rows f := by
  intro i r hr
  obtain ⟨r', e, h'⟩ := h i (by
    have := (List.getElem?_eq_some_iff.1 hr).1
    omega)
  rw [hr] at e
  cases e
  exact h'

theorem AllRows.has {L : Nat} {rows : List (List ℂ)} {f : Nat → Nat → Nat → ℂ}
    (h : AllRows L rows f) : HasRows L rows.length rows f := by
  intro i hi
  exact ⟨rows[i], by simp [hi], h i _ (by simp [hi])⟩

theorem AllRows.map {L : Nat} {rows : List (List ℂ)} {f g : Nat → Nat → Nat → ℂ}
    (h : AllRows L rows f) (φ : List ℂ → List ℂ)
    (hφ : ∀ i a, Represents L L a (f i) → Represents L L (φ a) (g i)) :
    AllRows L (rows.map φ) g := by
  intro i r hr
  rw [List.getElem?_map] at hr
  rcases h0 : rows[i]? with _ | a
  · rw [h0] at hr
    cases hr
  · rw [h0] at hr
    cases hr
    exact hφ i a (h i a h0)

theorem deconv_spec {L : Nat} {rows : List (List ℂ)} {f : Nat → Nat → Nat → ℂ}
    (h : AllRows L rows f) :
    AllRows L (deconv rows L) (fun i l m => f i l m * deconvFactor true l) := by
  refine h.map _ fun i a ha => almxfl_spec ha _ ?_
  intro l hl
  rw [List.getElem?_map, List.getElem?_range (by omega)]
  simp [qell_eq]

theorem scaleRows_spec {L : Nat} {rows : List (List ℂ)} {f : Nat → Nat → Nat → ℂ}
    (h : AllRows L rows f) (hne : rows ≠ []) (n d : Bool) :
    ∃ out, scaleRows rows n d = .ok out ∧ out.length = rows.length ∧
      AllRows L out (fun i => scaled n d (f 0) (f i)) := by
  obtain ⟨r0, rs, rfl⟩ : ∃ r0 rs, rows = r0 :: rs := by
    cases rows with
    | nil => exact absurd rfl hne
    | cons r rs => exact ⟨r, rs, rfl⟩
  have h0 := h 0 r0 rfl
  have step : ∃ mid : List (List ℂ), mid = (if d = true then deconv (r0 :: rs) (getlmax r0.length none)
      else r0 :: rs) ∧ mid.length = (r0 :: rs).length ∧
      AllRows L mid (fun i l m => f i l m * deconvFactor d l) := by
    cases d with
    | false =>
      refine ⟨_, rfl, rfl, ?_⟩
      have e : (fun i l m => f i l m * ((deconvFactor false l : ℝ) : ℂ)) = f := by
        funext i l m
        simp [deconvFactor]
      rw [e]
      exact h
    | true =>
      refine ⟨_, rfl, ?_, ?_⟩
      · simp [deconv]
      · rw [if_pos rfl, getlmax_rep h0]
        exact deconv_spec h
  obtain ⟨mid, hm, hl, hr⟩ := step
  unfold scaleRows
  have g0 : pyGet (r0 :: rs) 0 = .ok r0 := rfl
  simp only [g0, bind, Except.bind]
  rw [← hm]
  cases n with
  | false =>
    refine ⟨mid, rfl, hl, ?_⟩
    have e : (fun i => scaled false d (f 0) (f i)) =
        fun i l m => f i l m * ((deconvFactor d l : ℝ) : ℂ) := by
      funext i l m
      simp [scaled]
    rw [e]
    exact hr
  | true =>
    obtain ⟨x0, xs, rfl⟩ : ∃ x0 xs, mid = x0 :: xs := by
      cases mid with
      | nil => simp at hl
      | cons r rs => exact ⟨r, rs, rfl⟩
    have hx := hr 0 x0 rfl
    have g1 : pyGet (x0 :: xs) 0 = .ok x0 := rfl
    refine ⟨(x0 :: xs).map fun a => a.map fun x => x / (f 0 0 0 * deconvFactor d 0), ?_, ?_, ?_⟩
    · rw [if_pos rfl]
      unfold divide
      simp only [g1, bind, Except.bind, rep_head_get hx]
      rfl
    · rw [List.length_map, hl]
    · refine hr.map _ fun i a ha => ?_
      have := represents_map (fun x => x / (f 0 0 0 * deconvFactor d 0)) ha
      refine represents_congr this fun m l _ _ _ => ?_
      simp [scaled]

theorem scaled_none (u f : Nat → Nat → ℂ) : scaled false false u f = f := by
  funext l m
  simp [scaled, deconvFactor]

theorem scaleOne_spec {L : Nat} {a : List ℂ} {f : Nat → Nat → ℂ} (h : Represents L L a f)
    (n d : Bool) :
    ∃ r, scaleBlm (.one a) n d = .ok (.one r, .one r) ∧ Represents L L r (scaled n d f f) := by
  unfold scaleBlm
  by_cases hf : n = false ∧ d = false
  · obtain ⟨rfl, rfl⟩ := hf
    exact ⟨a, rfl, by rw [scaled_none]; exact h⟩
  · rw [if_neg hf]
    obtain ⟨out, e, hl, hr⟩ := scaleRows_spec (L := L) (rows := [a]) (f := fun _ => f) (by
      intro i r hr
      cases i with
      | zero => cases hr; exact h
      | succ i => cases hr) (by simp) n d
    simp only [Arr.rows, bind, Except.bind, e]
    obtain ⟨r, rfl⟩ : ∃ r, out = [r] := List.length_eq_one_iff.1 hl
    exact ⟨r, rfl, hr 0 r rfl⟩

theorem scaleTwo_spec {L : Nat} {rows : List (List ℂ)} {f : Nat → Nat → Nat → ℂ}
    (h : AllRows L rows f) (hne : 2 ≤ rows.length) (n d : Bool) :
    ∃ r, scaleBlm (.two rows) n d = .ok (.two r, .two r) ∧ r.length = rows.length ∧
      AllRows L r (fun i => scaled n d (f 0) (f i)) := by
  unfold scaleBlm
  by_cases hf : n = false ∧ d = false
  · obtain ⟨rfl, rfl⟩ := hf
    exact ⟨rows, rfl, rfl, by simp only [scaled_none]; exact h⟩
  · rw [if_neg hf]
    obtain ⟨out, e, hl, hr⟩ := scaleRows_spec h (by rintro rfl; simp at hne) n d
    simp only [Arr.rows, bind, Except.bind, e]
    refine ⟨out, ?_, hl, hr⟩
    match out, hl with
    | [], hl => simp at hl; omega
    | [_], hl => simp at hl; omega
    | _ :: _ :: _, _ => rfl

/-- The factor of `c2_fwhm`; 1 without it. -/
def sharp (c2 : Option ℝ) : ℝ := expSig (c2.getD 0)

theorem sharp_none : sharp none = 1 := by simp [sharp, expSig, arcmin]

theorem sharpen_spec {L : Nat} {a : List ℂ} {f : Nat → Nat → ℂ} (h : Represents L L a f)
    (c2 : Option ℝ) : Represents L L (sharpen c2 a) (fun l m => f l m * sharp c2) := by
  unfold sharpen
  split
  · exact represents_map _ h
  · rename_i hc
    have e : sharp c2 = 1 := by
      cases c2 with
      | none => exact sharp_none
      | some c =>
        have : c = 0 := by simpa [isSet] using hc
        subst this
        simp [sharp, expSig, arcmin]
    rw [e]
    simpa using h

theorem getCopol_spec {L : Nat} (hL : 1 ≤ L) {a : List ℂ} {f : Nat → Nat → ℂ}
    (h : Represents L L a f) (c2 : Option ℝ) (n d : Bool) :
    ∃ r m2 p2, getCopolBlm a c2 n d = .ok ([r, m2, p2], r) ∧ Represents L L r (scaled n d f f) ∧
      Represents L L m2 (fun l m => copolMinus (scaled n d f f) l m * sharp c2) ∧
      Represents L L p2 (fun l m => copolPlus (scaled n d f f) l m * sharp c2) := by
  obtain ⟨r, e, hr⟩ := scaleOne_spec h n d
  obtain ⟨m2, p2, e2, h2, hp⟩ := C20_unpol2pol L hL r _ hr
  refine ⟨r, sharpen c2 m2, sharpen c2 p2, ?_, hr, sharpen_spec h2 c2, sharpen_spec hp c2⟩
  unfold getCopolBlm
  simp only [e, bind, Except.bind, flat, e2]
  rfl

theorem getPol_spec {L : Nat} (hL : 1 ≤ L) {q u : List ℂ} {f g : Nat → Nat → ℂ}
    (hq : Represents L L q f) (hu : Represents L L u g) (n d : Bool) :
    ∃ m2 p2 q' u', getPolBeam q u n d = .ok ((m2, p2), q', u') ∧
      Represents L L q' (scaled n d f f) ∧ Represents L L u' (scaled n d g g) ∧
      Represents L L m2 (fun l m => copolMinus (scaled n d f f) l m
        + Complex.I * copolMinus (scaled n d g g) l m) ∧
      Represents L L p2 (fun l m => copolPlus (scaled n d f f) l m
        - Complex.I * copolPlus (scaled n d g g) l m) := by
  obtain ⟨q', eq, hq'⟩ := scaleOne_spec hq n d
  obtain ⟨u', eu, hu'⟩ := scaleOne_spec hu n d
  obtain ⟨mq, pq, e1, h1, h2⟩ := C20_unpol2pol L hL q' _ hq'
  obtain ⟨mu, pu, e2, h3, h4⟩ := C20_unpol2pol L hL u' _ hu'
  refine ⟨_, _, q', u', ?_, hq', hu', represents_zipWith (fun x y => x + Complex.I * y) h1 h3,
    represents_zipWith (fun x y => x - Complex.I * y) h2 h4⟩
  unfold getPolBeam
  simp only [eq, eu, e1, e2, flat, bind, Except.bind, pure, Except.pure]
  exact if_pos (by rw [rep_length h1, rep_length h3])

theorem amplify_spec {L : Nat} {a : List ℂ} {f : Nat → Nat → ℂ} (h : Represents L L a f) (A : ℝ) :
    Represents L L (amplify A a) (fun l m => f l m * A) := by
  unfold amplify
  split
  · exact represents_map _ h
  · rename_i hc
    have : A = 1 := not_not.1 hc
    subst this
    simpa using h

theorem expand_spec {L M : Nat} (hM : M ≤ L) {a : List ℂ} {f : Nat → Nat → ℂ}
    (h : Represents L M a f) :
    ∃ r, expand (getsize L none) a = .ok r ∧
      Represents L L r (fun l m => if m ≤ M then f l m else 0) := by
  have hs : getsize L none = off L (L + 1) := by
    have := getsize_eq L L le_rfl
    simpa [getsize] using this
  obtain ⟨hlen, hget⟩ := (represents_iff L M a f).1 h
  have hle : a.length ≤ off L (L + 1) := by
    rw [hlen]
    exact off_mono L (by omega)
  refine ⟨a ++ List.replicate (off L (L + 1) - a.length) 0, ?_, ?_⟩
  · unfold expand
    rw [hs]
    simp only [npZeros, bind, Except.bind]
    rw [if_neg (by omega)]
    simp only [Int.toNat_natCast]
    unfold pyAssign
    simp only [List.length_replicate]
    have e0 : pyClip (off L (L + 1)) 0 = 0 := by simp [pyClip]
    have e1 : pyClip (off L (L + 1)) (a.length : Int) = a.length := by
      unfold pyClip
      rw [if_neg (by omega), Int.toNat_natCast]
      omega
    rw [e0, e1, if_pos (by omega)]
    unfold setRange
    simp
  · rw [represents_iff]
    refine ⟨by simp; omega, fun m l h1 h2 h3 => ?_⟩
    by_cases hm : m ≤ M
    · rw [if_pos hm, List.getElem?_append_left, hget m l hm h2 h3]
      rw [hlen]
      exact off_lt L (by omega) h3 h2
    · have hlt := off_lt L (show m < L + 1 by omega) h3 h2
      have hge : off L (M + 1) ≤ off L m := off_mono L (by omega)
      rw [if_neg hm, List.getElem?_append_right (by omega), List.getElem?_replicate,
        if_pos (by omega)]

theorem readHdu_spec {hdus : List Hdu} {i : Nat} {h : Hdu} (e : hdus[i]? = some h) :
    readHdu hdus (i + 1) = .ok h := by
  unfold readHdu
  rw [show ((i + 1 : Nat) : Int) - 1 = (i : Int) by push_cast; ring]
  exact pyGet_nat hdus i h e

theorem rep_lengths {L : Nat} {r : List (List ℂ)} {f : Nat → Nat → Nat → ℂ} (h : AllRows L r f) :
    r.all (fun a => decide (a.length = (r.headD []).length)) = true := by
  rw [List.all_eq_true]
  intro a ha
  obtain ⟨i, hi⟩ := List.getElem?_of_mem ha
  cases r with
  | nil => simp at ha
  | cons r0 rs =>
    rw [decide_eq_true_iff, List.headD_cons, rep_length (h i a hi), rep_length (h 0 r0 rfl)]

theorem readFits_spec {L M j : Nat} {g : Nat → Nat → Nat → ℂ} {hdus : List Hdu}
    (hj : hdus.length = j) (h1 : 1 ≤ j) (hM : M ≤ L)
    (hh : ∀ i, i < j → ∃ h, hdus[i]? = some h ∧ h.mmax = M ∧ Represents L M h.alm (g i)) :
    ∃ x rows, readFits hdus = .ok (x, (M : Int)) ∧ x.rows = .ok rows ∧
      rows.length = fitsRows j ∧ AllRows L rows (fun i l m => if m ≤ M then g i l m else 0) := by
  obtain ⟨a, ea, ma, ra⟩ := hh 0 (by omega)
  obtain ⟨r0, x0, y0⟩ := expand_spec hM ra
  have hl : getlmax a.alm.length (some a.mmax) = L := by
    rw [((represents_iff L M _ _).1 ra).1, ma]
    exact getlmax_some L M hM
  unfold readFits
  rw [show (1 : Nat) = 0 + 1 from rfl, readHdu_spec ea]
  simp only [bind, Except.bind, hl, x0]
  by_cases h3 : hdus.length ≥ 3
  · rw [if_pos h3]
    obtain ⟨b, eb, mb, rb⟩ := hh 1 (by omega)
    obtain ⟨c, ec, mc, rc⟩ := hh 2 (by omega)
    obtain ⟨r1, x1, y1⟩ := expand_spec hM rb
    obtain ⟨r2, x2, y2⟩ := expand_spec hM rc
    rw [show (2 : Nat) = 1 + 1 from rfl, readHdu_spec eb, show (3 : Nat) = 2 + 1 from rfl,
      readHdu_spec ec]
    simp only [ma, mb, mc, and_self, if_true, x1, x2]
    by_cases h4 : hdus.length = 4
    · rw [if_pos h4]
      obtain ⟨d, ed, md, rd⟩ := hh 3 (by omega)
      obtain ⟨r3, x3, y3⟩ := expand_spec hM rd
      rw [show (4 : Nat) = 3 + 1 from rfl, readHdu_spec ed]
      simp only [x3]
      have hr : AllRows L [r0, r1, r2, r3] (fun i l m => if m ≤ M then g i l m else 0) := by
        intro i r hr
        match i, hr with
        | 0, hr => cases hr; exact y0
        | 1, hr => cases hr; exact y1
        | 2, hr => cases hr; exact y2
        | 3, hr => cases hr; exact y3
        | n + 4, hr => simp at hr
      refine ⟨_, [r0, r1, r2, r3], rfl, ?_, ?_, hr⟩
      · exact if_pos (rep_lengths hr)
      · rw [← hj, h4]
        rfl
    · rw [if_neg h4]
      have hr : AllRows L [r0, r1, r2] (fun i l m => if m ≤ M then g i l m else 0) := by
        intro i r hr
        match i, hr with
        | 0, hr => cases hr; exact y0
        | 1, hr => cases hr; exact y1
        | 2, hr => cases hr; exact y2
        | n + 3, hr => simp at hr
      refine ⟨_, [r0, r1, r2], rfl, ?_, ?_, hr⟩
      · exact if_pos (rep_lengths hr)
      · unfold fitsRows
        rw [if_neg (by omega), if_neg (by omega)]
        rfl
  · rw [if_neg h3]
    refine ⟨_, [r0], by rw [ma]; rfl, rfl, ?_, ?_⟩
    · unfold fitsRows
      rw [if_pos (by omega)]
      rfl
    · intro i r hr
      match i, hr with
      | 0, hr => cases hr; exact y0
      | n + 1, hr => simp at hr

theorem readFile_spec {fs : Files} {o : Attrs} {name : String × String} {L k : Nat}
    {f : Nat → Nat → Nat → ℂ} {mm : Int} (ho : o.mmax ≤ o.lmax) (h : BeamFile fs o name L k f mm) :
    ∃ x rows, readFile fs o name.1 name.2 = .ok (x, mm) ∧ x.rows = .ok rows ∧ rows.length = k ∧
      AllRows L rows f := by
  unfold readFile
  rcases h with ⟨⟨rows, hk, hr, hf⟩, rfl⟩ | ⟨M, j, g, ⟨hdus, hj, hf, hM, hh⟩, h1, rfl, rfl, rfl⟩
  · unfold fileName at hf
    rcases hf with hf | ⟨a, rfl, hf⟩
    · simp only [hf]
      exact ⟨_, rows, rfl, rfl, hk, hasRows_all hr hk⟩
    · simp only [hf]
      exact ⟨_, [a], rfl, rfl, hk, hasRows_all hr hk⟩
  · unfold fileName at hf
    obtain ⟨x, rows, e, er, hl, ha⟩ := readFits_spec hj h1 hM hh
    simp only [hf, e, bind, Except.bind]
    refine ⟨x, rows, ?_, er, hl, ha⟩
    simp only [pure, Except.pure]
    congr 2
    split <;> omega

/-- Files with the polarized response. -/
theorem load_pol {fs : Files} {o : Attrs} {name : String × String} {L k : Nat}
    {f : Nat → Nat → Nat → ℂ} {mm : Int} (ho : o.mmax ≤ o.lmax) (h : BeamFile fs o name L k f mm)
    (hk : k = 3 ∨ k = 4 ∧ o.crossPol = true) (c2 : Option ℝ) (n d : Bool) :
    ∃ out, loadBlm fs o name.1 name.2 c2 n d = .ok (out, mm) ∧ out.length = k ∧
      AllRows L out (fun i l m => scaled n d (f 0) (f i) l m * o.amplitude) := by
  obtain ⟨x, rows, e, er, hl, ha⟩ := readFile_spec ho h
  obtain ⟨r, es, hrl, hr⟩ := scaleTwo_spec ha (by omega) n d
  unfold loadBlm
  have hp : polarized o rows = true := by
    unfold polarized
    rw [hl]
    rcases hk with rfl | ⟨rfl, hc⟩
    · rfl
    · simp [hc]
  have e2 : (Arr.two r).rows = .ok r := rfl
  simp only [e, er, bind, Except.bind, hp, if_true, es, e2]
  exact ⟨r.map (amplify o.amplitude), rfl, by rw [List.length_map, hrl, hl],
    hr.map _ fun i a h => amplify_spec h _⟩

/-- Files from which the unpolarized response is used. -/
theorem load_copol {fs : Files} {o : Attrs} {name : String × String} {L k : Nat} (hL : 1 ≤ L)
    {f : Nat → Nat → Nat → ℂ} {mm : Int} (ho : o.mmax ≤ o.lmax) (h : BeamFile fs o name L k f mm)
    (h1 : 1 ≤ k) (hk : ¬ (k = 3 ∨ k = 4 ∧ o.crossPol = true)) (c2 : Option ℝ) (n d : Bool)
    (u : Nat → Nat → ℂ) (hu : u = fun l m => f 0 l m * o.amplitude) :
    ∃ r m2 p2, loadBlm fs o name.1 name.2 c2 n d = .ok ([r, m2, p2], mm) ∧
      Represents L L r (scaled n d u u) ∧
      Represents L L m2 (fun l m => copolMinus (scaled n d u u) l m * sharp c2) ∧
      Represents L L p2 (fun l m => copolPlus (scaled n d u u) l m * sharp c2) := by
  subst hu
  obtain ⟨x, rows, e, er, hl, ha⟩ := readFile_spec ho h
  obtain ⟨r0, rs, rfl⟩ : ∃ r0 rs, rows = r0 :: rs := by
    cases rows with
    | nil => simp at hl; omega
    | cons r rs => exact ⟨r, rs, rfl⟩
  obtain ⟨r, m2, p2, es, c1, c2', c3⟩ := getCopol_spec hL (amplify_spec (ha 0 r0 rfl) o.amplitude) c2
    n d
  unfold loadBlm
  have hp : polarized o (r0 :: rs) = false := by
    unfold polarized
    rw [hl]
    cases hc : o.crossPol
    · simp_all
    · simp_all
  have g0 : pyGet (r0 :: rs) 0 = .ok r0 := rfl
  simp only [e, er, bind, Except.bind, hp, Bool.false_eq_true, if_false, g0, es]
  exact ⟨r, m2, p2, rfl, c1, c2', c3⟩

theorem blm_file {o : Attrs} {name : String × String} (h : UsesFile o name) (fs : Files) :
    blm fs o = loadBlm fs o name.1 name.2 none o.normalize o.deconvQ := by
  unfold blm
  rcases h with ⟨h1, h2⟩ | ⟨h1, h2⟩
  · rw [h1, h2]
    rfl
  · rw [h1, h2]
    rfl

/-! ### Gaussian beams -/

theorem log_two_pos : (0 : ℝ) < Real.log 2 := Real.log_pos (by norm_num)

theorem sqrt8 : Real.sqrt (8 * Real.log 2) = 2 * Real.sqrt (2 * Real.log 2) := by
  rw [show 8 * Real.log 2 = 2 ^ 2 * (2 * Real.log 2) by ring, Real.sqrt_mul (by norm_num),
    Real.sqrt_sq (by norm_num)]

theorem expSig_eq (c : ℝ) : expSig c = Real.exp (2 * sigma c ^ 2) := by
  unfold expSig sigma arcmin
  rw [sqrt8]
  congr 3
  ring

theorem gaussBlm_spec (fwhm : ℝ) (L : Nat) :
    ∃ b, gaussBlm fwhm L = .ok b ∧ Represents L L b (fun l m => if m = 0 then
      ((Real.exp (-(l * (l + 1)) * sigma fwhm ^ 2 / 2) : ℝ) : ℂ) else 0) := by
  have hs : getsize L (some (L : Int)) = off L (L + 1) := getsize_eq L L le_rfl
  have hlen : (gaussBeam (arcmin fwhm) L).length = L + 1 := by
    unfold gaussBeam
    simp
  have hle : L + 1 ≤ off L (L + 1) := by
    have := off_mono L (show 1 ≤ L + 1 by omega)
    simpa [off] using this
  refine ⟨gaussBeam (arcmin fwhm) L ++ List.replicate (off L (L + 1) - (L + 1)) 0, ?_, ?_⟩
  · unfold gaussBlm
    rw [hs]
    simp only [npZeros, bind, Except.bind]
    rw [if_neg (by omega)]
    simp only [Int.toNat_natCast]
    unfold pyAssign
    simp only [List.length_replicate]
    have e0 : pyClip (off L (L + 1)) 0 = 0 := by simp [pyClip]
    have e1 : pyClip (off L (L + 1)) ((L : Int) + 1) = L + 1 := by
      unfold pyClip
      rw [if_neg (by omega)]
      omega
    rw [e0, e1, if_pos (by rw [hlen]; omega)]
    unfold setRange
    rw [hlen]
    simp
  · rw [represents_iff]
    refine ⟨by simp [hlen]; omega, fun m l h1 h2 h3 => ?_⟩
    by_cases hm : m = 0
    · subst hm
      rw [if_pos rfl, List.getElem?_append_left (by rw [hlen]; simp [off]; omega)]
      unfold gaussBeam
      rw [List.getElem?_map, List.getElem?_range (by simp [off]; omega)]
      simp only [Option.map_some, off, Nat.zero_add, Nat.sub_zero]
      congr 3
      unfold arcmin sigma
      ring
    · have hlt := off_lt L (show m < L + 1 by omega) h3 h2
      have hge : off L 1 ≤ off L m := off_mono L (by omega)
      have : off L 1 = L + 1 := by simp [off]
      rw [if_neg hm, List.getElem?_append_right (by omega), List.getElem?_replicate,
        if_pos (by omega)]

theorem gaussBlmPol_spec (fwhm : ℝ) (L : Nat) :
    ∃ b m2, gaussBlmPol fwhm L = .ok (b, m2) ∧ gaussBlm fwhm L = .ok b ∧
      Represents L L m2 (fun l m => if m = 2 then
        ((Real.exp (-(l * (l + 1)) * sigma fwhm ^ 2 / 2) : ℝ) : ℂ) else 0) := by
  obtain ⟨b, hb, -⟩ := gaussBlm_spec fwhm L
  have hs : getsize L (some (L : Int)) = off L (L + 1) := getsize_eq L L le_rfl
  have hlen : (gaussBeam (arcmin fwhm) L).length = L + 1 := by
    unfold gaussBeam
    simp
  have hsz : 2 ≤ L → 3 * L ≤ off L (L + 1) := by
    intro h
    have := off_mono L (show 3 ≤ L + 1 by omega)
    rw [show off L 3 = 3 * L by simp only [off]; omega] at this
    exact this
  have h1 : L = 1 → off L (L + 1) = 3 := by rintro rfl; rfl
  have h0 : L = 0 → off L (L + 1) = 1 := by rintro rfl; rfl
  have hs1 : pyClip (off L (L + 1)) (2 * (L : Int) + 1) = 2 * L + 1 := by
    unfold pyClip
    rw [if_neg (by omega)]
    omega
  have hs2 : pyClip (off L (L + 1)) (3 * (L : Int)) = 3 * L := by
    unfold pyClip
    rw [if_neg (by omega)]
    omega
  refine ⟨b, List.replicate (2 * L + 1) 0 ++ (gaussBeam (arcmin fwhm) L).drop 2 ++
    List.replicate (off L (L + 1) - (2 * L + 1 + (L - 1))) 0, ?_, hb, ?_⟩
  · unfold gaussBlm at hb
    unfold gaussBlmPol
    rw [hs] at hb ⊢
    simp only [npZeros, bind, Except.bind] at hb ⊢
    rw [if_neg (by omega)] at hb ⊢
    simp only [Int.toNat_natCast] at hb ⊢
    rw [hb]
    dsimp only
    have : pyAssign (List.replicate (off L (L + 1)) (0 : ℂ)) (2 * (L : Int) + 1) (3 * (L : Int))
        ((gaussBeam (arcmin fwhm) L).drop 2) = .ok (List.replicate (2 * L + 1) 0 ++
          (gaussBeam (arcmin fwhm) L).drop 2 ++
          List.replicate (off L (L + 1) - (2 * L + 1 + (L - 1))) 0) := by
      unfold pyAssign
      simp only [List.length_replicate]
      rw [hs1, hs2, if_pos (by rw [List.length_drop, hlen]; omega)]
      unfold setRange
      rw [List.length_drop, hlen, List.take_replicate, List.drop_replicate,
        show min (2 * L + 1) (off L (L + 1)) = 2 * L + 1 by omega,
        show off L (L + 1) - (2 * L + 1 + (L + 1 - 2)) = off L (L + 1) - (2 * L + 1 + (L - 1)) by omega]
    rw [this]
    rfl
  · rw [represents_iff]
    refine ⟨by simp [hlen]; omega, fun m l k1 k2 k3 => ?_⟩
    have o1 : off L 1 = L + 1 := by simp [off]
    have o2 : 1 ≤ L → off L 2 = 2 * L + 1 := by intro h; simp only [off]; omega
    have o3 : 2 ≤ L → off L 3 = 3 * L := by intro h; simp only [off]; omega
    rw [List.append_assoc]
    by_cases hm : m = 2
    · subst hm
      rw [if_pos rfl, List.getElem?_append_right (by rw [List.length_replicate, o2 (by omega)]; omega),
        List.length_replicate, o2 (by omega), List.getElem?_append_left (by
          rw [List.length_drop, hlen]; omega), List.getElem?_drop]
      unfold gaussBeam
      rw [List.getElem?_map, List.getElem?_range (by omega)]
      simp only [Option.map_some]
      rw [show 2 + (2 * L + 1 + (l - 2) - (2 * L + 1)) = l by omega]
      congr 3
      unfold arcmin sigma
      ring
    · have hlt := off_lt L (show m < L + 1 by omega) k3 k2
      rw [if_neg hm]
      rcases Nat.lt_or_ge m 2 with h | h
      · have := off_lt L h k3 k2
        rcases Nat.eq_zero_or_pos L with hL | hL
        · have hm0 : m = 0 := by omega
          have hl0 : l = 0 := by omega
          subst hm0 hl0 hL
          rfl
        · rw [o2 hL] at this
          rw [List.getElem?_append_left (by rw [List.length_replicate]; omega),
            List.getElem?_replicate, if_pos (by omega)]
      · have := off_mono L (show 3 ≤ m by omega)
        rw [o3 (by omega)] at this
        rw [List.getElem?_append_right (by rw [List.length_replicate]; omega), List.length_replicate,
          List.getElem?_append_right (by rw [List.length_drop, hlen]; omega), List.length_drop, hlen,
          List.getElem?_replicate, if_pos (by omega)]

end Verif.BeamCoef
