import Verif.Lemmas.BeamCoef
import Verif.Props.Convolution

/-!
# C42, C76-C81: beam coefficients
-/

noncomputable section

namespace Verif.Props

open Verif.Alm Verif.Spec Verif.BeamCoef Verif.Spinmaps

/-! ## C80: what is read from files -/

/-- **C80.** A file with the polarized response (three rows, or four with V when `cross_pol` is
set), .npy or .fits: the coefficients of the beam are those of the file times
`sqrt(4 pi / (2 l + 1))` if `deconv_q`, divided by the resulting monopole of the first row if
`normalize`, times the amplitude.  Missing: .fits tables with different
lmax, which are misplaced (`C80_violation`). -/
theorem C80_polarized_partial (fs : Files) (o : Attrs) (name : String × String) (hn : UsesFile o name)
    (L k : Nat) (f : Nat → Nat → Nat → ℂ) (mm : Int) (ho : o.mmax ≤ o.lmax)
    (h : BeamFile fs o name L k f mm) (hk : k = 3 ∨ k = 4 ∧ o.crossPol = true) :
    ∃ rows, blm fs o = .ok (rows, mm) ∧ rows.length = k ∧
      HasRows L k rows fun i l m =>
        scaled o.normalize o.deconvQ (f 0) (f i) l m * o.amplitude := by
  rw [blm_file hn]
  obtain ⟨out, e, hl, hr⟩ := load_pol ho h hk none o.normalize o.deconvQ
  refine ⟨out, e, hl, ?_⟩
  have := hr.has
  rw [hl] at this
  exact this

/-- **C80.** For all other files the first row is used, with the amplitude multiplied in before
`deconv_q` and `normalize`; the polarized response is the co-polar one of the result. -/
theorem C80_copolar (fs : Files) (o : Attrs) (name : String × String) (hn : UsesFile o name)
    (L k : Nat) (hL : 1 ≤ L) (f : Nat → Nat → Nat → ℂ) (mm : Int) (ho : o.mmax ≤ o.lmax)
    (h : BeamFile fs o name L k f mm) (h1 : 1 ≤ k) (hk : ¬ (k = 3 ∨ k = 4 ∧ o.crossPol = true))
    (b : Nat → Nat → ℂ) (hb : b = scaled o.normalize o.deconvQ
      (fun l m => f 0 l m * o.amplitude) (fun l m => f 0 l m * o.amplitude)) :
    ∃ r m2 p2, blm fs o = .ok ([r, m2, p2], mm) ∧ Represents L L r b ∧
      Represents L L m2 (copolMinus b) ∧ Represents L L p2 (copolPlus b) := by
  rw [blm_file hn]
  obtain ⟨r, m2, p2, e, c1, c2, c3⟩ := load_copol hL ho h h1 hk none o.normalize o.deconvQ _ rfl
  rw [← hb] at c1 c2 c3
  rw [sharp_none] at c2 c3
  exact ⟨r, m2, p2, e, c1, represents_congr c2 fun m l _ _ _ => by simp,
    represents_congr c3 fun m l _ _ _ => by simp⟩

/-! ## C76: Gaussian beams -/

/-- **C76.** For every FWHM, amplitude and band limit of at least 1 a Gaussian beam has the
coefficients `A exp(-l(l+1) sigma^2 / 2)` with azimuthal number 0 for I,
`A exp(-(l(l+1) - 4) sigma^2 / 2)` with azimuthal number 2 and `l ≥ 2` for spin -2, and no others. -/
theorem C76_gaussian (fs : Files) (o : Attrs) (hG : o.btype = "Gaussian") (L : Nat) (hL : 1 ≤ L)
    (hl : o.lmax = L) :
    ∃ b m2 p2, blm fs o = .ok ([b, m2, p2], o.mmax) ∧
      Represents L L b (fun l m => if m = 0 then
        ((o.amplitude * Real.exp (-(l * (l + 1)) * sigma o.fwhm ^ 2 / 2) : ℝ) : ℂ) else 0) ∧
      Represents L L m2 (fun l m => if m = 2 then
        ((o.amplitude * Real.exp (-(l * (l + 1) - 4) * sigma o.fwhm ^ 2 / 2) : ℝ) : ℂ) else 0) ∧
      Represents L L p2 (fun _ _ => 0) := by
  obtain ⟨b, e, hb⟩ := gaussBlm_spec o.fwhm L
  obtain ⟨r, m2, p2, e2, c1, c2, c3⟩ := getCopol_spec hL (amplify_spec hb o.amplitude)
    (some o.fwhm) false false
  refine ⟨r, m2, p2, ?_, ?_, ?_, ?_⟩
  · unfold blm genGaussian
    rw [if_pos hG, hl]
    simp only [e, e2, bind, Except.bind]
    rfl
  · rw [scaled_none] at c1
    refine represents_congr c1 fun m l _ _ _ => ?_
    split <;> simp
    ring
  · rw [scaled_none] at c2
    refine represents_congr c2 fun m l _ h2 _ => ?_
    have e1 : ((2 : Nat) : Int) - 2 = 0 := by norm_num
    by_cases hm : m = 2
    · subst hm
      unfold copolMinus extended
      rw [if_neg (by omega), e1, if_pos le_rfl, if_pos rfl]
      simp only [Int.toNat_zero, if_true]
      show _ * ((sharp (some o.fwhm) : ℝ) : ℂ) = _
      unfold sharp
      rw [Option.getD_some, expSig_eq, ← Complex.ofReal_mul, ← Complex.ofReal_mul]
      congr 1
      rw [mul_comm _ o.amplitude, mul_assoc, ← Real.exp_add]
      congr 2
      ring
    · rw [if_neg hm]
      unfold copolMinus extended
      split
      · simp
      · split
        · dsimp only; rw [if_neg (by omega)]
          simp
        · dsimp only; rw [if_neg (by omega)]
          simp
  · rw [scaled_none] at c3
    refine represents_congr c3 fun m l _ _ _ => ?_
    unfold copolPlus
    split <;> simp

/-- **C76.** So the coefficients of a Gaussian beam are those of a real beam that is symmetric around
its axis, with real polarization coefficients: the theorems about timelines of such beams (C71-C75)
apply. -/
theorem C76_symmetric (fs : Files) (o : Attrs) (hG : o.btype = "Gaussian") (L : Nat) (hL : 1 ≤ L)
    (hl : o.lmax = L) :
    ∃ rows b, blm fs o = .ok (rows, o.mmax) ∧ HasRows L 3 rows b ∧ AxiSym b ∧ RealBeam L b ∧
      ∀ l, star (b 1 l 2) = b 1 l 2 := by
  obtain ⟨b, m2, p2, e, h0, h1, h2⟩ := C76_gaussian fs o hG L hL hl
  refine ⟨[b, m2, p2], fun i l m =>
    if i = 0 then (if m = 0 then
        ((o.amplitude * Real.exp (-(l * (l + 1)) * sigma o.fwhm ^ 2 / 2) : ℝ) : ℂ) else 0)
    else if i = 1 then (if m = 2 then
        ((o.amplitude * Real.exp (-(l * (l + 1) - 4) * sigma o.fwhm ^ 2 / 2) : ℝ) : ℂ) else 0)
    else 0, e, ?_, ?_, ?_, ?_⟩
  · intro i hi
    match i, hi with
    | 0, _ => exact ⟨b, rfl, h0⟩
    | 1, _ => exact ⟨m2, rfl, h1⟩
    | 2, _ => exact ⟨p2, rfl, h2⟩
  · refine ⟨fun l m hm => ?_, fun l m hm => ?_, fun l m => ?_⟩ <;> simp [*]
  · intro l _
    refine ⟨?_, ?_, ?_⟩
    · simp only [if_true]
      exact Complex.conj_ofReal _
    · simp
    · simp
  · intro l
    simp only [if_true]
    exact Complex.conj_ofReal _

/-- **C76.** `gauss_blm` itself, for every FWHM and band limit: with `pol` the coefficients of spin 0
are those without `pol`, and those of spin -2 are the same numbers with azimuthal number 2 in place of
0, for `l ≥ 2`. -/
theorem C76_gauss_blm (fwhm : ℝ) (L : Nat) :
    ∃ b m2, gaussBlmPol fwhm L = .ok (b, m2) ∧ gaussBlm fwhm L = .ok b ∧
      Represents L L b (fun l m => if m = 0 then
        ((Real.exp (-(l * (l + 1)) * sigma fwhm ^ 2 / 2) : ℝ) : ℂ) else 0) ∧
      Represents L L m2 (fun l m => if m = 2 then
        ((Real.exp (-(l * (l + 1)) * sigma fwhm ^ 2 / 2) : ℝ) : ℂ) else 0) := by
  obtain ⟨b, m2, h1, h2, h3⟩ := gaussBlmPol_spec fwhm L
  obtain ⟨b', h4, h5⟩ := gaussBlm_spec fwhm L
  obtain rfl : b = b' := Except.ok.inj (h2.symm.trans h4)
  exact ⟨b, m2, h1, h2, h5, h3⟩

/-! ## C42: amplitude -/

theorem monopole_of {L k : Nat} {rows : List (List ℂ)} {f : Nat → Nat → Nat → ℂ} (hk : 0 < k)
    (h : HasRows L k rows f) : Monopole rows (f 0 0 0) := by
  obtain ⟨r, e, hr⟩ := h 0 hk
  exact ⟨r, e, rep_head hr⟩

/-- **C42.** The monopole of a Gaussian beam is its amplitude. -/
theorem C42_gaussian (fs : Files) (o : Attrs) (hG : o.btype = "Gaussian") (L : Nat) (hL : 1 ≤ L)
    (hl : o.lmax = L) :
    ∃ rows, blm fs o = .ok (rows, o.mmax) ∧ Monopole rows o.amplitude := by
  obtain ⟨b, m2, p2, e, h0, -, -⟩ := C76_gaussian fs o hG L hL hl
  refine ⟨_, e, b, rfl, ?_⟩
  rw [rep_head h0]
  simp

/-- **C42.** With `normalize`, the monopole of a beam from a file with the polarized response is its
amplitude, whatever the content of the file. -/
theorem C42_polarized (fs : Files) (o : Attrs) (name : String × String) (hn : UsesFile o name)
    (L k : Nat) (f : Nat → Nat → Nat → ℂ) (mm : Int) (ho : o.mmax ≤ o.lmax)
    (h : BeamFile fs o name L k f mm) (hk : k = 3 ∨ k = 4 ∧ o.crossPol = true)
    (hnorm : o.normalize = true) (h00 : f 0 0 0 ≠ 0) :
    ∃ rows, blm fs o = .ok (rows, mm) ∧ Monopole rows o.amplitude := by
  obtain ⟨rows, e, -, hr⟩ := C80_polarized_partial fs o name hn L k f mm ho h hk
  refine ⟨rows, e, ?_⟩
  have := monopole_of (by omega) hr
  have hd : ((deconvFactor o.deconvQ 0 : ℝ) : ℂ) ≠ 0 := by
    exact_mod_cast (deconvFactor_pos o.deconvQ 0).ne'
  have e1 : scaled o.normalize o.deconvQ (f 0) (f 0) 0 0 = 1 := by
    unfold scaled
    rw [hnorm, if_pos rfl, div_self (mul_ne_zero h00 hd)]
  simpa [e1] using this

/-- All coefficients times the amplitude. -/
def times (A : ℝ) (rows : List (List ℂ)) : List (List ℂ) := rows.map fun r => r.map fun x => x * A

theorem scaled_amp (d : Bool) (f : Nat → Nat → ℂ) (A : ℝ) :
    scaled false d (fun l m => f l m * A) (fun l m => f l m * A) =
      fun l m => scaled false d (fun l m => f l m * ((1 : ℝ) : ℂ))
        (fun l m => f l m * ((1 : ℝ) : ℂ)) l m * A := by
  funext l m
  simp [scaled]
  ring

theorem copolMinus_amp (b : Nat → Nat → ℂ) (A : ℝ) :
    copolMinus (fun l m => b l m * A) = fun l m => copolMinus b l m * A := by
  funext l m
  unfold copolMinus extended
  split
  · simp
  · split
    · rfl
    · rw [star_mul, show star (A : ℂ) = A from Complex.conj_ofReal A]
      ring

theorem copolPlus_amp (b : Nat → Nat → ℂ) (A : ℝ) :
    copolPlus (fun l m => b l m * A) = fun l m => copolPlus b l m * A := by
  funext l m
  unfold copolPlus
  split <;> simp

/-- **C42.** All coefficients of a beam, also the polarized ones, are proportional to its amplitude:
for all files with the polarized response, and for the others without `normalize`.  Missing: files
with only the unpolarized response and `normalize`, where the claim is false (`C42_violation`). -/
theorem C42_proportional_partial (fs : Files) (o : Attrs) (name : String × String)
    (hn : UsesFile o name) (L k : Nat) (hL : 1 ≤ L) (f : Nat → Nat → Nat → ℂ) (mm : Int)
    (ho : o.mmax ≤ o.lmax) (h : BeamFile fs o name L k f mm) (h1 : 1 ≤ k)
    (hk : (k = 3 ∨ k = 4 ∧ o.crossPol = true) ∨ o.normalize = false) :
    ∃ rows, blm fs { o with amplitude := 1 } = .ok (rows, mm) ∧
      blm fs o = .ok (times o.amplitude rows, mm) := by
  have hn' : UsesFile { o with amplitude := 1 } name := hn
  have h' : BeamFile fs { o with amplitude := 1 } name L k f mm := h
  by_cases hp : k = 3 ∨ k = 4 ∧ o.crossPol = true
  · obtain ⟨rows, e, hl, hr⟩ := C80_polarized_partial fs { o with amplitude := 1 } name hn' L k f mm ho h' hp
    obtain ⟨rows2, e2, hl2, hr2⟩ := C80_polarized_partial fs o name hn L k f mm ho h hp
    refine ⟨rows, e, ?_⟩
    rw [e2]
    congr 2
    apply List.ext_getElem?
    intro i
    unfold times
    rw [List.getElem?_map]
    by_cases hi : i < k
    · obtain ⟨x, ex, hx⟩ := hr i hi
      obtain ⟨y, ey, hy⟩ := hr2 i hi
      rw [ex, ey, Option.map_some]
      congr 1
      refine represents_inj hy (represents_congr (represents_map _ hx) fun m l _ _ _ => ?_)
      simp
    · rw [List.getElem?_eq_none (by omega), List.getElem?_eq_none (by omega)]
      rfl
  · have hnorm : o.normalize = false := hk.resolve_left hp
    obtain ⟨r, m2, p2, e, c1, c2, c3⟩ := C80_copolar fs { o with amplitude := 1 } name hn' L k hL f mm
      ho h' h1 hp _ rfl
    obtain ⟨r', m2', p2', e', d1, d2, d3⟩ := C80_copolar fs o name hn L k hL f mm ho h h1 hp _ rfl
    refine ⟨_, e, ?_⟩
    dsimp only at c1 c2 c3
    rw [hnorm] at c1 c2 c3 d1 d2 d3
    rw [e']
    unfold times
    simp only [List.map_cons, List.map_nil]
    have i1 : r' = r.map fun x => x * (o.amplitude : ℂ) :=
      represents_inj d1 (represents_congr (represents_map _ c1) fun m l _ _ _ => by
        rw [scaled_amp o.deconvQ (f 0) o.amplitude])
    have i2 : m2' = m2.map fun x => x * (o.amplitude : ℂ) :=
      represents_inj d2 (represents_congr (represents_map _ c2) fun m l _ _ _ => by
        rw [scaled_amp o.deconvQ (f 0) o.amplitude, copolMinus_amp])
    have i3 : p2' = p2.map fun x => x * (o.amplitude : ℂ) :=
      represents_inj d3 (represents_congr (represents_map _ c3) fun m l _ _ _ => by
        rw [scaled_amp o.deconvQ (f 0) o.amplitude, copolPlus_amp])
    rw [i1, i2, i3]

/-- **C42, the missing case.** With `normalize` and a file with only the unpolarized response, the
amplitude has no effect: the monopole is 1 and the coefficients are those for amplitude 1. -/
theorem C42_unpolarized_ignores_amplitude (fs : Files) (o : Attrs) (name : String × String)
    (hn : UsesFile o name) (L k : Nat) (hL : 1 ≤ L) (f : Nat → Nat → Nat → ℂ) (mm : Int)
    (ho : o.mmax ≤ o.lmax) (h : BeamFile fs o name L k f mm) (h1 : 1 ≤ k)
    (hk : ¬ (k = 3 ∨ k = 4 ∧ o.crossPol = true)) (hnorm : o.normalize = true)
    (h00 : f 0 0 0 ≠ 0) (hA : o.amplitude ≠ 0) :
    ∃ rows, blm fs o = .ok (rows, mm) ∧ Monopole rows 1 ∧
      blm fs { o with amplitude := 1 } = .ok (rows, mm) := by
  have hn' : UsesFile { o with amplitude := 1 } name := hn
  have h' : BeamFile fs { o with amplitude := 1 } name L k f mm := h
  obtain ⟨r, m2, p2, e, c1, c2, c3⟩ := C80_copolar fs { o with amplitude := 1 } name hn' L k hL f mm
    ho h' h1 hk _ rfl
  obtain ⟨r', m2', p2', e', d1, d2, d3⟩ := C80_copolar fs o name hn L k hL f mm ho h h1 hk _ rfl
  have hd : ((deconvFactor o.deconvQ 0 : ℝ) : ℂ) ≠ 0 := by
    exact_mod_cast (deconvFactor_pos o.deconvQ 0).ne'
  have hA' : (o.amplitude : ℂ) ≠ 0 := by exact_mod_cast hA
  have es : scaled o.normalize o.deconvQ (fun l m => f 0 l m * (o.amplitude : ℂ))
      (fun l m => f 0 l m * (o.amplitude : ℂ)) = scaled o.normalize o.deconvQ
      (fun l m => f 0 l m * ((1 : ℝ) : ℂ)) (fun l m => f 0 l m * ((1 : ℝ) : ℂ)) := by
    funext l m
    unfold scaled
    rw [hnorm]
    simp only [if_true, Complex.ofReal_one, mul_one]
    field_simp
  dsimp only at c1 c2 c3
  rw [es] at d1 d2 d3
  have i1 := represents_inj d1 c1
  have i2 := represents_inj d2 c2
  have i3 := represents_inj d3 c3
  subst i1 i2 i3
  refine ⟨_, e', ⟨r', rfl, ?_⟩, e⟩
  rw [rep_head d1]
  unfold scaled
  rw [hnorm]
  simp only [if_true, Complex.ofReal_one, mul_one]
  rw [div_self (mul_ne_zero h00 hd)]

/-- A directory with one file. -/
def oneFile (x : File) : Files := fun n => if n = "b.npy" then some x else none

/-- The attributes of a beam that reads `b.npy`. -/
def attrs (amplitude : ℝ) (crossPol normalize : Bool) : Attrs :=
  { btype := "PO", fwhm := 43, lmax := 2, mmax := 2, amplitude := amplitude,
    poFile := some ("b", ".npy"), egFile := none, crossPol := crossPol, deconvQ := false,
    normalize := normalize }

/-- Coefficients that are 1 at all `l` for azimuthal number 0. -/
def delta (l m : Nat) : ℂ := if m = 0 then 1 else 0

/-- The array with given coefficients. -/
def table (L M : Nat) (g : Nat → Nat → ℂ) : List ℂ := (modes L M).map fun p => g p.1 p.2

theorem npy_one (L : Nat) (g : Nat → Nat → ℂ) :
    NpyFile (oneFile (.npy (.one (table L L g)))) ("b", ".npy") L 1 (fun _ => g) := by
  refine ⟨[table L L g], rfl, fun i hi => ?_, Or.inr ⟨_, rfl, by simp [oneFile, fileName]⟩⟩
  obtain rfl : i = 0 := by omega
  exact ⟨_, rfl, rfl⟩

/-- **C42 is false for files with only the unpolarized response and `normalize`.**  A beam with
amplitude 1/2 has monopole 1. -/
theorem C42_violation : ∃ fs o rows mm, o.amplitude = 1 / 2 ∧ o.normalize = true ∧
    blm fs o = .ok (rows, mm) ∧ Monopole rows 1 := by
  obtain ⟨rows, e, h, -⟩ := C42_unpolarized_ignores_amplitude _ (attrs (1 / 2) true true) ("b", ".npy")
    (Or.inl ⟨rfl, rfl⟩) 2 1 (by omega) _ 2 le_rfl (Or.inl ⟨npy_one 2 delta, rfl⟩) le_rfl
    (by omega) rfl (by simp [delta]) (by norm_num [attrs])
  exact ⟨_, _, rows, 2, rfl, rfl, e, h⟩

/-! ## C77: `cross_pol` -/

/-- **C77, a part.** With `cross_pol=False`, only the first row of a file that does not have exactly
three rows is used: the beam is the same as that from a file with this row alone.  Missing: files
with three rows, where the flag has no effect (`C77_violation`). -/
theorem C77_copolar_partial (fs fs' : Files) (o : Attrs) (name : String × String)
    (hn : UsesFile o name) (L k : Nat) (hL : 1 ≤ L) (f : Nat → Nat → Nat → ℂ) (mm : Int)
    (ho : o.mmax ≤ o.lmax) (h : BeamFile fs o name L k f mm) (h1 : 1 ≤ k) (hk : k ≠ 3)
    (hc : o.crossPol = false) (h' : NpyFile fs' name L 1 f) :
    ∃ rows, blm fs o = .ok (rows, mm) ∧ blm fs' o = .ok (rows, o.mmax) := by
  obtain ⟨r, m2, p2, e, c1, c2, c3⟩ := C80_copolar fs o name hn L k hL f mm ho h h1
    (by rw [hc]; simpa using hk) _ rfl
  obtain ⟨r', m2', p2', e', d1, d2, d3⟩ := C80_copolar fs' o name hn L 1 hL f _ ho
    (Or.inl ⟨h', rfl⟩) le_rfl (by omega) _ rfl
  rw [represents_inj d1 c1, represents_inj d2 c2, represents_inj d3 c3] at e'
  exact ⟨_, e, e'⟩

/-- **C77, the missing case.** For files with three rows the coefficients do not depend on
`cross_pol`. -/
theorem C77_three_rows (fs : Files) (o : Attrs) (name : String × String) (hn : UsesFile o name)
    (L : Nat) (f : Nat → Nat → Nat → ℂ) (mm : Int) (ho : o.mmax ≤ o.lmax)
    (h : BeamFile fs o name L 3 f mm) :
    ∃ rows, blm fs { o with crossPol := true } = .ok (rows, mm) ∧
      blm fs { o with crossPol := false } = .ok (rows, mm) := by
  obtain ⟨rows, e, l, hr⟩ := C80_polarized_partial fs { o with crossPol := true } name hn L 3 f mm ho h
    (Or.inl rfl)
  obtain ⟨rows', e', l', hr'⟩ := C80_polarized_partial fs { o with crossPol := false } name hn L 3 f mm ho h
    (Or.inl rfl)
  refine ⟨rows, e, ?_⟩
  rw [e']
  congr 2
  apply List.ext_getElem?
  intro i
  by_cases hi : i < 3
  · obtain ⟨x, ex, hx⟩ := hr i hi
    obtain ⟨y, ey, hy⟩ := hr' i hi
    rw [ex, ey, represents_inj hy hx]
  · rw [List.getElem?_eq_none (by omega), List.getElem?_eq_none (by omega)]

/-- **C77 is false for files with three rows.**  With `cross_pol=False` the polarized rows of the file
are used although they are not the co-polar ones of its first row. -/
theorem C77_violation : ∃ fs o b r m2 p2, o.crossPol = false ∧
    blm fs o = .ok ([r, m2, p2], 2) ∧ Represents 2 2 r b ∧ ¬ Represents 2 2 m2 (copolMinus b) := by
  obtain ⟨rows, e, l, hr⟩ := C80_polarized_partial
    (oneFile (.npy (.two [table 2 2 delta, table 2 2 fun _ _ => 0, table 2 2 fun _ _ => 0])))
    (attrs 1 false false) ("b", ".npy") (Or.inl ⟨rfl, rfl⟩) 2 3
    (fun i => if i = 0 then delta else fun _ _ => 0) 2 le_rfl (Or.inl ⟨⟨[table 2 2 delta, table 2 2 fun _ _ => 0, table 2 2 fun _ _ => 0], rfl, fun i hi => by
      match i, hi with
      | 0, _ => exact ⟨_, rfl, rfl⟩
      | 1, _ => exact ⟨_, rfl, rfl⟩
      | 2, _ => exact ⟨_, rfl, rfl⟩, Or.inl (by simp [oneFile, fileName])⟩, rfl⟩) (Or.inl rfl)
  obtain ⟨r, er, h0⟩ := hr 0 (by omega)
  obtain ⟨m2, em, h1⟩ := hr 1 (by omega)
  obtain ⟨p2, ep, h2⟩ := hr 2 (by omega)
  obtain rfl : rows = [r, m2, p2] := by
    match rows, l with
    | [a, b, c], _ => simp_all
  refine ⟨_, attrs 1 false false, delta, r, m2, p2, rfl, e, represents_congr h0 fun m l _ _ _ => ?_,
    fun hc => ?_⟩
  · simp [scaled, attrs, deconvFactor]
  · have := represents_unique h1 hc 2 2 (by omega) (by omega) (by omega)
    simp [scaled, attrs, copolMinus, extended, delta] at this

/-! ## C78: arguments of the beam functions -/

/-- **C78, a part.** `scale_blm` leaves lists and tuples of arrays unchanged, and without flags also
arrays. -/
theorem C78_scale_partial :
    (∀ rows n d out, scaleBlm (.seq rows) n d = .ok out → out.2 = .seq rows) ∧
    ∀ x, scaleBlm x false false = .ok (x, x) := by
  refine ⟨fun rows n d out h => ?_, fun x => rfl⟩
  unfold scaleBlm at h
  split at h
  · cases h
    rfl
  · rcases h1 : (Arr.seq rows).rows with e | r
    · rw [h1] at h
      cases h
    · rw [h1] at h
      simp only [bind, Except.bind] at h
      rcases h2 : scaleRows r n d with e | r'
      · rw [h2] at h
        cases h
      · rw [h2] at h
        cases h
        rfl

/-- **C78, a part.** Without flags `get_copol_blm` and `get_pol_beam` leave their arrays
unchanged.  Missing: `normalize` and `deconv_q`, where the array is changed (`C78_violation`). -/
theorem C78_unchanged_partial (L : Nat) (hL : 1 ≤ L) (a u : List ℂ) (f g : Nat → Nat → ℂ)
    (h : Represents L L a f) (hu : Represents L L u g) (c2 : Option ℝ) :
    (∃ r, getCopolBlm a c2 false false = .ok (r, a)) ∧
      ∃ r, getPolBeam a u false false = .ok (r, a, u) := by
  obtain ⟨r, m2, p2, e, h1, -, -⟩ := getCopol_spec hL h c2 false false
  rw [scaled_none] at h1
  refine ⟨⟨_, by rw [e, represents_inj h1 h]⟩, ?_⟩
  obtain ⟨m, p, q', u', e, h1, h2, -, -⟩ := getPol_spec hL h hu false false
  rw [scaled_none] at h1 h2
  exact ⟨_, by rw [e, represents_inj h1 h, represents_inj h2 hu]⟩

/-- **C78, a part.** With `normalize` alone the array is changed, but a second call gives the same
result. -/
theorem C78_normalize_partial (L : Nat) (hL : 1 ≤ L) (a : List ℂ) (f : Nat → Nat → ℂ)
    (h : Represents L L a f) (h00 : f 0 0 ≠ 0) (c2 : Option ℝ) :
    ∃ r a', getCopolBlm a c2 true false = .ok (r, a') ∧
      getCopolBlm a' c2 true false = .ok (r, a') := by
  obtain ⟨r, m2, p2, e, c1, c2', c3⟩ := getCopol_spec hL h c2 true false
  obtain ⟨r', m2', p2', e', d1, d2, d3⟩ := getCopol_spec hL c1 c2 true false
  have es : scaled true false (scaled true false f f) (scaled true false f f)
      = scaled true false f f := by
    funext l m
    simp [scaled, deconvFactor, div_self h00]
  rw [es] at d1 d2 d3
  refine ⟨_, _, e, ?_⟩
  rw [e', represents_inj d1 c1, represents_inj d2 c2', represents_inj d3 c3]

/-- **C78 is false with `deconv_q`.**  The array of the caller is changed, and a second call with the
same array gives another result. -/
theorem C78_violation : ∃ a r1 a1 r2 a2, getCopolBlm a none false true = .ok (r1, a1) ∧
    getCopolBlm a1 none false true = .ok (r2, a2) ∧ a1 ≠ a ∧ r2 ≠ r1 := by
  obtain ⟨r, m2, p2, e, c1, -, -⟩ := getCopol_spec (L := 2) (by omega) (a := table 2 2 delta) rfl none
    false true
  obtain ⟨r', m2', p2', e', d1, -, -⟩ := getCopol_spec (L := 2) (by omega) c1 none false true
  have hq : (1 : ℝ) < deconvFactor true 0 := by
    unfold deconvFactor
    rw [if_pos rfl, Real.lt_sqrt (by norm_num)]
    have := Real.two_le_pi
    norm_num
    linarith
  have hc : ((deconvFactor true 0 : ℝ) : ℂ) ≠ 1 := by
    intro h
    have : deconvFactor true 0 = 1 := by exact_mod_cast h
    linarith
  have hp : ((deconvFactor true 0 : ℝ) : ℂ) ≠ 0 := by
    intro h
    have : deconvFactor true 0 = 0 := by exact_mod_cast h
    linarith
  have h0 := rep_head c1
  have h1 := rep_head d1
  refine ⟨_, _, _, _, _, e, e', fun hh => ?_, fun hh => ?_⟩
  · have h2 := rep_head (L := 2) (a := table 2 2 delta) (f := delta) rfl
    rw [hh, h2] at h0
    simp only [scaled, delta, if_true, Option.some.injEq] at h0
    apply hc
    simpa using h0.symm
  · have : r' = r := by simpa using (List.cons.inj hh).1
    rw [this, h0] at h1
    simp only [scaled, delta, if_true, Option.some.injEq] at h1
    apply hc
    simp only [Bool.false_eq_true, if_false, div_one, one_mul] at h1
    exact (mul_eq_left₀ hp).1 h1.symm

/-! ## C79: polarized beams from Q and U -/

/-- **C79.** For all coefficients of real Q and U beams and both flags, `get_pol_beam` returns the
coefficients of `Q + iU` shifted by -2 and those of `Q - iU` shifted by +2; they are those of a real
polarization measurement: at azimuthal number 0 one is the conjugate of the other. -/
theorem C79_pol_beam (L : Nat) (hL : 1 ≤ L) (q u : List ℂ) (f g : Nat → Nat → ℂ)
    (hq : Represents L L q f) (hu : Represents L L u g) (n d : Bool) :
    ∃ m2 p2 bm bp q' u', getPolBeam q u n d = .ok ((m2, p2), q', u') ∧
      Represents L L m2 bm ∧ Represents L L p2 bp ∧
      (∀ l m, bm l m = if l < 2 then 0 else
        extended (scaled n d f f) (scaled n d f f) l ((m : Int) - 2)
          + Complex.I * extended (scaled n d g g) (scaled n d g g) l ((m : Int) - 2)) ∧
      (∀ l m, bp l m = if m + 2 ≤ l then
        scaled n d f f l (m + 2) - Complex.I * scaled n d g g l (m + 2) else 0) ∧
      ∀ l, star (bm l 0) = bp l 0 := by
  obtain ⟨m2, p2, q', u', e, -, -, h1, h2⟩ := getPol_spec hL hq hu n d
  refine ⟨m2, p2, _, _, q', u', e, h1, h2, fun l m => ?_, fun l m => ?_, fun l => ?_⟩
  · unfold copolMinus
    split <;> simp
  · unfold copolPlus
    split <;> simp
  · unfold copolMinus copolPlus extended
    by_cases hl : l < 2
    · rw [if_pos hl, if_pos hl, if_neg (by omega), if_neg (by omega)]
      simp
    · have e1 : ((0 : Nat) : Int) - 2 = -2 := by norm_num
      rw [if_neg hl, if_neg hl, if_pos (by omega : 0 + 2 ≤ l), if_pos (by omega : 0 + 2 ≤ l), e1,
        if_neg (by norm_num : ¬ (0 : Int) ≤ -2), if_neg (by norm_num : ¬ (0 : Int) ≤ -2)]
      simp
      ring

/-- **C79.** Without `normalize`, multiplying the U beam by a factor multiplies its part of the
result by this factor. -/
theorem C79_ratio_partial (L : Nat) (hL : 1 ≤ L) (q u : List ℂ) (f g : Nat → Nat → ℂ)
    (hq : Represents L L q f) (hu : Represents L L u g) (d : Bool) (c : ℝ) :
    ∃ m0 p0 m1 p1 mc pc x y z,
      getPolBeam q (u.map fun _ => (0 : ℂ)) false d = .ok ((m0, p0), x) ∧
      getPolBeam q u false d = .ok ((m1, p1), y) ∧
      getPolBeam q (u.map fun v => (c : ℂ) * v) false d = .ok ((mc, pc), z) ∧
      mc = List.zipWith (fun s t => s + (c : ℂ) * (t - s)) m0 m1 ∧
      pc = List.zipWith (fun s t => s + (c : ℂ) * (t - s)) p0 p1 := by
  obtain ⟨m0, p0, q0, u0, e0, -, -, a0, b0⟩ := getPol_spec hL hq (represents_map (fun _ => (0 : ℂ)) hu)
    false d
  obtain ⟨m1, p1, q1, u1, e1, -, -, a1, b1⟩ := getPol_spec hL hq hu false d
  obtain ⟨mc, pc, qc, uc, ec, -, -, ac, bc⟩ := getPol_spec hL hq
    (represents_map (fun v => (c : ℂ) * v) hu) false d
  refine ⟨m0, p0, m1, p1, mc, pc, _, _, _, e0, e1, ec, ?_, ?_⟩
  · refine represents_inj ac (represents_congr (represents_zipWith _ a0 a1) fun m l _ _ _ => ?_)
    unfold copolMinus extended scaled
    split
    · simp
    · split
      · simp
        ring
      · simp
        ring
  · refine represents_inj bc (represents_congr (represents_zipWith _ b0 b1) fun m l _ _ _ => ?_)
    unfold copolPlus scaled
    split
    · simp
      ring
    · simp

/-- **C79 is false with `normalize`.**  The U beam is divided by its own monopole, not by that of the
Q beam: every factor in front of it is lost. -/
theorem C79_violation (L : Nat) (hL : 1 ≤ L) (q u : List ℂ) (f g : Nat → Nat → ℂ)
    (hq : Represents L L q f) (hu : Represents L L u g) (d : Bool) (c : ℂ) (hc : c ≠ 0) :
    ∃ r x y, getPolBeam q u true d = .ok (r, x) ∧
      getPolBeam q (u.map fun v => c * v) true d = .ok (r, y) := by
  obtain ⟨m1, p1, q1, u1, e1, -, -, a1, b1⟩ := getPol_spec hL hq hu true d
  obtain ⟨mc, pc, qc, uc, ec, -, -, ac, bc⟩ := getPol_spec hL hq
    (represents_map (fun v => c * v) hu) true d
  have es : scaled true d (fun l m => c * g l m) (fun l m => c * g l m) = scaled true d g g := by
    funext l m
    unfold scaled
    simp only [if_true]
    rw [mul_assoc, mul_assoc, mul_div_mul_left _ _ hc]
  rw [es] at ac bc
  refine ⟨(m1, p1), _, (qc, uc), e1, ?_⟩
  rw [ec, represents_inj ac a1, represents_inj bc b1]

/-! ## C80: .fits files with different band limits -/

/-- A directory with one .fits file. -/
def fitsFile (hdus : List Hdu) : Files := fun n => if n = "b.fits" then some (.fits hdus) else none

/-- **C80 is false for .fits files whose tables have different `lmax`.**  Both tables have `mmax` 1; the
second one, with `lmax` 2, has the coefficient 5 at (1, 1), but the row made of it has it at (3, 0), and
0 at (1, 1). -/
theorem C80_violation : ∃ (h1 h2 : Hdu) (r1 r2 r3 : List ℂ) (g : Nat → Nat → ℂ),
    h1.mmax = 1 ∧ h2.mmax = 1 ∧ Represents 2 1 h2.alm g ∧ g 1 1 = 5 ∧
    blm (fitsFile [h1, h2, h1]) { attrs 1 true false with poFile := some ("b", ".fits") } = .ok ([r1, r2, r3], 1) ∧
    ∃ f, Represents 3 3 r2 f ∧ f 1 1 = 0 ∧ f 3 0 = 5 := by
  refine ⟨⟨[1, 1, 1, 1, 1, 1, 1], 1⟩, ⟨[1, 1, 1, 5, 0], 1⟩, [1, 1, 1, 1, 1, 1, 1, 0, 0, 0],
    [1, 1, 1, 5, 0, 0, 0, 0, 0, 0], [1, 1, 1, 1, 1, 1, 1, 0, 0, 0],
    fun l m => if m = 0 then 1 else if l = 1 then 5 else 0, rfl, rfl, rfl, by simp, ?_,
    fun l m => if m = 0 then (if l = 3 then 5 else 1) else 0, ?_, by simp, by simp⟩
  · have hl : getlmax 7 (some 1) = 3 := by decide
    have hs : getsize 3 none = 10 := by decide
    have e : readFits [⟨[1, 1, 1, 1, 1, 1, 1], 1⟩, ⟨[1, 1, 1, 5, 0], 1⟩, ⟨[1, 1, 1, 1, 1, 1, 1], 1⟩]
        = .ok (.seq [[1, 1, 1, 1, 1, 1, 1, 0, 0, 0], [1, 1, 1, 5, 0, 0, 0, 0, 0, 0],
          [1, 1, 1, 1, 1, 1, 1, 0, 0, 0]], 1) := by
      simp [readFits, readHdu, pyGet, bind, Except.bind, pure, Except.pure, hl, hs, expand,
        npZeros, pyAssign, List.replicate, pyClip, setRange]
    rw [blm_file (name := ("b", ".fits")) (Or.inl ⟨rfl, rfl⟩)]
    simp [loadBlm, readFile, fitsFile, e, bind, Except.bind, pure, Except.pure, Arr.rows, polarized,
      scaleBlm, attrs, amplify]
  · rfl

/-- The file hypotheses can be met: an .npy file with three rows, a .fits file with four tables of
azimuthal band limit 1, and an .npy file with one row. -/
example : BeamFile (oneFile (.npy (.two [table 3 3 delta, table 3 3 fun _ _ => 2,
      table 3 3 fun l m => l + Complex.I * m]))) (attrs 2 true true) ("b", ".npy") 3 3
      (fun i l m => if i = 0 then delta l m else if i = 1 then 2 else l + Complex.I * m) 2 ∧
    BeamFile (fitsFile [⟨table 3 1 delta, 1⟩, ⟨table 3 1 fun _ _ => 2, 1⟩,
      ⟨table 3 1 fun l m => l + Complex.I * m, 1⟩, ⟨table 3 1 fun _ _ => 2, 1⟩])
      (attrs 2 true true) ("b", ".fits") 3 4
      (fun i l m => if m ≤ 1 then (if i = 0 then delta l m else if i = 1 ∨ i = 3 then 2
        else l + Complex.I * m) else 0) 1 ∧
    BeamFile (oneFile (.npy (.one (table 3 3 delta)))) (attrs 2 true true) ("b", ".npy") 3 1
      (fun _ => delta) 2 := by
  refine ⟨Or.inl ⟨⟨_, rfl, fun i hi => ?_, Or.inl (by simp [oneFile, fileName]; rfl)⟩, rfl⟩,
    Or.inr ⟨1, 4, fun i l m => if i = 0 then delta l m else if i = 1 ∨ i = 3 then 2
        else l + Complex.I * m, ⟨_, rfl, by simp [fitsFile, fileName]; rfl, by omega, fun i hi => ?_⟩,
      by omega, rfl, rfl, rfl⟩, Or.inl ⟨npy_one 3 delta, rfl⟩⟩
  · match i, hi with
    | 0, _ => exact ⟨_, rfl, rfl⟩
    | 1, _ => exact ⟨_, rfl, rfl⟩
    | 2, _ => exact ⟨_, rfl, rfl⟩
  · match i, hi with
    | 0, _ => exact ⟨_, rfl, rfl, rfl⟩
    | 1, _ => exact ⟨_, rfl, rfl, rfl⟩
    | 2, _ => exact ⟨_, rfl, rfl, rfl⟩
    | 3, _ => exact ⟨_, rfl, rfl, rfl⟩

/-- A Gaussian beam of 30 arcmin with amplitude 0.8. -/
example : ∃ o : Attrs, o.btype = "Gaussian" ∧ o.lmax = (500 : Nat) ∧ o.fwhm = 30 ∧
    o.amplitude = 0.8 :=
  ⟨⟨"Gaussian", 30, 500, 5, 0.8, none, none, false, true, true⟩, rfl, rfl, rfl, rfl⟩

/-! ## C81: names without extension -/

/-- **C81, a part.** A name without extension stands for the .npy file.  Missing: if there is no such
file, the .fits file of this name should be read, but an error is raised (`C81_violation`). -/
theorem C81_npy_partial (fs : Files) (o : Attrs) (p : String) (x : Arr)
    (h : fs (p ++ ".npy") = some (.npy x)) :
    readFile fs o p "" = readFile fs o p ".npy" ∧ readFile fs o p "" = .ok (x, o.mmax) := by
  constructor
  · simp [readFile]
  · simp [readFile, h]

/-- **C81 is false.**  For every .fits file, a name without extension is an error if there is no .npy
file, although the .fits file can be read under its full name. -/
theorem C81_violation (fs : Files) (o : Attrs) (p : String) (hdus : List Hdu)
    (_h : fs (p ++ ".fits") = some (.fits hdus)) (hn : fs (p ++ ".npy") = none) :
    readFile fs o p "" = .error .osError := by
  simp [readFile, hn]

end Verif.Props
