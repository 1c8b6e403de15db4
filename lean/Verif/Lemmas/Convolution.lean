import Verif.Spec.Convolution
import Verif.Lemmas.Spinmaps

/-! # Lemmas about convolution -/

noncomputable section

namespace Verif.Spinmaps

open Verif.Alm Verif.Spin Verif.Spec Verif.Timeline Verif.Props Complex

theorem sum_Icc_sym (F : Int → ℂ) (l : Nat) :
    ∑ m ∈ Finset.Icc (-(l : Int)) l, F m =
      F 0 + ∑ m ∈ Finset.range l, (F ((m : Int) + 1) + F (-((m : Int) + 1))) := by
  induction l with
  | zero => simp
  | succ n ih =>
    have e : Finset.Icc (-((n + 1 : Nat) : Int)) ((n + 1 : Nat) : Int) =
        insert ((n : Int) + 1) (insert (-((n : Int) + 1)) (Finset.Icc (-(n : Int)) n)) := by
      ext x
      simp only [Finset.mem_Icc, Finset.mem_insert]
      omega
    rw [e, Finset.sum_insert (by simp only [Finset.mem_Icc, Finset.mem_insert]; omega),
      Finset.sum_insert (by simp only [Finset.mem_Icc]; omega), ih, Finset.sum_range_succ]
    ring

theorem extended_zero (f g : Nat → Nat → ℂ) (l : Nat) : extended f g l 0 = f l 0 := by
  simp [extended]

theorem extended_pos (f g : Nat → Nat → ℂ) (l m : Nat) :
    extended f g l ((m : Int) + 1) = f l (m + 1) := by
  unfold extended
  rw [if_pos (by omega)]
  congr 1

theorem extended_neg (f g : Nat → Nat → ℂ) (l m : Nat) :
    extended f g l (-((m : Int) + 1)) = (-1) ^ (m + 1) * star (g l (m + 1)) := by
  unfold extended
  rw [if_neg (by omega)]
  have : (-((m : Int) + 1)).natAbs = m + 1 := by omega
  rw [this]

theorem synth_eq (Y : Harmonics) (nside L : Nat) (s : Int) (A : Nat → Int → ℂ) (p : Nat) :
    synth Y nside L s A p = ∑ l ∈ Finset.range (L + 1), (A l 0 * Y nside s l 0 p +
      ∑ m ∈ Finset.range l, (A l ((m : Int) + 1) * Y nside s l ((m : Int) + 1) p +
        A l (-((m : Int) + 1)) * Y nside s l (-((m : Int) + 1)) p)) := by
  unfold synth
  apply Finset.sum_congr rfl
  intro l _
  exact sum_Icc_sym (fun m => A l m * Y nside s l m p) l

theorem zeroCoef_star (z : ℂ) : zeroCoef z (star z) = z := by
  unfold zeroCoef
  apply Complex.ext <;> simp

theorem spinAt_synth (Y : Harmonics) (nside L : Nat) (s : Int) (F G : Nat → Nat → ℂ) (p : Nat)
    (h : ∀ l, l ≤ L → G l 0 = star (F l 0)) :
    spinAt Y nside L s F G p = synth Y nside L s (extended F G) p := by
  rw [synth_eq]
  unfold spinAt
  apply Finset.sum_congr rfl
  intro l hl
  rw [Finset.mem_range] at hl
  rw [h l (by omega), zeroCoef_star, extended_zero]
  simp only [extended_pos, extended_neg]

theorem scalarAt_synth (Y : Harmonics) (hY : Conjugation Y) (nside L : Nat) (f : Nat → Nat → ℂ)
    (p : Nat) (h : ∀ l, l ≤ L → star (f l 0) = f l 0) :
    (scalarAt Y nside L f p : ℂ) = synth Y nside L 0 (extended f f) p := by
  rw [synth_eq]
  unfold scalarAt
  push_cast
  apply Finset.sum_congr rfl
  intro l hl
  rw [Finset.mem_range] at hl
  rw [extended_zero]
  congr 1
  · have e1 : (((f l 0).re : ℝ) : ℂ) = f l 0 := Complex.conj_eq_iff_re.1 (h l (by omega))
    have e2 : (((Y nside 0 l 0 p).re : ℝ) : ℂ) = Y nside 0 l 0 p := by
      apply Complex.conj_eq_iff_re.1
      have := hY nside 0 l 0 p
      simpa using this
    rw [e1, e2]
  · apply Finset.sum_congr rfl
    intro m _
    rw [extended_pos, extended_neg]
    have e := hY nside 0 l ((m : Int) + 1) p
    rw [zero_add, neg_zero] at e
    have e' : (-1 : ℂ) ^ ((m : Int) + 1) = (-1) ^ (m + 1) := by
      rw [← zpow_natCast]
      push_cast
      rfl
    rw [e'] at e
    have e2 : Y nside 0 l (-((m : Int) + 1)) p = (-1) ^ (m + 1) * star (Y nside 0 l ((m : Int) + 1) p) := by
      rw [e, ← mul_assoc, neg_one_pow_sq, one_mul]
    rw [e2]
    have e3 : (-1 : ℂ) ^ (m + 1) * star (f l (m + 1)) *
        ((-1) ^ (m + 1) * star (Y nside 0 l ((m : Int) + 1) p)) =
        star (f l (m + 1) * Y nside 0 l ((m : Int) + 1) p) := by
      rw [star_mul]
      linear_combination star (f l (m + 1)) * star (Y nside 0 l ((m : Int) + 1) p) *
        neg_one_pow_sq (m + 1)
    rw [e3]
    have := Complex.add_conj (f l (m + 1) * Y nside 0 l ((m : Int) + 1) p)
    rw [show (star (f l (m + 1) * Y nside 0 l ((m : Int) + 1) p)) =
      (starRingEnd ℂ) (f l (m + 1) * Y nside 0 l ((m : Int) + 1) p) from rfl, this]
    push_cast
    ring

theorem synth_congr (Y : Harmonics) (nside L : Nat) (s : Int) (A B : Nat → Int → ℂ) (p : Nat)
    (h : ∀ l, l ≤ L → ∀ m : Int, A l m = B l m) :
    synth Y nside L s A p = synth Y nside L s B p := by
  unfold synth
  apply Finset.sum_congr rfl
  intro l hl
  rw [Finset.mem_range] at hl
  apply Finset.sum_congr rfl
  intro m _
  rw [h l (by omega) m]

theorem extended_mul (f g : Nat → Nat → ℂ) (B : Nat → ℂ) (l : Nat) (m : Int) :
    extended (fun l m => f l m * B l) (fun l m => g l m * star (B l)) l m =
      B l * extended f g l m := by
  unfold extended
  split
  · ring
  · rw [star_mul, star_star]
    ring

theorem beamMode_nat (b c : Nat → Nat → ℂ) (s l : Nat) :
    beamMode b c (s : Int) l = if l < s then 0 else b l s := by
  unfold beamMode
  rw [abs_of_nonneg (by omega)]
  by_cases h : l < s
  · rw [if_pos (by omega), if_pos h]
  · rw [if_neg (by omega), if_neg h]
    unfold extended
    rw [if_pos (by omega)]
    rfl

theorem beamMode_neg (b c : Nat → Nat → ℂ) (s : Int) (l : Nat) (h : s < 0) :
    beamMode b c s l = (-1) ^ s.natAbs * star (if l < s.natAbs then 0 else c l s.natAbs) := by
  unfold beamMode
  rw [Int.abs_eq_natAbs]
  by_cases h' : l < s.natAbs
  · rw [if_pos (by omega), if_pos h']
    simp
  · rw [if_neg (by omega), if_neg h']
    unfold extended
    rw [if_neg (by omega)]

/-- The maps of `_spinmaps_real`. -/
theorem rawReal_synth (Y : Harmonics) (hY : Conjugation Y) (nside L : Nat) (a b : Nat → Nat → ℂ)
    (ha : ∀ l, l ≤ L → star (a l 0) = a l 0) (hb : ∀ l, l ≤ L → star (b l 0) = b l 0)
    (s p : Nat) :
    rawReal Y nside L a b s p =
      synth Y nside L s (fun l m => beamMode b b s l * extended a a l m) p := by
  unfold rawReal
  dsimp only
  by_cases h : s = 0
  · subst h
    rw [if_pos rfl]
    simp only [Nat.not_lt_zero, if_false]
    rw [scalarAt_synth Y hY nside L _ p (by
      intro l hl
      rw [star_mul, ha l hl, hb l hl, mul_comm])]
    apply synth_congr
    intro l hl m
    rw [beamMode_nat, if_neg (by omega), ← extended_mul a a (fun l => b l 0)]
    unfold extended
    simp only [hb l hl]
  · rw [if_neg h, spinAt_synth Y nside L s _ _ p (by
      intro l hl
      rw [star_mul, ha l hl, mul_comm])]
    apply synth_congr
    intro l hl m
    rw [beamMode_nat, extended_mul a a (fun l => if l < s then 0 else b l s)]

theorem extended_neg_star (f g : Nat → Nat → ℂ) (l : Nat) (h : star (f l 0) = g l 0) (m : Int) :
    (-1) ^ m * star (extended f g l (-m)) = extended g f l m := by
  rcases lt_trichotomy m 0 with h0 | h0 | h0
  · obtain ⟨n, rfl⟩ : ∃ n : Nat, m = -((n : Int) + 1) := ⟨(-m - 1).toNat, by omega⟩
    rw [neg_neg, extended_pos, extended_neg]
    congr 1
    rw [zpow_neg, ← inv_zpow, ← zpow_natCast]
    norm_num
  · subst h0
    rw [neg_zero, extended_zero, extended_zero, h]
    simp
  · obtain ⟨n, rfl⟩ : ∃ n : Nat, m = (n : Int) + 1 := ⟨(m - 1).toNat, by omega⟩
    rw [extended_neg, extended_pos]
    have e' : (-1 : ℂ) ^ ((n : Int) + 1) = (-1) ^ (n + 1) := by
      rw [← zpow_natCast]
      push_cast
      rfl
    rw [e', star_mul, star_star, star_pow, star_neg, star_one]
    linear_combination g l (n + 1) * neg_one_pow_sq (n + 1)

theorem neg_one_zpow_neg (m : Int) : (-1 : ℂ) ^ (-m) = (-1) ^ m := by
  rw [zpow_neg, ← inv_zpow]
  norm_num

theorem neg_one_zpow_natAbs (m : Int) : (-1 : ℂ) ^ m.natAbs = (-1) ^ m := by
  rcases Int.natAbs_eq m with h | h
  · conv_rhs => rw [h, zpow_natCast]
  · conv_rhs => rw [h, neg_one_zpow_neg, zpow_natCast]

/-- The conjugate of a field of spin `s` is one of spin `-s`. -/
theorem synth_star (Y : Harmonics) (hY : Conjugation Y) (nside L : Nat) (s : Int)
    (A : Nat → Int → ℂ) (p : Nat) :
    star (synth Y nside L s A p) =
      synth Y nside L (-s) (fun l m => (-1) ^ (s + m) * star (A l (-m))) p := by
  unfold synth
  rw [star_sum]
  apply Finset.sum_congr rfl
  intro l _
  rw [star_sum]
  refine Finset.sum_bij (fun m _ => -m) ?_ ?_ ?_ ?_
  · intro m hm
    rw [Finset.mem_Icc] at hm ⊢
    omega
  · intro m _ m' _ h
    exact neg_injective h
  · intro m hm
    rw [Finset.mem_Icc] at hm
    exact ⟨-m, by rw [Finset.mem_Icc]; omega, neg_neg m⟩
  · intro m _
    dsimp only
    rw [star_mul, hY, neg_neg]
    have e : (-1 : ℂ) ^ (s + -m) = (-1) ^ (s + m) := by
      rw [zpow_add₀ (by norm_num), zpow_add₀ (by norm_num), neg_one_zpow_neg]
    rw [e]
    ring

/-- The maps of `_spinmaps_complex`. -/
theorem rawComplex_synth (Y : Harmonics) (hY : Conjugation Y) (nside L : Nat)
    (a2 ap b2 bp : Nat → Nat → ℂ)
    (ha : ∀ l, l ≤ L → star (ap l 0) = a2 l 0) (hb : ∀ l, l ≤ L → star (b2 l 0) = bp l 0)
    (s : Int) (p : Nat) :
    rawComplex Y nside L a2 ap b2 bp s p =
      synth Y nside L s (fun l m => beamMode b2 bp s l * extended ap a2 l m) p := by
  have ha' : ∀ l, l ≤ L → star (a2 l 0) = ap l 0 := by
    intro l hl
    rw [← ha l hl, star_star]
  unfold rawComplex
  dsimp only
  rcases lt_trichotomy s 0 with h | h | h
  · rw [if_neg (by omega), if_pos h]
    have hs : |s| = -s := abs_of_neg h
    rw [spinAt_synth Y nside L |s| _ _ p (by
      intro l hl
      rw [star_mul, ha' l hl, mul_comm]), synth_star Y hY, hs, neg_neg]
    apply synth_congr
    intro l hl m
    rw [extended_mul a2 ap (fun l => if l < s.natAbs then 0 else bp l s.natAbs), star_mul,
      beamMode_neg _ _ s l h, neg_one_zpow_natAbs, zpow_add₀ (by norm_num), neg_one_zpow_neg,
      ← extended_neg_star a2 ap l (ha' l hl) m]
    ring
  · subst h
    rw [if_neg (by omega), if_neg (by omega)]
    simp only [Int.natAbs_zero, Nat.not_lt_zero, if_false]
    have r1 : ∀ l, l ≤ L → star ((ap l 0 * b2 l 0 + a2 l 0 * star (b2 l 0)) / 2) =
        (ap l 0 * b2 l 0 + a2 l 0 * star (b2 l 0)) / 2 := by
      intro l hl
      rw [← ha l hl]
      simp only [star_div₀, star_add, star_mul, star_star, star_ofNat]
      ring
    have r2 : ∀ l, l ≤ L → star ((a2 l 0 * bp l 0 - ap l 0 * star (bp l 0)) * (I / 2)) =
        (a2 l 0 * bp l 0 - ap l 0 * star (bp l 0)) * (I / 2) := by
      intro l hl
      rw [← ha l hl]
      have hI : star I = -I := conj_I
      simp only [star_div₀, star_sub, star_mul, star_star, star_ofNat, hI]
      ring
    rw [scalarAt_synth Y hY nside L _ p r1, scalarAt_synth Y hY nside L _ p r2]
    have e : ∀ A B : Nat → Int → ℂ, synth Y nside L 0 A p + I * synth Y nside L 0 B p =
        synth Y nside L 0 (fun l m => A l m + I * B l m) p := by
      intro A B
      unfold synth
      rw [Finset.mul_sum, ← Finset.sum_add_distrib]
      apply Finset.sum_congr rfl
      intro l _
      rw [Finset.mul_sum, ← Finset.sum_add_distrib]
      apply Finset.sum_congr rfl
      intro m _
      ring
    rw [e]
    apply synth_congr
    intro l hl m
    have eb : beamMode b2 bp 0 l = b2 l 0 := by
      have := beamMode_nat b2 bp 0 l
      rw [if_neg (by omega)] at this
      exact this
    rw [eb]
    have hI : star I = -I := conj_I
    unfold extended
    split
    · dsimp only
      rw [← hb l hl, star_star]
      linear_combination ((a2 l m.toNat * star (b2 l 0) - ap l m.toNat * b2 l 0) / 2) * I_sq
    · dsimp only
      rw [← hb l hl]
      simp only [star_div₀, star_sub, star_add, star_mul, star_star, star_ofNat, hI]
      linear_combination (-(-1) ^ m.natAbs * (b2 l 0 * star (a2 l m.natAbs) -
        star (b2 l 0) * star (ap l m.natAbs)) / 2) * I_sq
  · rw [if_pos h, spinAt_synth Y nside L s _ _ p (by
      intro l hl
      rw [star_mul, ← ha l hl, mul_comm])]
    obtain ⟨n, rfl⟩ := Int.eq_ofNat_of_zero_le h.le
    apply synth_congr
    intro l hl m
    rw [extended_mul ap a2 (fun l => if l < ((n : Int)).natAbs then 0 else b2 l ((n : Int)).natAbs),
      beamMode_nat, Int.natAbs_natCast]

/-! ### dictionaries -/

theorem part_s0a0 (nside : Nat) (new : Bool) (u p q : List Int) (f : Mode → Int → Nat → ℂ) :
    part (dictF nside new u p q f) .s0a0 = ⟨mapsWith nside u (f .s0a0), u⟩ := rfl

theorem part_s2a4 (nside : Nat) (new : Bool) (u p q : List Int) (f : Mode → Int → Nat → ℂ) :
    part (dictF nside new u p q f) .s2a4 = ⟨mapsWith nside p (f .s2a4), p⟩ := rfl

theorem part_s0a2 (nside : Nat) (u p q : List Int) (f : Mode → Int → Nat → ℂ) :
    part (dictF nside true u p q f) .s0a2 = ⟨mapsWith nside q (f .s0a2), q⟩ := rfl

theorem part_s2a2 (nside : Nat) (u p q : List Int) (f : Mode → Int → Nat → ℂ) :
    part (dictF nside true u p q f) .s2a2 = ⟨mapsWith nside p (f .s2a2), p⟩ := rfl

theorem part_s2a0 (nside : Nat) (u p q : List Int) (f : Mode → Int → Nat → ℂ) :
    part (dictF nside true u p q f) .s2a0 = ⟨mapsWith nside p (f .s2a0), p⟩ := rfl

theorem isOld_dictF (nside : Nat) (new : Bool) (u p q : List Int) (f : Mode → Int → Nat → ℂ) :
    isOld (dictF nside new u p q f) = !new := by
  cases new <;> rfl

theorem entryOk_mapsWith (nside : Nat) (spins : List Int) (hs : spins ≠ []) (f : Int → Nat → ℂ) :
    EntryOk (12 * nside ^ 2) ⟨mapsWith nside spins f, spins⟩ := by
  refine ⟨by simp [mapsWith], hs, ?_⟩
  intro m hm
  obtain ⟨s, _, rfl⟩ := List.mem_map.1 hm
  simp

theorem pol_ne {maxSpin : Int} (symmetric : Bool) (h : 0 ≤ maxSpin) :
    spinsPol symmetric maxSpin ≠ [] := by
  unfold spinsPol
  split
  · simp
  · apply List.ne_nil_of_mem (a := 0)
    rw [mem_intRange]
    omega

theorem s0a2_mem {maxSpin : Int} (symmetric : Bool) (h : 0 ≤ maxSpin) (s : Int) :
    s ∈ spinsS0a2 symmetric maxSpin ↔ if symmetric then s = 0 else -maxSpin ≤ s ∧ s ≤ maxSpin := by
  unfold spinsS0a2 spinsPol
  cases symmetric with
  | true => simp
  | false =>
    simp only [Bool.false_eq_true, if_false]
    rw [mem_intRange]
    omega

theorem nodup_intRange (s : Int) (n : Nat) : (intRange s n).Nodup := by
  unfold intRange
  rw [List.nodup_map_iff_inj_on List.nodup_range]
  intro x _ y _ h
  omega

theorem dictF_ok (nside : Nat) (new : Bool) (symmetric : Bool) (maxSpin : Int) (h : 0 ≤ maxSpin)
    (f : Mode → Int → Nat → ℂ) :
    DictOk (12 * nside ^ 2) (dictF nside new (spinsUnpol symmetric maxSpin)
      (spinsPol symmetric maxSpin) (spinsS0a2 symmetric maxSpin) f) := by
  have h0 : (0 : Int) ∈ spinsS0a2 symmetric maxSpin := by
    rw [s0a2_mem symmetric h]
    cases symmetric
    · simp only [Bool.false_eq_true, if_false]
      omega
    · rfl
  have hn : (spinsS0a2 symmetric maxSpin).Nodup := by
    unfold spinsS0a2 spinsPol
    cases symmetric
    · exact nodup_intRange _ _
    · simp
  have hneg : ∀ s ∈ spinsS0a2 symmetric maxSpin, -s ∈ spinsS0a2 symmetric maxSpin := by
    intro s hs
    rw [s0a2_mem symmetric h] at hs ⊢
    cases symmetric
    · simp only [Bool.false_eq_true, if_false] at hs ⊢
      omega
    · simpa using hs
  refine ⟨?_, ?_, ?_, ?_, ?_, ?_⟩
  · intro x hx
    unfold dictF at hx
    have e0 := entryOk_mapsWith nside _ (unpol_ne symmetric h) (f .s0a0)
    have e2 := entryOk_mapsWith nside _ (List.ne_nil_of_mem h0) (f .s0a2)
    have ep : ∀ m, EntryOk (12 * nside ^ 2)
        ⟨mapsWith nside (spinsPol symmetric maxSpin) (f m), spinsPol symmetric maxSpin⟩ :=
      fun m => entryOk_mapsWith nside _ (pol_ne symmetric h) (f m)
    cases new with
    | false =>
      simp only [Bool.false_eq_true, if_false, List.append_nil, List.mem_cons, List.not_mem_nil,
        or_false] at hx
      rcases hx with rfl | rfl
      · exact e0
      · exact ep _
    | true =>
      simp only [if_true, List.cons_append, List.nil_append, List.mem_cons, List.not_mem_nil,
        or_false] at hx
      rcases hx with rfl | rfl | rfl | rfl | rfl
      · exact e0
      · exact ep _
      · exact e2
      · exact ep _
      · exact ep _
  · cases new
    · exact Or.inl rfl
    · exact Or.inr rfl
  · intro s hs
    rw [part_s0a0] at hs
    unfold spinsUnpol at hs
    split at hs
    · simp at hs
      omega
    · have := (mem_intRange _ _ _).1 hs
      omega
  · cases new
    · exact List.nodup_nil
    · exact hn
  · cases new
    · intro s hs
      exact absurd hs List.not_mem_nil
    · exact hneg
  · intro ho
    rw [isOld_dictF] at ho
    cases new
    · cases ho
    · exact h0

/-! ### the signal of a dictionary -/

theorem see_range (nside : Nat) (x : Smp) (hx : InRange nside x) (f : Nat → ℂ) :
    see x ((List.range (12 * nside ^ 2)).map f) = look x f := by
  unfold see look
  congr 1
  apply List.map_congr_left
  intro iw h
  obtain ⟨h0, h1⟩ := hx iw h
  have : iw.1.toNat < 12 * nside ^ 2 := by
    zify
    rw [Int.toNat_of_nonneg h0]
    exact h1
  rw [List.getElem?_map, List.getElem?_range this]
  rfl

theorem mapOf_with (nside : Nat) (spins : List Int) (f : Int → Nat → ℂ) (s : Int) (hs : s ∈ spins) :
    mapOf ⟨mapsWith nside spins f, spins⟩ s = (List.range (12 * nside ^ 2)).map (f s) := by
  unfold mapOf mapsWith
  have h : spins.idxOf s < spins.length := List.idxOf_lt_length_of_mem hs
  dsimp only
  rw [List.getElem?_map, List.getElem?_eq_getElem h, List.getElem_idxOf h]
  rfl

/-- `sum_s f_s exp(-i s pa)`. -/
def sumC (x : Smp) (spins : List Int) (f : Int → Nat → ℂ) : ℂ :=
  (spins.map fun s => look x (f s) * exp (-I * (s : ℂ) * (x.pa : ℂ))).sum

def sumR (x : Smp) (spins : List Int) (f : Int → Nat → ℂ) : ℝ :=
  (spins.map fun s => (if s = 0 then 1 else 2) *
    (look x (f s) * exp (-I * (s : ℂ) * (x.pa : ℂ))).re).sum

def pairF (psi : ℝ) (x : Smp) (f : Int → Nat → ℂ) (s : Int) : ℝ :=
  if s = 0 then Real.cos (2 * psi) * (exp (I * (2 * x.alpha)) * look x (f 0)).re
  else (exp (I * (2 * x.alpha + 2 * psi - s * x.pa)) * look x (f s)).re +
    (exp (I * (2 * x.alpha - 2 * psi + s * x.pa)) * look x (f (-s))).re

theorem spinSum_with (nside : Nat) (x : Smp) (hx : InRange nside x) (spins : List Int)
    (f : Int → Nat → ℂ) : spinSum ⟨mapsWith nside spins f, spins⟩ x = sumC x spins f := by
  unfold spinSum sumC mapsWith
  dsimp only
  rw [List.zipWith_map_right, List.zipWith_self]
  congr 1
  apply List.map_congr_left
  intro s _
  rw [see_range nside x hx]

theorem spinSumReal_with (nside : Nat) (x : Smp) (hx : InRange nside x) (spins : List Int)
    (f : Int → Nat → ℂ) : spinSumReal ⟨mapsWith nside spins f, spins⟩ x = sumR x spins f := by
  unfold spinSumReal sumR mapsWith
  dsimp only
  rw [List.zipWith_map_right, List.zipWith_self]
  congr 1
  apply List.map_congr_left
  intro s _
  rw [see_range nside x hx]

/-- The signal of a dictionary of maps with values `f`. -/
def signalF (new : Bool) (unpol pol s02 : List Int) (f : Mode → Int → Nat → ℂ) (psi : ℝ)
    (x : Smp) : ℝ :=
  (exp (I * (4 * x.alpha + 2 * psi)) * sumC x pol (f .s2a4)).re + sumR x unpol (f .s0a0) +
  if new then (exp (I * (2 * x.alpha)) * sumC x pol (f .s2a2)).re + (sumC x pol (f .s2a0)).re +
    ((s02.filter fun s => decide (0 ≤ s)).map (pairF psi x (f .s0a2))).sum
  else 0

theorem signal_dictF (nside : Nat) (new : Bool) (unpol pol s02 : List Int)
    (h0 : ∀ s ∈ s02, -s ∈ s02) (f : Mode → Int → Nat → ℂ) (psi : ℝ) (x : Smp)
    (hx : InRange nside x) :
    signal (dictF nside new unpol pol s02 f) psi x = signalF new unpol pol s02 f psi x := by
  unfold signal signalF
  rw [isOld_dictF, part_s0a0, part_s2a4, spinSum_with nside x hx, spinSumReal_with nside x hx]
  cases new with
  | false => rfl
  | true =>
    simp only [Bool.not_true, Bool.false_eq_true, if_false, if_true]
    rw [part_s0a2, part_s2a2, part_s2a0, spinSum_with nside x hx, spinSum_with nside x hx]
    congr 3
    apply List.map_congr_left
    intro s hs
    have hs := (List.mem_filter.1 hs).1
    have hs' := h0 s hs
    unfold pairS0a2 pairF
    split
    · rename_i h
      subst h
      rw [mapOf_with nside s02 _ 0 hs, see_range nside x hx]
    · rw [mapOf_with nside s02 _ s hs, mapOf_with nside s02 _ (-s) hs', see_range nside x hx,
        see_range nside x hx]

/-! ### linearity -/

theorem look_lin (x : Smp) (f g : Nat → ℂ) (c : ℝ) :
    look x (fun p => f p + c * g p) = look x f + c * look x g := by
  unfold look
  induction x.w with
  | nil => simp
  | cons a w ih =>
    simp only [List.map_cons, List.sum_cons, ih]
    ring

theorem sumC_lin (x : Smp) (spins : List Int) (f g : Int → Nat → ℂ) (c : ℝ) :
    sumC x spins (fun s p => f s p + c * g s p) = sumC x spins f + c * sumC x spins g := by
  unfold sumC
  induction spins with
  | nil => simp
  | cons a w ih =>
    simp only [List.map_cons, List.sum_cons, ih]
    rw [look_lin]
    ring

theorem re_lin (z w : ℂ) (c : ℝ) : (z + c * w).re = z.re + c * w.re := by
  rw [add_re, re_ofReal_mul]

theorem sumR_lin (x : Smp) (spins : List Int) (f g : Int → Nat → ℂ) (c : ℝ) :
    sumR x spins (fun s p => f s p + c * g s p) = sumR x spins f + c * sumR x spins g := by
  unfold sumR
  induction spins with
  | nil => simp
  | cons a w ih =>
    simp only [List.map_cons, List.sum_cons, ih]
    rw [look_lin, show ∀ u v e : ℂ, (u + c * v) * e = u * e + c * (v * e) by intros; ring, re_lin]
    ring

theorem pairF_lin (psi : ℝ) (x : Smp) (f g : Int → Nat → ℂ) (c : ℝ) (s : Int) :
    pairF psi x (fun s p => f s p + c * g s p) s = pairF psi x f s + c * pairF psi x g s := by
  unfold pairF
  split
  · rw [look_lin, show ∀ u v e : ℂ, e * (u + c * v) = e * u + c * (e * v) by intros; ring, re_lin]
    ring
  · rw [look_lin, look_lin]
    simp only [show ∀ u v e : ℂ, e * (u + c * v) = e * u + c * (e * v) by intros; ring, re_lin]
    ring

theorem signalF_lin (new : Bool) (unpol pol s02 : List Int) (f g : Mode → Int → Nat → ℂ) (c : ℝ)
    (psi : ℝ) (x : Smp) :
    signalF new unpol pol s02 (fun m s p => f m s p + c * g m s p) psi x =
      signalF new unpol pol s02 f psi x + c * signalF new unpol pol s02 g psi x := by
  unfold signalF
  rw [sumC_lin, sumR_lin]
  have e : ∀ u v e : ℂ, e * (u + c * v) = e * u + c * (e * v) := by intros; ring
  rw [e, re_lin]
  cases new with
  | false =>
    simp only [Bool.false_eq_true, if_false]
    ring
  | true =>
    simp only [if_true]
    rw [sumC_lin, sumC_lin, e, re_lin, re_lin]
    have h : ∀ l : List Int, (l.map (pairF psi x fun s p => f .s0a2 s p + c * g .s0a2 s p)).sum =
        (l.map (pairF psi x (f .s0a2))).sum + c * (l.map (pairF psi x (g .s0a2))).sum := by
      intro l
      induction l with
      | nil => simp
      | cons a w ih =>
        simp only [List.map_cons, List.sum_cons, ih]
        rw [pairF_lin]
        ring
    rw [h]
    ring

theorem scalarAt_lin (Y : Harmonics) (nside L : Nat) (f g : Nat → Nat → ℂ) (c : ℝ) (p : Nat) :
    scalarAt Y nside L (fun l m => f l m + c * g l m) p =
      scalarAt Y nside L f p + c * scalarAt Y nside L g p := by
  unfold scalarAt
  rw [Finset.mul_sum, ← Finset.sum_add_distrib]
  apply Finset.sum_congr rfl
  intro l _
  rw [re_lin]
  have : ∑ m ∈ Finset.range l, 2 * ((f l (m + 1) + c * g l (m + 1)) *
        Y nside 0 l ((m : Int) + 1) p).re =
      ∑ m ∈ Finset.range l, 2 * (f l (m + 1) * Y nside 0 l ((m : Int) + 1) p).re +
        c * ∑ m ∈ Finset.range l, 2 * (g l (m + 1) * Y nside 0 l ((m : Int) + 1) p).re := by
    rw [Finset.mul_sum, ← Finset.sum_add_distrib]
    apply Finset.sum_congr rfl
    intro m _
    rw [show ∀ u v e : ℂ, (u + c * v) * e = u * e + c * (v * e) by intros; ring, re_lin]
    ring
  rw [this]
  ring

theorem zeroCoef_lin (a b a' b' : ℂ) (c : ℝ) :
    zeroCoef (a + c * a') (b + c * b') = zeroCoef a b + c * zeroCoef a' b' := by
  unfold zeroCoef
  apply Complex.ext <;> simp <;> ring

theorem spinAt_lin (Y : Harmonics) (nside L : Nat) (s : Int) (F G F' G' : Nat → Nat → ℂ) (c : ℝ)
    (p : Nat) :
    spinAt Y nside L s (fun l m => F l m + c * F' l m) (fun l m => G l m + c * G' l m) p =
      spinAt Y nside L s F G p + c * spinAt Y nside L s F' G' p := by
  unfold spinAt
  rw [Finset.mul_sum, ← Finset.sum_add_distrib]
  apply Finset.sum_congr rfl
  intro l _
  rw [zeroCoef_lin]
  have hc : star (c : ℂ) = c := conj_ofReal c
  rw [mul_add, Finset.mul_sum]
  rw [show ∀ u v w z : ℂ, (u + w) + (c * v + z) = (u + c * v) + (w + z) by intros; ring,
    ← Finset.sum_add_distrib]
  congr 1
  · ring
  · apply Finset.sum_congr rfl
    intro m _
    rw [star_add, star_mul, hc]
    ring

theorem rawReal_lin (Y : Harmonics) (nside L : Nat) (a a' b : Nat → Nat → ℂ) (c : ℝ) (s p : Nat) :
    rawReal Y nside L (fun l m => a l m + c * a' l m) b s p =
      rawReal Y nside L a b s p + c * rawReal Y nside L a' b s p := by
  unfold rawReal
  dsimp only
  have e : ∀ u v w : ℂ, (u + c * v) * w = u * w + c * (v * w) := by intros; ring
  simp only [e]
  split
  · rw [scalarAt_lin]
    push_cast
    rfl
  · rw [spinAt_lin]

theorem rawComplex_lin (Y : Harmonics) (nside L : Nat) (a2 ap a2' ap' b2 bp : Nat → Nat → ℂ)
    (c : ℝ) (s : Int) (p : Nat) :
    rawComplex Y nside L (fun l m => a2 l m + c * a2' l m) (fun l m => ap l m + c * ap' l m) b2 bp
        s p =
      rawComplex Y nside L a2 ap b2 bp s p + c * rawComplex Y nside L a2' ap' b2 bp s p := by
  unfold rawComplex
  dsimp only
  have e : ∀ u v w : ℂ, (u + c * v) * w = u * w + c * (v * w) := by intros; ring
  have hc : star (c : ℂ) = c := conj_ofReal c
  simp only [e]
  split
  · rw [spinAt_lin]
  · split
    · rw [spinAt_lin, star_add, star_mul, hc, mul_comm (star _)]
    · simp only [show ∀ u v w z : ℂ, (u + c * v + (w + c * z)) / 2 = (u + w) / 2 + c * ((v + z) / 2)
        by intros; ring, show ∀ u v w z : ℂ, (u + c * v - (w + c * z)) * (I / 2) =
        (u - w) * (I / 2) + c * ((v - z) * (I / 2)) by intros; ring]
      rw [scalarAt_lin, scalarAt_lin]
      push_cast
      ring

theorem minus2_lin (e b e' b' : Nat → Nat → ℂ) (c : ℝ) :
    minus2 (fun l m => e l m + c * e' l m) (fun l m => b l m + c * b' l m) =
      fun l m => minus2 e b l m + c * minus2 e' b' l m := by
  funext l m
  unfold minus2
  ring

theorem plus2_lin (e b e' b' : Nat → Nat → ℂ) (c : ℝ) :
    plus2 (fun l m => e l m + c * e' l m) (fun l m => b l m + c * b' l m) =
      fun l m => plus2 e b l m + c * plus2 e' b' l m := by
  funext l m
  unfold plus2
  ring

theorem values_lin (Y : Harmonics) (nside L : Nat) (a a' b : Nat → Nat → Nat → ℂ)
    (mueller : Option Mat4) (inputV beamV : Bool) (c : ℝ) :
    values Y nside L (fun i l m => a i l m + c * a' i l m) b mueller inputV beamV =
      fun mode s p => values Y nside L a b mueller inputV beamV mode s p +
        c * values Y nside L a' b mueller inputV beamV mode s p := by
  funext mode s p
  cases mueller with
  | none =>
    cases mode <;> simp only [values, valuesOld, rawReal_lin, minus2_lin, plus2_lin, rawComplex_lin]
    split
    · ring
    · ring
  | some M =>
    cases mode <;> simp only [values, valuesNew, rawReal_lin, minus2_lin, plus2_lin, rawComplex_lin]
    · split <;> ring
    · split <;> ring

/-! ### sums over spins -/

theorem sum_intRange (F : Int → ℂ) (s : Int) (n : Nat) :
    ((intRange s n).map F).sum = ∑ x ∈ Finset.Ico s (s + n), F x := by
  rw [← List.sum_toFinset F (nodup_intRange s n)]
  congr 1
  ext x
  rw [List.mem_toFinset, mem_intRange, Finset.mem_Ico]

theorem sum_pol (F : Int → ℂ) (symmetric : Bool) (maxSpin : Int) (h : 0 ≤ maxSpin) :
    ((spinsPol symmetric maxSpin).map F).sum = ∑ s ∈ spinsP symmetric maxSpin, F s := by
  unfold spinsPol spinsP
  cases symmetric with
  | true => simp
  | false =>
    simp only [Bool.false_eq_true, if_false]
    rw [sum_intRange]
    congr 1
    ext x
    rw [Finset.mem_Ico, Finset.mem_Icc]
    omega

theorem intRange_zero (n : Nat) :
    intRange 0 (n + 1) = 0 :: (List.range n).map fun (k : Nat) => (k : Int) + 1 := by
  unfold intRange
  rw [List.range_succ_eq_map]
  simp

theorem sum_unpol (G : Int → ℂ) (hG : ∀ s, G (-s) = star (G s)) (symmetric : Bool) (maxSpin : Int)
    (h : 0 ≤ maxSpin) :
    ((spinsUnpol symmetric maxSpin).map fun s => (if s = 0 then 1 else 2) * (G s).re).sum =
      (∑ s ∈ spinsI symmetric maxSpin, G s).re := by
  unfold spinsUnpol spinsI
  cases symmetric with
  | true => simp
  | false =>
    obtain ⟨n, rfl⟩ := Int.eq_ofNat_of_zero_le h
    simp only [Bool.false_eq_true, if_false]
    have e : ((n : Int) + 1).toNat = n + 1 := by omega
    rw [e, intRange_zero, sum_Icc_sym, add_re, re_sum]
    simp only [List.map_cons, List.sum_cons, if_true, one_mul, List.map_map]
    congr 1
    have e2 : ∀ k : Nat, (G ((k : Int) + 1) + G (-((k : Int) + 1))).re = 2 * (G ((k : Int) + 1)).re := by
      intro k
      rw [hG, add_re, show (star (G ((k : Int) + 1))).re = (G ((k : Int) + 1)).re from rfl]
      ring
    simp only [e2]
    rw [Finset.sum_range, ← List.sum_ofFn]
    congr 1
    apply List.ext_getElem
    · simp
    · intro k h1 h2
      have : ¬ ((k : Int) + 1 = 0) := by omega
      simp [this]

/-- The coefficients of a real function around the beam axis. -/
def RealModes (L : Nat) (B : Nat → Int → ℂ) : Prop :=
  ∀ l, l ≤ L → ∀ s : Int, (-1) ^ s * star (B l (-s)) = B l s

theorem realModes_extended (L : Nat) (a : Nat → Nat → ℂ) (h : ∀ l, l ≤ L → star (a l 0) = a l 0) :
    RealModes L (extended a a) := fun l hl s => extended_neg_star a a l (h l hl) s

theorem beamMode_star (b c : Nat → Nat → ℂ) (l : Nat) (h : star (b l 0) = c l 0) (s : Int) :
    (-1) ^ s * star (beamMode b c (-s) l) = beamMode c b s l := by
  unfold beamMode
  rw [abs_neg]
  split
  · simp
  · exact extended_neg_star b c l h s

theorem realModes_beam (L : Nat) (b : Nat → Nat → ℂ) (h : ∀ l, l ≤ L → star (b l 0) = b l 0) :
    RealModes L (fun l s => beamMode b b s l) := fun l hl s => beamMode_star b b l (h l hl) s

theorem look_star (x : Smp) (f : Nat → ℂ) : look x (fun p => star (f p)) = star (look x f) := by
  unfold look
  induction x.w with
  | nil => simp
  | cons a w ih =>
    have : star ((a.2 : ℂ)) = a.2 := conj_ofReal a.2
    simp only [List.map_cons, List.sum_cons, ih, star_add, star_mul, this]
    ring

theorem exp_star (x : Smp) (s : Int) :
    star (exp (-I * (s : ℂ) * (x.pa : ℂ))) = exp (-I * ((-s : Int) : ℂ) * (x.pa : ℂ)) := by
  show (starRingEnd ℂ) (exp _) = exp _
  rw [← Complex.exp_conj]
  congr 1
  simp only [map_mul, map_neg, conj_I, conj_ofReal, map_intCast]
  push_cast
  ring

/-- The field for `-s` is the conjugate of that for `s`. -/
theorem field_star (Y : Harmonics) (hY : Conjugation Y) (nside L : Nat) (x : Smp)
    (BI BV AI AV : Nat → Int → ℂ) (h1 : RealModes L BI) (h2 : RealModes L BV) (h3 : RealModes L AI)
    (h4 : RealModes L AV) (s : Int) :
    look x (synth Y nside L (-s) fun l m => BI l (-s) * AI l m + BV l (-s) * AV l m) *
        exp (-I * ((-s : Int) : ℂ) * (x.pa : ℂ)) =
      star (look x (synth Y nside L s fun l m => BI l s * AI l m + BV l s * AV l m) *
        exp (-I * (s : ℂ) * (x.pa : ℂ))) := by
  rw [star_mul, exp_star, mul_comm (exp _), ← look_star]
  congr 2
  funext p
  rw [synth_star Y hY]
  apply synth_congr
  intro l hl m
  rw [zpow_add₀ (by norm_num), star_add, star_mul, star_mul,
    ← h1 l hl (-s), ← h2 l hl (-s), ← h3 l hl m, ← h4 l hl m, neg_neg, neg_one_zpow_neg]
  ring

theorem synth_add (Y : Harmonics) (nside L : Nat) (s : Int) (A B : Nat → Int → ℂ) (p : Nat) :
    synth Y nside L s A p + synth Y nside L s B p =
      synth Y nside L s (fun l m => A l m + B l m) p := by
  unfold synth
  rw [← Finset.sum_add_distrib]
  apply Finset.sum_congr rfl
  intro l _
  rw [← Finset.sum_add_distrib]
  apply Finset.sum_congr rfl
  intro m _
  ring

theorem synth_smul (Y : Harmonics) (nside L : Nat) (s : Int) (A : Nat → Int → ℂ) (c : ℂ) (p : Nat) :
    c * synth Y nside L s A p = synth Y nside L s (fun l m => c * A l m) p := by
  unfold synth
  rw [Finset.mul_sum]
  apply Finset.sum_congr rfl
  intro l _
  rw [Finset.mul_sum]
  apply Finset.sum_congr rfl
  intro m _
  ring

theorem look_smul (x : Smp) (f : Nat → ℂ) (c : ℂ) : c * look x f = look x fun p => c * f p := by
  unfold look
  induction x.w with
  | nil => simp
  | cons a w ih =>
    simp only [List.map_cons, List.sum_cons, mul_add, ih]
    ring

/-- Coefficients of the sky in the code's arrays. -/
theorem sky_zero {L : Nat} {a : Nat → Nat → Nat → ℂ} (h : RealSky L a) (l : Nat) (hl : l ≤ L) :
    star (plus2 (a 1) (a 2) l 0) = minus2 (a 1) (a 2) l 0 := by
  unfold plus2 minus2
  have hI : star I = -I := conj_I
  rw [star_neg, star_add, star_mul, h 1 (by omega) l hl, h 2 (by omega) l hl, hI]
  ring

theorem beamP (v : Bool) (b : Nat → Nat → Nat → ℂ) (l : Nat) (s : Int) :
    (beamOf v b).P l s = beamMode (b 1) (b 2) s l := by
  unfold Stokes.P beamOf
  dsimp only
  rw [show s - 2 + 2 = s by ring]
  have hI : I ≠ 0 := I_ne_zero
  field_simp
  ring

theorem turned_P (psi : ℝ) (b : Stokes) (l : Nat) (s : Int) :
    (turned psi b).P l s = exp (I * (2 * psi)) * b.P l s := by
  unfold Stokes.P turned
  dsimp only
  rw [mul_comm I (2 * (psi : ℂ)), exp_mul_I]
  push_cast
  linear_combination -(b.U l (s - 2)) * Complex.sin (2 * psi) * I_sq

/-- The signal without Mueller matrix. -/
theorem signal_old (Y : Harmonics) (hY : Conjugation Y) (nside L : Nat)
    (a b : Nat → Nat → Nat → ℂ) (ha : RealSky L a) (hb : RealBeam L b) (maxSpin : Int)
    (h0 : 0 ≤ maxSpin) (symmetric inputV beamV : Bool) (psi : ℝ) (x : Smp) (s02 : List Int) :
    signalF false (spinsUnpol symmetric maxSpin) (spinsPol symmetric maxSpin) s02
        (values Y nside L a b none inputV beamV) psi x =
      convolved Y nside L (spinsI symmetric maxSpin) (spinsP symmetric maxSpin) (skyOf inputV a)
        (turned (2 * x.alpha + psi) (beamOf beamV b)) x := by
  unfold signalF convolved
  simp only [Bool.false_eq_true, if_false, add_zero]
  rw [add_re, add_comm]
  congr 1
  · have hc := sum_unpol (fun s => look x (synth Y nside L s fun l m =>
        (turned (2 * x.alpha + psi) (beamOf beamV b)).I l s * (skyOf inputV a).I l m +
        (turned (2 * x.alpha + psi) (beamOf beamV b)).V l s * (skyOf inputV a).V l m) *
        exp (-I * (s : ℂ) * (x.pa : ℂ))) (by
      intro s
      apply field_star Y hY nside L x
      · exact realModes_beam L _ fun l hl => (hb l hl).1
      · intro l hl s
        unfold turned beamOf
        dsimp only
        split
        · exact realModes_beam L _ (fun l hl => (hb l hl).2.1) l hl s
        · simp
      · exact realModes_extended L _ fun l hl => ha 0 (by omega) l hl
      · intro l hl s
        unfold skyOf
        dsimp only
        split
        · exact realModes_extended L _ (fun l hl => ha 3 (by omega) l hl) l hl s
        · simp) symmetric maxSpin h0
    rw [← hc]
    unfold sumR
    congr 1
    apply List.map_congr_left
    intro s hs
    have hs0 : 0 ≤ s := by
      unfold spinsUnpol at hs
      split at hs
      · simp at hs
        omega
      · have := (mem_intRange _ _ _).1 hs
        omega
    obtain ⟨n, rfl⟩ := Int.eq_ofNat_of_zero_le hs0
    congr 4
    funext p
    have e1 := rawReal_synth Y hY nside L (a 0) (b 0) (fun l hl => ha 0 (by omega) l hl)
      (fun l hl => (hb l hl).1) n p
    have e2 := rawReal_synth Y hY nside L (a 3) (b 3) (fun l hl => ha 3 (by omega) l hl)
      (fun l hl => (hb l hl).2.1) n p
    show valuesOld Y nside L a b (beamV && inputV) .s0a0 n p = _
    unfold valuesOld
    dsimp only
    rw [Int.toNat_natCast, e1, e2]
    unfold turned beamOf skyOf
    dsimp only
    cases beamV <;> cases inputV <;>
      simp only [Bool.and_self, Bool.and_true, Bool.and_false, Bool.false_and, Bool.true_and,
        Bool.false_eq_true, if_false, if_true, mul_zero, zero_mul, add_zero]
    exact synth_add Y nside L n _ _ p
  · congr 1
    unfold sumC
    rw [sum_pol (fun s => look x (values Y nside L a b none inputV beamV .s2a4 s) *
      exp (-I * (s : ℂ) * (x.pa : ℂ))) symmetric maxSpin h0, Finset.mul_sum]
    apply Finset.sum_congr rfl
    intro s _
    rw [← mul_assoc, look_smul]
    congr 2
    funext p
    have e := rawComplex_synth Y hY nside L (minus2 (a 1) (a 2)) (plus2 (a 1) (a 2)) (b 1) (b 2)
      (sky_zero ha) (fun l hl => (hb l hl).2.2) s p
    have e' : values Y nside L a b none inputV beamV .s2a4 s p =
      rawComplex Y nside L (minus2 (a 1) (a 2)) (plus2 (a 1) (a 2)) (b 1) (b 2) s p := rfl
    rw [e', e, synth_smul]
    apply synth_congr
    intro l hl m
    rw [turned_P, beamP]
    push_cast
    rw [show I * (2 * (2 * (x.alpha : ℂ) + psi)) = I * (4 * x.alpha + 2 * psi) by ring]
    unfold skyOf
    ring

end Verif.Spinmaps
