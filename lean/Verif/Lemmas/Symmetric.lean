import Verif.Lemmas.Plate

/-! # Beams that are symmetric around their axis -/

noncomputable section

namespace Verif.Spinmaps

open Verif.Alm Verif.Spin Verif.Spec Verif.Timeline Complex

theorem scalarAt_zero (Y : Harmonics) (nside L : Nat) (p : Nat) :
    scalarAt Y nside L (fun _ _ => 0) p = 0 := by
  unfold scalarAt
  simp

theorem spinAt_zero (Y : Harmonics) (nside L : Nat) (s : Int) (p : Nat) :
    spinAt Y nside L s (fun _ _ => 0) (fun _ _ => 0) p = 0 := by
  unfold spinAt zeroCoef
  simp

theorem rawReal_zero (Y : Harmonics) (nside L : Nat) (a b : Nat → Nat → ℂ) (s p : Nat)
    (h : ∀ l, b l s = 0) : rawReal Y nside L a b s p = 0 := by
  unfold rawReal
  dsimp only
  have e : (fun l => if l < s then 0 else b l s) = fun _ => (0 : ℂ) := by
    funext l
    rw [h, ite_self]
  split
  · simp only [h, ite_self, mul_zero]
    rw [scalarAt_zero]
    simp
  · simp only [h, ite_self, mul_zero, star_zero]
    exact spinAt_zero Y nside L s p

/-- `_spinmaps_complex` uses the modes with the azimuthal number `s`. -/
theorem rawComplex_congr (Y : Harmonics) (nside L : Nat) (a2 ap b2 bp b2' bp' : Nat → Nat → ℂ)
    (s : Int) (p : Nat) (h1 : 0 ≤ s → ∀ l, s.natAbs ≤ l → b2 l s.natAbs = b2' l s.natAbs)
    (h2 : s ≤ 0 → ∀ l, s.natAbs ≤ l → bp l s.natAbs = bp' l s.natAbs) :
    rawComplex Y nside L a2 ap b2 bp s p = rawComplex Y nside L a2 ap b2' bp' s p := by
  have e1 : 0 ≤ s → (fun l => if l < s.natAbs then 0 else b2 l s.natAbs) =
      fun l => if l < s.natAbs then 0 else b2' l s.natAbs := by
    intro h
    funext l
    split
    · rfl
    · exact h1 h l (by omega)
  have e2 : s ≤ 0 → (fun l => if l < s.natAbs then 0 else bp l s.natAbs) =
      fun l => if l < s.natAbs then 0 else bp' l s.natAbs := by
    intro h
    funext l
    split
    · rfl
    · exact h2 h l (by omega)
  unfold rawComplex
  dsimp only
  split
  · rename_i h
    have e1 := fun l => congrFun (e1 h.le) l
    simp only [e1]
  · split
    · rename_i h
      have e2 := fun l => congrFun (e2 h.le) l
      simp only [e2]
    · have h : s = 0 := by omega
      have e1 := fun l => congrFun (e1 h.ge) l
      have e2 := fun l => congrFun (e2 h.le) l
      simp only [e1, e2]

theorem rawComplex_nil (Y : Harmonics) (nside L : Nat) (a2 ap : Nat → Nat → ℂ) (s : Int) (p : Nat) :
    rawComplex Y nside L a2 ap (fun _ _ => 0) (fun _ _ => 0) s p = 0 := by
  unfold rawComplex
  simp only [ite_self, mul_zero, star_zero, spinAt_zero, add_zero, zero_div, sub_zero, zero_mul,
    scalarAt_zero, ofReal_zero]

theorem rawComplex_zero (Y : Harmonics) (nside L : Nat) (a2 ap b2 bp : Nat → Nat → ℂ)
    (s : Int) (p : Nat) (h1 : 0 ≤ s → ∀ l, b2 l s.natAbs = 0)
    (h2 : s ≤ 0 → ∀ l, bp l s.natAbs = 0) : rawComplex Y nside L a2 ap b2 bp s p = 0 := by
  rw [rawComplex_congr Y nside L a2 ap b2 bp (fun _ _ => 0) (fun _ _ => 0) s p
    (fun h l _ => h1 h l) (fun h l _ => h2 h l), rawComplex_nil]

/-- The maps that need not vanish for a symmetric beam. -/
theorem values_sym (Y : Harmonics) (nside L : Nat) (a b : Nat → Nat → Nat → ℂ) (hb : AxiSym b)
    (mueller : Option Mat4) (inputV beamV : Bool) (s : Int) (p : Nat) :
    (0 < s → values Y nside L a b mueller inputV beamV .s0a0 s p = 0) ∧
    (s ≠ 2 → values Y nside L a b mueller inputV beamV .s2a4 s p = 0) ∧
    (mueller ≠ none →
      (s ≠ 2 → values Y nside L a b mueller inputV beamV .s2a2 s p = 0) ∧
      (s ≠ 2 → values Y nside L a b mueller inputV beamV .s2a0 s p = 0) ∧
      (s ≠ 0 → values Y nside L a b mueller inputV beamV .s0a2 s p = 0)) := by
  obtain ⟨h0, h1, h2⟩ := hb
  have hI : ∀ l m, m ≠ 0 → b 0 l m = 0 := fun l m h => (h0 l m h).1
  have hV : ∀ l m, m ≠ 0 → b 3 l m = 0 := fun l m h => (h0 l m h).2
  -- shifted beams
  have eP : ∀ (i : Nat) (k : Int), 0 < k → (i = 0 ∨ i = 3) → ∀ (l m : Nat), (m : Int) ≠ k →
      shiftP (b i) (b i) k l m = 0 := by
    intro i k hk hi l m hm
    unfold shiftP extended
    have hz : ∀ l m, m ≠ 0 → b i l m = 0 := by
      rcases hi with rfl | rfl
      · exact hI
      · exact hV
    split
    · split
      · exact hz _ _ (by omega)
      · rw [hz _ _ (by omega)]
        simp
    · rfl
  have eM : ∀ (i : Nat) (k : Int), 0 < k → (i = 0 ∨ i = 3) → ∀ l m,
      shiftM (b i) (b i) k l m = 0 := by
    intro i k hk hi l m
    unfold shiftM extended
    have hz : ∀ l m, m ≠ 0 → b i l m = 0 := by
      rcases hi with rfl | rfl
      · exact hI
      · exact hV
    split
    · split
      · exact hz _ _ (by omega)
      · omega
    · rfl
  have pP : ∀ k : Int, 2 ≤ k → ∀ (l m : Nat), (m : Int) ≠ k - 2 → shiftP (b 1) (b 2) k l m = 0 := by
    intro k hk l m hm
    unfold shiftP extended
    split
    · split
      · exact h2 _ _
      · rw [h1 _ _ (by omega)]
        simp
    · rfl
  have pM : ∀ k : Int, 2 ≤ k → ∀ (l m : Nat), (m : Int) ≠ 2 - k → shiftM (b 1) (b 2) k l m = 0 := by
    intro k hk l m hm
    unfold shiftM extended
    split
    · split
      · exact h1 _ _ (by omega)
      · omega
    · rfl
  cases mueller with
  | none =>
    refine ⟨?_, ?_, fun h => absurd rfl h⟩
    · intro hs
      show rawReal Y nside L (a 0) (b 0) s.toNat p + (if (beamV && inputV) = true then
        rawReal Y nside L (a 3) (b 3) s.toNat p else 0) = 0
      rw [rawReal_zero Y nside L _ _ _ _ fun l => hI l _ (by omega),
        rawReal_zero Y nside L _ _ _ _ fun l => hV l _ (by omega)]
      simp
    · intro hs
      exact rawComplex_zero Y nside L _ _ _ _ s p (fun h l => h1 l _ (by omega))
        (fun h l => h2 l _)
  | some M =>
    refine ⟨?_, ?_, fun _ => ⟨?_, ?_, ?_⟩⟩
    · intro hs
      show rawReal Y nside L (a 0) (hwpUnpol b (mueller2spin M) beamV 0) s.toNat p +
        (if inputV = true then
          rawReal Y nside L (a 3) (hwpUnpol b (mueller2spin M) beamV 3) s.toNat p else 0) = 0
      have hz : ∀ c l, hwpUnpol b (mueller2spin M) beamV c l s.toNat = 0 := by
        intro c l
        unfold hwpUnpol
        rw [hI l _ (by omega), hV l _ (by omega)]
        simp
      rw [rawReal_zero Y nside L _ _ _ _ (hz 0), rawReal_zero Y nside L _ _ _ _ (hz 3)]
      simp
    · intro hs
      refine rawComplex_zero Y nside L _ _ _ _ s p (fun h l => ?_) (fun h l => ?_)
      · show shiftP (b 1) (b 2) 4 l s.natAbs * _ = 0
        rw [pP 4 (by omega) l _ (by omega), zero_mul]
      · show shiftM (b 1) (b 2) 4 l s.natAbs * _ = 0
        rw [pM 4 (by omega) l _ (by omega), zero_mul]
    · intro hs
      refine rawComplex_zero Y nside L _ _ _ _ s p (fun h l => ?_) (fun h l => ?_)
      · show shiftP (b 0) (b 0) 2 l s.natAbs * _ + (if beamV = true then
          shiftP (b 3) (b 3) 2 l s.natAbs * _ else 0) = 0
        rw [eP 0 2 (by omega) (Or.inl rfl) l _ (by omega),
          eP 3 2 (by omega) (Or.inr rfl) l _ (by omega)]
        simp
      · show shiftM (b 0) (b 0) 2 l s.natAbs * _ + (if beamV = true then
          shiftM (b 3) (b 3) 2 l s.natAbs * _ else 0) = 0
        rw [eM 0 2 (by omega) (Or.inl rfl) l _, eM 3 2 (by omega) (Or.inr rfl) l _]
        simp
    · intro hs
      refine rawComplex_zero Y nside L _ _ _ _ s p (fun h l => ?_) (fun h l => ?_)
      · show b 1 l s.natAbs * _ = 0
        rw [h1 l _ (by omega), zero_mul]
      · show b 2 l s.natAbs * _ = 0
        rw [h2 l _, zero_mul]
    · intro hs
      show rawComplex Y nside L (a 0) (a 0) _ _ s p + (if inputV = true then
        rawComplex Y nside L (a 3) (a 3) _ _ s p else 0) = 0
      rw [rawComplex_zero Y nside L _ _ _ _ s p (fun h l => ?_) (fun h l => ?_),
        rawComplex_zero Y nside L _ _ _ _ s p (fun h l => ?_) (fun h l => ?_)]
      · simp
      · show shiftP (b 1) (b 2) 2 l s.natAbs * _ = 0
        rw [pP 2 (by omega) l _ (by omega), zero_mul]
      · show shiftM (b 1) (b 2) 2 l s.natAbs * _ = 0
        rw [pM 2 (by omega) l _ (by omega), zero_mul]
      · show shiftP (b 1) (b 2) 2 l s.natAbs * _ = 0
        rw [pP 2 (by omega) l _ (by omega), zero_mul]
      · show shiftM (b 1) (b 2) 2 l s.natAbs * _ = 0
        rw [pM 2 (by omega) l _ (by omega), zero_mul]

theorem sum_only {M : Type} [AddCommMonoid M] (l : List Int) (hl : l.Nodup) (c : Int) (hc : c ∈ l)
    (F : Int → M) (h : ∀ s ∈ l, s ≠ c → F s = 0) : (l.map F).sum = F c := by
  classical
  rw [← List.sum_toFinset F hl]
  exact Finset.sum_eq_single c (fun s hs hne => h s (List.mem_toFinset.1 hs) hne)
    (fun hn => absurd (List.mem_toFinset.2 hc) hn)

theorem look_zero (x : Smp) (f : Nat → ℂ) (h : ∀ p, f p = 0) : look x f = 0 := by
  unfold look
  simp [h]

/-- The signal of a symmetric beam does not depend on the flag. -/
theorem signal_sym (Y : Harmonics) (nside L : Nat) (a b : Nat → Nat → Nat → ℂ) (hb : AxiSym b)
    (mueller : Option Mat4) (inputV beamV : Bool) (maxSpin n : Int) (hm : 2 ≤ maxSpin) (psi : ℝ)
    (x : Smp) :
    signalF mueller.isSome (spinsUnpol false maxSpin) (spinsPol false maxSpin)
        (spinsS0a2 false maxSpin) (values Y nside L a b mueller inputV beamV) psi x =
    signalF mueller.isSome (spinsUnpol true n) (spinsPol true n) (spinsS0a2 true n)
        (values Y nside L a b mueller inputV beamV) psi x := by
  have hv := values_sym Y nside L a b hb mueller inputV beamV
  have hpol : ∀ f : Int → Nat → ℂ, (∀ s, s ≠ 2 → ∀ p, f s p = 0) →
      sumC x (spinsPol false maxSpin) f = sumC x (spinsPol true n) f := by
    intro f hf
    unfold sumC
    rw [sum_only (spinsPol false maxSpin) (nodup_intRange _ _) 2 (by
      unfold spinsPol
      simp only [Bool.false_eq_true, if_false]
      rw [mem_intRange]
      omega) _ (by
      intro s _ hs
      rw [look_zero x _ (hf s hs), zero_mul])]
    simp [spinsPol]
  have hun : sumR x (spinsUnpol false maxSpin) (values Y nside L a b mueller inputV beamV .s0a0) =
      sumR x (spinsUnpol true n) (values Y nside L a b mueller inputV beamV .s0a0) := by
    unfold sumR
    rw [sum_only (spinsUnpol false maxSpin) (nodup_intRange _ _) 0 (by
      unfold spinsUnpol
      simp only [Bool.false_eq_true, if_false]
      rw [mem_intRange]
      omega) _ (by
      intro s hs hne
      have : s ∈ intRange 0 (maxSpin + 1).toNat := hs
      rw [mem_intRange] at this
      rw [look_zero x _ fun p => (hv s p).1 (by omega)]
      simp)]
    simp [spinsUnpol]
  unfold signalF
  rw [hpol _ fun s hs p => (hv s p).2.1 hs, hun]
  cases mueller with
  | none => rfl
  | some M =>
    have hn : (some M) ≠ none := by simp
    rw [hpol _ fun s hs p => ((hv s p).2.2 hn).1 hs, hpol _ fun s hs p => ((hv s p).2.2 hn).2.1 hs]
    congr 3
    have hnd : ((spinsS0a2 false maxSpin).filter fun s => decide (0 ≤ s)).Nodup :=
      (nodup_intRange _ _).filter _
    rw [sum_only _ hnd 0 (by
      rw [List.mem_filter, s0a2_mem false (by omega)]
      simp
      omega) _ (by
      intro s _ hne
      unfold pairF
      rw [if_neg hne, look_zero x _ fun p => ((hv s p).2.2 hn).2.2 hne,
        look_zero x _ fun p => ((hv (-s) p).2.2 hn).2.2 (by omega)]
      simp)]
    simp [spinsS0a2]

end Verif.Spinmaps
