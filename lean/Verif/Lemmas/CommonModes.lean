import Verif.Spec.CommonModes
import Verif.Lemmas.Symmetric

/-!
# Lemmas: which coefficients of sky and beams are used
-/

noncomputable section

namespace Verif.Spinmaps

open Verif.Alm Verif.Spec Verif.Spin Complex

theorem rawReal_sky0 (Y : Harmonics) (nside L : Nat) (b : Nat → Nat → ℂ) (s p : Nat) :
    rawReal Y nside L (fun _ _ => 0) b s p = 0 := by
  unfold rawReal
  simp only [zero_mul, scalarAt_zero, spinAt_zero, ofReal_zero, ite_self]

theorem rawReal_beam0 (Y : Harmonics) (nside L : Nat) (a : Nat → Nat → ℂ) (s p : Nat) :
    rawReal Y nside L a (fun _ _ => 0) s p = 0 := rawReal_zero Y nside L a _ s p fun _ => rfl

theorem rawComplex_sky0 (Y : Harmonics) (nside L : Nat) (b2 bp : Nat → Nat → ℂ) (s : Int) (p : Nat) :
    rawComplex Y nside L (fun _ _ => 0) (fun _ _ => 0) b2 bp s p = 0 := by
  unfold rawComplex
  simp only [zero_mul, add_zero, zero_div, sub_zero, spinAt_zero, scalarAt_zero, ofReal_zero, star_zero,
    mul_zero, ite_self]

theorem shiftP_none (s : Int) (l m : Nat) : shiftP (fun _ _ => 0) (fun _ _ => 0) s l m = 0 := by
  unfold shiftP extended
  simp

theorem shiftM_none (s : Int) (l m : Nat) : shiftM (fun _ _ => 0) (fun _ _ => 0) s l m = 0 := by
  unfold shiftM extended
  simp

theorem withV_low (v : Bool) (f : Nat → Nat → Nat → ℂ) (i : Nat) (hi : i ≠ 3) : withV v f i = f i :=
  if_neg fun h => hi h.1

theorem withV_false (f : Nat → Nat → Nat → ℂ) : withV false f 3 = fun _ _ => 0 := if_pos ⟨rfl, rfl⟩

theorem withV_true (f : Nat → Nat → Nat → ℂ) (i : Nat) : withV true f i = f i := if_neg (by simp)

theorem hwpUnpol_withV (b : Nat → Nat → Nat → ℂ) (w : Mat4) (v : Bool) (c : Fin 4) :
    hwpUnpol (withV v b) w true c = hwpUnpol b w v c := by
  funext l m
  unfold hwpUnpol
  rw [withV_low v b 0 (by decide)]
  cases v with
  | false => simp [withV_false]
  | true => simp [withV_true]

theorem hwpPol_withV (b : Nat → Nat → Nat → ℂ) (w : Mat4) (v : Bool) (mode : String) :
    hwpPol (withV v b) w true mode = hwpPol b w v mode := by
  unfold hwpPol
  rw [withV_low v b 0 (by decide), withV_low v b 1 (by decide), withV_low v b 2 (by decide)]
  cases v with
  | false => simp [withV_false, shiftP_none, shiftM_none]
  | true => simp [withV_true]

theorem hwpPol_low (b : Nat → Nat → Nat → ℂ) (w : Mat4) (v : Bool) (mode : String) :
    hwpPol (withV v b) w false mode = hwpPol b w false mode := by
  unfold hwpPol
  rw [withV_low v b 0 (by decide), withV_low v b 1 (by decide), withV_low v b 2 (by decide)]
  simp

/-- V that is not asked for counts as 0. -/
theorem values_withV (Y : Harmonics) (nside L : Nat) (a b : Nat → Nat → Nat → ℂ) (mueller : Option Mat4)
    (inputV beamV : Bool) : values Y nside L a b mueller inputV beamV =
      values Y nside L (withV inputV a) (withV beamV b) mueller true true := by
  have a0 := withV_low inputV a 0 (by decide)
  have a1 := withV_low inputV a 1 (by decide)
  have a2 := withV_low inputV a 2 (by decide)
  have b0 := withV_low beamV b 0 (by decide)
  have b1 := withV_low beamV b 1 (by decide)
  have b2 := withV_low beamV b 2 (by decide)
  funext mode s p
  cases mueller with
  | none =>
    cases mode <;> simp only [values, valuesOld, a0, a1, a2, b0, b1, b2]
    cases inputV <;> cases beamV <;> simp [withV_false, withV_true, rawReal_sky0, rawReal_beam0]
  | some M =>
    cases mode <;> simp only [values, valuesNew, hwpUnpol_withV, hwpPol_withV, hwpPol_low, a0, a1, a2]
    · cases inputV <;> simp [withV_false, withV_true, rawReal_sky0]
    · cases inputV <;> simp [withV_false, withV_true, rawComplex_sky0]

/-- Coefficients up to `m = K`. -/
def cutM (K : Int) (f : Nat → Nat → Nat → ℂ) : Nat → Nat → Nat → ℂ :=
  fun i l m => if (m : Int) ≤ K then f i l m else 0

theorem extended_cut (K : Int) (f : Nat → Nat → Nat → ℂ) (i j l : Nat) (k : Int) (hk : |k| ≤ K) :
    extended (cutM K f i) (cutM K f j) l k = extended (f i) (f j) l k := by
  unfold extended cutM
  split
  · rw [if_pos (by rw [abs_of_nonneg (by assumption)] at hk; omega)]
  · rw [if_pos (by rw [Int.natCast_natAbs]; exact hk)]

theorem shiftP_cut (K : Int) (f : Nat → Nat → Nat → ℂ) (i j : Nat) (s : Int) (l m : Nat)
    (h : |(m : Int) - s| ≤ K) : shiftP (cutM K f i) (cutM K f j) s l m = shiftP (f i) (f j) s l m := by
  unfold shiftP
  rw [extended_cut K f j i l _ h]

theorem shiftM_cut (K : Int) (f : Nat → Nat → Nat → ℂ) (i j : Nat) (s : Int) (l m : Nat)
    (h : |(m : Int) + s| ≤ K) : shiftM (cutM K f i) (cutM K f j) s l m = shiftM (f i) (f j) s l m := by
  unfold shiftM
  rw [extended_cut K f i j l _ h]

theorem rawReal_row (Y : Harmonics) (nside L : Nat) (a b b' : Nat → Nat → ℂ) (s p : Nat)
    (h : ∀ l, b l s = b' l s) : rawReal Y nside L a b s p = rawReal Y nside L a b' s p := by
  unfold rawReal
  simp only [h]

theorem hwpPol_cut (K : Int) (f : Nat → Nat → Nat → ℂ) (w : Mat4) (v : Bool) (mode : String) (l m : Nat)
    (h : (m : Int) + 4 ≤ K) : (hwpPol (cutM K f) w v mode).1 l m = (hwpPol f w v mode).1 l m ∧
      (hwpPol (cutM K f) w v mode).2 l m = (hwpPol f w v mode).2 l m := by
  have p4 := fun i j => shiftP_cut K f i j 4 l m (by rw [abs_le]; omega)
  have p2 := fun i j => shiftP_cut K f i j 2 l m (by rw [abs_le]; omega)
  have m4 := fun i j => shiftM_cut K f i j 4 l m (by rw [abs_le]; omega)
  have m2 := fun i j => shiftM_cut K f i j 2 l m (by rw [abs_le]; omega)
  have e : ∀ i, cutM K f i l m = f i l m := fun i => if_pos (by omega)
  unfold hwpPol
  dsimp only
  split
  · simp only [p4, m4, and_self]
  split
  · simp only [p2, m2, and_self]
  split
  · simp only [p2, m2, and_self]
  split
  · simp only [p2, m2, and_self]
  · simp only [e, and_self]

theorem mapsWith_congr (nside : Nat) (spins : List Int) (f g : Int → Nat → ℂ)
    (h : ∀ s ∈ spins, ∀ p, f s p = g s p) : mapsWith nside spins f = mapsWith nside spins g := by
  unfold mapsWith
  apply List.map_congr_left
  intro s hs
  apply List.map_congr_left
  intro p _
  exact h s hs p

theorem dictF_congr (nside : Nat) (new : Bool) (unpol pol s02 : List Int) (f g : Mode → Int → Nat → ℂ)
    (hu : ∀ s ∈ unpol, ∀ p, f .s0a0 s p = g .s0a0 s p) (h4 : ∀ s ∈ pol, ∀ p, f .s2a4 s p = g .s2a4 s p)
    (h : new = true → (∀ s ∈ s02, ∀ p, f .s0a2 s p = g .s0a2 s p) ∧
      (∀ s ∈ pol, ∀ p, f .s2a2 s p = g .s2a2 s p) ∧ ∀ s ∈ pol, ∀ p, f .s2a0 s p = g .s2a0 s p) :
    dictF nside new unpol pol s02 f = dictF nside new unpol pol s02 g := by
  unfold dictF
  rw [mapsWith_congr nside unpol _ _ hu, mapsWith_congr nside pol _ _ h4]
  cases new with
  | false => rfl
  | true =>
    obtain ⟨h1, h2, h3⟩ := h rfl
    rw [mapsWith_congr nside s02 _ _ h1, mapsWith_congr nside pol _ _ h2,
      mapsWith_congr nside pol _ _ h3]

theorem spin_bounds (symmetric : Bool) (maxSpin : Int) (h0 : 0 ≤ maxSpin) :
    (∀ s ∈ spinsUnpol symmetric maxSpin, 0 ≤ s ∧ s ≤ if symmetric then 2 else maxSpin) ∧
    (∀ s ∈ spinsPol symmetric maxSpin, |s| ≤ if symmetric then 2 else maxSpin) ∧
    ∀ s ∈ spinsS0a2 symmetric maxSpin, |s| ≤ if symmetric then 2 else maxSpin := by
  cases symmetric with
  | true => simp [spinsUnpol, spinsPol, spinsS0a2]
  | false =>
    simp only [spinsUnpol, spinsPol, spinsS0a2, Bool.false_eq_true, if_false]
    have h : ∀ s ∈ intRange (-maxSpin) (2 * maxSpin + 1).toNat, |s| ≤ maxSpin := by
      intro s hs
      rw [mem_intRange] at hs
      rw [abs_le]
      omega
    refine ⟨fun s hs => ?_, h, h⟩
    rw [mem_intRange] at hs
    omega

/-- Azimuthal numbers of the beam beyond `reach` are not used. -/
theorem dictSpec_cut (Y : Harmonics) (nside L : Nat) (a b : Nat → Nat → Nat → ℂ) (maxSpin : Int)
    (h0 : 0 ≤ maxSpin) (symmetric : Bool) (mueller : Option Mat4) (inputV beamV : Bool) :
    dictSpec Y nside L a (cutM (reach symmetric maxSpin mueller) b) maxSpin symmetric mueller inputV beamV =
      dictSpec Y nside L a b maxSpin symmetric mueller inputV beamV := by
  obtain ⟨h1, h2, h3⟩ := spin_bounds symmetric maxSpin h0
  generalize hK : (if symmetric then 2 else maxSpin : Int) = K at h1 h2 h3
  have hr : reach symmetric maxSpin mueller = K + if mueller.isSome then 4 else 0 := by
    rw [← hK]
    rfl
  rw [hr]
  unfold dictSpec
  have cutAt : ∀ K' : Int, K ≤ K' → ∀ (i l : Nat) (s : Int), |s| ≤ K →
      cutM K' b i l s.natAbs = b i l s.natAbs := by
    intro K' hK' i l s hs
    exact if_pos (by rw [Int.natCast_natAbs]; omega)
  cases mueller with
  | none =>
    simp only [Option.isSome_none, Bool.false_eq_true, if_false, add_zero]
    refine dictF_congr nside _ _ _ _ _ _ (fun s hs p => ?_) (fun s hs p => ?_) (by simp)
    · simp only [values, valuesOld]
      have e : ∀ i l, cutM K b i l s.toNat = b i l s.toNat := fun i l =>
        if_pos (by have := h1 s hs; omega)
      rw [rawReal_row Y nside L (a 0) _ (b 0) _ _ (e 0), rawReal_row Y nside L (a 3) _ (b 3) _ _ (e 3)]
    · simp only [values, valuesOld]
      exact rawComplex_congr Y nside L _ _ _ _ _ _ s p
        (fun _ l _ => cutAt K le_rfl 1 l s (h2 s hs)) fun _ l _ => cutAt K le_rfl 2 l s (h2 s hs)
  | some M =>
    simp only [Option.isSome_some, if_true]
    have hp : ∀ (v : Bool) (mode : String) (s : Int), |s| ≤ K → ∀ l : Nat,
        (hwpPol (cutM (K + 4) b) (mueller2spin M) v mode).1 l s.natAbs =
          (hwpPol b (mueller2spin M) v mode).1 l s.natAbs ∧
        (hwpPol (cutM (K + 4) b) (mueller2spin M) v mode).2 l s.natAbs =
          (hwpPol b (mueller2spin M) v mode).2 l s.natAbs := fun v mode s hs l =>
      hwpPol_cut _ _ _ _ _ _ _ (by rw [Int.natCast_natAbs]; omega)
    refine dictF_congr nside _ _ _ _ _ _ (fun s hs p => ?_) (fun s hs p => ?_) fun _ =>
      ⟨fun s hs p => ?_, fun s hs p => ?_, fun s hs p => ?_⟩
    · simp only [values, valuesNew]
      have e : ∀ i l, cutM (K + 4) b i l s.toNat = b i l s.toNat := fun i l =>
        if_pos (by have := h1 s hs; omega)
      rw [rawReal_row Y nside L (a 0) _ (hwpUnpol b (mueller2spin M) beamV 0) _ _ fun l => by
          simp only [hwpUnpol, e],
        rawReal_row Y nside L (a 3) _ (hwpUnpol b (mueller2spin M) beamV 3) _ _ fun l => by
          simp only [hwpUnpol, e]]
    · simp only [values, valuesNew]
      exact rawComplex_congr Y nside L _ _ _ _ _ _ s p (fun _ l _ => (hp _ _ s (h2 s hs) l).1)
        fun _ l _ => (hp _ _ s (h2 s hs) l).2
    · simp only [values, valuesNew]
      rw [rawComplex_congr Y nside L _ _ _ _ (hwpPol b (mueller2spin M) false "s0a2").2
          (hwpPol b (mueller2spin M) false "s0a2").1 s p (fun _ l _ => (hp _ _ s (h3 s hs) l).2)
          fun _ l _ => (hp _ _ s (h3 s hs) l).1,
        rawComplex_congr Y nside L _ _ _ _ (hwpPol b (mueller2spin M) false "s0a2_v").2
          (hwpPol b (mueller2spin M) false "s0a2_v").1 s p (fun _ l _ => (hp _ _ s (h3 s hs) l).2)
          fun _ l _ => (hp _ _ s (h3 s hs) l).1]
    · simp only [values, valuesNew]
      exact rawComplex_congr Y nside L _ _ _ _ _ _ s p (fun _ l _ => (hp _ _ s (h2 s hs) l).1)
        fun _ l _ => (hp _ _ s (h2 s hs) l).2
    · simp only [values, valuesNew]
      exact rawComplex_congr Y nside L _ _ _ _ _ _ s p (fun _ l _ => (hp _ _ s (h2 s hs) l).1)
        fun _ l _ => (hp _ _ s (h2 s hs) l).2

/-- Four complete rows. -/
def fullRows (L : Nat) (f : Nat → Nat → Nat → ℂ) : List (List ℂ) :=
  (List.range 4).map fun i => (modes L L).map fun (p : Nat × Nat) => f i p.1 p.2

theorem fullRows_ok {L : Nat} {f g : Nat → Nat → Nat → ℂ}
    (h : ∀ i l m : Nat, i < 4 → l ≤ L → m ≤ l → f i l m = g i l m) :
    HasRows L (nrows true) (fullRows L f) g := by
  intro i hi
  have hi : i < 4 := hi
  refine ⟨(modes L L).map fun (p : Nat × Nat) => f i p.1 p.2, by simp [fullRows, hi], ?_⟩
  exact represents_congr (L := L) (M := L) rfl fun m l _ h2 h3 => h i l m hi h3 h2

/-- Values depend on coefficients within the band limit. -/
theorem dictSpec_band (Y : Harmonics) (nside L : Nat) (a a' b b' : Nat → Nat → Nat → ℂ) (maxSpin : Int)
    (symmetric : Bool) (mueller : Option Mat4) (h0 : 0 ≤ maxSpin) (h1 : maxSpin ≤ L)
    (h2 : symmetric = true → 2 ≤ L) (h3 : mueller ≠ none → 4 ≤ L)
    (ha : ∀ i l m : Nat, i < 4 → l ≤ L → m ≤ l → a i l m = a' i l m)
    (hb : ∀ i l m : Nat, i < 4 → l ≤ L → m ≤ l → b i l m = b' i l m) :
    dictSpec Y nside L a b maxSpin symmetric mueller true true =
      dictSpec Y nside L a' b' maxSpin symmetric mueller true true := by
  have k : ∀ x y : Nat → Nat → Nat → ℂ, (∀ i l m : Nat, i < 4 → l ≤ L → m ≤ l → a i l m = x i l m) →
      (∀ i l m : Nat, i < 4 → l ≤ L → m ≤ l → b i l m = y i l m) →
      InputOk L L (fullRows L a) (fullRows L b) x y maxSpin symmetric mueller true true := by
    intro x y hx hy
    exact ⟨fullRows_ok hx, fullRows_ok hy, fun _ => by simp [fullRows], fun _ => by simp [fullRows], h0,
      by simpa using h1, by simpa using h2, by simpa using h3⟩
  have e1 := spinmapsOf_spec Y nside (k a b (fun _ _ _ _ _ _ => rfl) fun _ _ _ _ _ _ => rfl)
  have e2 := spinmapsOf_spec Y nside (k a' b' ha hb)
  rw [min_self] at e1 e2
  exact Except.ok.inj (e1.symm.trans e2)

theorem dictSpec_spin (Y : Harmonics) (nside L : Nat) (a b : Nat → Nat → Nat → ℂ) {k k' : Int}
    {symmetric : Bool} (h : symmetric = false → k = k') (mueller : Option Mat4) (inputV beamV : Bool) :
    dictSpec Y nside L a b k symmetric mueller inputV beamV =
      dictSpec Y nside L a b k' symmetric mueller inputV beamV := by
  cases symmetric with
  | false => rw [h rfl]
  | true => rfl

/-- The loop over ghosts uses their numbers and spin maps. -/
theorem ghostLoop_congr {G G' D : Type} {f : G → PyM D} {f' : G' → PyM D} {l : List G} {l' : List G'}
    (h : List.Forall₂ (fun g g' => f g = f' g') l l') (us : List (Int × Nat)) (x : List (Option D)) :
    ghostLoop f l us x = ghostLoop f' l' us x := by
  have hget : ∀ i : Nat, (pyGet l i >>= f) = (pyGet l' i >>= f') := by
    intro i
    have hlen := h.length_eq
    unfold pyGet
    rw [hlen]
    dsimp only
    generalize (if (i : Int) < 0 then (i : Int) + (l'.length : Int) else (i : Int)) = k
    by_cases hk : k < 0
    · rw [if_pos hk, if_pos hk]
      rfl
    · rw [if_neg hk, if_neg hk]
      generalize k.toNat = n
      have : l[n]?.map f = l'[n]?.map f' := by
        clear hlen
        induction h generalizing n with
        | nil => rfl
        | cons h1 _ ih =>
          cases n with
          | zero => simp [h1]
          | succ n => simpa using ih n
      revert this
      cases l[n]? with
      | none =>
        cases l'[n]? with
        | none => exact fun _ => rfl
        | some y => simp
      | some x =>
        cases l'[n]? with
        | none => simp
        | some y => exact fun h => Option.some.inj h
  induction us generalizing x with
  | nil => rfl
  | cons u us ih =>
    obtain ⟨u, i⟩ := u
    unfold ghostLoop
    cases pySetItem (x ++ [none]) u none with
    | error e => rfl
    | ok y =>
      have := hget i
      simp only [bind, Except.bind] at this ⊢
      cases h1 : pyGet l i with
      | error e =>
        rw [h1] at this
        dsimp only at this ⊢
        cases h2 : pyGet l' i with
        | error e' =>
          rw [h2] at this
          exact congrArg _ (Except.error.inj this)
        | ok g' =>
          rw [h2] at this
          dsimp only at this ⊢
          rw [← this]
      | ok g =>
        rw [h1] at this
        dsimp only at this ⊢
        cases h2 : pyGet l' i with
        | error e' =>
          rw [h2] at this
          dsimp only at this ⊢
          rw [this]
        | ok g' =>
          rw [h2] at this
          dsimp only at this ⊢
          rw [this]
          cases f' g' with
          | error e => rfl
          | ok d =>
            dsimp only
            cases pySetItem y u (some d) with
            | error e => rfl
            | ok z => exact ih z

end Verif.Spinmaps
