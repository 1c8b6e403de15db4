import Verif.Model.Init
import Mathlib.Tactic.Linarith
import Mathlib.Tactic.FieldSimp
import Mathlib.Data.Rat.Floor

/-!
# Properties C06 and C58 (start time, location)
-/

namespace Verif.Props

open Verif.Init

private theorem pyInt_intCast (n : Int) : pyInt (n : Rat) = n := by
  unfold pyInt
  split
  · exact Rat.floor_intCast n
  · have : (-(n:Rat)) = ((-n : Int) : Rat) := by push_cast; rfl
    rw [this, Rat.floor_intCast]; omega

/-- **C06 (consistency).** Whenever construction succeeds, the three stored numbers satisfy
`nsamp = int(mlen * fsamp)` and agree with every argument that was given (the sample rate of an
empty mission, `duration = 0`, is stored as zero); a stored rate that was given is positive. -/
theorem C06_params_consistent (duration sampleRate : Option Rat) (numSamples : Option Int)
    (p : Params) (h : initParams duration sampleRate numSamples = .ok p) :
    p.nsamp = pyInt (p.mlen * p.fsamp) ∧
    (∀ d, duration = some d → p.mlen = d) ∧
    (∀ n, numSamples = some n → p.nsamp = n) ∧
    (∀ r, sampleRate = some r → 0 < r ∧ (duration ≠ some 0 → p.fsamp = r)) ∧
    (duration = some 0 → p.nsamp = 0 ∧ p.fsamp = 0) := by
  unfold initParams at h
  have core : ∀ (r? : Option Rat), (duration = some 0 → r? = some 0) →
      resolveParams duration r? numSamples = .ok p →
      p.nsamp = pyInt (p.mlen * p.fsamp) ∧ (∀ d, duration = some d → p.mlen = d) ∧
      (∀ n, numSamples = some n → p.nsamp = n) ∧ (∀ r, r? = some r → p.fsamp = r) ∧
      (duration = some 0 → p.nsamp = 0 ∧ p.fsamp = 0) := by
    intro r? hr0 h
    unfold resolveParams at h
    cases duration with
    | none =>
      cases numSamples with
      | none => cases h
      | some n =>
        cases r? with
        | none => cases h
        | some r =>
          simp only at h
          split at h
          · cases h
          · rename_i hr
            cases h
            refine ⟨?_, by simp, by simp [mkParams], by simp [mkParams], by simp⟩
            simp only [mkParams]
            rw [div_mul_cancel₀ _ hr, pyInt_intCast]
    | some d =>
      cases r? with
      | none =>
        cases numSamples with
        | none => cases h
        | some n =>
          simp only at h
          split at h
          · cases h
          · rename_i hd
            cases h
            refine ⟨?_, by simp [mkParams], by simp [mkParams], by simp, ?_⟩
            · simp only [mkParams]
              rw [mul_div_cancel₀ _ hd, pyInt_intCast]
            · intro h0
              exact absurd (Option.some.inj h0) hd
      | some r =>
        simp only at h
        have hz : ∀ q : Params, q = mkParams r d (pyInt (d * r)) → some d = some 0 →
            q.nsamp = 0 ∧ q.fsamp = 0 := by
          intro q hq h0
          have hr := hr0 h0
          rw [Option.some.injEq] at hr h0
          subst hq hr h0
          refine ⟨?_, rfl⟩
          simp only [mkParams, mul_zero]
          exact pyInt_intCast 0
        cases numSamples with
        | none =>
          cases h
          exact ⟨rfl, by simp [mkParams], by simp, by simp [mkParams], hz _ rfl⟩
        | some n =>
          simp only at h
          split at h
          · cases h
          · rename_i hn
            cases h
            exact ⟨rfl, by simp [mkParams], by simpa [mkParams] using hn, by simp [mkParams],
              hz _ rfl⟩
  cases sampleRate with
  | none =>
    simp only at h
    have := core _ (fun h0 => if_pos h0) h
    exact ⟨this.1, this.2.1, this.2.2.1, by simp, this.2.2.2.2⟩
  | some r =>
    simp only at h
    split at h
    · cases h
    · rename_i hr
      have := core _ (fun h0 => if_pos h0) h
      refine ⟨this.1, this.2.1, this.2.2.1, ?_, this.2.2.2.2⟩
      intro r' hr'
      cases hr'
      refine ⟨not_le.1 hr, fun hd => this.2.2.2.1 r ?_⟩
      rw [if_neg hd]

example : initParams (some 100) (some (1/2)) none = .ok ⟨1/2, 100, 50⟩ := by decide +kernel
example : initParams none (some 4) (some 10) = .ok ⟨4, 5/2, 10⟩ := by decide +kernel
example : initParams (some 7) none (some 14) = .ok ⟨2, 7, 14⟩ := by decide +kernel

/-- **C06 (rejections).** Fewer than two arguments, a non-positive sample rate, and a triple with
`num_samples ≠ int(duration * sample_rate)` all raise ValueError (for a non-zero duration; with
duration zero the rate is irrelevant). -/
theorem C06_params_rejected :
    (∀ duration : Option Rat, duration ≠ some 0 →
      initParams duration none none = .error .valueError) ∧
    (∀ r : Option Rat, initParams none r none = .error .valueError) ∧
    (∀ n : Option Int, initParams none none n = .error .valueError) ∧
    (∀ d n, ∀ r : Rat, r ≤ 0 → initParams d (some r) n = .error .valueError) ∧
    (∀ (d r : Rat) (n : Int), d ≠ 0 → pyInt (d * r) ≠ n →
      initParams (some d) (some r) (some n) = .error .valueError) := by
  refine ⟨?_, ?_, ?_, ?_, ?_⟩
  · intro d hd
    cases d with
    | none => rfl
    | some d => simp [initParams, hd, resolveParams]
  · intro r
    cases r with
    | none => rfl
    | some r => simp [initParams, resolveParams]
  · intro n
    cases n <;> rfl
  · intro d n r hr
    simp [initParams, hr]
  · intro d r n hd hn
    simp only [initParams, Option.some.injEq, hd, if_false, resolveParams]
    split
    · rfl
    · simp [hn]

/-- **C06 (partial: sign).** If the given duration and number of samples are not negative, neither
are the resulting numbers.  Missing: nothing rejects negative durations or sample counts, see
`C06_negative_violation`. -/
theorem C06_params_nonneg_partial (duration sampleRate : Option Rat) (numSamples : Option Int)
    (p : Params) (h : initParams duration sampleRate numSamples = .ok p)
    (hd : ∀ d, duration = some d → 0 ≤ d) (hn : ∀ n, numSamples = some n → 0 ≤ n) :
    0 ≤ p.nsamp ∧ 0 ≤ p.fsamp ∧ 0 ≤ p.mlen := by
  have key : ∀ d r : Rat, 0 ≤ d → 0 ≤ r → 0 ≤ pyInt (d * r) := by
    intro d r hd hr
    have : 0 ≤ d * r := mul_nonneg hd hr
    unfold pyInt
    rw [if_pos this]
    exact Rat.le_floor_iff.2 (by simpa using this)
  have core : ∀ (r? : Option Rat), (∀ r, r? = some r → 0 ≤ r) →
      resolveParams duration r? numSamples = .ok p → 0 ≤ p.nsamp ∧ 0 ≤ p.fsamp ∧ 0 ≤ p.mlen := by
    intro r? hr h
    unfold resolveParams at h
    dsimp only at h
    repeat' split at h
    all_goals cases h
    · have h1 := hn _ rfl
      have h2 := hr _ rfl
      exact ⟨h1, h2, div_nonneg (by exact_mod_cast h1) h2⟩
    · have h1 := hn _ rfl
      have h2 := hd _ rfl
      exact ⟨h1, div_nonneg (by exact_mod_cast h1) h2, h2⟩
    · exact ⟨key _ _ (hd _ rfl) (hr _ rfl), hr _ rfl, hd _ rfl⟩
    · exact ⟨key _ _ (hd _ rfl) (hr _ rfl), hr _ rfl, hd _ rfl⟩
  unfold initParams at h
  cases sampleRate with
  | none =>
    simp only at h
    refine core _ ?_ h
    intro r hr
    split at hr
    · cases hr; exact le_refl _
    · cases hr
  | some r =>
    simp only at h
    split at h
    · cases h
    · rename_i hr0
      refine core _ ?_ h
      intro r' hr
      split at hr
      · cases hr; exact le_refl _
      · cases hr; linarith

/-- **C06 (violation).** Every negative duration is accepted and gives a negative number of samples
(once it spans at least one sample), and a negative `num_samples` is accepted too, giving a negative
duration or a negative sample rate. -/
theorem C06_negative_violation :
    (∀ d r : Rat, 0 < r → d * r ≤ -1 →
      ∃ p, initParams (some d) (some r) none = .ok p ∧ p.nsamp < 0) ∧
    (∀ (d : Rat) (n : Int), 0 < d → n < 0 →
      ∃ p, initParams (some d) none (some n) = .ok p ∧ p.nsamp < 0 ∧ p.fsamp < 0) := by
  constructor
  · intro d r hr hdr
    have hd : d ≠ 0 := by
      rintro rfl
      simp at hdr
      linarith
    refine ⟨mkParams r d (pyInt (d * r)), ?_, ?_⟩
    · simp [initParams, hd, not_le.2 hr, resolveParams]
    · simp only [mkParams]
      unfold pyInt
      rw [if_neg (by linarith)]
      have : 1 ≤ (-(d * r)).floor := Rat.le_floor_iff.2 (by push_cast; linarith)
      omega
  · intro d n hd hn
    refine ⟨mkParams ((n:Rat) / d) d n, ?_, hn, ?_⟩
    · simp [initParams, hd.ne', resolveParams]
    · simp only [mkParams]
      exact div_neg_of_neg_of_pos (by exact_mod_cast hn) hd

example : initParams (some (-5)) (some 10) none = .ok ⟨10, -5, -50⟩ := by decide +kernel

/-- **C58 (start time, partial).** A start time other than zero is used as given; without one the
current time is used. Missing: `ctime0 = 0`, see `C58_ctime0_zero_violation`. -/
theorem C58_ctime0_partial (now v : Rat) (hv : v ≠ 0) :
    setCtime0 now (some v) = v ∧ setCtime0 now none = now := by
  simp [setCtime0, hv]

/-- **C58 (start time, violation).** An explicit start time zero (the unix epoch) is replaced by
the current time. -/
theorem C58_ctime0_zero_violation (now : Rat) (h : now ≠ 0) : setCtime0 now (some 0) ≠ 0 := by
  simpa [setCtime0] using h

/-- **C58 (location, partial).** Non-zero explicit coordinates are used for every location, the
predefined ones otherwise.  Missing: zero coordinates. -/
theorem C58_location_partial (loc : Location) (lat lon : Rat) (h1 : lat ≠ 0) (h2 : lon ≠ 0) :
    initLocation loc (some lat) (some lon) = .ok (some (some lat), some (some lon)) := by
  cases loc <;>
    simp [initLocation, override, h1, h2, falsy, bind, Except.bind, pure, Except.pure]

/-- **C58 (location, violation).** An explicit latitude 0 (the equator) is ignored: the South Pole
telescope stays at the pole; a location that is not predefined then raises AttributeError. -/
theorem C58_location_zero_violation (lon : Rat) (h : lon ≠ 0) :
    (∃ l, initLocation .spole (some 0) (some lon) = .ok (some (some l), some (some lon)) ∧ l ≠ 0) ∧
    initLocation .other (some 0) (some lon) = .error .attributeError := by
  refine ⟨⟨-899/10, ?_, by norm_num⟩, ?_⟩
  · simp [initLocation, override, h, falsy, presetCoords, bind, Except.bind, pure, Except.pure]
  · simp [initLocation, override, falsy, presetCoords, bind, Except.bind]

example : initLocation .atacama none none =
    .ok (some (some (-22958/1000)), some (some (-67786/1000))) := by decide +kernel
example : initLocation .atacama (some 0) (some 5) =
    .ok (some (some (-22958/1000)), some (some 5)) := by decide +kernel

end Verif.Props
