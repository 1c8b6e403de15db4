import Verif.Model.Jones
import Verif.Props.HwpModels

/-!
# Property C132: `Jones` and `Mueller` describe the same plate
-/

noncomputable section

namespace Verif.Props

open Verif.Optics Real

private theorem mueller_of (s : Stack) (f i r n1 n3 : ℝ) (b : Bool) :
    muellerFn s f i r n1 n3 (.bool b) = mueller s f i r n1 n3 b := by
  unfold muellerFn mueller
  rcases stackTransferMatrix s f i r n1 n3 with e | tr
  · rfl
  · simp only [bind, Except.bind]
    rcases tranToJones tr with e | j
    · rfl
    · cases b <;> rfl

/-- **C132.** For every stack, transmitted or reflected, `Mueller` fails exactly if `Jones` does, with the same
exception, and otherwise acts on the Stokes parameters of every field as the Jones matrix acts on the field.  Missing: values of
`reflected` other than `True` and `False` (`C132_violation`), and matrices for a stack without layers
(`C132_empty_violation`). -/
theorem C132_same_partial (s : Stack) (f i r n1 n3 : ℝ) (reflected : Bool) :
    (∀ e, jonesFn s f i r n1 n3 (.bool reflected) = .error e ↔
      muellerFn s f i r n1 n3 (.bool reflected) = .error e) ∧
    ∀ j, jonesFn s f i r n1 n3 (.bool reflected) = .ok j →
      ∃ m, muellerFn s f i r n1 n3 (.bool reflected) = .ok m ∧
        ∀ v, m.mulVec (stokes v) = stokes (j.mulVec v) := by
  rw [mueller_of]
  unfold jonesFn mueller
  rcases stackTransferMatrix s f i r n1 n3 with e | tr
  · exact ⟨fun x => ⟨fun h => by (cases h; rfl), fun h => by (cases h; rfl)⟩, fun j h => by (cases h)⟩
  · simp only [bind, Except.bind]
    rcases tranToJones tr with e | ⟨jt, jr⟩
    · exact ⟨fun x => ⟨fun h => by (cases h; rfl), fun h => by (cases h; rfl)⟩, fun j h => by (cases h)⟩
    · cases reflected
      · refine ⟨fun e => ⟨fun h => by (cases h), fun h => by (cases h)⟩, fun j h => ?_⟩
        cases h
        exact ⟨_, rfl, fun v => C35_stokes _ _⟩
      · refine ⟨fun e => ⟨fun h => by (cases h), fun h => by (cases h)⟩, fun j h => ?_⟩
        cases h
        exact ⟨_, rfl, fun v => C35_stokes _ _⟩

/-- **C132, other values.** A value of `reflected` that is neither `True` nor `False` never gives a matrix; for a
stack that has matrices `Jones` raises ValueError. -/
theorem C132_invalid (s : Stack) (f i r n1 n3 : ℝ) :
    (∀ j, jonesFn s f i r n1 n3 .other ≠ .ok j) ∧ (∀ m, muellerFn s f i r n1 n3 .other ≠ .ok m) ∧
    ∀ j, jonesFn s f i r n1 n3 (.bool false) = .ok j →
      jonesFn s f i r n1 n3 .other = .error .valueError := by
  unfold jonesFn muellerFn
  rcases stackTransferMatrix s f i r n1 n3 with e | tr
  · refine ⟨fun j h => ?_, fun j h => ?_, fun j h => ?_⟩ <;> cases h
  · simp only [bind, Except.bind]
    rcases tranToJones tr with e | j
    · refine ⟨fun j h => ?_, fun j h => ?_, fun j h => ?_⟩ <;> cases h
    · exact ⟨fun j h => by (cases h), fun j h => by (cases h), fun _ _ => rfl⟩

/-- **C132, violation.** `Mueller` does not: for every stack that has matrices it raises NameError, because the
exception it means to raise is misspelt. -/
theorem C132_violation (s : Stack) (f i r n1 n3 : ℝ) (j : M2)
    (h : jonesFn s f i r n1 n3 (.bool false) = .ok j) :
    muellerFn s f i r n1 n3 .other = .error .nameError := by
  unfold jonesFn at h
  unfold muellerFn
  rcases hs : stackTransferMatrix s f i r n1 n3 with e | tr
  · rw [hs] at h
    cases h
  · rw [hs] at h
    simp only [bind, Except.bind] at h ⊢
    rcases ht : tranToJones tr with e | j
    · rw [ht] at h
      cases h
    · rfl

/-- **C132, no layers.** A stack without layers has no matrices: both functions raise AttributeError, because the
exit angle is set in the loop over the layers. -/
theorem C132_empty_violation (f i r n1 n3 : ℝ) (side : Side) :
    jonesFn ⟨[], [], []⟩ f i r n1 n3 side = .error .attributeError ∧
      muellerFn ⟨[], [], []⟩ f i r n1 n3 side = .error .attributeError :=
  ⟨rfl, rfl⟩

/-- There are stacks with matrices: the presets. -/
example : ∃ s j, chooseHwpModel "SPIDER_95" = .ok s ∧
    jonesFn s (1.0e9 * 95) 0 0 1 1 (.bool false) = .ok j := by
  obtain ⟨s, hs, hw⟩ := (C64_models "SPIDER_95").1 (by decide)
  obtain ⟨m, hm, -⟩ := C64_compute_mueller s hw 95 (by norm_num)
  have h := C132_same_partial s (1.0e9 * 95) 0 0 1 1 false
  rcases hj : jonesFn s (1.0e9 * 95) 0 0 1 1 (.bool false) with e | j
  · have := (h.1 e).1 hj
    rw [mueller_of] at this
    have hm' : mueller s (1.0e9 * 95) 0 0 1 1 false = .ok m := hm
    rw [hm'] at this
    cases this
  · exact ⟨s, j, hs, hj⟩

end Verif.Props
