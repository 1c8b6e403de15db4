import Verif.Model.FocalPlane

/-!
# Lemmas: printed detector names are different
-/

namespace Verif.FocalPlane

/-- The number a string of digits stands for. -/
def digitsVal (l : List Char) : Nat := l.foldl (fun n c => 10 * n + (c.toNat - 48)) 0

theorem digitsVal_append_one (l : List Char) (c : Char) :
    digitsVal (l ++ [c]) = 10 * digitsVal l + (c.toNat - 48) := by
  simp [digitsVal]

theorem digitChar_val : ∀ d : Nat, d < 10 → (Nat.digitChar d).toNat - 48 = d := by
  intro d hd
  have : d ∈ List.range 10 := List.mem_range.2 hd
  revert this hd
  revert d
  decide

theorem digitsVal_toDigits (n : Nat) : digitsVal (Nat.toDigits 10 n) = n := by
  induction n using Nat.strongRecOn with
  | ind n ih =>
    rw [Nat.toDigits_eq_if (by decide)]
    split
    · rename_i h
      have := digitsVal_append_one [] (Nat.digitChar n)
      rw [List.nil_append] at this
      rw [this, digitChar_val n h]
      simp [digitsVal]
    · rename_i h
      rw [digitsVal_append_one, ih (n / 10) (by omega), digitChar_val _ (by omega)]
      omega

theorem digitsVal_zeros (k : Nat) (l : List Char) :
    digitsVal (List.replicate k '0' ++ l) = digitsVal l := by
  induction k with
  | zero => rfl
  | succ k ih =>
    rw [List.replicate_succ, List.cons_append, ← ih]
    rfl

theorem pad3_inj {n m : Nat} (h : pad3 n = pad3 m) : n = m := by
  have h := congrArg digitsVal h
  unfold pad3 at h
  rwa [digitsVal_zeros, digitsVal_zeros, digitsVal_toDigits, digitsVal_toDigits] at h

theorem pad3_digit {n : Nat} {c : Char} (h : c ∈ pad3 n) : c.isDigit := by
  unfold pad3 at h
  rcases List.mem_append.1 h with h | h
  · rw [(List.mem_replicate.1 h).2]; decide
  · exact Nat.isDigit_of_mem_toDigits (by decide) (by decide) h

/-- Two lists cut at the first occurrence of a character. -/
theorem split_at {c : Char} {l l' t t' : List Char} (hl : c ∉ l) (hl' : c ∉ l')
    (h : l ++ c :: t = l' ++ c :: t') : l = l' ∧ t = t' := by
  induction l generalizing l' with
  | nil =>
    cases l' with
    | nil => simpa using h
    | cons a l' =>
      simp only [List.nil_append, List.cons_append] at h
      injection h with h1 _
      rw [h1] at hl'
      simp at hl'
  | cons a l ih =>
    cases l' with
    | nil =>
      simp only [List.nil_append, List.cons_append] at h
      injection h with h1 _
      rw [← h1] at hl
      simp at hl
    | cons b l' =>
      simp only [List.cons_append] at h
      injection h with h1 h2
      simp only [List.mem_cons, not_or] at hl hl'
      obtain ⟨h3, h4⟩ := ih hl.2 hl'.2 h2
      exact ⟨by rw [h1, h3], h4⟩

theorem detName_inj {e a e' a' : Nat} {s s' : Char} (h : detName e a s = detName e' a' s') :
    e = e' ∧ a = a' ∧ s = s' := by
  have hc : ∀ n, 'c' ∉ pad3 n := fun n hm => by
    have := pad3_digit hm
    revert this; decide
  unfold detName at h
  have h := String.ofList_injective h
  injection h with _ h
  obtain ⟨h1, h2⟩ := split_at (hc e) (hc e') h
  have hlen : (pad3 a).length = (pad3 a').length := by
    have := congrArg List.length h2
    simpa using this
  obtain ⟨h3, h4⟩ := List.append_inj h2 hlen
  exact ⟨pad3_inj h1, pad3_inj h3, by simpa using h4⟩

end Verif.FocalPlane
