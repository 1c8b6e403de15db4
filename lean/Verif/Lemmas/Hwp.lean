import Verif.Model.Hwp
import Verif.Lemmas.Step
import Verif.Lemmas.Chunks
import Mathlib.Tactic.FieldSimp

/-! Helper lemmas for the HWP (no claims). -/

set_option linter.unusedSectionVars false

namespace Verif.Hwp

open Verif.Step Verif.Spec

variable {K : Type} [Field K] [LinearOrder K] [IsStrictOrderedRing K] [FloorRing K]

omit [IsStrictOrderedRing K] in
theorem npMod_eq (x m : K) : npMod x m = x + m * ((-⌊x / m⌋ : ℤ) : K) := by
  unfold npMod
  push_cast; ring

theorem npMod_nonneg (x m : K) (hm : 0 < m) : 0 ≤ npMod x m := by
  unfold npMod
  have h := Int.floor_le (x / m)
  have : m * ⌊x / m⌋ ≤ m * (x / m) := mul_le_mul_of_nonneg_left h hm.le
  rw [mul_div_cancel₀ _ hm.ne'] at this
  linarith

theorem npMod_lt (x m : K) (hm : 0 < m) : npMod x m < m := by
  unfold npMod
  have h := Int.lt_floor_add_one (x / m)
  have : m * (x / m) < m * (⌊x / m⌋ + 1) := mul_lt_mul_of_pos_left h hm
  rw [mul_div_cancel₀ _ hm.ne'] at this
  linarith

theorem npMod_self (x m : K) (hm : 0 < m) (h0 : 0 ≤ x) (h1 : x < m) : npMod x m = x := by
  unfold npMod
  have : ⌊x / m⌋ = 0 := by
    rw [Int.floor_eq_zero_iff]
    exact ⟨div_nonneg h0 hm.le, (div_lt_one hm).2 h1⟩
  rw [this]; simp

omit [LinearOrder K] [IsStrictOrderedRing K] [FloorRing K] in
theorem radians_degrees [CharZero K] (π x : K) (hπ : π ≠ 0) : radians π (degrees π x) = x := by
  unfold radians degrees
  field_simp

omit [LinearOrder K] [IsStrictOrderedRing K] [FloorRing K] in
theorem degrees_radians [CharZero K] (π x : K) (hπ : π ≠ 0) : degrees π (radians π x) = x := by
  unfold radians degrees
  field_simp

omit [IsStrictOrderedRing K] in
theorem degrees_mod (π x : K) (hπ : 0 < π) :
    degrees π (npMod (radians π x) (2 * π)) = npMod x 360 := by
  unfold npMod degrees radians
  have e : x * (π / 180) / (2 * π) = x / 360 := by
    have := hπ.ne'
    field_simp; ring
  rw [e]
  have := hπ.ne'
  field_simp
  ring

theorem pyGet_last {α : Type} (l : List α) (n : Nat) (hl : l.length = n + 1) :
    ∃ x, l[n]? = some x ∧ pyGet l (-1) = .ok x := by
  have hn : n < l.length := by omega
  refine ⟨l[n], List.getElem?_eq_getElem hn, ?_⟩
  unfold pyGet
  simp only [show ((-1:Int) < 0) from by decide, if_true]
  rw [if_neg (by omega)]
  have : (-1 + (l.length:Int)).toNat = n := by omega
  rw [this, List.getElem?_eq_getElem hn]

/-- Stepped mode: the invariant of the step array, with the stored angle known modulo 360. -/
theorem run_stepped (π fsamp : K) (hπ : 0 < π) (A : List K) (f : Nat → K)
    (hf : ∀ q, A[q % A.length]? = some (f q)) (n : Nat) (hn : 0 < n)
    (R : K → K → Prop) (hR : ∀ a, R a a) (hRm : ∀ a b, R a b → R (npMod a 360) b)
    (N : Int) (chunks : List (Int × Int)) (t : Nat) (ht : Tiles t N chunks)
    (h : State K) (hmode : h.mode = .stepped) (hfreq : h.freq ≠ 0)
    (hinv : Inv n A f R t h.dict h.gen) :
    ∃ (arrs : List (List K)) (h' : State K), run π fsamp h chunks = .ok (arrs.map fun a => some (.array a), h') ∧
      (∀ i : Nat, (t:Int) + i < N → ∃ a, arrs.flatten[i]? = some (radians π a) ∧
        R a (f ((t + i) / n))) ∧
      ((arrs.flatten.length : Int) = N - t) := by
  induction chunks generalizing t h with
  | nil =>
    cases ht
    exact ⟨[], h, rfl, by intro i hi; omega, by simp⟩
  | cons c rest ih =>
    obtain ⟨c0, c1⟩ := c
    cases ht with
    | cons hab ht' =>
    obtain ⟨t1, rfl⟩ : ∃ t1 : Nat, c1 = (t1:Int) := ⟨c1.toNat, by omega⟩
    have hab' : t < t1 := by omega
    obtain ⟨m, hm⟩ : ∃ m, t1 - t = m + 1 := ⟨t1 - t - 1, by omega⟩
    have hsz : ((t1:Int) - (t:Int)).toNat = m + 1 := by omega
    obtain ⟨arr', d', g', e1, e2, e3, e4⟩ := stepArray_inv A f hf n hn R hR t h.dict h.gen
      (List.replicate (m + 1) (0:K)) hinv
    simp only [List.length_replicate] at e2 e4
    have htt : t + (m + 1) = t1 := by omega
    rw [htt] at e4
    obtain ⟨last, hl1, hl2⟩ := pyGet_last (arr'.map (radians π)) m (by simp [e2])
    have hget : ∀ i, i < m + 1 → ∃ a, arr'[i]? = some a ∧ R a (f ((t + i) / n)) ∧
        (i + 1 = m + 1 → a = d'.angle) := by
      intro i hi
      obtain ⟨a, ha1, ha2, ha3⟩ := e3 i 0 (by rw [List.getElem?_replicate, if_pos hi])
      rw [zero_add] at ha1
      exact ⟨a, ha1, ha2, fun h => ha3 (by simpa using h)⟩
    obtain ⟨al, al1, al2, al3⟩ := hget m (by omega)
    have hlast : last = radians π al := by
      rw [List.getElem?_map, al1] at hl1
      simpa using hl1.symm
    have hrot : rotateHwp π fsamp h none (t:Int) (t1:Int) = .ok (some (.array (arr'.map (radians π))),
        { h with dict := { d' with angle := npMod al 360 }, gen := g' }) := by
      unfold rotateHwp
      rw [if_neg (by rw [not_or]; exact ⟨hfreq, by rw [hmode]; decide⟩)]
      simp only [hmode]
      rw [if_neg (by omega), hsz, e1]
      simp only [bind, Except.bind, hl2, pure, Except.pure]
      rw [hlast, degrees_mod π al hπ]
    have hinv' : Inv n A f R t1 { d' with angle := npMod al 360 } g' := by
      obtain ⟨⟨rem, q, i1, i2, i3, i4, i5, i6⟩⟩ := e4
      refine ⟨⟨rem, q, i1, i2, i3, i4, i5, fun hp => ⟨(i6 hp).1, ?_⟩⟩⟩
      have := (i6 hp).2
      rw [← al3 rfl] at this
      exact hRm _ _ this
    obtain ⟨arrs, h', r1, r2, r3⟩ := ih t1 ht'
      { h with dict := { d' with angle := npMod al 360 }, gen := g' } hmode hfreq hinv'
    refine ⟨arr'.map (radians π) :: arrs, h', ?_, ?_, ?_⟩
    · simp only [run, hrot, bind, Except.bind, r1, pure, Except.pure, List.map_cons]
    · intro i hi
      rw [List.flatten_cons]
      rcases Nat.lt_or_ge i (m + 1) with hi2 | hi2
      · obtain ⟨a, ha1, ha2, _⟩ := hget i hi2
        refine ⟨a, ?_, ha2⟩
        rw [List.getElem?_append_left (by simp [e2]; omega), List.getElem?_map, ha1]
        rfl
      · obtain ⟨a, ha1, ha2⟩ := r2 (i - (m + 1)) (by omega)
        refine ⟨a, ?_, ?_⟩
        · rw [List.getElem?_append_right (by simp [e2]; omega)]
          simpa [e2] using ha1
        · have : t1 + (i - (m + 1)) = t + i := by omega
          rw [this] at ha2
          exact ha2
    · simp only [List.flatten_cons, List.length_append, List.length_map, e2]
      push_cast
      rw [r3]; omega

/-- Continuous mode, one chunk. -/
theorem rotate_continuous (π fsamp : K) (hπ : 0 < π) (hfs : fsamp ≠ 0) (h : State K)
    (hmode : h.mode = .continuous) (hfreq : h.freq ≠ 0) (t m : Nat) :
    ∃ arr, rotateHwp π fsamp h none (t:Int) ((t + (m + 1) : Nat) : Int)
        = .ok (some (.array arr), { h with dict := { h.dict with
            angle := npMod (h.dict.angle + 360 * h.freq / fsamp * m) 360 } }) ∧
      arr.length = m + 1 ∧
      ∀ i, i < m + 1 → arr[i]? = some (radians π (h.dict.angle + 360 * h.freq / fsamp * i)) := by
  have hπ' := hπ.ne'
  have hsz : (((t + (m + 1) : Nat):Int) - (t:Int)).toNat = m + 1 := by omega
  have hszI : (((t + (m + 1) : Nat):Int) - (t:Int)) = ((m + 1 : Nat) : Int) := by omega
  set arr := linspace (radians π h.dict.angle) (radians π h.dict.angle
    + 2 * π * (((m + 1 : Nat) : Int) : K) / (fsamp / h.freq)) (m + 1) with harr
  have hlen : arr.length = m + 1 := by simp [harr, linspace]
  have hm1 : ((m:K) + 1) ≠ 0 := by positivity
  have hget : ∀ i, i < m + 1 → arr[i]? = some (radians π (h.dict.angle + 360 * h.freq / fsamp * i)) := by
    intro i hi
    simp only [harr, linspace, List.getElem?_map, List.getElem?_range hi, Option.map_some]
    congr 1
    unfold radians
    push_cast
    field_simp
    ring
  obtain ⟨last, hl1, hl2⟩ := pyGet_last arr m hlen
  rw [hget m (by omega)] at hl1
  refine ⟨arr, ?_, hlen, hget⟩
  unfold rotateHwp
  rw [if_neg (by rw [not_or]; exact ⟨hfreq, by rw [hmode]; decide⟩)]
  simp only [hmode]
  rw [if_neg hfs, if_neg (by omega), hsz, hszI, ← harr]
  simp only [bind, Except.bind, hl2, pure, Except.pure]
  rw [← Option.some.inj hl1, degrees_mod π _ hπ, ← hmode]

end Verif.Hwp
