import Verif.Model.Chunks
import Verif.Spec.Tiling
import Verif.Lemmas.List
import Mathlib.Tactic.Ring
import Mathlib.Data.Int.ModEq
import Mathlib.Tactic.Linarith

/-! Helper lemmas for chunks and rotation (no claims). -/

namespace Verif.Chunks

open Verif.Spec

/-- the interval of a chunk -/
abbrev Chunk.ivl (c : Chunk) : Int × Int := (c.start, c.stop)

theorem tiles_append {a b c : Int} {l m : List (Int × Int)} (h1 : Tiles a b l)
    (h2 : Tiles b c m) : Tiles a c (l ++ m) := by
  induction h1 with
  | nil => simpa using h2
  | cons hab _ ih => exact .cons hab (ih h2)

theorem tiles_le {a b : Int} {l : List (Int × Int)} (h : Tiles a b l) : a ≤ b := by
  induction h with
  | nil => omega
  | cons hab _ ih => omega

theorem tiles_mem {a b : Int} {l : List (Int × Int)} (h : Tiles a b l) :
    ∀ p ∈ l, a ≤ p.1 ∧ p.1 < p.2 ∧ p.2 ≤ b := by
  induction h with
  | nil => simp
  | cons hab ht ih =>
    intro p hp
    have := tiles_le ht
    simp only [List.mem_cons] at hp
    rcases hp with rfl | hp
    · exact ⟨by simp, hab, by simpa using this⟩
    · have := ih p hp
      omega

/-! ### partition_mission -/

theorem partitionLoop_spec (nsamp cs : Int) (hcs : 0 < cs) (k : Nat) (cidx start : Int)
    (h1 : (k : Int) * cs < nsamp - start) (h2 : nsamp - start ≤ ((k : Int) + 1) * cs) :
    Tiles start nsamp ((partitionLoop nsamp cs (k + 1) cidx start).map Chunk.ivl) ∧
    (∀ c ∈ partitionLoop nsamp cs (k + 1) cidx start, c.stop - c.start ≤ cs ∧
      (c.stop ≠ nsamp → c.stop - c.start = cs) ∧ c.norot = false) ∧
    (partitionLoop nsamp cs (k + 1) cidx start).map Chunk.cidx
      = (intRange cidx (k + 1)).map some := by
  induction k generalizing cidx start with
  | zero =>
    have e : partitionLoop nsamp cs 1 cidx start
        = [{ start := start, stop := nsamp, cidx := some cidx }] := by
      simp only [partitionLoop]
      rw [if_pos (by simp at h2; omega)]
    rw [Nat.zero_add, e]
    refine ⟨.cons (by simp at h1; simpa using h1) (.nil _), ?_, ?_⟩
    · intro c hc
      simp only [List.mem_singleton] at hc
      subst hc
      simp at h2
      simp; omega
    · simp [intRange]
  | succ k ih =>
    have hk : (0:Int) ≤ (k:Int) * cs := Int.mul_nonneg (by omega) (by omega)
    have e1 : ((k + 1 : Nat) : Int) * cs = k * cs + cs := by push_cast; ring
    have e2 : (((k + 1 : Nat) : Int) + 1) * cs = ((k:Int) + 1) * cs + cs := by push_cast; ring
    have e3 : ((k:Int) + 1) * cs = k * cs + cs := by ring
    have ih' := ih (cidx + 1) (start + cs) (by omega) (by omega)
    have e : partitionLoop nsamp cs (k + 1 + 1) cidx start
        = { start := start, stop := start + cs, cidx := some cidx } ::
          partitionLoop nsamp cs (k + 1) (cidx + 1) (start + cs) := by
      conv => lhs; unfold partitionLoop
      simp only
      rw [if_neg (by omega)]
    rw [e]
    refine ⟨.cons (by simp; omega) ih'.1, ?_, ?_⟩
    · intro c hc
      simp only [List.mem_cons] at hc
      rcases hc with rfl | hc
      · simp
      · exact ih'.2.1 c hc
    · rw [List.map_cons, ih'.2.2]
      conv => rhs; unfold intRange; rw [List.range_succ_eq_map]
      simp only [List.map_cons, List.map_map]
      refine List.cons_eq_cons.2 ⟨by simp, ?_⟩
      simp only [intRange, List.map_map]
      apply List.map_congr_left
      intro j _
      simp only [Function.comp]
      congr 1
      push_cast
      omega

/-! ### subpart_chunk -/

theorem fullSubchunks_spec (n : Int) (hn : 0 < n) (k : Nat) (start : Int) (hd : n ∣ start) :
    (fullSubchunks n k start).2 = start + k * n ∧
    Tiles start (start + k * n) ((fullSubchunks n k start).1.map Chunk.ivl) ∧
    (∀ s ∈ (fullSubchunks n k start).1, s.norot = false ∧ n ∣ s.start ∧ s.stop = s.start + n ∧
      s.cidx = none ∧ s.hwpang = none) := by
  induction k generalizing start with
  | zero => simp [fullSubchunks]; exact .nil _
  | succ k ih =>
    have ih' := ih (start + n) (Int.dvd_add hd (Int.dvd_refl n))
    have e : start + n + (k:Int) * n = start + ((k + 1 : Nat) : Int) * n := by push_cast; ring
    rw [e] at ih'
    simp only [fullSubchunks]
    refine ⟨ih'.1, .cons (by dsimp only; omega) ih'.2.1, ?_⟩
    intro s hs
    simp only [List.mem_cons] at hs
    rcases hs with rfl | hs
    · simp [hd]
    · exact ih'.2.2 s hs

/-- No multiple of `n` strictly inside an interval of length at most `n` starting at one. -/
theorem no_interior (n a b : Int) (hd : n ∣ a) (hb : b ≤ a + n) :
    ∀ t, a < t → t < b → ¬ n ∣ t := by
  intro t h1 h2 ht
  have hs : n ∣ t - a := Int.dvd_sub ht hd
  obtain ⟨q, hq⟩ := hs
  have hpos : 0 < n * q := by omega
  have hlt : n * q < n := by omega
  have hn : 0 < n := by omega
  have : 0 < q := pos_of_mul_pos_right hpos (by omega) |> fun h => h
  have := Int.mul_le_mul_of_nonneg_left (show 1 ≤ q by omega) (show (0:Int) ≤ n by omega)
  omega

/-- No multiple of `n` strictly inside an interval ending at or before the next one. -/
theorem no_interior' (n a b r : Int) (_hr : 0 ≤ r) (hrn : r < n) (hd : n ∣ a + r)
    (hb : b ≤ a + r) : ∀ t, a < t → t < b → ¬ n ∣ t := by
  intro t h1 h2
  have hd' : n ∣ a + r - n := Int.dvd_sub hd (Int.dvd_refl n)
  exact no_interior n (a + r - n) (a + r) hd' (by omega) t (by omega) (by omega)

/-- What `subpart_chunk` does with one chunk, given a remainder that is the distance from the
start of the chunk to the next multiple of the rotation period. -/
theorem subpartCore_spec (n rem : Int) (c : Chunk) (hn : 0 < n) (hr0 : 0 ≤ rem) (hrn : rem < n)
    (hd : n ∣ c.start + rem) (hc : c.start < c.stop) :
    ∃ subs rem', subpartCore n rem c = .ok (subs, rem') ∧ 0 ≤ rem' ∧ rem' < n ∧
      n ∣ c.stop + rem' ∧ Tiles c.start c.stop (subs.map Chunk.ivl) ∧
      (∀ s ∈ subs, s.cidx = none ∧ (s.start = c.start ∨ n ∣ s.start) ∧
        (∀ t, s.start < t → t < s.stop → ¬ n ∣ t) ∧
        (s.norot = true → ¬ n ∣ s.start) ∧
        (rem < c.stop - c.start → s.norot = false → n ∣ s.start)) := by
  unfold subpartCore
  rw [if_neg (by omega)]
  simp only
  have hge := ceilDiv_mul_ge (c.stop - c.start - rem) n hn
  have hlt := ceilDiv_mul_lt (c.stop - c.start - rem) n hn
  generalize ceilDiv (c.stop - c.start - rem) n = q at *
  have hrem_nd : rem ≠ 0 → ¬ n ∣ c.start := by
    intro h hdv
    have : n ∣ rem := (Int.dvd_iff_dvd_of_dvd_add hd).1 hdv
    have := Int.le_of_dvd (by omega) this
    omega
  by_cases hq : q ≤ 1
  · have e1 : (if q < 1 then (1:Int) else q) = 1 := by split <;> omega
    rw [e1, if_pos rfl]
    have hqn : q * n ≤ n := by
      have := Int.mul_le_mul_of_nonneg_right hq (show (0:Int) ≤ n by omega)
      omega
    by_cases hre : rem ≥ c.stop - c.start
    · rw [if_pos hre]
      refine ⟨_, _, rfl, by omega, by omega, ?_, ?_, ?_⟩
      · have : c.stop + (rem - (c.stop - c.start)) = c.start + rem := by omega
        rw [this]; exact hd
      · exact .cons hc (.nil _)
      · intro s hs
        simp only [List.mem_singleton] at hs
        subst hs
        refine ⟨rfl, Or.inl rfl, ?_, by simp, by intro h; omega⟩
        exact no_interior' n _ _ rem hr0 hrn hd (by simp; omega)
    · rw [if_neg hre]
      have hd2 : n ∣ rem + c.start := by rw [Int.add_comm]; exact hd
      refine ⟨_, _, rfl, by omega, by omega, ?_, ?_, ?_⟩
      · have : c.stop + (n - (c.stop - (rem + c.start))) = (c.start + rem) + n := by omega
        rw [this]; exact Int.dvd_add hd (Int.dvd_refl n)
      · by_cases h0 : rem = 0
        · subst h0
          simp only [ne_eq, not_true_eq_false, if_false, List.nil_append, List.map_cons,
            List.map_nil]
          have : (0:Int) + c.start = c.start := by omega
          rw [this]
          exact .cons hc (.nil _)
        · simp only [ne_eq, h0, not_false_eq_true, if_true, List.map_append, List.map_cons,
            List.map_nil]
          exact .cons (by dsimp only; omega) (.cons (by dsimp only; omega) (.nil _))
      · intro s hs
        simp only [List.mem_append, List.mem_singleton] at hs
        rcases hs with hs | rfl
        · by_cases h0 : rem = 0
          · simp [h0] at hs
          · simp only [ne_eq, h0, not_false_eq_true, if_true, List.mem_singleton] at hs
            subst hs
            refine ⟨rfl, Or.inl rfl, ?_, ?_, by simp⟩
            · exact no_interior' n _ _ rem hr0 hrn hd (by simp; omega)
            · intro _; exact hrem_nd h0
        · refine ⟨rfl, Or.inr hd2, ?_, by simp, fun _ _ => hd2⟩
          exact no_interior n _ _ hd2 (by simp; omega)
  · have e1 : (if q < 1 then (1:Int) else q) = q := by rw [if_neg (by omega)]
    rw [e1, if_neg (by omega)]
    have hd2 : n ∣ rem + c.start := by rw [Int.add_comm]; exact hd
    have hst : (if rem ≠ 0 then rem + c.start else c.start) = rem + c.start := by
      split <;> omega
    rw [hst]
    obtain ⟨f1, f2, f3⟩ := fullSubchunks_spec n hn (q - 1).toNat (rem + c.start) hd2
    have ek : (((q - 1).toNat : Nat) : Int) * n = (q - 1) * n := by
      rw [Int.toNat_of_nonneg (by omega)]
    rw [ek] at f1 f2
    have e2 : (q - 1) * n = q * n - n := by ring
    have hd3 : n ∣ rem + c.start + (q - 1) * n :=
      Int.dvd_add hd2 (Dvd.intro_left _ rfl)
    refine ⟨_, _, rfl, ?_, ?_, ?_, ?_, ?_⟩
    · rw [f1]; omega
    · rw [f1]; omega
    · rw [f1]
      have : c.stop + (n - (c.stop - (rem + c.start + (q - 1) * n)))
          = (rem + c.start + (q - 1) * n) + n := by omega
      rw [this]; exact Int.dvd_add hd3 (Int.dvd_refl n)
    · rw [f1, List.map_append, List.map_append]
      refine tiles_append (b := rem + c.start + (q - 1) * n) (tiles_append (b := rem + c.start) ?_ f2)
        (.cons (by simp; omega) (.nil _))
      by_cases h0 : rem = 0
      · subst h0
        simp only [ne_eq, not_true_eq_false, if_false, List.map_nil]
        have : (0:Int) + c.start = c.start := by omega
        rw [this]; exact .nil _
      · simp only [ne_eq, h0, not_false_eq_true, if_true, List.map_cons, List.map_nil]
        exact .cons (by simp; omega) (.nil _)
    · intro s hs
      rw [f1] at hs
      simp only [List.mem_append, List.mem_singleton] at hs
      rcases hs with (hs | hs) | rfl
      · by_cases h0 : rem = 0
        · simp [h0] at hs
        · simp only [ne_eq, h0, not_false_eq_true, if_true, List.mem_singleton] at hs
          subst hs
          refine ⟨rfl, Or.inl rfl, ?_, ?_, by simp⟩
          · exact no_interior' n _ _ rem hr0 hrn hd (by simp; omega)
          · intro _; exact hrem_nd h0
      · obtain ⟨g1, g2, g3, g4, _⟩ := f3 s hs
        refine ⟨g4, Or.inr g2, ?_, by simp [g1], fun _ _ => g2⟩
        exact no_interior n _ _ g2 (by omega)
      · refine ⟨rfl, Or.inr hd3, ?_, by simp, fun _ _ => hd3⟩
        exact no_interior n _ _ hd3 (by simp; omega)

/-- Remainder invariant: the remainder is the distance from sample `a` to the next multiple of
the rotation period. -/
def RemInv {K : Type} (n : Nat) (r : Rot K) (a : Int) : Prop :=
  r.period = true ∧ r.rotChunkSize = n ∧ 0 ≤ r.remainder ∧ r.remainder < n ∧
    (n:Int) ∣ a + r.remainder

theorem subpartChunk_spec {K : Type} (n : Nat) (hn : 0 < n) (r : Rot K) (c : Chunk)
    (hinv : RemInv n r c.start) (hc : c.start < c.stop) :
    ∃ subs rem', subpartChunk r c = .ok (subs, { r with remainder := rem' }) ∧
      RemInv n { r with remainder := rem' } c.stop ∧
      Tiles c.start c.stop (subs.map Chunk.ivl) ∧
      (∀ s ∈ subs, s.cidx = c.cidx ∧ (s.start = c.start ∨ (n:Int) ∣ s.start) ∧
        (∀ t, s.start < t → t < s.stop → ¬ (n:Int) ∣ t) ∧
        (s.norot = true → ¬ (n:Int) ∣ s.start) ∧
        (r.remainder < c.stop - c.start → s.norot = false → (n:Int) ∣ s.start)) := by
  obtain ⟨hp, hrc, h0, h1, h2⟩ := hinv
  obtain ⟨subs, rem', e, i1, i2, i3, i4, i5⟩ :=
    subpartCore_spec n r.remainder c (by omega) h0 h1 h2 hc
  unfold subpartChunk
  rw [← hrc] at e
  rw [if_pos hp, e]
  simp only [bind, Except.bind, pure, Except.pure]
  refine ⟨_, _, rfl, ⟨hp, hrc, i1, i2, i3⟩, ?_, ?_⟩
  · cases hcx : c.cidx with
    | none => simpa [hcx] using i4
    | some k => simp only [List.map_map]; exact i4
  · intro s hs
    cases hcx : c.cidx with
    | none =>
      rw [hcx] at hs
      exact i5 s hs
    | some k =>
      rw [hcx] at hs
      simp only [List.mem_map] at hs
      obtain ⟨s', hs', rfl⟩ := hs
      have := i5 s' hs'
      exact ⟨rfl, this.2⟩

/-! ### the rotation loop -/

/-- Rotation state when the next unprocessed sample is `a`: `q` is the number of rotations
made so far, the smallest number with `a ≤ q * n`. -/
def RotInv {K : Type} (n : Nat) (A : List K) (r : Rot K) (a : Int) : Prop :=
  r.period = true ∧ r.rotChunkSize = n ∧ r.angles = A ∧
  ∃ q : Nat, a ≤ q * n ∧ (q : Int) * n < a + n ∧ r.gen = ⟨A, q % A.length⟩ ∧
    (a < q * n → 1 ≤ q ∧ A[(q - 1) % A.length]? = some r.angle)

/-- All samples of the interval are observed at the scheduled angle. -/
def ObservedRight {K : Type} (n : Nat) (A : List K) (s : Chunk) (ang : K) : Prop :=
  ∀ t : Nat, s.start ≤ t → (t : Int) < s.stop → scheduled n A t = some ang

theorem div_eq_of_between (n q t : Nat) (h1 : (q : Int) * n ≤ t) (h2 : (t : Int) < q * n + n) :
    t / n = q := by
  have h1' : q * n ≤ t := by exact_mod_cast h1
  have h2' : t < q * n + n := by exact_mod_cast h2
  apply Nat.div_eq_of_lt_le
  · exact h1'
  · rw [Nat.succ_mul]; exact h2'

theorem rotLoop_spec {K : Type} (n : Nat) (hn : 0 < n) (A : List K) (hA : A ≠ [])
    (subs : List Chunk) (a b : Int) (r : Rot K) (hinv : RotInv n A r a)
    (ht : Tiles a b (subs.map Chunk.ivl))
    (hs : ∀ s ∈ subs, (∀ t, s.start < t → t < s.stop → ¬ (n:Int) ∣ t) ∧
      (s.norot = true → ¬ (n:Int) ∣ s.start) ∧ (s.norot = false → (n:Int) ∣ s.start)) :
    ∃ out r', rotLoop r subs = .ok (out, r') ∧ RotInv n A r' b ∧ out.map Prod.fst = subs ∧
      r'.remainder = r.remainder ∧ (∀ p ∈ out, ObservedRight n A p.1 p.2) := by
  induction subs generalizing a r with
  | nil =>
    cases ht
    exact ⟨[], r, rfl, hinv, rfl, rfl, by simp⟩
  | cons s rest ih =>
    rw [List.map_cons] at ht
    obtain ⟨s0, s1, scidx, srot, shwp⟩ := s
    cases ht with
    | cons hab ht' =>
    have hLen : 0 < A.length := List.length_pos_iff.2 hA
    obtain ⟨hs1, hs2, hs3⟩ := hs _ (List.mem_cons_self ..)
    simp only at hs1 hs2 hs3 hab
    obtain ⟨hp, hrc, hra, q, hq1, hq2, hg, hang⟩ := hinv
    dsimp only at hq1 hq2 hang ht'
    have hnI : (0:Int) < n := by omega
    cases hr : srot with
    | true =>
      have hnd := hs2 hr
      have hlt : s0 < q * n := by
        rcases Int.lt_or_eq_of_le hq1 with h | h
        · exact h
        · exact absurd ⟨(q:Int), by rw [h]; ring⟩ hnd
      obtain ⟨hq, hA1⟩ := hang hlt
      have hstop : s1 ≤ q * n := by
        by_contra hc
        exact hs1 (q * n) hlt (by omega) ⟨(q:Int), by ring⟩
      have hinv' : RotInv n A r s1 :=
        ⟨hp, hrc, hra, q, hstop, by omega, hg, fun _ => ⟨hq, hA1⟩⟩
      obtain ⟨out, r', h1, h2, h3, h4, h5⟩ := ih s1 r hinv' ht'
        (fun s hs' => hs s (List.mem_cons_of_mem _ hs'))
      refine ⟨(⟨s0, s1, scidx, true, shwp⟩, r.angle) :: out, r', ?_, h2, by simp [h3], h4, ?_⟩
      · simp [rotLoop, h1, bind, Except.bind, pure, Except.pure]
      · intro p hp
        simp only [List.mem_cons] at hp
        rcases hp with rfl | hp
        · intro t ht1 ht2
          simp only at ht1 ht2
          unfold scheduled
          have e : ((q - 1 : Nat) : Int) * n = q * n - n := by
            rw [Nat.cast_sub hq]; push_cast; ring
          rw [div_eq_of_between n (q - 1) t (by omega) (by omega)]
          exact hA1
        · exact h5 p hp
    | false =>
      have hdv := hs3 hr
      have heq : s0 = q * n := by
        obtain ⟨m, hm⟩ := hdv
        have h1 : (n:Int) * m ≤ q * n := by omega
        have h2 : (q:Int) * n < n * m + n := by omega
        have h3 : m ≤ q := by
          by_contra hc
          have := Int.mul_le_mul_of_nonneg_left (show (q:Int) + 1 ≤ m by omega)
            (show (0:Int) ≤ n by omega)
          have e : (n:Int) * (q + 1) = q * n + n := by ring
          omega
        have h4 : (q:Int) ≤ m := by
          by_contra hc
          have := Int.mul_le_mul_of_nonneg_left (show m + 1 ≤ (q:Int) by omega)
            (show (0:Int) ≤ n by omega)
          have e : (n:Int) * (m + 1) = n * m + n := by ring
          have e2 : (n:Int) * q = q * n := by ring
          omega
        have : m = q := by omega
        rw [hm, this]; ring
      have hqlt : q % A.length < A.length := Nat.mod_lt _ hLen
      have hget : A[q % A.length]? = some A[q % A.length] := List.getElem?_eq_getElem hqlt
      have hrot : r.rotate = .ok { r with
          angle := A[q % A.length], gen := ⟨A, (q + 1) % A.length⟩ } := by
        unfold Rot.rotate
        rw [if_pos hp]
        unfold Gen.next
        rw [hg]
        simp only
        rw [hget]
        simp [bind, Except.bind, pure, Except.pure]
      have hstop : s1 ≤ q * n + n := by
        by_contra hc
        exact hs1 (q * n + n) (by omega) (by omega) ⟨(q:Int) + 1, by ring⟩
      have ec : ((q + 1 : Nat) : Int) * n = q * n + n := by push_cast; ring
      have hinv' : RotInv n A { r with
          angle := A[q % A.length], gen := ⟨A, (q + 1) % A.length⟩ } s1 := by
        refine ⟨hp, hrc, hra, q + 1, by omega, by omega, rfl, fun _ => ⟨by omega, ?_⟩⟩
        simp
      obtain ⟨out, r', h1, h2, h3, h4, h5⟩ := ih s1 _ hinv' ht'
        (fun s hs' => hs s (List.mem_cons_of_mem _ hs'))
      refine ⟨(⟨s0, s1, scidx, false, shwp⟩, A[q % A.length]) :: out, r', ?_, h2, by simp [h3],
        h4, ?_⟩
      · simp [rotLoop, hrot, h1, bind, Except.bind, pure, Except.pure]
      · intro p hp
        simp only [List.mem_cons] at hp
        rcases hp with rfl | hp
        · intro t ht1 ht2
          simp only at ht1 ht2
          unfold scheduled
          rw [div_eq_of_between n q t (by omega) (by omega)]
          exact hget
        · exact h5 p hp

theorem chunkLoop_spec {K : Type} (n : Nat) (hn : 0 < n) (A : List K) (hA : A ≠ [])
    (chunks : List Chunk) (a b : Int) (r : Rot K) (hinv : RotInv n A r a) (hrem : RemInv n r a)
    (ht : Tiles a b (chunks.map Chunk.ivl))
    (hlong : ∀ c ∈ chunks, (-c.start) % (n:Int) < c.stop - c.start) :
    ∃ out r', chunkLoop r chunks = .ok (out, r') ∧
      Tiles a b (out.map fun p => p.1.ivl) ∧ (∀ p ∈ out, ObservedRight n A p.1 p.2) := by
  induction chunks generalizing a r with
  | nil =>
    cases ht
    exact ⟨[], r, rfl, .nil _, by simp⟩
  | cons c rest ih =>
    rw [List.map_cons] at ht
    obtain ⟨c0, c1, ccidx, crot, chwp⟩ := c
    cases ht with
    | cons hab ht' =>
    dsimp only at hab ht' hinv hrem
    obtain ⟨subs, rem', e, hr', ht1, hs⟩ :=
      subpartChunk_spec n hn r ⟨c0, c1, ccidx, crot, chwp⟩ hrem hab
    have hremeq : r.remainder = (-c0) % (n:Int) := by
      obtain ⟨_, _, h0, h1, h2⟩ := hrem
      have : (n:Int) ∣ r.remainder - (-c0) := by
        have : r.remainder - (-c0) = c0 + r.remainder := by omega
        rw [this]; exact h2
      rw [← Int.emod_eq_of_lt h0 h1]
      exact Int.ModEq.symm (Int.modEq_iff_dvd.2 this)
    have hlong' := hlong _ (List.mem_cons_self ..)
    dsimp only at hlong'
    obtain ⟨out1, r1, e1, hi1, hm1, hrr, ho1⟩ := rotLoop_spec n hn A hA subs c0 c1
      { r with remainder := rem' } hinv ht1
      (fun s hs' => ⟨(hs s hs').2.2.1, (hs s hs').2.2.2.1,
        (hs s hs').2.2.2.2 (by dsimp only; omega)⟩)
    have hrem1 : RemInv n r1 c1 := by
      obtain ⟨g1, g2, g3, _⟩ := hi1
      obtain ⟨_, _, k3, k4, k5⟩ := hr'
      exact ⟨g1, g2, by rw [hrr]; exact k3, by rw [hrr]; exact k4, by rw [hrr]; exact k5⟩
    obtain ⟨out2, r2, e2, ht2, ho2⟩ := ih c1 r1 hi1 hrem1 ht'
      (fun c hc => hlong c (List.mem_cons_of_mem _ hc))
    refine ⟨out1 ++ out2, r2, ?_, ?_, ?_⟩
    · simp [chunkLoop, e, e1, e2, bind, Except.bind, pure, Except.pure]
    · rw [List.map_append]
      refine tiles_append ?_ ht2
      have : out1.map (fun p => p.1.ivl) = subs.map Chunk.ivl := by
        rw [← hm1, List.map_map]; rfl
      rw [this]; exact ht1
    · intro p hp
      rcases List.mem_append.1 hp with h | h
      · exact ho1 p h
      · exact ho2 p h

end Verif.Chunks
