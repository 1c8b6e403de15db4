import Verif.Lemmas.Alm

/-!
# Properties C18 - C21 and C60: harmonic coefficient arrays
-/

namespace Verif.Props

open Verif.Alm Verif.Spec

/-! ## C19 -/

/-- **C19.** For every band limits `M ≤ L`, `getidx` numbers the modes in storage order: mode
`(l, m)` is at position `getidx`, positions are distinct, fill exactly `0 .. getsize-1`, and
consecutive `l` are adjacent; `getlmax` recovers the band limit from the size. -/
theorem C19_layout_bijection (L M : Nat) (h : M ≤ L) :
    (∀ l m : Nat, m ≤ M → m ≤ l → l ≤ L →
      0 ≤ getidx L l m ∧ getidx L l m < getsize L (some (M : Int)) ∧
      (modes L M)[(getidx L l m).toNat]? = some (l, m) ∧
      getidx L (l + 1) m = getidx L l m + 1) ∧
    (∀ l m l' m' : Nat, m ≤ M → m ≤ l → l ≤ L → m' ≤ M → m' ≤ l' → l' ≤ L →
      getidx L l m = getidx L l' m' → l = l' ∧ m = m') ∧
    (∀ k : Int, 0 ≤ k → k < getsize L (some (M : Int)) →
      ∃ l m : Nat, m ≤ M ∧ m ≤ l ∧ l ≤ L ∧ getidx L l m = k) ∧
    (getsize L (some (M : Int)) = (modes L M).length) ∧
    getlmax (modes L M).length (some (M : Int)) = L ∧
    (M = L → getlmax (modes L M).length none = L) := by
  refine ⟨?_, ?_, ?_, ?_, ?_, ?_⟩
  · intro l m h1 h2 h3
    have hlt := off_lt L (show m < M + 1 by omega) h3 h2
    rw [getsize_eq L M h, getidx_eq L l m (by omega) h2]
    refine ⟨by omega, by omega, ?_, ?_⟩
    · simp only [Int.toNat_natCast]
      exact getElem?_modes L M l m h1 h2 h3
    · have := getidx_eq L (l + 1) m (by omega) (by omega)
      push_cast at this ⊢
      rw [this]
      omega
  · intro l m l' m' h1 h2 h3 h1' h2' h3' he
    rw [getidx_eq L l m (by omega) h2, getidx_eq L l' m' (by omega) h2'] at he
    have he : off L m + (l - m) = off L m' + (l' - m') := by exact_mod_cast he
    have e1 := getElem?_modes L M l m h1 h2 h3
    rw [he, getElem?_modes L M l' m' h1' h2' h3'] at e1
    simp only [Option.some.injEq, Prod.mk.injEq] at e1
    omega
  · intro k hk0 hk
    rw [getsize_eq L M h] at hk
    obtain ⟨m, l, a, b, c, d⟩ := exists_mode L (M + 1) k.toNat (by omega)
    refine ⟨l, m, by omega, b, c, ?_⟩
    rw [getidx_eq L l m (by omega) b, ← d]
    omega
  · rw [getsize_eq L M h, length_modes]
  · rw [length_modes, getlmax_some L M h]
  · rintro rfl
    rw [length_modes, getlmax_none]

/-- Every array of the right (non-zero) size holds some set of coefficients, so the hypotheses
`Represents` below restrict the size of an array only. -/
theorem C19_every_array {α : Type} (L M : Nat) (h : M ≤ L) (a : List α)
    (ha : (a.length : Int) = getsize L (some (M : Int))) :
    ∃ f, Represents L M a f := by
  rw [getsize_eq L M h] at ha
  refine exists_represents L M a ?_ (by exact_mod_cast ha)
  rintro rfl
  have : off L 1 ≤ off L (M + 1) := off_mono L (by omega)
  simp only [off, List.length_nil] at *
  omega

example : modes 2 1 = [(0, 0), (1, 0), (2, 0), (1, 1), (2, 1)] := by decide

/-! ## C18 -/

/-- **C18.** `trunc_alm` returns exactly the old coefficients up to the new band limit. -/
theorem C18_trunc_alm {α : Type} (L M N : Nat) (hM : M ≤ L) (hN : N ≤ L) (mmaxOld : Option Int)
    (hmo : mmaxOld = some (M : Int) ∨ (mmaxOld = none ∧ M = L))
    (alm : List α) (f : Nat → Nat → α) (h : Represents L M alm f) :
    ∃ out, truncAlm alm N mmaxOld = .ok out ∧ Represents N (min N M) out f := by
  obtain ⟨hlen, hget⟩ := (represents_iff L M alm f).1 h
  obtain ⟨idx, i1, i2, i3⟩ := truncIndices_spec L M N hM hN mmaxOld hmo
  have hidx : ∀ (k : Nat) (i : Int), idx[k]? = some i → ∃ n : Nat, i = (n : Int) ∧ n < alm.length := by
    intro k i hk
    have hkl : k < off N (min N M + 1) := by
      rw [← i2]
      exact (List.getElem?_eq_some_iff.1 hk).1
    obtain ⟨m, l, a, b, c, rfl⟩ := exists_mode N _ k hkl
    rw [i3 m l (by omega) b c, Option.some.injEq] at hk
    refine ⟨_, hk.symm, ?_⟩
    rw [hlen]
    exact off_lt L (by omega) (by omega) b
  obtain ⟨out, o1, o2, o3⟩ := mapM_pyGet alm idx hidx
  refine ⟨out, ?_, ?_⟩
  · unfold truncAlm
    rw [hlen, i1]
    exact o1
  · rw [represents_iff]
    refine ⟨by rw [o2, i2], fun m l a b c => ?_⟩
    rw [o3 _ _ (i3 m l a b c)]
    exact hget m l (by omega) b (by omega)

/-- **C18 (sequence of arrays).** The same for a tuple of arrays sharing band limits. -/
theorem C18_trunc_alm_seq {α : Type} (L M N : Nat) (hM : M ≤ L) (hN : N ≤ L)
    (mmaxOld : Option Int) (hmo : mmaxOld = some (M : Int) ∨ (mmaxOld = none ∧ M = L))
    (alms : List (List α)) (fs : List (Nat → Nat → α)) (hne : alms ≠ [])
    (h : List.Forall₂ (Represents L M) alms fs) :
    ∃ outs, truncAlmSeq alms N mmaxOld = .ok outs ∧
      List.Forall₂ (Represents N (min N M)) outs fs := by
  obtain ⟨a0, rest, rfl⟩ := List.exists_cons_of_ne_nil hne
  have hlen : a0.length = off L (M + 1) := by
    cases h with
    | cons h1 _ => exact rep_length h1
  obtain ⟨idx, i1, i2, i3⟩ := truncIndices_spec L M N hM hN mmaxOld hmo
  have hone : ∀ (a : List α) f, Represents L M a f →
      ∃ out, (idx.mapM fun i => pyGet a i) = .ok out ∧ Represents N (min N M) out f := by
    intro a f ha
    obtain ⟨out, o1, o2⟩ := C18_trunc_alm L M N hM hN mmaxOld hmo a f ha
    refine ⟨out, ?_, o2⟩
    unfold truncAlm at o1
    rw [rep_length ha, i1] at o1
    exact o1
  have hall : ∀ (as : List (List α)) (gs : List (Nat → Nat → α)),
      List.Forall₂ (Represents L M) as gs →
      ∃ outs, (as.mapM fun a => idx.mapM fun i => pyGet a i) = .ok outs ∧
        List.Forall₂ (Represents N (min N M)) outs gs := by
    intro as gs hag
    induction hag with
    | nil => exact ⟨[], rfl, .nil⟩
    | cons h1 _ ih =>
      obtain ⟨o, o1, o2⟩ := hone _ _ h1
      obtain ⟨os, p1, p2⟩ := ih
      refine ⟨o :: os, ?_, .cons o2 p2⟩
      rw [List.mapM_cons, o1]
      simp only [bind, Except.bind] at p1 ⊢
      rw [p1]
      rfl
  obtain ⟨outs, o1, o2⟩ := hall _ _ h
  refine ⟨outs, ?_, o2⟩
  unfold truncAlmSeq
  have e0 : pyGet (a0 :: rest) 0 = .ok a0 := by simp [pyGet]
  rw [e0]
  simp only [bind, Except.bind]
  rw [hlen, i1]
  exact o1

/-- **C18.** Asking for more than is available raises ValueError. -/
theorem C18_trunc_too_large {α : Type} (L M N : Nat) (hM : M ≤ L) (hN : L < N)
    (mmaxOld : Option Int) (hmo : mmaxOld = some (M : Int) ∨ (mmaxOld = none ∧ M = L))
    (alm : List α) (f : Nat → Nat → α) (h : Represents L M alm f) :
    truncAlm alm N mmaxOld = .error .valueError := by
  have hlm : getlmax alm.length mmaxOld = L := by
    rw [rep_length h]
    rcases hmo with rfl | ⟨rfl, rfl⟩
    · exact getlmax_some L M hM
    · exact getlmax_none M
  unfold truncAlm truncIndices
  simp only [hlm]
  rw [if_pos (by omega)]
  rfl

/-- **C18.** Without `mmax_old`, an array whose size is not that of a full set of coefficients is
rejected (for every band limit). -/
theorem C18_trunc_bad_size {α : Type} (N : Nat) (alm : List α)
    (h : ∀ L : Nat, (alm.length : Int) ≠ getsize L none) :
    truncAlm alm N none = .error .valueError := by
  have hlm : getlmax alm.length none < 0 := by
    unfold getlmax
    simp only
    split
    · rename_i hr
      set r := Nat.sqrt (1 + 8 * alm.length)
      by_contra hcon
      -- r is odd and at least 3
      have hodd : r % 2 = 1 := by
        rcases Nat.mod_two_eq_zero_or_one r with h0 | h1
        · exfalso
          obtain ⟨k, hk⟩ := Nat.dvd_of_mod_eq_zero h0
          have : r * r = 2 * (k * r) := by rw [hk]; ring
          omega
        · exact h1
      have h3 : 3 ≤ r := by omega
      obtain ⟨k, hk⟩ : ∃ k, r = 2 * k + 3 := ⟨(r - 3) / 2, by omega⟩
      apply h k
      rw [getsize_none]
      have h2 := two_off k (k + 1) (by omega)
      rw [hk] at hr
      have hr' : ((2 * k + 3) * (2 * k + 3) : Int) = 1 + 8 * (alm.length : Int) := by
        exact_mod_cast hr
      push_cast at h2
      nlinarith
    · omega
  unfold truncAlm truncIndices
  simp only
  rw [if_pos (by omega)]
  rfl

/-- **C18.** Truncating twice is truncating once to the smaller band limit. -/
theorem C18_trunc_twice {α : Type} (L M N N' : Nat) (hM : M ≤ L) (hN : N ≤ L) (hN' : N' ≤ N)
    (alm : List α) (f : Nat → Nat → α) (h : Represents L M alm f) :
    ∃ mid, truncAlm alm N (some (M : Int)) = .ok mid ∧
      truncAlm mid N' (some ((min N M : Nat) : Int)) = truncAlm alm N' (some (M : Int)) := by
  obtain ⟨mid, m1, m2⟩ := C18_trunc_alm L M N hM hN _ (Or.inl rfl) alm f h
  obtain ⟨o, o1, o2⟩ := C18_trunc_alm N (min N M) N' (by omega) hN' _ (Or.inl rfl) mid f m2
  obtain ⟨o', o1', o2'⟩ := C18_trunc_alm L M N' hM (by omega) _ (Or.inl rfl) alm f h
  refine ⟨mid, m1, ?_⟩
  rw [o1, o1']
  have : min N' (min N M) = min N' M := by omega
  rw [this] at o2
  rw [represents_inj o2 o2']

/-- lmax = 3, mmax = 1 truncated to lmax = 2. -/
example : truncAlm [0, 10, 20, 30, 11, 21, (31 : Int)] 2 (some 1) = .ok [0, 10, 20, 11, 21] := by
  decide +kernel

example : Represents 3 1 [0, 10, 20, 30, 11, 21, (31 : Int)] (fun l m => 10 * l + m) := by
  simp [Represents, modes, List.range, List.range.loop]

/-! ## C60 -/

/-- **C60 (partial).** `blm2bl` returns row `m` of the coefficients: the part `l ≥ m`, or with
`full` the whole range `l = 0 .. lmax` with zeros below `m`; for `m > lmax` nothing (zeros);
negative `m` raises ValueError.
Missing: the single value `m = 2 lmax + 3`, where the function fails, see
`C60_wraparound_violation`. -/
theorem C60_blm2bl_partial {α : Type} [Zero α] (L : Nat) (blm : List α) (f : Nat → Nat → α)
    (h : Represents L L blm f) :
    (∀ m : Nat, m ≤ L →
      blm2bl blm m false = .ok ((List.range (L + 1 - m)).map fun k => f (m + k) m) ∧
      blm2bl blm m true = .ok ((List.range (L + 1)).map fun l => if l < m then 0 else f l m)) ∧
    (∀ m : Nat, L < m → m ≠ 2 * L + 3 →
      blm2bl blm m false = .ok [] ∧ blm2bl blm m true = .ok (List.replicate (L + 1) 0)) ∧
    (∀ (m : Int) full, m < 0 → blm2bl blm m full = .error .valueError) := by
  refine ⟨?_, ?_, ?_⟩
  · intro m hm
    obtain ⟨h1, b, b1, b2, b3⟩ := blm2bl_spec L blm f h m hm
    refine ⟨h1, ?_⟩
    rw [b1]
    congr 1
    apply List.ext_getElem?
    intro l
    by_cases hl : l ≤ L
    · rw [b3 l hl, List.getElem?_map, List.getElem?_range (by omega)]
      rfl
    · rw [List.getElem?_eq_none (by omega), List.getElem?_eq_none (by simp; omega)]
  · intro m hm hne
    have hlm : getlmax blm.length none = L := by rw [rep_length h]; exact getlmax_none L
    have hlen := rep_length h
    have h2L := two_off L (L + 1) (by omega)
    push_cast at h2L
    have hslice : pySlice blm (getidx L m m) (getidx L m m + L + 1 - m) = [] := by
      set st := getidx (L : Int) (m : Int) (m : Int) with hst
      -- 2 * start = m (2 L + 3 - m)
      have hpar : 2 * st = (m : Int) * (2 * L + 3 - m) := by
        have he : (m : Int) * (2 * L + 1 - m) % 2 = 0 := by
          rcases Int.emod_two_eq_zero_or_one (m : Int) with h0 | h1
          · rw [Int.mul_emod, h0]; simp
          · have : (2 * (L : Int) + 1 - m) % 2 = 0 := by omega
            rw [Int.mul_emod, this]; simp
        have hd := Int.mul_ediv_add_emod ((m : Int) * (2 * L + 1 - m)) 2
        rw [he] at hd
        have : st = (m : Int) * (2 * L + 1 - m) / 2 + m := rfl
        nlinarith
      unfold pySlice
      have hc : pyClip blm.length (st + L + 1 - m) ≤ pyClip blm.length st := by
        rcases Nat.lt_or_ge m (2 * L + 3) with hsm | hbg
        · -- both bounds non-negative
          have hend : 0 ≤ st + L + 1 - m := by
            have h1 : (0 : Int) ≤ ((m : Int) - (L + 1)) * (2 * L + 2 - m) :=
              mul_nonneg (by omega) (by omega)
            nlinarith
          unfold pyClip
          rw [if_neg (by omega), if_neg (by omega)]
          omega
        · -- both bounds negative
          have hneg : st < 0 := by
            have h1 : (0 : Int) < (m : Int) * (m - (2 * L + 3)) := mul_pos (by omega) (by omega)
            nlinarith
          unfold pyClip
          rw [if_pos (by omega), if_pos hneg]
          omega
      rw [Nat.sub_eq_zero_of_le hc]
      simp
    constructor
    · unfold blm2bl
      rw [if_neg (by omega)]
      simp only [hlm]
      rw [hslice]
      rfl
    · unfold blm2bl
      rw [if_neg (by omega)]
      simp only [hlm]
      rw [hslice, npZeros_succ]
      simp only [bind, Except.bind, if_true]
      unfold pyAssign
      rw [pyClip_ofNat, pyClip_ofNat]
      simp only [List.length_replicate, List.length_nil, Nat.min_self]
      rw [if_pos (by omega)]
      simp [setRange]
  · intro m full hm
    unfold blm2bl
    rw [if_pos hm]

/-- **C60 (violation).** For `m = 2 lmax + 3` the end of the slice becomes negative and wraps
around: `blm2bl(blm, m=9)` with lmax = 3 returns the first five coefficients (of other modes)
and, with `full`, raises ValueError. -/
theorem C60_wraparound_violation :
    blm2bl [0, 10, 20, 30, 11, 21, 31, 22, 32, (33 : Int)] 9 false = .ok [0, 10, 20, 30, 11] ∧
    blm2bl [0, 10, 20, 30, 11, 21, 31, 22, 32, (33 : Int)] 9 true = .error .valueError := by
  decide +kernel

/-! ## C20 -/

/-- **C20.** For every band limit at least 1 and all coefficients `b` of the unpolarized beam,
`unpol2pol` gives spin -2 coefficients `b(l, m-2)` for `l ≥ 2` (negative `m-2` through
`b(l,-k) = (-1)^k conj b(l,k)`) and spin +2 coefficients `b(l, m+2)`, zero elsewhere. -/
theorem C20_unpol2pol {K : Type} [CommRing K] [StarRing K] (L : Nat) (hL : 1 ≤ L)
    (blm : List K) (b : Nat → Nat → K) (h : Represents L L blm b) :
    ∃ m2 p2, unpol2pol blm = .ok (m2, p2) ∧
      Represents L L m2 (fun l m => if l < 2 then 0 else extended b b l ((m : Int) - 2)) ∧
      Represents L L p2 (fun l m => if m + 2 ≤ l then b l (m + 2) else 0) :=
  unpol2pol_spec L hL blm b h

/-- **C20.** A beam with band limit 0 is not accepted: UnboundLocalError. -/
theorem C20_monopole_only_raises {K : Type} [CommRing K] [StarRing K] (x : K) :
    unpol2pol [x] = .error .nameError := by
  have h : getlmax 1 none = 0 := by decide +kernel
  unfold unpol2pol
  simp [h, unpolStep, unpolBounds, bind, Except.bind]

/-- The example of the unit test (lmax = 4). -/
example : unpol2pol [1, 1, 1, 1, 1, 2, 2, 2, 2, 3, 3, 3, 4, 4, (5 : Int)]
    = .ok ([0, 0, 3, 3, 3, 0, -2, -2, -2, 1, 1, 1, 2, 2, 3],
           [0, 0, 3, 3, 3, 0, 0, 4, 4, 0, 0, 5, 0, 0, 0]) := by decide +kernel

/-! ## C21 -/

section Shift

variable {K : Type} [CommRing K] [StarRing K]

/-- **C21.** `shift_blm` on spin -2 / +2 coefficients `f`, `g` with any shift `s ≤ lmax`
(negative shifts included): the new +2 mode `m` is the old `+2` mode `m - s`, the new -2 mode is
the old -2 mode `m + s`, with negative `m` obtained from the partner field, and zero when the old
mode does not exist (`|m ∓ s| > l`). -/
theorem C21_shift_modes (L : Nat) (m2 p2 : List K) (f g : Nat → Nat → K)
    (hf : Represents L L m2 f) (hg : Represents L L p2 g) (s : Int) (hs : s ≤ L) :
    ∃ m2' p2', shiftBlm m2 p2 s = .ok (m2', p2') ∧
      Represents L L m2' (fun l m =>
        if |(m : Int) + s| ≤ (l : Int) then extended f g l (m + s) else 0) ∧
      Represents L L p2' (fun l m =>
        if |(m : Int) - s| ≤ (l : Int) then extended g f l (m - s) else 0) :=
  shiftBlm_spec L m2 p2 f g hf hg s hs

/-- **C21.** Shift 0 returns the input, and only the input is needed: every array. -/
theorem C21_shift_zero (L : Nat) (m2 p2 : List K) (f g : Nat → Nat → K)
    (hf : Represents L L m2 f) (hg : Represents L L p2 g) :
    shiftBlm m2 p2 0 = .ok (m2, p2) := by
  obtain ⟨a, b, h1, h2, h3⟩ := C21_shift_modes L m2 p2 f g hf hg 0 (by omega)
  rw [h1]
  have e1 : a = m2 := represents_inj h2 (represents_congr hf (by
    intro m l _ hml _
    unfold extended
    rw [if_pos (by rw [add_zero, abs_of_nonneg (by omega)]; omega), if_pos (by omega)]
    simp))
  have e2 : b = p2 := represents_inj h3 (represents_congr hg (by
    intro m l _ hml _
    unfold extended
    rw [if_pos (by rw [sub_zero, abs_of_nonneg (by omega)]; omega), if_pos (by omega)]
    simp))
  rw [e1, e2]

/-- **C21.** Inputs of unequal size are rejected. -/
theorem C21_size_mismatch (m2 p2 : List K) (s : Int) (h : m2.length ≠ p2.length) :
    shiftBlm m2 p2 s = .error .valueError := by
  simp [shiftBlm, h]

/-- **C21.** Shifts beyond the band limit are rejected. -/
theorem C21_shift_too_large (L : Nat) (m2 p2 : List K) (f : Nat → Nat → K)
    (hf : Represents L L m2 f) (s : Int) (hs : (L : Int) < s) :
    shiftBlm m2 p2 s = .error .valueError := by
  have hlm : getlmax m2.length none = L := by rw [rep_length hf]; exact getlmax_none L
  unfold shiftBlm
  split
  · rfl
  · simp only [hlm]
    rw [if_pos (by omega)]

/-- **C21 (even shifts).** For even shifts of consistent fields (`f(l,0) = conj g(l,0)`) the rule
holds for every `m`, negative ones included: the whole -2 field is shifted by `-s` and the whole
+2 field by `s`, and the results are again consistent. -/
theorem C21_shift_even (L : Nat) (m2 p2 : List K) (f g : Nat → Nat → K)
    (hf : Represents L L m2 f) (hg : Represents L L p2 g) (s : Int) (hs : s ≤ L) (he : Even s)
    (hc : ∀ l, l ≤ L → f l 0 = star (g l 0)) :
    ∃ (m2' p2' : List K) (f' g' : Nat → Nat → K), shiftBlm m2 p2 s = .ok (m2', p2') ∧
      Represents L L m2' f' ∧ Represents L L p2' g' ∧
      (∀ l, l ≤ L → f' l 0 = star (g' l 0)) ∧
      ∀ (l : Nat) (k : Int), l ≤ L → |k| ≤ (l : Int) →
        extended f' g' l k = (if |k + s| ≤ (l : Int) then extended f g l (k + s) else 0) ∧
        extended g' f' l k = (if |k - s| ≤ (l : Int) then extended g f l (k - s) else 0) := by
  obtain ⟨a, b, h1, h2, h3⟩ := C21_shift_modes L m2 p2 f g hf hg s hs
  set f' : Nat → Nat → K := fun l m =>
    if |(m : Int) + s| ≤ (l : Int) then extended f g l (m + s) else 0 with hf'
  set g' : Nat → Nat → K := fun l m =>
    if |(m : Int) - s| ≤ (l : Int) then extended g f l (m - s) else 0 with hg'
  have hc' : ∀ l, l ≤ L → g l 0 = star (f l 0) := fun l hl => by rw [hc l hl, star_star]
  have hcons : ∀ l, l ≤ L → f' l 0 = star (g' l 0) := by
    intro l hl
    simp only [hf', hg', Nat.cast_zero, zero_add, zero_sub, abs_neg]
    split
    · have := ext_symm g f l (hc' l hl) s
      rw [this, star_mul, star_pow, star_star, star_neg, star_one]
      have e1 : ((-1 : K)) ^ s.natAbs = 1 := by
        have := even_sign (K := K) 0 s he
        simpa using this
      rw [e1, mul_one]
    · simp
  refine ⟨a, b, f', g', h1, h2, h3, hcons, ?_⟩
  intro l k hl hk
  have key : ∀ (F G F' G' : Nat → Nat → K) (t : Int), Even t → F l 0 = star (G l 0) →
      (∀ m : Nat, F' l m = if |(m : Int) + t| ≤ (l : Int) then extended F G l (m + t) else 0) →
      (∀ m : Nat, G' l m = if |(m : Int) - t| ≤ (l : Int) then extended G F l (m - t) else 0) →
      extended F' G' l k = if |k + t| ≤ (l : Int) then extended F G l (k + t) else 0 := by
    intro F G F' G' t ht hFG hF' hG'
    rcases lt_or_ge k 0 with hneg | hpos
    · obtain ⟨n, rfl⟩ : ∃ n : Nat, k = -(n : Int) := ⟨k.natAbs, by omega⟩
      conv_lhs => unfold extended
      rw [if_neg (by omega)]
      have en : (-(n : Int)).natAbs = n := by omega
      rw [en, hG' n]
      have e1 : -(n : Int) + t = -((n : Int) - t) := by ring
      rw [e1, abs_neg]
      split
      · rw [ext_symm F G l hFG ((n : Int) - t)]
        have hsgn : ((-1 : K)) ^ ((n : Int) - t).natAbs = (-1) ^ n := by
          have := even_sign (K := K) (n : Int) (-t) ht.neg
          rw [← sub_eq_add_neg] at this
          have hn := natAbs_pow (K := K) (n : Int)
          simp only [Int.natAbs_natCast] at this hn
          calc ((-1 : K)) ^ ((n : Int) - t).natAbs
              = ((-1) ^ n * (-1) ^ n) * (-1) ^ ((n : Int) - t).natAbs := by rw [hn, one_mul]
            _ = (-1) ^ n * ((-1) ^ n * (-1) ^ ((n : Int) - t).natAbs) := by ring
            _ = (-1) ^ n := by rw [this, mul_one]
        rw [hsgn]
      · simp
    · obtain ⟨n, rfl⟩ := Int.eq_ofNat_of_zero_le hpos
      conv_lhs => unfold extended
      rw [if_pos (by omega)]
      have en : ((n : Int)).toNat = n := by omega
      rw [en, hF' n]
  constructor
  · exact key f g f' g' s he (hc l hl) (fun _ => rfl) (fun _ => rfl)
  · have := key g f g' f' (-s) he.neg (hc' l hl)
      (fun m => by simp only [hg']; rw [← sub_eq_add_neg])
      (fun m => by simp only [hf']; rw [sub_neg_eq_add])
    rw [← sub_eq_add_neg] at this
    exact this

/-- **C21 (shifting back).** An even shift followed by the opposite one restores every mode that
was not pushed beyond `|m| ≤ l`, and sets the others to zero. -/
theorem C21_shift_back (L : Nat) (m2 p2 : List K) (f g : Nat → Nat → K)
    (hf : Represents L L m2 f) (hg : Represents L L p2 g) (s : Int) (hs : s ≤ L) (hs' : -s ≤ L)
    (he : Even s) (hc : ∀ l, l ≤ L → f l 0 = star (g l 0)) :
    ∃ a b a' b', shiftBlm m2 p2 s = .ok (a, b) ∧ shiftBlm a b (-s) = .ok (a', b') ∧
      Represents L L a' (fun l m => if |(m : Int) - s| ≤ (l : Int) then f l m else 0) ∧
      Represents L L b' (fun l m => if |(m : Int) + s| ≤ (l : Int) then g l m else 0) := by
  obtain ⟨a, b, f', g', h1, h2, h3, h4, h5⟩ := C21_shift_even L m2 p2 f g hf hg s hs he hc
  obtain ⟨a', b', i1, i2, i3⟩ := C21_shift_modes L a b f' g' h2 h3 (-s) (by omega)
  refine ⟨a, b, a', b', h1, i1, represents_congr i2 ?_, represents_congr i3 ?_⟩
  · intro m l hm hml hl
    rw [← sub_eq_add_neg]
    split
    · rename_i hin
      rw [(h5 l _ hl hin).1, sub_add_cancel, if_pos (by rw [abs_of_nonneg (by omega)]; omega)]
      unfold extended
      rw [if_pos (by omega)]
      simp
    · rfl
  · intro m l hm hml hl
    rw [sub_neg_eq_add]
    split
    · rename_i hin
      rw [(h5 l _ hl hin).2, add_sub_cancel_right, if_pos (by rw [abs_of_nonneg (by omega)]; omega)]
      unfold extended
      rw [if_pos (by omega)]
      simp
    · rfl

end Shift

/-- The case of the unit test `test_shift_blm_s2a4`, with integers (lmax = 4). -/
example : shiftBlm [0, 0, 0, 0, 0, 0, 0, 0, 0, 1, 1, (7 : Int), 0, 0, 0] (List.replicate 15 0) 4
    = .ok (List.replicate 15 0, [0, 0, 0, 0, 0, 0, 0, 0, 0, 1, 1, 7, 0, 0, 0]) := by decide +kernel

end Verif.Props
