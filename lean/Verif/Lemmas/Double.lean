import Verif.Model.Double
import Mathlib.Tactic.Linarith
import Mathlib.Tactic.Positivity
import Mathlib.Tactic.NormNum
import Mathlib.Tactic.Ring
import Mathlib.Tactic.FieldSimp

/-!
# Lemmas: rounding to double precision
-/

namespace Verif.Double

theorem nearEven_close (x : ℚ) : |(nearEven x : ℚ) - x| ≤ 1 / 2 := by
  have h1 := Int.floor_le x
  have h2 := Int.lt_floor_add_one x
  unfold nearEven
  dsimp only
  rw [abs_le]
  split
  · constructor <;> linarith
  · split
    · push_cast
      constructor <;> linarith
    · split <;> push_cast <;> constructor <;> linarith

theorem nearEven_int (n : ℤ) : nearEven n = n := by
  unfold nearEven
  simp

/-- Nothing that is an integer is nearer. -/
theorem nearEven_best (x : ℚ) (n : ℤ) : |(nearEven x : ℚ) - x| ≤ |(n : ℚ) - x| := by
  by_cases h : n = nearEven x
  · rw [h]
  have h1 := nearEven_close x
  have h2 : (1 : ℚ) ≤ |(n : ℚ) - nearEven x| := by
    have : (1 : ℤ) ≤ |n - nearEven x| := Int.one_le_abs (sub_ne_zero.2 h)
    exact_mod_cast this
  have h3 := abs_sub_abs_le_abs_sub ((n : ℚ) - nearEven x) (x - nearEven x)
  have h4 : |x - (nearEven x : ℚ)| ≤ 1 / 2 := by rw [abs_sub_comm]; exact h1
  rw [sub_sub_sub_cancel_right] at h3
  linarith

theorem two_zpow_pos (e : ℤ) : (0 : ℚ) < 2 ^ e := by positivity

theorem low (x : ℚ) (hx : x ≠ 0) : (2 : ℚ) ^ (lastBit x + 52) ≤ |x| := by
  have := Int.zpow_log_le_self (b := 2) (r := |x|) (by norm_num) (abs_pos.2 hx)
  unfold lastBit
  rw [sub_add_cancel]
  exact_mod_cast this

theorem high (x : ℚ) : |x| < (2 : ℚ) ^ (lastBit x + 53) := by
  have := Int.lt_zpow_succ_log_self (b := 2) (by norm_num) |x|
  unfold lastBit
  rw [show Int.log 2 |x| - 52 + 53 = Int.log 2 |x| + 1 by ring]
  exact_mod_cast this

theorem lastBit_unique {x : ℚ} {e : ℤ} (h1 : (2 : ℚ) ^ (e + 52) ≤ |x|) (h2 : |x| < 2 ^ (e + 53)) :
    lastBit x = e := by
  have hx : x ≠ 0 := by
    rintro rfl
    have := two_zpow_pos (e + 52)
    simp at h1
    linarith
  have a := lt_of_le_of_lt (low x hx) h2
  have b := lt_of_le_of_lt h1 (high x)
  rw [zpow_lt_zpow_iff_right₀ (by norm_num)] at a b
  omega

theorem fl_zero : fl 0 = 0 := by
  unfold fl
  rw [zero_div]
  have := nearEven_int 0
  push_cast at this
  rw [this]
  simp

/-- The error in units of the last bit. -/
theorem fl_half (x : ℚ) : |fl x - x| ≤ 2 ^ lastBit x / 2 := by
  have hp := two_zpow_pos (lastBit x)
  have h := nearEven_close (x / 2 ^ lastBit x)
  have e : fl x - x = ((nearEven (x / 2 ^ lastBit x) : ℚ) - x / 2 ^ lastBit x) * 2 ^ lastBit x := by
    unfold fl
    field_simp
  rw [e, abs_mul, abs_of_pos hp]
  nlinarith

theorem pow52 (e : ℤ) : (2 : ℚ) ^ (e + 52) = 2 ^ 52 * 2 ^ e := by
  rw [zpow_add₀ (by norm_num), mul_comm]
  norm_cast

theorem pow53 (e : ℤ) : (2 : ℚ) ^ (e + 53) = 2 ^ 53 * 2 ^ e := by
  rw [zpow_add₀ (by norm_num), mul_comm]
  norm_cast

/-- The relative error. -/
theorem fl_err (x : ℚ) : |fl x - x| ≤ u * |x| := by
  by_cases hx : x = 0
  · subst hx
    rw [fl_zero]
    simp
  have h1 := fl_half x
  have h2 := low x hx
  rw [pow52] at h2
  unfold u
  linarith

theorem mantissa_le (x : ℚ) : |nearEven (x / 2 ^ lastBit x)| ≤ 2 ^ 53 := by
  have hp := two_zpow_pos (lastBit x)
  have h1 := nearEven_close (x / 2 ^ lastBit x)
  have h2 := high x
  rw [pow53] at h2
  have h3 : |x / 2 ^ lastBit x| < 2 ^ 53 := by
    rw [abs_div, abs_of_pos hp, div_lt_iff₀ hp]
    exact h2
  have h4 := abs_sub_abs_le_abs_sub (nearEven (x / 2 ^ lastBit x) : ℚ) (x / 2 ^ lastBit x)
  have h5 : |(nearEven (x / 2 ^ lastBit x) : ℚ)| < 2 ^ 53 + 1 := by linarith
  have h6 : |nearEven (x / 2 ^ lastBit x)| < 2 ^ 53 + 1 := by exact_mod_cast h5
  omega

theorem fl_double (x : ℚ) : IsDouble (fl x) := ⟨_, _, mantissa_le x, rfl⟩

theorem fl_nearest (x : ℚ) : Nearest x (fl x) := by
  refine ⟨fl_double x, ?_⟩
  rintro z ⟨m, e, hm, rfl⟩
  have hp := two_zpow_pos (lastBit x)
  by_cases hx : x = 0
  · subst hx
    rw [fl_zero, sub_zero, abs_zero]
    exact abs_nonneg _
  by_cases he : lastBit x ≤ e
  · -- a multiple of the last bit
    obtain ⟨k, hk⟩ := Int.le.dest he
    have hz : (m : ℚ) * 2 ^ e = ((m * 2 ^ k : ℤ) : ℚ) * 2 ^ lastBit x := by
      rw [← hk, zpow_add₀ (by norm_num)]
      push_cast
      rw [zpow_natCast]
      ring
    have h := nearEven_best (x / 2 ^ lastBit x) (m * 2 ^ k)
    have e1 : fl x - x = ((nearEven (x / 2 ^ lastBit x) : ℚ) - x / 2 ^ lastBit x) * 2 ^ lastBit x := by
      unfold fl
      field_simp
    have e2 : (m : ℚ) * 2 ^ e - x = (((m * 2 ^ k : ℤ) : ℚ) - x / 2 ^ lastBit x) * 2 ^ lastBit x := by
      rw [hz]
      field_simp
    rw [e1, e2, abs_mul, abs_mul]
    exact mul_le_mul_of_nonneg_right h (abs_nonneg _)
  · -- a number of smaller exponent is at most the power of two below
    have hle : |(m : ℚ) * 2 ^ e| ≤ 2 ^ (lastBit x + 52) := by
      rw [abs_mul, abs_of_pos (two_zpow_pos e)]
      have h1 : |(m : ℚ)| ≤ 2 ^ 53 := by exact_mod_cast hm
      have h2 : (2 : ℚ) ^ (e + 53) ≤ 2 ^ (lastBit x + 52) :=
        zpow_le_zpow_right₀ (by norm_num) (by omega)
      rw [pow53] at h2
      exact (mul_le_mul_of_nonneg_right h1 (two_zpow_pos e).le).trans h2
    have hlo := low x hx
    -- the power of two is a multiple of the last bit
    have h := nearEven_best (x / 2 ^ lastBit x) (if 0 ≤ x then 2 ^ 52 else -2 ^ 52)
    have e1 : fl x - x = ((nearEven (x / 2 ^ lastBit x) : ℚ) - x / 2 ^ lastBit x) * 2 ^ lastBit x := by
      unfold fl
      field_simp
    rw [e1, abs_mul, abs_of_pos hp]
    refine (mul_le_mul_of_nonneg_right h hp.le).trans ?_
    rw [← abs_of_pos hp, ← abs_mul, abs_of_pos hp, sub_mul, div_mul_cancel₀ _ hp.ne']
    rw [pow52] at hle hlo
    have h3 := abs_le.1 hle
    split
    · rename_i h0
      rw [abs_of_nonneg h0] at hlo
      push_cast
      rw [abs_of_nonpos (by linarith), abs_of_nonpos (by linarith)]
      linarith
    · rename_i h0
      rw [abs_of_neg (not_le.1 h0)] at hlo
      push_cast
      rw [abs_of_nonneg (by linarith), abs_of_nonneg (by linarith)]
      linarith

theorem fl_of_double {x : ℚ} (h : IsDouble x) : fl x = x := by
  have := (fl_nearest x).2 x h
  rw [sub_self, abs_zero] at this
  exact sub_eq_zero.1 (abs_nonpos_iff.1 this)

theorem fl_fl (x : ℚ) : fl (fl x) = fl x := fl_of_double (fl_double x)

theorem double_int {n : ℤ} (h : |n| ≤ 2 ^ 53) : IsDouble n := ⟨n, 0, h, by simp⟩

theorem fl_int {n : ℤ} (h : |n| ≤ 2 ^ 53) : fl n = n := fl_of_double (double_int h)

theorem fl_mono {x y : ℚ} (h : x ≤ y) : fl x ≤ fl y := by
  rcases h.eq_or_lt with rfl | h
  · rfl
  by_contra hc
  rw [not_le] at hc
  have h1 := (fl_nearest x).2 _ (fl_double y)
  have h2 := (fl_nearest y).2 _ (fl_double x)
  rcases abs_cases (fl x - x) with ⟨a, _⟩ | ⟨a, _⟩ <;> rcases abs_cases (fl y - x) with ⟨b, _⟩ | ⟨b, _⟩ <;>
    rcases abs_cases (fl y - y) with ⟨c, _⟩ | ⟨c, _⟩ <;>
    rcases abs_cases (fl x - y) with ⟨d, _⟩ | ⟨d, _⟩ <;> rw [a, b] at h1 <;> rw [c, d] at h2 <;> linarith

theorem fl_nonneg {x : ℚ} (h : 0 ≤ x) : 0 ≤ fl x := by
  have := fl_mono h
  rwa [fl_zero] at this

/-- Rounding with a known exponent. -/
theorem fl_eq {x : ℚ} {e : ℤ} (h1 : (2 : ℚ) ^ (e + 52) ≤ |x|) (h2 : |x| < 2 ^ (e + 53)) :
    fl x = nearEven (x / 2 ^ e) * 2 ^ e := by
  unfold fl
  rw [lastBit_unique h1 h2]

theorem u_pos : 0 < u := by
  unfold u
  norm_num

/-! ## quotients of integers -/

theorem quot_cases (a c : ℤ) (ha : |a| < 2 ^ 53) (hc : 0 < c) :
    fl ((a : ℚ) / c) = a / c ∨ ∃ q : ℤ, (q : ℚ) < (a : ℚ) / c ∧ (a : ℚ) / c < q + 1 ∧
      (q : ℚ) < fl ((a : ℚ) / c) ∧ fl ((a : ℚ) / c) < q + 1 := by
  have hc' : (0 : ℚ) < c := by exact_mod_cast hc
  have hd := Int.emod_add_mul_ediv a c
  have h0 := Int.emod_nonneg a hc.ne'
  have h1 := Int.emod_lt_of_pos a hc
  have hx : (a : ℚ) / c = (a / c : ℤ) + ((a % c : ℤ) : ℚ) / c := by
    have : (a : ℚ) = ((a % c : ℤ) : ℚ) + c * (a / c : ℤ) := by exact_mod_cast hd.symm
    rw [this, add_div, mul_div_cancel_left₀ _ hc'.ne']
    have e : (((a % c : ℤ) : ℚ) + c * (a / c : ℤ)) = (a : ℚ) := this.symm
    ring
  rcases h0.eq_or_lt with h | h
  · left
    rw [hx, ← h]
    simp only [Int.cast_zero, zero_div, add_zero]
    apply fl_int
    rw [← h, zero_add] at hd
    have : |a / c| ≤ |a| := by
      conv_rhs => rw [← hd]
      rw [abs_mul, abs_of_pos hc]
      nlinarith [abs_nonneg (a / c)]
    exact this.trans ha.le
  · right
    refine ⟨a / c, ?_⟩
    have hr1 : (1 : ℚ) / c ≤ ((a % c : ℤ) : ℚ) / c := by
      apply div_le_div_of_nonneg_right _ hc'.le
      exact_mod_cast h
    have hr2 : ((a % c : ℤ) : ℚ) / c ≤ 1 - 1 / c := by
      rw [le_sub_iff_add_le, ← add_div, div_le_one hc']
      exact_mod_cast h1
    have hpos : (0 : ℚ) < 1 / c := by positivity
    have he : |fl ((a : ℚ) / c) - a / c| < 1 / c := by
      refine (fl_err _).trans_lt ?_
      unfold u
      rw [abs_div, abs_of_pos hc', div_mul_div_comm, one_mul, div_lt_div_iff₀ (by positivity) hc']
      have : |(a : ℚ)| < 2 ^ 53 := by exact_mod_cast ha
      nlinarith
    rw [abs_lt] at he
    refine ⟨?_, ?_, ?_, ?_⟩ <;> linarith [he.1, he.2]

theorem ceil_fl (a c : ℤ) (ha : |a| < 2 ^ 53) (hc : 0 < c) : ⌈fl ((a : ℚ) / c)⌉ = ⌈(a : ℚ) / c⌉ := by
  rcases quot_cases a c ha hc with h | ⟨q, h1, h2, h3, h4⟩
  · rw [h]
  · have e1 : ⌈(a : ℚ) / c⌉ = q + 1 := by
      rw [Int.ceil_eq_iff]
      push_cast
      constructor <;> linarith
    rw [e1, Int.ceil_eq_iff]
    push_cast
    constructor <;> linarith

theorem ceilDiv_eq (a c : ℤ) (hc : 0 < c) : ceilDiv a c = ⌈(a : ℚ) / c⌉ := by
  unfold ceilDiv
  rw [Int.fdiv_eq_ediv_of_nonneg _ hc.le, eq_comm, Int.ceil_eq_iff]
  have hc' : (0 : ℚ) < c := by exact_mod_cast hc
  have h0 := Int.emod_nonneg (-a) hc.ne'
  have h1 := Int.emod_lt_of_pos (-a) hc
  have hd := Int.emod_add_mul_ediv (-a) c
  constructor
  · rw [lt_div_iff₀ hc']
    have : (-(-a / c) - 1) * c < a := by nlinarith
    exact_mod_cast this
  · rw [div_le_iff₀ hc']
    have : a ≤ -(-a / c) * c := by nlinarith
    exact_mod_cast this

theorem ceilDivF_eq {a c : ℤ} (ha : |a| < 2 ^ 53) (hc : 0 < c) (hc' : c ≤ 2 ^ 53) :
    ceilDivF a c = ceilDiv a c := by
  unfold ceilDivF
  rw [fl_int ha.le, fl_int (by rw [abs_of_pos hc]; exact hc'), ceil_fl a c ha hc, ceilDiv_eq a c hc]

/-! ## truncation -/

theorem pyInt_nonneg {x : ℚ} (h : 0 ≤ x) : pyInt x = ⌊x⌋ := by
  unfold pyInt
  rw [if_pos h]
  rfl

theorem pyInt_int (n : ℤ) : pyInt n = n := by
  unfold pyInt
  split
  · show ⌊(n : ℚ)⌋ = n
    exact Int.floor_intCast n
  · have : (-(n : ℚ)) = ((-n : ℤ) : ℚ) := by push_cast; rfl
    rw [this]
    show -⌊((-n : ℤ) : ℚ)⌋ = n
    rw [Int.floor_intCast]
    omega

theorem floor_fl {x : ℚ} (h0 : 0 ≤ x) (h : x < 2 ^ 53) : ⌊x⌋ ≤ ⌊fl x⌋ ∧ ⌊fl x⌋ ≤ ⌊x⌋ + 1 := by
  have hf : 0 ≤ ⌊x⌋ := Int.floor_nonneg.2 h0
  have hf' : ⌊x⌋ < 2 ^ 53 := by
    rw [Int.floor_lt]
    exact_mod_cast h
  have h1 : fl (⌊x⌋ : ℤ) = ⌊x⌋ := fl_int (by rw [abs_of_nonneg hf]; exact hf'.le)
  have h2 : fl ((⌊x⌋ + 1 : ℤ) : ℚ) = (⌊x⌋ + 1 : ℤ) := fl_int (by rw [abs_of_nonneg (by omega)]; omega)
  constructor
  · rw [Int.le_floor, ← h1]
    exact fl_mono (Int.floor_le x)
  · have : fl x ≤ (⌊x⌋ + 1 : ℤ) := by
      rw [← h2]
      apply fl_mono
      push_cast
      exact (Int.lt_floor_add_one x).le
    have h3 := Int.floor_le_floor this
    rwa [Int.floor_intCast] at h3

/-! ## sums -/

theorem sum_err (s : Sum) : |s.eval - s.terms.sum| ≤
    ((1 + u) ^ (s.terms.length - 1) - 1) * (s.terms.map (|·|)).sum := by
  have hu := u_pos
  have hpos : ∀ s : Sum, 0 < s.terms.length := by
    intro s
    induction s with
    | one x => simp [Sum.terms]
    | add a b ha hb => simp [Sum.terms]; omega
  have habs : ∀ l : List ℚ, |l.sum| ≤ (l.map (|·|)).sum := by
    intro l
    induction l with
    | nil => simp
    | cons x l ih =>
      simp only [List.sum_cons, List.map_cons]
      exact (abs_add_le _ _).trans (by linarith)
  have hnn : ∀ l : List ℚ, 0 ≤ (l.map (|·|)).sum := fun l => (abs_nonneg _).trans (habs l)
  induction s with
  | one x => simp [Sum.eval, Sum.terms]
  | add a b ha hb =>
    have pa := hpos a
    have pb := hpos b
    have hA := hnn a.terms
    have hB := hnn b.terms
    have hSa := habs a.terms
    have hSb := habs b.terms
    simp only [Sum.eval, Sum.terms, List.sum_append, List.map_append, List.length_append]
    generalize (a.terms.map (|·|)).sum = A at *
    generalize (b.terms.map (|·|)).sum = B at *
    generalize a.terms.sum = sa at *
    generalize b.terms.sum = sb at *
    generalize a.terms.length = na at *
    generalize b.terms.length = nb at *
    have hf := fl_err (a.eval + b.eval)
    have e1 : |a.eval| ≤ (1 + u) ^ (na - 1) * A := by
      have := abs_sub_abs_le_abs_sub a.eval sa
      linarith
    have e2 : |b.eval| ≤ (1 + u) ^ (nb - 1) * B := by
      have := abs_sub_abs_le_abs_sub b.eval sb
      linarith
    have e3 := abs_add_le a.eval b.eval
    have e4 : |fl (a.eval + b.eval) - (sa + sb)| ≤ |fl (a.eval + b.eval) - (a.eval + b.eval)| +
        (|a.eval - sa| + |b.eval - sb|) := by
      have h1 := abs_add_le (fl (a.eval + b.eval) - (a.eval + b.eval)) ((a.eval - sa) + (b.eval - sb))
      have h2 := abs_add_le (a.eval - sa) (b.eval - sb)
      have : fl (a.eval + b.eval) - (sa + sb) =
        (fl (a.eval + b.eval) - (a.eval + b.eval)) + ((a.eval - sa) + (b.eval - sb)) := by ring
      rw [this]
      linarith
    have p1 : (1 + u) ^ (na - 1) * (1 + u) ≤ (1 + u) ^ (na + nb - 1) := by
      rw [← pow_succ]
      exact pow_le_pow_right₀ (by linarith) (by omega)
    have p2 : (1 + u) ^ (nb - 1) * (1 + u) ≤ (1 + u) ^ (na + nb - 1) := by
      rw [← pow_succ]
      exact pow_le_pow_right₀ (by linarith) (by omega)
    have q1 := mul_le_mul_of_nonneg_right p1 hA
    have q2 := mul_le_mul_of_nonneg_right p2 hB
    have hf2 : u * |a.eval + b.eval| ≤ u * ((1 + u) ^ (na - 1) * A + (1 + u) ^ (nb - 1) * B) :=
      mul_le_mul_of_nonneg_left (by linarith) hu.le
    nlinarith

/-- Integers are added without error as long as all of them together are at most 2^53. -/
theorem sum_int (s : Sum) (h : ∀ x ∈ s.terms, ∃ n : ℤ, x = n)
    (hb : (s.terms.map (|·|)).sum ≤ 2 ^ 53) : s.eval = s.terms.sum ∧ ∃ n : ℤ, s.eval = n := by
  have habs : ∀ l : List ℚ, |l.sum| ≤ (l.map (|·|)).sum := by
    intro l
    induction l with
    | nil => simp
    | cons x l ih =>
      simp only [List.sum_cons, List.map_cons]
      exact (abs_add_le _ _).trans (by linarith)
  have hnn : ∀ l : List ℚ, 0 ≤ (l.map (|·|)).sum := fun l => (abs_nonneg _).trans (habs l)
  induction s with
  | one x =>
    obtain ⟨n, hn⟩ := h x (by simp [Sum.terms])
    exact ⟨by simp [Sum.eval, Sum.terms], n, hn⟩
  | add a b ha hb' =>
    simp only [Sum.terms, List.map_append, List.sum_append, List.mem_append] at h hb
    obtain ⟨h1, n, hn⟩ := ha (fun x hx => h x (.inl hx)) (by linarith [hnn b.terms])
    obtain ⟨h2, k, hk⟩ := hb' (fun x hx => h x (.inr hx)) (by linarith [hnn a.terms])
    have hs : fl (a.eval + b.eval) = a.eval + b.eval := by
      have e : a.eval + b.eval = ((n + k : ℤ) : ℚ) := by rw [hn, hk]; push_cast; rfl
      rw [e]
      apply fl_int
      have : |((n + k : ℤ) : ℚ)| ≤ 2 ^ 53 := by
        rw [← e, h1, h2]
        have := abs_add_le a.terms.sum b.terms.sum
        linarith [habs a.terms, habs b.terms]
      exact_mod_cast this
    refine ⟨?_, n + k, ?_⟩
    · simp only [Sum.eval, Sum.terms, List.sum_append]
      rw [hs, h1, h2]
    · simp only [Sum.eval]
      rw [hs, hn, hk]
      push_cast
      rfl

end Verif.Double
