import Verif.Spec.Solve
import Verif.Props.MapMaking
import Verif.Props.MpiSetup
import Mathlib.LinearAlgebra.Matrix.DotProduct
import Mathlib.Topology.MetricSpace.Bounded
import Mathlib.Topology.Algebra.Module.FiniteDimension
import Mathlib.Analysis.Normed.Group.Basic

/-!
# Property C122: what `solve_for_map` returns on every process
-/

noncomputable section

namespace Verif.Props

open Verif.MapMaking Verif.Solve Verif.MpiSetup Verif.Spec

/-- The matrix of a pixel seen under three angles is positive. -/
theorem proj_pos (os : List Obs) (hu : ∀ o ∈ os, o.c ^ 2 + o.s ^ 2 = 1) (p : Nat)
    (h3 : ThreeAngles (here p os)) (v : Fin 3 → ℝ) (hv : v ≠ 0) :
    0 < dotProduct v ((projAt os p).mulVec v) := by
  have hunit' : ∀ o ∈ here p os, o.c ^ 2 + o.s ^ 2 = 1 := fun o ho =>
    hu o (List.mem_filter.1 ho).1
  obtain ⟨o1, m1, o2, m2, o3, m3, h12, h13, h23⟩ := h3
  have hq := quad (here p os) v
  unfold projAt
  rw [hq]
  have hnn : 0 ≤ ((here p os).map fun o => (o.w 0 * v 0 + o.w 1 * v 1 + o.w 2 * v 2) ^ 2).sum := by
    apply List.sum_nonneg
    intro x hx
    obtain ⟨o, _, rfl⟩ := List.mem_map.1 hx
    positivity
  refine lt_of_le_of_ne hnn fun h0 => hv ?_
  have hall := sum_sq_zero (here p os) (fun o => o.w 0 * v 0 + o.w 1 * v 1 + o.w 2 * v 2) h0.symm
  have e : ∀ o ∈ here p os, v 0 + o.c * v 1 + o.s * v 2 = 0 := by
    intro o ho
    have := hall o ho
    simpa [Obs.w] using this
  obtain ⟨a, b, c⟩ := line_circle (hunit' o1 m1) (hunit' o2 m2) (hunit' o3 m3) h12 h13 h23
    (e o1 m1) (e o2 m2) (e o3 m3)
  funext i
  fin_cases i <;> assumption

/-- Maps that hold observations, added. -/
theorem holds_add {nside : Nat} {a b : Maps} {os os' : List Obs} (ha : Holds nside a os)
    (hb : Holds nside b os') : Holds nside (addArrays a b) (os ++ os') := by
  refine ⟨by simp [addArrays, ha.npix, hb.npix], fun p c hc => ?_⟩
  unfold addArrays at hc
  rw [List.getElem?_zipWith] at hc
  cases h1 : a[p]? with
  | none => rw [h1] at hc; cases hc
  | some x =>
    cases h2 : b[p]? with
    | none => rw [h1, h2] at hc; cases hc
    | some y =>
      rw [h1, h2] at hc
      obtain rfl := Option.some.inj hc
      obtain ⟨v1, p1⟩ := ha.cells p x h1
      obtain ⟨v2, p2⟩ := hb.cells p y h2
      constructor
      · rw [add_vec, v1, v2]; simp [vecAt, here]
      · rw [add_proj, sym_add, p1, p2]; simp [projAt, here]

theorem holds_fold {nside : Nat} (maps : Nat → Maps) (os : Nat → List Obs) :
    ∀ (l : List Nat) (acc : Maps) (o : List Obs), Holds nside acc o →
      (∀ q ∈ l, Holds nside (maps q) (os q)) →
      Holds nside (l.foldl (fun acc q => addArrays acc (maps q)) acc) (o ++ l.flatMap os) := by
  intro l
  induction l with
  | nil => intro acc o h _; simpa using h
  | cons q l ih =>
    intro acc o h hl
    have := ih _ _ (holds_add h (hl q (List.mem_cons_self ..)))
      (fun x hx => hl x (List.mem_cons_of_mem _ hx))
    rw [List.flatMap_cons, ← List.append_assoc]
    exact this

/-- The last part on the root. -/
theorem finish_solved (q : QExt) (hs : SolveOk q) (cond : (Fin 6 → ℝ) → Option ℝ)
    (hcond : CondOk cond) (nside : Nat) (m : Maps) (os : List Obs) (h : Holds nside m os)
    (hu : ∀ o ∈ os, o.c ^ 2 + o.s ^ 2 = 1) (fill : ℝ) (returnProj : Bool) :
    ∃ r, finish q cond fill returnProj 0 (some m) = .ok r ∧ Solved nside os fill returnProj r := by
  refine ⟨_, rfl, ⟨_, rfl, by simp [solveForMap, h.npix], fun p X hX => ?_⟩,
    ⟨_, rfl, by simp [condMap, h.npix], fun p k hk => ?_⟩, ?_⟩
  · simp only [solveForMap, List.getElem?_map, Option.map_eq_some_iff] at hX
    obtain ⟨c, hc, rfl⟩ := hX
    obtain ⟨c1, c2⟩ := h.cells p c hc
    constructor
    · intro h3
      have hd := (C88_regular h hu hc).2 h3
      rw [← c1, ← c2]
      exact hs.regular _ _ _ (hits_ne c2 hd) hd
    · intro he
      apply hs.empty
      rw [C88_hits h hc, he]
      simp
  · simp only [condMap, List.getElem?_map, Option.map_eq_some_iff] at hk
    obtain ⟨c, hc, rfl⟩ := hk
    obtain ⟨c1, c2⟩ := h.cells p c hc
    constructor
    · intro h3
      obtain ⟨k, hk, hk'⟩ := hcond.positive c.proj (by rw [c2]; exact proj_pos os hu p h3)
      rw [hk]
      rw [c2] at hk'
      exact hk'
    · intro h3
      have hd : (sym c.proj).det = 0 := by
        by_contra hd
        exact h3 ((C88_regular h hu hc).1 hd)
      rw [hcond.singular _ hd]
      rfl
  · cases returnProj with
    | false => simp
    | true =>
      simp only [if_true]
      refine ⟨_, rfl, by simp [h.npix], fun p A hA => ?_⟩
      simp only [List.getElem?_map, Option.map_eq_some_iff] at hA
      obtain ⟨c, hc, rfl⟩ := hA
      exact ⟨(h.cells p c hc).2, C88_hits h hc⟩

/-- **C122.** With MPI, the root returns maps, condition numbers and matrices of all observations of
all processes; the others return `None` for each of them. -/
theorem C122_ranks (q : QExt) (hs : SolveOk q) (cond : (Fin 6 → ℝ) → Option ℝ)
    (hcond : CondOk cond) (s : Surroundings) (h : Launched s) (hi : s.importable = true)
    (root : Nat) (l : List Nat) (nside : Nat) (maps : Nat → Maps) (os : Nat → List Obs)
    (hm : ∀ p ∈ root :: l, Holds nside (maps p) (os p))
    (hu : ∀ p ∈ root :: l, ∀ o ∈ os p, o.c ^ 2 + o.s ^ 2 = 1) (fill : ℝ) (returnProj : Bool) :
    (∃ r, solve q cond (setup s true (some (.group (root :: l)))) maps fill returnProj root = .ok r ∧
      Solved nside ((root :: l).flatMap os) fill returnProj r) ∧
    ∀ p ∈ l, p ≠ root →
      solve q cond (setup s true (some (.group (root :: l)))) maps fill returnProj p =
        .ok ⟨none, none, if returnProj then some none else none⟩ := by
  rw [setup_on s _ h hi]
  have h0 : (root :: l).idxOf root = 0 := (rank_root root l root).2 rfl
  constructor
  · have hH := holds_fold maps os l (maps root) (os root) (hm root (List.mem_cons_self ..))
      (fun p hp => hm p (List.mem_cons_of_mem _ hp))
    obtain ⟨r, h1, h2⟩ := finish_solved q hs cond hcond nside _ _ hH (by
      intro o ho
      rw [← List.flatMap_cons] at ho
      obtain ⟨p, hp, ho⟩ := List.mem_flatMap.1 ho
      exact hu p hp o ho) fill returnProj
    refine ⟨r, ?_, by rw [List.flatMap_cons]; exact h2⟩
    rw [← h1]
    simp only [solve, reduceArray, pickComm, Comm.truthy, if_true, getRank, reduceAll, mpiRank, h0,
      bind, Except.bind, pure, Except.pure]
  · intro p _ hp
    have hr : (root :: l).idxOf p ≠ 0 := fun e => hp ((rank_root root l p).1 e)
    simp only [solve, reduceArray, pickComm, Comm.truthy, if_true, getRank, reduceAll, mpiRank,
      bind, Except.bind, pure, Except.pure, if_neg hr, finish, Option.map_none]

/-- **C122.** Without MPI every process returns the maps, condition numbers and matrices of its own
observations. -/
theorem C122_serial (q : QExt) (hs : SolveOk q) (cond : (Fin 6 → ℝ) → Option ℝ)
    (hcond : CondOk cond) (s : Surroundings) (mpi : Bool) (comm : Option Comm)
    (h : ¬ (Launched s ∧ mpi = true ∧ s.importable = true)) (nside : Nat) (maps : Nat → Maps)
    (os : List Obs) (p : Nat) (hm : Holds nside (maps p) os)
    (hu : ∀ o ∈ os, o.c ^ 2 + o.s ^ 2 = 1) (fill : ℝ) (returnProj : Bool) :
    ∃ r, solve q cond (setup s mpi comm) maps fill returnProj p = .ok r ∧
      Solved nside os fill returnProj r := by
  have : setup s mpi comm = none := by
    by_contra hn
    exact h ((C120_used s mpi comm).1 (Option.ne_none_iff_exists'.1 hn))
  rw [this]
  exact finish_solved q hs cond hcond nside _ _ hm hu fill returnProj

theorem form_eq (l : List Obs) (v : Fin 3 → ℝ) :
    (l.map fun o => (o.w 0 * v 0 + o.w 1 * v 1 + o.w 2 * v 2) ^ 2).sum =
      (l.length : ℝ) * v 0 ^ 2 + (l.map fun o => o.c ^ 2).sum * v 1 ^ 2 +
      (l.map fun o => o.s ^ 2).sum * v 2 ^ 2 + 2 * (l.map (·.c)).sum * v 0 * v 1 +
      2 * (l.map (·.s)).sum * v 0 * v 2 + 2 * (l.map fun o => o.c * o.s).sum * v 1 * v 2 := by
  induction l with
  | nil => simp
  | cons o l ih =>
    simp only [List.map_cons, List.sum_cons, ih, List.length_cons, Nat.cast_add, Nat.cast_one]
    simp only [Obs.w, Matrix.cons_val_zero, Matrix.cons_val_one, Matrix.cons_val]
    ring

theorem squares_sum (l : List Obs) (h : ∀ o ∈ l, o.c ^ 2 + o.s ^ 2 = 1) :
    (l.map fun o => o.c ^ 2).sum + (l.map fun o => o.s ^ 2).sum = (l.length : ℝ) := by
  induction l with
  | nil => simp
  | cons o l ih =>
    have h1 := ih fun o ho => h o (List.mem_cons_of_mem _ ho)
    have h2 := h o (List.mem_cons_self ..)
    simp only [List.map_cons, List.sum_cons, List.length_cons, Nat.cast_add, Nat.cast_one]
    linarith

theorem squares_diff (l : List Obs) :
    (l.map fun o => o.c ^ 2).sum - (l.map fun o => o.s ^ 2).sum =
      (l.map fun o => o.c ^ 2 - o.s ^ 2).sum := by
  induction l with
  | nil => simp
  | cons o l ih =>
    simp only [List.map_cons, List.sum_cons, ← ih]
    ring

/-- **C122.** No pixel has a condition number below two. -/
theorem C122_two (os : List Obs) (p : Nat) (hu : ∀ o ∈ os, o.c ^ 2 + o.s ^ 2 = 1) (k : ℝ)
    (hk : IsCond (projAt os p) k) : 2 ≤ k := by
  obtain ⟨lo, hi, h0, rfl, hl, hg⟩ := hk
  have hsq := squares_sum (here p os) (fun o ho => hu o (List.mem_filter.1 ho).1)
  have hval : ∀ v, dotProduct v ((projAt os p).mulVec v) = _ := fun v =>
    (quad (here p os) v).trans (form_eq (here p os) v)
  have g0 := hg.2 ⟨![1, 0, 0], by simp [dotProduct, Fin.sum_univ_three], rfl⟩
  have l1 := hl.2 ⟨![0, 1, 0], by simp [dotProduct, Fin.sum_univ_three], rfl⟩
  have l2 := hl.2 ⟨![0, 0, 1], by simp [dotProduct, Fin.sum_univ_three], rfl⟩
  rw [hval] at g0 l1 l2
  simp at g0 l1 l2
  rw [le_div_iff₀ h0]
  linarith

/-- **C122.** It is two where the angles are balanced: the sums of `cos`, `sin`, `cos sin` and
`cos² - sin²` vanish. -/
theorem C122_balanced (os : List Obs) (p : Nat) (hu : ∀ o ∈ os, o.c ^ 2 + o.s ^ 2 = 1)
    (h1 : ((here p os).map (·.c)).sum = 0)
    (h2 : ((here p os).map (·.s)).sum = 0) (h3 : ((here p os).map fun o => o.c * o.s).sum = 0)
    (h4 : ((here p os).map fun o => o.c ^ 2 - o.s ^ 2).sum = 0) (k : ℝ)
    (hk : IsCond (projAt os p) k) : k = 2 := by
  have hge := C122_two os p hu k hk
  obtain ⟨lo, hi, h0, rfl, hl, hg⟩ := hk
  have hsq := squares_sum (here p os) (fun o ho => hu o (List.mem_filter.1 ho).1)
  have hdf := squares_diff (here p os)
  rw [h4] at hdf
  have hval : ∀ v, dotProduct v ((projAt os p).mulVec v) = _ := fun v =>
    (quad (here p os) v).trans (form_eq (here p os) v)
  obtain ⟨v, hv, ev⟩ := hl.1
  obtain ⟨u, hu1, eu⟩ := hg.1
  rw [hval, h1, h2, h3] at ev eu
  simp only [dotProduct, Fin.sum_univ_three] at hv hu1
  have hn : (0 : ℝ) ≤ (here p os).length := Nat.cast_nonneg _
  have ecc : ((here p os).map fun o => o.c ^ 2).sum = ((here p os).length : ℝ) / 2 := by linarith
  have ess : ((here p os).map fun o => o.s ^ 2).sum = ((here p os).length : ℝ) / 2 := by linarith
  rw [ecc, ess] at ev eu
  refine le_antisymm ?_ hge
  rw [div_le_iff₀ h0]
  have a1 : hi ≤ (here p os).length := by
    rw [eu]
    have : (((here p os).length : ℝ)) = (here p os).length * (u 0 * u 0 + u 1 * u 1 + u 2 * u 2) := by
      rw [hu1, mul_one]
    have := mul_nonneg hn (sq_nonneg (u 1))
    have := mul_nonneg hn (sq_nonneg (u 2))
    nlinarith
  have a2 : ((here p os).length : ℝ) / 2 ≤ lo := by
    rw [ev]
    have : (((here p os).length : ℝ)) = (here p os).length * (v 0 * v 0 + v 1 * v 1 + v 2 * v 2) := by
      rw [hv, mul_one]
    have := mul_nonneg hn (sq_nonneg (v 0))
    nlinarith
  linarith

/-- There is such a function `cond`. -/
theorem cond_exists : ∃ cond, CondOk cond := by
  classical
  refine ⟨fun P => if h : ∃ k, IsCond (sym P) k then some h.choose else none, ?_, ?_⟩
  · intro P hd
    refine dif_neg ?_
    rintro ⟨k, lo, hi, h0, _, hl, _⟩
    obtain ⟨v, hv, hz⟩ := Matrix.exists_mulVec_eq_zero_iff.2 hd
    have hpos : 0 < dotProduct v v := by
      refine lt_of_le_of_ne ?_ fun e => hv (dotProduct_self_eq_zero.1 e.symm)
      exact Finset.sum_nonneg fun i _ => mul_self_nonneg _
    have : lo ≤ 0 := hl.2 ⟨(1 / Real.sqrt (dotProduct v v)) • v, by
      rw [smul_dotProduct, dotProduct_smul, smul_eq_mul, smul_eq_mul, ← mul_assoc,
        div_mul_div_comm, Real.mul_self_sqrt hpos.le]
      field_simp, by
      rw [Matrix.mulVec_smul, hz, smul_zero, dotProduct_zero]⟩
    linarith
  · intro P hp
    have hcont : Continuous fun v : Fin 3 → ℝ => dotProduct v ((sym P).mulVec v) := by
      unfold Matrix.mulVec dotProduct
      fun_prop
    have hc1 : Continuous fun v : Fin 3 → ℝ => dotProduct v v := by
      unfold dotProduct
      fun_prop
    have hK : IsCompact {v : Fin 3 → ℝ | dotProduct v v = 1} := by
      refine Metric.isCompact_of_isClosed_isBounded (isClosed_eq hc1 continuous_const) ?_
      refine (Metric.isBounded_closedBall (x := (0 : Fin 3 → ℝ)) (r := 1)).subset ?_
      intro v hv
      rw [Metric.mem_closedBall, dist_zero_right, pi_norm_le_iff_of_nonneg zero_le_one]
      intro i
      rw [Real.norm_eq_abs, ← sq_le_one_iff_abs_le_one]
      have : v i * v i ≤ dotProduct v v :=
        Finset.single_le_sum (f := fun i => v i * v i) (fun i _ => mul_self_nonneg _)
          (Finset.mem_univ i)
      rw [Set.mem_setOf_eq] at hv
      nlinarith
    have hne : {v : Fin 3 → ℝ | dotProduct v v = 1}.Nonempty :=
      ⟨![1, 0, 0], by simp [dotProduct, Fin.sum_univ_three]⟩
    have himg : quotients (sym P) =
        (fun v : Fin 3 → ℝ => dotProduct v ((sym P).mulVec v)) '' {v | dotProduct v v = 1} := by
      ext x
      constructor
      · rintro ⟨v, hv, rfl⟩; exact ⟨v, hv, rfl⟩
      · rintro ⟨v, hv, rfl⟩; exact ⟨v, hv, rfl⟩
    have hC := hK.image hcont
    obtain ⟨lo, hlo⟩ := hC.exists_isLeast (hne.image _)
    obtain ⟨hi, hhi⟩ := hC.exists_isGreatest (hne.image _)
    rw [← himg] at hlo hhi
    have : ∃ k, IsCond (sym P) k := by
      refine ⟨hi / lo, lo, hi, ?_, rfl, hlo, hhi⟩
      obtain ⟨v, hv, rfl⟩ := hlo.1
      apply hp
      rintro rfl
      simp at hv
    exact ⟨this.choose, dif_pos this, this.choose_spec⟩

/-- Two processes have seen pixel 4 under two angles each, one of them pixel 7 under one angle:
the root gives pixel 4 the condition number two and fills pixel 7. -/
example : ∃ cond, CondOk cond ∧ ∃ r C, solve Rec.qp cond
      (setup ⟨some "2", none, true, 2⟩ true (some (.group [0, 1])))
      (fun p => mapsOf (12 * 1 ^ 2) (if p = 0 then [⟨4, 1, 0, 2⟩, ⟨4, 0, 1, 3⟩]
        else [⟨4, -1, 0, 5⟩, ⟨4, 0, -1, 1⟩, ⟨7, 1, 0, 1⟩])) (-1) true 0 = .ok r ∧
      r.cond = some C ∧ C[4]? = some 2 ∧ C[7]? = some (-1 : ℝ) := by
  obtain ⟨cond, hcond⟩ := cond_exists
  refine ⟨cond, hcond, ?_⟩
  have hu : ∀ p ∈ [0, 1], ∀ o ∈ (if p = 0 then [⟨4, 1, 0, 2⟩, ⟨4, 0, 1, 3⟩]
      else [⟨4, -1, 0, 5⟩, ⟨4, 0, -1, 1⟩, ⟨7, 1, 0, 1⟩] : List Obs), o.c ^ 2 + o.s ^ 2 = 1 := by
    simp
  obtain ⟨⟨r, h1, h2⟩, -⟩ := C122_ranks Rec.qp Rec.solve_ok cond hcond ⟨some "2", none, true, 2⟩
    (Or.inl ⟨"2", rfl, by decide⟩) rfl 0 [1] 1 _ (fun p => if p = 0 then [⟨4, 1, 0, 2⟩, ⟨4, 0, 1, 3⟩]
        else [⟨4, -1, 0, 5⟩, ⟨4, 0, -1, 1⟩, ⟨7, 1, 0, 1⟩]) (fun p _ => holds_mapsOf 1 _) hu (-1) true
  obtain ⟨C, hC, hlen, hcell⟩ := h2.cond
  refine ⟨r, C, h1, hC, ?_, ?_⟩
  · have hg : C[4]? = some (C[4]'(by omega)) := List.getElem?_eq_getElem _
    rw [hg]
    congr 1
    refine C122_balanced _ 4 (fun o ho => ?_) ?_ ?_ ?_ ?_ _ ((hcell 4 _ hg).1 ?_)
    · obtain ⟨p, hp, ho⟩ := List.mem_flatMap.1 ho
      exact hu p hp o ho
    · simp [here]
    · simp [here]
    · simp [here]
    · simp [here]
    · refine ⟨⟨4, 1, 0, 2⟩, by simp [here], ⟨4, 0, 1, 3⟩, by simp [here], ⟨4, -1, 0, 5⟩,
        by simp [here], ?_, ?_, ?_⟩ <;> norm_num
  · have hg : C[7]? = some (C[7]'(by omega)) := List.getElem?_eq_getElem _
    rw [hg]
    congr 1
    refine (hcell 7 _ hg).2 ?_
    rintro ⟨o1, m1, o2, m2, _, _, h, _⟩
    simp [here] at m1 m2
    exact h (by simp [m1, m2])

end Verif.Props
