import Verif.Spec.Spmd
import Verif.Props.Mpi

/-! # Lemmas: ranks that run together -/

noncomputable section

namespace Verif.Spmd

open Verif.Chunks Verif.Timeline Verif.Spinmaps Verif.MapMaking
open Verif.ScanInstrument (World Inst Pair Pointing)

variable {A B : Type} {size : Nat}

/-! ### calls -/

theorem all_congr {c c' : Nat → Call} (h : ∀ r, r < size → c r = c' r) : All size c = All size c' := by
  funext p
  apply propext
  unfold All
  constructor
  · intro k r hr
    rw [← h r hr]
    exact k r hr
  · intro k r hr
    rw [h r hr]
    exact k r hr

theorem allgatherv_congr {α : Type} (buf : List α) {s s' : Nat → List α} (off : Nat → Nat) (n : Nat)
    (h : ∀ r, r < n → s r = s' r) : Mpi.allgatherv buf s off n = Mpi.allgatherv buf s' off n := by
  induction n with
  | zero => rfl
  | succ n ih =>
    simp only [Mpi.allgatherv]
    rw [ih fun r hr => h r (by omega), h n (by omega)]

theorem gathered_congr {c c' : Nat → Call} (h : ∀ r, r < size → c r = c' r) :
    gathered size c = gathered size c' := by
  funext x
  cases x <;> simp only [gathered]
  exact allgatherv_congr _ _ _ fun r hr => by rw [h r hr]

theorem exchange_congr {c c' : Nat → Call} (hs : 0 < size) (h : ∀ r, r < size → c r = c' r)
    {rep : Nat → Reply} (he : exchange size c = some rep) :
    ∃ rep', exchange size c' = some rep' ∧ ∀ r, r < size → rep r = rep' r := by
  unfold exchange at he ⊢
  rw [h 0 hs] at he
  unfold GatherOk at he ⊢
  rw [all_congr h, gathered_congr h] at he
  cases hc : c' 0 <;> rw [hc] at he
  case scatter a =>
    cases a with
    | none => cases he
    | some l =>
      simp only at he ⊢
      exact ⟨rep, he, fun _ _ => rfl⟩
  case barrier => exact ⟨rep, he, fun _ _ => rfl⟩
  case bcastShape => exact ⟨rep, he, fun _ _ => rfl⟩
  case bcast => exact ⟨rep, he, fun _ _ => rfl⟩
  case allgatherv =>
    simp only at he ⊢
    split at he
    · rename_i hg
      cases he
      exact ⟨_, if_pos hg, fun r hr => congrArg (fun x => Reply.nums (gathered size c' x)) (h r hr)⟩
    · cases he
  case reduce m =>
    simp only at he ⊢
    have : ((List.range size).map fun s => (c s).loc) = (List.range size).map fun s => (c' s).loc := by
      apply List.map_congr_left
      intro s hs
      rw [h s (List.mem_range.mp hs)]
    rw [this] at he
    exact ⟨rep, he, fun _ _ => rfl⟩

/-! ### running together -/

/-- The ranks run together: `n` collective calls, which all fit, and the results. -/
inductive Runs (size : Nat) : Nat → (Nat → Prog A) → (Nat → PyM A) → Prop
  | done {P : Nat → Prog A} {R : Nat → PyM A} (h : ∀ r, r < size → P r = .done (R r)) : Runs size 0 P R
  | call {n : Nat} {P : Nat → Prog A} {R : Nat → PyM A} (c : Nat → Call) (k : Nat → Reply → Prog A)
      (rep : Nat → Reply) (h : ∀ r, r < size → P r = .call (c r) (k r))
      (he : exchange size c = some rep) (hr : Runs size n (fun r => k r (rep r)) R) :
      Runs size (n + 1) P R

theorem Runs.congr {n : Nat} {P P' : Nat → Prog A} {R R' : Nat → PyM A} (h : Runs size n P R)
    (hp : ∀ r, r < size → P r = P' r) (hr : ∀ r, r < size → R r = R' r) : Runs size n P' R' := by
  induction h generalizing P' with
  | done h => exact .done fun r h' => by rw [← hp r h', h r h', hr r h']
  | call c k rep h he _ ih =>
    exact .call c k rep (fun r h' => by rw [← hp r h', h r h']) he (ih (fun _ _ => rfl) hr)

/-- The ranks run together to these results. -/
def RunsTo (size : Nat) (P : Nat → Prog A) (R : Nat → PyM A) : Prop := ∃ n, Runs size n P R

theorem RunsTo.congr {P P' : Nat → Prog A} {R R' : Nat → PyM A} (h : RunsTo size P R)
    (hp : ∀ r, r < size → P r = P' r) (hr : ∀ r, r < size → R r = R' r) : RunsTo size P' R' :=
  let ⟨n, h⟩ := h
  ⟨n, h.congr hp hr⟩

theorem RunsTo.andThen {P : Nat → Prog A} {a : Nat → A} {Q : Nat → A → Prog B} {R : Nat → PyM B}
    (h : RunsTo size P fun r => .ok (a r)) (h' : RunsTo size (fun r => Q r (a r)) R) :
    RunsTo size (fun r => (P r).andThen (Q r)) R := by
  obtain ⟨n, h⟩ := h
  generalize hR : (fun r => (Except.ok (a r) : PyM A)) = R0 at h
  induction h with
  | done h =>
    subst hR
    refine h'.congr (fun r hr => ?_) fun _ _ => rfl
    rw [h r hr]
    rfl
  | call c k rep h he _ ih =>
    obtain ⟨m, hm⟩ := ih hR
    exact ⟨m + 1, .call c (fun r x => (k r x).andThen (Q r)) rep (fun r hr => by rw [h r hr]; rfl) he hm⟩

theorem RunsTo.run {x : Nat → PyM A} : RunsTo size (fun r => run (x r)) x :=
  ⟨0, .done fun _ _ => rfl⟩

theorem RunsTo.run' {x y : Nat → PyM A} (h : ∀ r, r < size → x r = y r) :
    RunsTo size (fun r => Spmd.run (x r)) y :=
  RunsTo.run.congr (fun _ _ => rfl) h

theorem RunsTo.ret {a : Nat → A} : RunsTo size (fun r => ret (a r)) fun r => .ok (a r) :=
  ⟨0, .done fun _ _ => rfl⟩

theorem RunsTo.call {P : Nat → Prog A} {R : Nat → PyM A} (c : Nat → Call) (k : Nat → Reply → Prog A)
    (rep : Nat → Reply) (h : ∀ r, r < size → P r = .call (c r) (k r))
    (he : exchange size c = some rep) (hr : RunsTo size (fun r => k r (rep r)) R) : RunsTo size P R :=
  let ⟨n, hr⟩ := hr
  ⟨n + 1, .call c k rep h he hr⟩

/-! ### schedules -/

/-- Number of ranks on their way. -/
def away (size : Nat) (x : Nat → Rank A) : Nat :=
  ((List.range size).filter fun r => !(x r).arrived).length

theorem away_start (P : Nat → Prog A) : away size (start P) = size := by
  simp [away, start]

theorem away_le (x : Nat → Rank A) : away size x ≤ size := by
  unfold away
  exact (List.length_filter_le _ _).trans (by simp)

theorem away_congr {x y : Nat → Rank A} (h : ∀ r, r < size → (x r).arrived = (y r).arrived) :
    away size x = away size y := by
  unfold away
  congr 1
  apply List.filter_congr
  intro r hr
  rw [h r (List.mem_range.mp hr)]

theorem away_arrive (x : Nat → Rank A) (r : Nat) (hr : r < size) (h : (x r).arrived = false) :
    away size (fun s => if s = r then ⟨(x r).prog, true⟩ else x s) + 1 = away size x := by
  induction size with
  | zero => omega
  | succ n ih =>
    unfold away at ih ⊢
    simp only [List.range_succ, List.filter_append, List.length_append]
    by_cases e : r = n
    · subst e
      have : (List.range r).filter (fun s => !(if s = r then (⟨(x r).prog, true⟩ : Rank A) else x s).arrived)
          = (List.range r).filter fun s => !(x s).arrived := by
        apply List.filter_congr
        intro s hs
        rw [if_neg (by have := List.mem_range.mp hs; omega)]
      rw [this]
      simp [h]
    · have := ih (by omega)
      rw [← this]
      simp only [List.filter_cons, List.filter_nil, if_neg (Ne.symm e)]
      omega

theorem away_pos (x : Nat → Rank A) (h : 0 < away size x) : ∃ r, r < size ∧ (x r).arrived = false := by
  unfold away at h
  obtain ⟨r, hr⟩ := List.exists_mem_of_length_pos h
  rw [List.mem_filter] at hr
  exact ⟨r, List.mem_range.mp hr.1, by simpa using hr.2⟩

theorem away_zero (x : Nat → Rank A) (h : away size x = 0) : ∀ r, r < size → (x r).arrived = true := by
  intro r hr
  unfold away at h
  have := List.eq_nil_of_length_eq_zero h
  rw [List.filter_eq_nil_iff] at this
  simpa using this r (List.mem_range.mpr hr)

/-- Whatever the schedule, the ranks do what they do together. -/
theorem Runs.steps (hs : 0 < size) {n : Nat} {P : Nat → Prog A} {R : Nat → PyM A}
    (h : Runs size n P R) {m : Nat} {x : Nat → Rank A} (hx : Steps size m (start P) x) :
    ∃ n' P', Runs size n' P' R ∧ (∀ r, r < size → (x r).prog = P' r)
      ∧ m + (n' * (size + 1) + away size x) = n * (size + 1) + size := by
  generalize hy : start P = y at hx
  induction hx with
  | refl x =>
    subst hy
    exact ⟨n, P, h, fun _ _ => rfl, by rw [away_start]; omega⟩
  | @step m _ x _ _ s ih =>
    obtain ⟨n', P', h', hp, hm⟩ := ih hy
    cases s with
    | arrive r hr ha =>
      refine ⟨n', P', h', fun s hs => ?_, ?_⟩
      · by_cases e : s = r
        · subst e
          simp [hp s hs]
        · simp [e, hp s hs]
      · have := away_arrive x r hr ha
        omega
    | comm c k rep hc he =>
      have hall : away size x = 0 := by
        unfold away
        rw [List.length_eq_zero_iff, List.filter_eq_nil_iff]
        intro r hr
        rw [hc r (List.mem_range.mp hr)]
        simp
      cases h' with
      | done hd =>
        have := hp 0 hs
        rw [hc 0 hs, hd 0 hs] at this
        cases this
      | @call n'' _ _ c' k' rep' h'' he' hr' =>
        have hck : ∀ r, r < size → c r = c' r ∧ k r = k' r := by
          intro r hr
          have := hp r hr
          rw [hc r hr, h'' r hr] at this
          injection this with e1 e2
          exact ⟨e1, e2⟩
        obtain ⟨rep2, he2, hrep⟩ := exchange_congr hs (fun r hr => (hck r hr).1) he
        rw [he'] at he2
        cases he2
        refine ⟨n'', _, hr', fun r hr => ?_, ?_⟩
        · simp only [if_pos hr]
          rw [(hck r hr).2, hrep r hr]
        · have e : away size (fun r => if r < size then (⟨k r (rep r), false⟩ : Rank A) else x r) = size := by
            refine Eq.trans (away_congr fun r hr => ?_)
              (away_start (size := size) fun _ => (Prog.done (.error .typeError) : Prog A))
            simp [hr, start]
          rw [e]
          rw [hall] at hm
          have : (n'' + 1) * (size + 1) = n'' * (size + 1) + (size + 1) := by ring
          omega

/-- Ranks that can run together do so under every schedule. -/
theorem RunsTo.alwaysEnds (hs : 0 < size) {P : Nat → Prog A} {R : Nat → PyM A} (h : RunsTo size P R) :
    AlwaysEnds size P R := by
  obtain ⟨n, h⟩ := h
  refine ⟨n * (size + 1) + size, fun m x hx => ?_⟩
  obtain ⟨n', P', h', hp, hm⟩ := h.steps hs hx
  refine ⟨by omega, ?_⟩
  by_cases ha : 0 < away size x
  · obtain ⟨r, hr, h0⟩ := away_pos x ha
    exact .inl ⟨_, .arrive x r hr h0⟩
  · have ha := away_zero (size := size) x (by omega)
    have hx' : ∀ r, r < size → x r = ⟨P' r, true⟩ := by
      intro r hr
      have h1 := hp r hr
      have h2 := ha r hr
      cases hxr : x r with
      | mk p a =>
        rw [hxr] at h1 h2
        simp only at h1 h2
        rw [h1, h2]
    cases h' with
    | done hd => exact .inr fun r hr => by rw [hx' r hr, hd r hr]
    | call c k rep hc he _ =>
      exact .inl ⟨_, .comm x c k rep (fun r hr => by rw [hx' r hr, hc r hr]) he⟩

end Verif.Spmd
