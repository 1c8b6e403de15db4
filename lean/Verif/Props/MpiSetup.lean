import Verif.Spec.MpiSetup
import Verif.Lemmas.Mpi

/-!
# Property C120: when MPI is used, and what its helpers give
-/

namespace Verif.Props

open Verif.MpiSetup Verif.Spec

/-- **C120.** MPI is used exactly if the program was launched by MPI, the user did not switch it
off, and mpi4py is there. -/
theorem C120_used (s : Surroundings) (mpi : Bool) (comm : Option Comm) :
    (∃ c, setup s mpi comm = some c) ↔ Launched s ∧ mpi = true ∧ s.importable = true := by
  have he : ∀ o, envTruthy o = true ↔ ∃ v, o = some v ∧ v ≠ "" := by
    intro o
    cases o with
    | none => simp [envTruthy]
    | some v => simp [envTruthy]
  unfold setup Launched
  rw [← he, ← he]
  cases envTruthy s.ompiSize <;> cases envTruthy s.pmiSize <;> cases mpi <;>
    cases s.importable <;> simp

example : Launched ⟨some "4", none, true, 4⟩ := Or.inl ⟨"4", rfl, by decide⟩

/-- **C120.** In every other case each process is rank 0 of 1, and everything that is sent, shared
or summed stays as it is: the program runs serially. -/
theorem C120_serial {α : Type} [Add α] (s : Surroundings) (mpi : Bool) (comm : Option Comm)
    (h : ¬ (Launched s ∧ mpi = true ∧ s.importable = true)) (p : Nat) :
    mpiRank (setup s mpi comm) p = .ok 0 ∧ mpiSize (setup s mpi comm) = .ok 1 ∧
      (∀ obj : Nat → α, broadcast (setup s mpi comm) obj p = .ok (obj p)) ∧
      (∀ arr : Nat → Option (List α), broadcastArray (setup s mpi comm) arr p = .ok (arr p)) ∧
      (∀ arr : Nat → List α, reduceArray (setup s mpi comm) arr p = .ok (some (arr p))) := by
  have : setup s mpi comm = none := by
    by_contra hn
    exact h ((C120_used s mpi comm).1 (Option.ne_none_iff_exists'.1 hn))
  rw [this]
  exact ⟨rfl, rfl, fun _ => rfl, fun _ => rfl, fun _ => rfl⟩

/-- `mpi=False` in a job of four. -/
example : ¬ (Launched ⟨some "4", none, true, 4⟩ ∧ false = true ∧ true = true) := by simp

theorem setup_on (s : Surroundings) (comm : Option Comm) (h : Launched s)
    (hi : s.importable = true) : setup s true comm = some (pickComm s comm) := by
  obtain ⟨c, hc⟩ := (C120_used s true comm).2 ⟨h, rfl, hi⟩
  unfold setup at hc ⊢
  split at hc
  · cases hc
  · rename_i h1
    rw [if_neg h1, if_pos hi]

/-- **C120.** With MPI and without a communicator of the user, process `p` of `procs` is rank `p` of
`procs`. -/
theorem C120_world (s : Surroundings) (h : Launched s) (hi : s.importable = true) (p : Nat)
    (hp : p < s.procs) :
    mpiRank (setup s true none) p = .ok p ∧ mpiSize (setup s true none) = .ok s.procs := by
  rw [setup_on s none h hi]
  refine ⟨?_, ?_⟩
  · show Except.ok ((List.range s.procs).idxOf p) = _
    congr 1
    have := List.Nodup.idxOf_getElem (List.nodup_range (n := s.procs)) p (by simpa using hp)
    simpa using this
  · show Except.ok (List.range s.procs).length = _
    rw [List.length_range]

/-- **C120.** With MPI and a communicator of the user, ranks and size are those of the
communicator: a process has rank `r` exactly if it is number `r` of the members.  Missing: launchers
that set neither variable and processes that are left out (`C120_violation_comm_ignored`,
`C120_violation_left_out`). -/
theorem C120_communicator_partial (s : Surroundings) (h : Launched s) (hi : s.importable = true)
    (l : List Nat) (hl : l.Nodup) (p : Nat) (hp : p ∈ l) :
    mpiSize (setup s true (some (.group l))) = .ok l.length ∧
      ∀ r, mpiRank (setup s true (some (.group l))) p = .ok r ↔ l[r]? = some p := by
  rw [setup_on s _ h hi]
  refine ⟨rfl, fun r => ?_⟩
  show Except.ok (l.idxOf p) = Except.ok r ↔ _
  constructor
  · intro h
    obtain rfl := Except.ok.inj h
    rw [List.getElem?_eq_getElem (List.idxOf_lt_length_of_mem hp), List.getElem_idxOf]
  · intro h
    obtain ⟨hr, rfl⟩ := List.getElem?_eq_some_iff.1 h
    rw [hl.idxOf_getElem]

/-- Two of four processes work together, in another order. -/
example : (mpiRank (setup ⟨some "4", none, true, 4⟩ true (some (.group [3, 1]))) 1) = .ok 1 :=
  rfl

theorem rank_root (root : Nat) (l : List Nat) (p : Nat) :
    (root :: l).idxOf p = 0 ↔ p = root := by
  rw [List.idxOf_cons]
  by_cases h : root = p
  · subst h; simp
  · have : (root == p) = false := by simpa using h
    rw [this]
    simp [Ne.symm h]

theorem fold_sum {α : Type} [AddCommMonoid α] (arr : Nat → List α) (n : Nat) :
    ∀ (l : List Nat) (acc : List α), acc.length = n → (∀ q ∈ l, (arr q).length = n) →
      (l.foldl (fun acc q => addArrays acc (arr q)) acc).length = n ∧
      ∀ k, k < n → (l.foldl (fun acc q => addArrays acc (arr q)) acc)[k]? =
        some (acc.getD k 0 + (l.map fun q => (arr q).getD k 0).sum) := by
  intro l
  induction l with
  | nil =>
    intro acc hacc _
    refine ⟨hacc, fun k hk => ?_⟩
    simp [List.getD_eq_getElem?_getD, List.getElem?_eq_getElem (show k < acc.length by omega)]
  | cons q l ih =>
    intro acc hacc hl
    have hq := hl q (List.mem_cons_self ..)
    have hz : (addArrays acc (arr q)).length = n := by
      simp [addArrays, hacc, hq]
    obtain ⟨h1, h2⟩ := ih _ hz (fun x hx => hl x (List.mem_cons_of_mem _ hx))
    refine ⟨h1, fun k hk => ?_⟩
    rw [List.foldl_cons, h2 k hk, List.map_cons, List.sum_cons, ← add_assoc]
    congr 2
    have ha : k < acc.length := by omega
    have hb : k < (arr q).length := by omega
    simp [addArrays, List.getD_eq_getElem?_getD, List.getElem?_zipWith,
      List.getElem?_eq_getElem ha, List.getElem?_eq_getElem hb]

/-- **C120.** With MPI, on every process of the communicator: an object or array that is sent is
that of the root; arrays that are summed give their elementwise sum on the root, and `None` on the
other ranks. -/
theorem C120_collective {α : Type} [AddCommMonoid α] (s : Surroundings) (h : Launched s)
    (hi : s.importable = true) (root : Nat) (l : List Nat) (p : Nat) :
    (∀ obj : Nat → α,
      broadcast (setup s true (some (.group (root :: l)))) obj p = .ok (obj root)) ∧
    (∀ (arr : Nat → Option (List α)) (a : List α), arr root = some a →
      broadcastArray (setup s true (some (.group (root :: l)))) arr p = .ok (some a)) ∧
    (∀ (arr : Nat → List α) (n : Nat), (∀ q ∈ root :: l, (arr q).length = n) →
      ∃ total, SumOf (root :: l) n arr total ∧
        reduceArray (setup s true (some (.group (root :: l)))) arr p =
          .ok (if p = root then some total else none)) := by
  rw [setup_on s _ h hi]
  refine ⟨fun _ => rfl, ?_, ?_⟩
  · intro arr a ha
    have h0 : (root :: l).idxOf root = 0 := (rank_root root l root).2 rfl
    simp only [broadcastArray, pickComm, Comm.truthy, if_true, bcast, getRank, h0, arrayInfo, ha,
      bind, Except.bind, pure, Except.pure, fillBuffer]
    by_cases hp : p = root
    · subst hp
      rw [if_pos h0, ha]
    · rw [if_neg (fun hh => hp ((rank_root root l p).1 hh))]
  · intro arr n hn
    obtain ⟨h1, h2⟩ := fold_sum arr n l (arr root) (hn root (List.mem_cons_self ..))
      (fun q hq => hn q (List.mem_cons_of_mem _ hq))
    refine ⟨_, ⟨h1, fun k hk => ?_⟩, ?_⟩
    · rw [h2 k hk, List.map_cons, List.sum_cons]
    · simp only [reduceArray, pickComm, Comm.truthy, if_true, getRank, reduceAll, bind, Except.bind,
        pure, Except.pure]
      by_cases hp : p = root
      · rw [if_pos hp, if_pos ((rank_root root l p).2 hp)]
      · rw [if_neg hp, if_neg (fun hh => hp ((rank_root root l p).1 hh))]

/-- Three processes sum arrays of two numbers. -/
example : (∀ q ∈ [2, 0, 1], ([(q : Int), 1] : List Int).length = 2) ∧
    reduceArray (setup ⟨none, some "3", true, 3⟩ true (some (.group [2, 0, 1])))
      (fun q => [(q : Int), 1]) 2 = .ok (some [3, 3]) := by
  decide

/-- **C120 (violation).** A communicator given by the user is ignored without a word if the program
was started by anything that does not set the two variables: every process of it is rank 0 of 1, so
each of them takes the whole of every array as its share and each returns its own part of the sum as
the total. -/
theorem C120_violation_comm_ignored (s : Surroundings) (h : ¬ Launched s) (c : Comm) (p : Nat) :
    setup s true (some c) = none ∧ mpiRank (setup s true (some c)) p = .ok 0 ∧
      mpiSize (setup s true (some c)) = .ok 1 ∧
      (∀ arr : List Int, Mpi.distributeArray arr 1 0 = .ok arr) ∧
      (∀ arr : Nat → List Int, reduceArray (setup s true (some c)) arr p = .ok (some (arr p))) := by
  have hs := C120_serial (α := Int) s true (some c) (fun hh => h hh.1) p
  refine ⟨?_, hs.1, hs.2.1, ?_, hs.2.2.2.2⟩
  · by_contra hn
    exact h ((C120_used s true (some c)).1 (Option.ne_none_iff_exists'.1 hn)).1
  · intro arr
    rw [Mpi.distributeArray_eq _ _ _ Nat.zero_lt_one, Mpi.subStart_size _ _ Nat.zero_lt_one,
      List.take_length]
    rfl

/-- Started by a launcher that sets other variables, with a communicator of two processes. -/
example : ¬ Launched ⟨none, some "", true, 2⟩ := by
  rintro (⟨v, h, _⟩ | ⟨v, h, hv⟩)
  · cases h
  · cases h; exact hv rfl

/-- **C120 (violation).** A process that is left out of the user's communicator, and so gets
`COMM_NULL` for it, joins `COMM_WORLD` instead: it believes to be one of all processes, which no
other process takes part in. -/
theorem C120_violation_left_out : ∃ (s : Surroundings) (p q : Nat), Launched s ∧ p < s.procs ∧
    q < s.procs ∧ mpiSize (setup s true (some .null)) = .ok s.procs ∧
    mpiRank (setup s true (some .null)) p = .ok p ∧
    mpiSize (setup s true (some (.group [q]))) = .ok 1 ∧ s.procs ≠ 1 ∧
    mpiRank (setup s true (some (.group [q]))) q = .ok 0 :=
  ⟨⟨some "2", none, true, 2⟩, 1, 0, Or.inl ⟨"2", rfl, by decide⟩, by decide, by decide, rfl, rfl,
    rfl, by decide, rfl⟩

end Verif.Props
