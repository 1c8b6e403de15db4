import Mathlib.Tactic.NormNum
import Verif.Lemmas.FocalProps
import Verif.Lemmas.Names
import Verif.Props.Beam

/-!
# C17, C43-C45, C59: the focal plane
-/

namespace Verif.FocalPlane

open Verif.Beam

variable {K : Type} [Field K] [LinearOrder K] [FloorRing K]

/-! ## Histories used in the examples -/

/-- State after some calls on a fresh instrument; deviates are all 1. -/
def runF (ops : List (FOp Rat)) : Plane Rat :=
  ops.foldl (fun p op => ((op.exec demoEnv fun _ => 1).run p).2) emptyPlane

/-- Every call acts on existing objects. -/
def refsF : List (FOp Rat) → Plane Rat → Bool
  | [], _ => true
  | op :: ops, p => op.refs.all (fun r => decide (r < p.heap.size)) &&
      refsF ops ((op.exec demoEnv fun _ => 1).run p).2

/-- Every call satisfies `P` in the state where it is made. -/
def allF (P : Plane Rat → FOp Rat → Prop) : List (FOp Rat) → Plane Rat → Prop
  | [], _ => True
  | op :: ops, p => P p op ∧ allF P ops ((op.exec demoEnv fun _ => 1).run p).2

theorem runF_reachable' {P : Plane Rat → FOp Rat → Prop} : ∀ (ops : List (FOp Rat)) (p : Plane Rat),
    PReachable demoEnv (fun _ => 1) P p → allF P ops p → refsF ops p = true →
    PReachable demoEnv (fun _ => 1) P
      (ops.foldl (fun p op => ((op.exec demoEnv fun _ => 1).run p).2) p)
  | [], p, hr, _, _ => hr
  | op :: ops, p, hr, hP, ho => by
    simp only [refsF, Bool.and_eq_true, List.all_eq_true, decide_eq_true_eq] at ho
    exact runF_reachable' ops _ (.step op hr hP.1 ho.1) hP.2 ho.2

theorem runF_reachable {P : Plane Rat → FOp Rat → Prop} (ops : List (FOp Rat))
    (hP : allF P ops emptyPlane) (ho : refsF ops emptyPlane = true) :
    PReachable demoEnv (fun _ => 1) P (runF ops) :=
  runF_reachable' ops _ .start hP ho

/-- A 1 × 2 grid, a ghost of the first detector, one more detector, the third one removed. -/
def demoF : List (FOp Rat) :=
  [.create 1 2 10 false (.num 90) false [], .beam (.createGhost 0 (some "g") [(.amplitude, .num (1/2))]),
   .beam (.new []), .add (.flat [some 5]) true, .remove (.flat [some 2])]

example : (runF demoF).beams = [(some 0, some 1), (none, some 3), (some 5, none)] ∧
    (runF demoF).ndet = 4 ∧
    (slots (runF demoF).beams).map (fun r => ((runF demoF).heap.cell r).attr .idx) =
      [some (.int 0), some (.int 1), some (.int 3), some (.int 4)] := by decide +kernel

/-! ## C17 -/

/-- **C17 (partial).** After any history of calls, failing ones included, no two different
detectors on the focal plane have the same identifier, and every detector has one.  Missing: see
the two violations below, which `Numbers` excludes (`input_focal_plane`, and replacing the focal
plane by a list of beams containing `None`). -/
theorem C17_unique_idx_partial (env : Env K) (rng : Nat → K) (p : Plane K)
    (hr : PReachable env rng (fun _ op => NoCount op ∧ Numbers op) p) :
    (∀ r s, ¬ Collision p r s) ∧
    ∀ r ∈ slots p.beams, r < p.heap.size ∧ ∃ i, (p.heap.cell r).attr .idx = some (.int i) := by
  have w : PInv p := by
    induction hr with
    | start => exact PInv.empty
    | step op _ hp hrf ih => exact ih.step env rng op hp.1 hp.2 hrf
  refine ⟨?_, fun r h => ⟨w.lt r h, w.idx r h⟩⟩
  rintro r s ⟨hr, hs, hne, he⟩
  exact hne (w.inj r hr s hs he)

example : PReachable demoEnv (fun _ => 1) (fun _ op => NoCount op ∧ Numbers op) (runF demoF) :=
  runF_reachable demoF (by simp [allF, demoF, NoCount, NoCountAssign, Numbers]) (by decide +kernel)

/-- **C17 (violation).** `input_focal_plane` gives both detectors of every pair the same
identifier. -/
theorem C17_violation_input : ∃ op : FOp Rat,
    PReachable demoEnv (fun _ => 1) (fun _ op => NoCount op) (runF [op]) ∧
    Succeeds demoEnv (fun _ => 1) emptyPlane op ∧ Collision (runF [op]) 0 1 := by
  refine ⟨.input [(.num 1, .num 1)] [(.num 2, .num 2)] [(.num 0, .num 90)] none true [],
    runF_reachable _ (by simp [allF, NoCount]) (by decide +kernel), ?_, ?_⟩
  · unfold Succeeds; decide +kernel
  · unfold Collision; decide +kernel

/-- **C17 (violation).** A call that fails because of `None` in the list leaves an identifier on
the focal plane twice: identifiers are overwritten before anything else is checked. -/
theorem C17_violation_failed_add : ∃ ops : List (FOp Rat),
    PReachable demoEnv (fun _ => 1) (fun _ op => NoCount op) (runF ops) ∧
    Collision (runF ops) 0 1 := by
  refine ⟨[.create 1 1 10 false (.num 90) false [], .add (.flat [some 1, none]) false],
    runF_reachable _ (by simp [allF, NoCount]) (by decide +kernel), ?_⟩
  unfold Collision; decide +kernel

/-! ## C43 -/

/-- **C43 (partial).** After any history of calls, `ndet` is the number of occupied slots and no
pair is empty.  Missing: calls that create detectors and fail, arrays of different lengths, and
`None` passed to `remove_from_focal_plane`, see the violations below. -/
theorem C43_count_partial (env : Env K) (rng : Nat → K) (p : Plane K)
    (hr : PReachable env rng (fun p op => NoCount op ∧ Counts env rng p op) p) :
    p.ndet = (slots p.beams).length ∧ (none, none) ∉ p.beams := by
  have w : BInv p ∧ CInv p := by
    induction hr with
    | start => exact ⟨BInv.empty, rfl, by simp [emptyPlane]⟩
    | step op _ hp hrf ih =>
      exact ⟨ih.1.step env rng op hp.1 hrf, ih.2.step env rng ih.1 op hp.1 hp.2 hrf⟩
  exact ⟨w.2.count, fun h => w.2.pair _ h rfl⟩

theorem demoF_counts : PReachable demoEnv (fun _ => 1)
    (fun p op => NoCount op ∧ Counts demoEnv (fun _ => 1) p op) (runF demoF) := by
  refine runF_reachable demoF ?_ (by decide +kernel)
  simp only [allF, demoF, NoCount, NoCountAssign, Counts, Arg.noNone]
  refine ⟨⟨trivial, ?_⟩, ?_⟩
  · unfold Succeeds; decide +kernel
  · simp

/-- **C43.** Removing detectors takes exactly those away: every other one stays in its slot of its
pair, the order of the pairs is kept, and pairs without any detector disappear. -/
theorem C43_remove (p : Plane K) (a : Arg) (ha : a ≠ .flat [] ∧ a ≠ .nested []) :
    (removeFromFocalPlane a).run p = (.ok (), ((removeFromFocalPlane a).run p).2) ∧
    ((removeFromFocalPlane a).run p).2.beams = p.beams.filterMap (fun q =>
      let q' := (q.1.filter (· ∉ a.refs), q.2.filter (· ∉ a.refs))
      if q' = (none, none) then none else some q') ∧
    ((removeFromFocalPlane a).run p).2.heap = p.heap ∧
    slots ((removeFromFocalPlane a).run p).2.beams = (slots p.beams).filter (· ∉ a.refs) := by
  have hm : ∀ r, some r ∈ badList a ↔ r ∈ a.refs := by
    intro r
    have := mem_toNumber a r
    cases a <;> exact this
  have he : a.isEmptyList = false := by
    cases a with
    | single r => rfl
    | flat l => cases l with
      | nil => exact absurd rfl ha.1
      | cons => rfl
    | nested l => cases l with
      | nil => exact absurd rfl ha.2
      | cons => rfl
  have hrun : (removeFromFocalPlane a).run p = (.ok (), { p with
      ndet := p.ndet - (p.beams.map (dropCount (badList a))).sum
      beams := (p.beams.map fun q => (dropSlot (badList a) q.1, dropSlot (badList a) q.2)).filter
        (· ≠ (none, none)) }) := by
    unfold removeFromFocalPlane Exec.run
    rw [he]; rfl
  have hd : ∀ x : Option Ref, dropSlot (badList a) x = x.filter (· ∉ a.refs) := by
    intro x
    unfold dropSlot
    cases x with
    | none => split <;> rfl
    | some r => by_cases h : r ∈ a.refs <;> simp [hm, h, Option.filter]
  rw [hrun]
  refine ⟨rfl, ?_, rfl, ?_⟩
  · dsimp only
    rw [← List.filterMap_eq_filter, List.filterMap_map]
    congr 1
    funext q
    simp only [Function.comp, hd]
    generalize (Option.filter (fun x => decide (x ∉ a.refs)) q.1,
      Option.filter (fun x => decide (x ∉ a.refs)) q.2) = q'
    unfold Option.guard
    by_cases h : q' = (none, none) <;> simp [h]
  · dsimp only
    rw [slots_drop]
    refine List.filter_congr fun r _ => ?_
    simp [hm]

example : ((removeFromFocalPlane (.flat [some 1, some 3])).run (runF demoF)).2.beams =
    [(some 0, none), (some 5, none)] := by decide +kernel

/-- **C43 (violation).** `create_focal_plane` with an invalid option raises TypeError and leaves a
detector count of 2 without any detector. -/
theorem C43_violation_failed_create : ∃ op : FOp Rat,
    ((op.exec demoEnv fun _ => 1).run emptyPlane).1 = .error .typeError ∧
    (runF [op]).ndet = 2 ∧ (runF [op]).beams = [] := by
  refine ⟨.create 1 1 10 false (.num 90) false [(.other "colour", .str "red")], ?_⟩
  decide +kernel

/-- **C43 (violation).** Removing the "pair" of a lone detector, given as it stands on the focal
plane (`[beam, None]`), also counts the empty slots of the other pairs. -/
theorem C43_violation_remove_none : ∃ ops : List (FOp Rat),
    PReachable demoEnv (fun _ => 1) (fun _ op => NoCount op) (runF ops) ∧
    (runF ops).ndet = -1 ∧ (runF ops).beams = [(some 1, none)] := by
  refine ⟨[.beam (.new []), .beam (.new []), .add (.flat [some 0, some 1]) false,
    .remove (.flat [some 0, none])], runF_reachable _ (by simp [allF, NoCount, NoCountAssign])
    (by decide +kernel), ?_⟩
  decide +kernel

/-- **C43 (violation).** Arrays of different lengths are cut to the shortest, the count follows the
first. -/
theorem C43_violation_input : ∃ op : FOp Rat, Succeeds demoEnv (fun _ => 1) emptyPlane op ∧
    (runF [op]).ndet = 4 ∧ (runF [op]).beams = [(some 0, some 1)] := by
  refine ⟨.input [(.num 1, .num 1), (.num 3, .num 3)] [(.num 2, .num 2)] [(.num 0, .num 90)] none
    true [], ?_⟩
  unfold Succeeds; decide +kernel

/-! ## C44 -/

variable [IsStrictOrderedRing K]

/-- **C44 (partial).** On a focal plane without empty slots and without repeated detectors, killing
a fraction `f` between 0 and 1 marks exactly `⌊ndet f⌋` detectors and their ghosts dead and changes
nothing else, whatever the draw; with `pairs` it is `⌊(ndet / 2) f⌋` complete pairs.  Missing: empty
slots, see `C44_violation_empty_slot`. -/
theorem C44_kill_partial (env : Env K) (rng : Nat → K) (p : Plane K)
    (hr : PReachable env rng (fun p op => NoCount op ∧ Counts env rng p op) p)
    (hf : Full p.beams) (hn : (slots p.beams).Nodup) (choice : Int → Int → PyM (List Nat))
    (hc : IsChoice choice) (f : K) (h0 : 0 ≤ f) (h1 : f ≤ 1) (pairs : Bool) :
    ∃ D : List Ref, D.Nodup ∧ (∀ r ∈ D, r ∈ slots p.beams) ∧
      (pairs = false → (D.length : Int) = ⌊(p.ndet : K) * f⌋) ∧
      (pairs = true → (D.length : Int) = 2 * ⌊((p.ndet / 2 : Int) : K) * f⌋ ∧
        ∀ q ∈ p.beams, ∀ a b, q = (some a, some b) → (a ∈ D ↔ b ∈ D)) ∧
      ((killChannels choice f pairs).run p).1 = .ok () ∧
      ((killChannels choice f pairs).run p).2.beams = p.beams ∧
      ((killChannels choice f pairs).run p).2.ndet = p.ndet ∧
      ((killChannels choice f pairs).run p).2.heap.size = p.heap.size ∧
      ∀ x, ((x ∈ D ∨ ∃ r ∈ D, GhostOf p.heap r x) →
          ((killChannels choice f pairs).run p).2.heap.cell x =
            (p.heap.cell x).put .dead (.bool true)) ∧
        (¬ (x ∈ D ∨ ∃ r ∈ D, GhostOf p.heap r x) →
          ((killChannels choice f pairs).run p).2.heap.cell x = p.heap.cell x) := by
  have hb : BInv p := hr.binv fun _ _ h => h.1
  have hcnt := (C43_count_partial env rng p hr).1
  have hlen := full_length hf
  have hnn : ∀ n : Int, 0 ≤ n → trunc ((n : K) * f) = ⌊(n : K) * f⌋ ∧ 0 ≤ ⌊(n : K) * f⌋ ∧
      ⌊(n : K) * f⌋ ≤ n := by
    intro n hn
    have hnk : (0 : K) ≤ n := by exact_mod_cast hn
    have h2 : 0 ≤ (n : K) * f := mul_nonneg hnk h0
    refine ⟨by unfold trunc; rw [if_pos h2], Int.floor_nonneg.2 h2, ?_⟩
    have : (n : K) * f ≤ n := by nlinarith
    have h3 := Int.floor_le_floor this
    rwa [Int.floor_intCast] at h3
  let n : Int := if pairs then p.ndet / 2 else p.ndet
  have hn0 : 0 ≤ n := by
    show 0 ≤ (if pairs = true then p.ndet / 2 else p.ndet)
    split <;> omega
  obtain ⟨t1, t2, t3⟩ := hnn n hn0
  obtain ⟨ks, k1, k2, k3, k4⟩ := hc n ⌊(n : K) * f⌋ t2 t3
  have hk : ∀ k ∈ ks, ∀ i ∈ targets pairs k, i < (slots p.beams).length := by
    intro k hk i hi
    have := k4 k hk
    cases pairs with
    | true =>
      simp only [targets, if_true, List.mem_cons, List.not_mem_nil, or_false] at hi
      have hn' : n = p.ndet / 2 := rfl
      rcases hi with rfl | rfl <;> omega
    | false =>
      simp only [targets, Bool.false_eq_true, if_false, List.mem_singleton] at hi
      have hn' : n = p.ndet := rfl
      omega
  have hk' : ∀ i ∈ ks.flatMap (targets pairs), i < (slots p.beams).length := by
    intro i hi
    obtain ⟨k, a, b⟩ := List.mem_flatMap.1 hi
    exact hk k a i b
  obtain ⟨d1, d2, d3⟩ := filterMap_get (slots p.beams) _ hk'
  have hrun : (killChannels choice f pairs).run p = (.ok (), { p with heap :=
        (markAll (.bool true) ((((ks.flatMap (targets pairs)).filterMap fun i =>
          (slots p.beams)[i]?)).flatMap fun r => r :: kids p.heap r) p.heap) }) := by
    unfold killChannels Exec.run
    dsimp only
    have hkk : choice n (trunc ((n : K) * f)) = .ok ks := by rw [t1]; exact k1
    have hkk' : choice (if pairs = true then p.ndet / 2 else p.ndet)
        (trunc (((if pairs = true then p.ndet / 2 else p.ndet : Int) : K) * f)) = .ok ks := hkk
    rw [hkk']
    dsimp only
    unfold onHeap
    rw [forEach_kill hf pairs ks hk, forEach_setDead _ _ hb.wf fun r hr => hb.lt r (d2 r hr)]
  refine ⟨(ks.flatMap (targets pairs)).filterMap fun i => (slots p.beams)[i]?,
    d3 hn (targets_nodup pairs k2), d2, ?_, ?_, ?_, ?_, ?_, ?_, ?_⟩
  · intro hp; subst hp
    rw [d1, targets_length]
    exact k3
  · intro hp; subst hp
    refine ⟨?_, ?_⟩
    · rw [d1, targets_length]
      simp only [if_true]
      push_cast
      rw [k3]
      rfl
    · intro q hq a b hab
      obtain ⟨m, hm⟩ := List.mem_iff_getElem?.1 hq
      have hg := full_get hf hm
      rw [hab] at hg
      injection hg with ga gb
      have key : ∀ (j : Nat) (x : Ref), some x = (slots p.beams)[j]? →
          (x ∈ (ks.flatMap (targets true)).filterMap (fun i => (slots p.beams)[i]?) ↔
            j ∈ ks.flatMap (targets true)) := by
        intro j x hx
        rw [List.mem_filterMap]
        constructor
        · rintro ⟨i, hi, he⟩
          rw [hx] at he
          have hil := hk' i hi
          obtain ⟨hjl, _⟩ := List.getElem?_eq_some_iff.1 hx.symm
          rw [List.getElem?_eq_getElem hil, List.getElem?_eq_getElem hjl, Option.some_inj] at he
          have := (List.Nodup.getElem_inj_iff hn).1 he
          rwa [← this]
        · intro hj; exact ⟨j, hj, hx.symm⟩
      rw [key _ _ ga, key _ _ gb]
      simp only [List.mem_flatMap, targets, if_true, List.mem_cons, List.not_mem_nil, or_false]
      constructor
      · rintro ⟨k, hk, h⟩; exact ⟨k, hk, by omega⟩
      · rintro ⟨k, hk, h⟩; exact ⟨k, hk, by omega⟩
  · rw [hrun]
  · rw [hrun]
  · rw [hrun]
  · rw [hrun]
    rfl
  · intro x
    rw [hrun]
    have hmem : x ∈ ((ks.flatMap (targets pairs)).filterMap fun i =>
        (slots p.beams)[i]?).flatMap (fun r => r :: kids p.heap r) ↔
        (x ∈ (ks.flatMap (targets pairs)).filterMap (fun i => (slots p.beams)[i]?) ∨
          ∃ r ∈ (ks.flatMap (targets pairs)).filterMap (fun i => (slots p.beams)[i]?),
            GhostOf p.heap r x) := by
      rw [List.mem_flatMap]
      simp only [List.mem_cons, mem_kids]
      constructor
      · rintro ⟨r, hr, rfl | h⟩
        · exact .inl hr
        · exact .inr ⟨r, hr, h⟩
      · rintro (h | ⟨r, hr, h⟩)
        · exact ⟨x, h, .inl rfl⟩
        · exact ⟨r, hr, .inr h⟩
    refine ⟨fun h => ?_, fun h => ?_⟩
    · simp only [markAll]; rw [if_pos (hmem.2 h)]
    · simp only [markAll]; rw [if_neg fun h' => h (hmem.1 h')]

/-- A draw: the first `k` numbers. -/
def firstK (n k : Int) : PyM (List Nat) :=
  if 0 ≤ k ∧ k ≤ n then .ok (List.range k.toNat) else .error .valueError

theorem firstK_isChoice : IsChoice firstK := by
  intro n k h0 h1
  refine ⟨List.range k.toNat, by unfold firstK; rw [if_pos ⟨h0, h1⟩], List.nodup_range, ?_, ?_⟩
  · simp; omega
  · intro i hi; rw [List.mem_range] at hi; omega

/-- A 1 × 2 grid with a ghost, half of it killed: two detectors and the ghost. -/
def demoFull : List (FOp Rat) :=
  [.create 1 2 10 false (.num 90) false [], .beam (.createGhost 0 (some "g") [])]

example : PReachable demoEnv (fun _ => 1)
    (fun p op => NoCount op ∧ Counts demoEnv (fun _ => 1) p op) (runF demoFull) ∧
    Full (runF demoFull).beams ∧ (slots (runF demoFull).beams).Nodup ∧
    (List.range 5).map (fun r => (((killChannels firstK (1/2 : Rat) false).run
      (runF demoFull)).2.heap.cell r).attr .dead) =
      [some (.bool true), some (.bool true), some (.bool false), some (.bool false),
        some (.bool true)] := by
  refine ⟨runF_reachable demoFull ?_ (by decide +kernel), ?_, by decide +kernel, by decide +kernel⟩
  · simp only [allF, demoFull, NoCount, NoCountAssign, Counts]
    refine ⟨⟨trivial, ?_⟩, by simp⟩
    unfold Succeeds; decide +kernel
  · unfold Full; decide +kernel

/-- **C44 (violation).** With single detectors (`[beam, None]`), as `add_to_focal_plane` makes
them, the numbers drawn point to empty slots: killing all detectors raises AttributeError after
the first, and the second detector cannot be reached by any draw of one. -/
theorem C44_violation_empty_slot : ∃ ops : List (FOp Rat),
    PReachable demoEnv (fun _ => 1)
      (fun p op => NoCount op ∧ Counts demoEnv (fun _ => 1) p op) (runF ops) ∧
    (runF ops).ndet = 2 ∧ slots (runF ops).beams = [0, 1] ∧
    ((killChannels firstK (1 : Rat) false).run (runF ops)).1 = .error .attributeError ∧
    ∀ i : Nat, (i : Int) < 2 → (((killChannels (fun _ _ => .ok [i]) (1/2 : Rat) false).run
      (runF ops)).2.heap.cell 1).attr .dead = some (.bool false) := by
  refine ⟨[.beam (.new []), .beam (.new []), .add (.flat [some 0, some 1]) false],
    runF_reachable _ (by simp [allF, NoCount, NoCountAssign, Counts]) (by decide +kernel), ?_⟩
  refine ⟨by decide +kernel, by decide +kernel, by decide +kernel, ?_⟩
  intro i hi
  have : i = 0 ∨ i = 1 := by omega
  rcases this with rfl | rfl <;> decide +kernel

/-! ## C45 -/

omit [IsStrictOrderedRing K]

/-- **C45.** `set_global_prop` with any attributes but `dead`: if it returns, every selected
detector, and with `incl_ghosts` each of its ghosts, has been assigned the given values (through the
setters, in order), exactly once; every other object is untouched. -/
theorem C45_set (env : Env K) (rng : Nat → K) (p : Plane K)
    (hr : PReachable env rng (fun _ op => NoCount op) p) (hn : (slots p.beams).Nodup)
    (props : Dict K) (hd : ∀ e ∈ props, e.1 ≠ .dead) (incl noB noA : Bool)
    (hm : incl = true → ∀ r ∈ slots p.beams, (p.heap.cell r).isGhost = false)
    (hok : ((setGlobalProp env props incl noB noA).run p).1 = .ok ()) :
    let p' := ((setGlobalProp env props incl noB noA).run p).2
    p'.beams = p.beams ∧ p'.ndet = p.ndet ∧
    (∀ x, Reached p incl noB noA x → assign env props (p.heap.cell x) = .ok (p'.heap.cell x)) ∧
    ∀ x, ¬ Reached p incl noB noA x → p'.heap.cell x = p.heap.cell x := by
  have hb : BInv p := hr.binv fun _ _ h => h
  have hsub := selected_sublist noB noA p.beams
  intro p'
  have hp' : p' = (onHeap (Exec.forEach (selected noB noA p.beams) (applyBeam env props incl)) p).2
    := rfl
  unfold setGlobalProp Exec.run onHeap at hok
  dsimp only at hok
  unfold onHeap at hp'
  rcases hf : Exec.forEach (selected noB noA p.beams) (applyBeam env props incl) p.heap
    with ⟨e | u, h'⟩ <;> rw [hf] at hok hp'
  · cases hok
  dsimp only at hp'
  have hv := forEach_visit env hd incl _ hf
  have hnd := visited_nodup hb.wf (hn.sublist hsub) (fun r hr => hb.lt r (hsub.subset hr)) incl
    fun hi r hr => hm hi r (hsub.subset hr)
  obtain ⟨_, v2, v3⟩ := forEach_applyProps env hd hnd hv
  have hmem : ∀ x, x ∈ visited p.heap incl (selected noB noA p.beams) ↔
      Reached p incl noB noA x := by
    intro x
    unfold visited Reached Chosen GhostOf
    rw [List.mem_flatMap]
    constructor
    · rintro ⟨r, hr, hx⟩
      rcases List.mem_cons.1 hx with rfl | hx
      · exact .inl (mem_selected.1 hr)
      · cases incl with
        | false => simp at hx
        | true => exact .inr ⟨rfl, r, mem_selected.1 hr, mem_kids.1 (by simpa using hx)⟩
    · rintro (h | ⟨hi, r, hr, hx⟩)
      · exact ⟨x, mem_selected.2 h, by simp⟩
      · subst hi
        exact ⟨r, mem_selected.2 hr, by
          rw [List.mem_cons]; exact .inr (by simpa using mem_kids.2 hx)⟩
  rw [hp']
  exact ⟨rfl, rfl, fun x hx => v2 x ((hmem x).2 hx), fun x hx => v3 x fun h => hx ((hmem x).1 h)⟩

/-- **C45.** For attributes that simply store a value the call always returns; afterwards every
selected detector (and ghost) has the given values, and every other attribute and object is as
before. -/
theorem C45_set_plain (env : Env K) (rng : Nat → K) (p : Plane K)
    (hr : PReachable env rng (fun _ op => NoCount op) p) (hn : (slots p.beams).Nodup)
    (props : Dict K) (hk : ∀ e ∈ props, e.1 ∉ special) (hu : (props.map Prod.fst).Nodup)
    (incl noB noA : Bool)
    (hm : incl = true → ∀ r ∈ slots p.beams, (p.heap.cell r).isGhost = false) :
    ((setGlobalProp env props incl noB noA).run p).1 = .ok () ∧
    let p' := ((setGlobalProp env props incl noB noA).run p).2
    ∀ x k, (p'.heap.cell x).ghosts = (p.heap.cell x).ghosts ∧
      (Reached p incl noB noA x → ∀ v, (k, v) ∈ props → (p'.heap.cell x).attr k = some v) ∧
      (¬ Reached p incl noB noA x ∨ k ∉ props.map Prod.fst →
        (p'.heap.cell x).attr k = (p.heap.cell x).attr k) := by
  have hb : BInv p := hr.binv fun _ _ h => h
  have hsub := selected_sublist noB noA p.beams
  have hok : ((setGlobalProp env props incl noB noA).run p).1 = .ok () := by
    obtain ⟨h', hh⟩ := forEach_applyBeam_plain env hk incl (selected noB noA p.beams) p.heap
      fun hi r hr => by
        obtain ⟨gs, h1, _⟩ := hb.wf.main r (hb.lt r (hsub.subset hr)) (hm hi r (hsub.subset hr))
        rw [h1]; rfl
    unfold setGlobalProp Exec.run onHeap
    dsimp only
    rw [hh]
  refine ⟨hok, ?_⟩
  obtain ⟨_, _, c, d⟩ := C45_set env rng p hr hn props (special_dead hk) incl noB noA hm hok
  intro p' x k
  by_cases hx : Reached p incl noB noA x
  · have := c x hx
    rw [assign_plain env hk] at this
    have := (Except.ok.inj this).symm
    refine ⟨by rw [this, putAll_ghosts], fun _ v hv => by rw [this, putAll_attr_mem hu hv], ?_⟩
    rintro (h | h)
    · exact absurd hx h
    · rw [this, putAll_attr_not h]
  · have := d x hx
    exact ⟨by rw [this], fun h => absurd h hx, fun _ => by rw [this]⟩

/-- **C45.** The flag `dead` always reaches the ghosts of the selected detectors as well, whether
or not they are included. -/
theorem C45_set_dead (env : Env K) (rng : Nat → K) (p : Plane K)
    (hr : PReachable env rng (fun _ op => NoCount op) p) (v : Val K) (incl noB noA : Bool)
    (hm : incl = true → ∀ r ∈ slots p.beams, (p.heap.cell r).isGhost = false) :
    ((setGlobalProp env [(.dead, v)] incl noB noA).run p).1 = .ok () ∧
    let p' := ((setGlobalProp env [(.dead, v)] incl noB noA).run p).2
    p'.beams = p.beams ∧ p'.ndet = p.ndet ∧
    (∀ x, Reached p true noB noA x → p'.heap.cell x = (p.heap.cell x).put .dead v) ∧
    ∀ x, ¬ Reached p true noB noA x → p'.heap.cell x = p.heap.cell x := by
  have hb : BInv p := hr.binv fun _ _ h => h
  have hsub := selected_sublist noB noA p.beams
  obtain ⟨l, h1, h2⟩ := forEach_applyBeam_dead env v incl (selected noB noA p.beams) hb.wf
    (fun r hr => hb.lt r (hsub.subset hr)) fun hi r hr => hm hi r (hsub.subset hr)
  have hrun : (setGlobalProp env [(.dead, v)] incl noB noA).run p =
      (.ok (), { p with heap := markAll v l p.heap }) := by
    unfold setGlobalProp Exec.run onHeap
    dsimp only
    rw [h1]
  have hmem : ∀ x, x ∈ l ↔ Reached p true noB noA x := by
    intro x
    rw [h2]
    unfold Reached Chosen GhostOf
    constructor
    · rintro ⟨r, hr, rfl | hx⟩
      · exact .inl (mem_selected.1 hr)
      · exact .inr ⟨rfl, r, mem_selected.1 hr, mem_kids.1 hx⟩
    · rintro (h | ⟨_, r, hr, hx⟩)
      · exact ⟨x, mem_selected.2 h, .inl rfl⟩
      · exact ⟨r, mem_selected.2 hr, .inr (mem_kids.2 hx)⟩
  rw [hrun]
  refine ⟨rfl, rfl, rfl, fun x hx => ?_, fun x hx => ?_⟩
  · simp only [markAll]; rw [if_pos ((hmem x).2 hx)]
  · simp only [markAll]; rw [if_neg fun h => hx ((hmem x).1 h)]

example : PReachable demoEnv (fun _ => 1) (fun _ op => NoCount op) (runF demoFull) :=
  runF_reachable demoFull (by simp [allF, demoFull, NoCount, NoCountAssign]) (by decide +kernel)

example : (∀ r ∈ slots (runF demoFull).beams, ((runF demoFull).heap.cell r).isGhost = false) ∧
    (List.range 5).map (fun r => (((setGlobalProp demoEnv [(.polang, .num 7), (.lmax, .int 5)]
      true true false).run (runF demoFull)).2.heap.cell r).attr .polang) =
      [some (.num 7), some (.num 90), some (.num 7), some (.num 90), some (.num 7)] := by
  decide +kernel

/-- **C45 (partial).** `add_to_prop` without ghosts: if it returns, every selected detector has the
value added to its attribute, together with `rand_stdev` times a deviate that is its own, or with
`per_pair` that of its pair; everything else is as before.  Missing: ghosts, see
`C45_violation_add_ghosts`. -/
theorem C45_add_partial (env : Env K) (rng : Nat → K) (p : Plane K)
    (hn : (slots p.beams).Nodup) (k : Key) (hk : k ∉ special) (hb : k ≠ .blm) (v : Val K)
    (stdev : K) (perPair noB noA : Bool)
    (hok : ((addToProp env rng [(k, v)] false stdev perPair noB noA).run p).1 = .ok ()) :
    let p' := ((addToProp env rng [(k, v)] false stdev perPair noB noA).run p).2
    p'.beams = p.beams ∧ p'.ndet = p.ndet ∧
    (∀ x, ¬ Chosen p noB noA x → p'.heap.cell x = p.heap.cell x) ∧
    ∃ d : Ref → Nat,
      (∀ x, Chosen p noB noA x → Added rng k v stdev (d x) (p.heap.cell x) (p'.heap.cell x)) ∧
      (perPair = true → ∀ a b, (some a, some b) ∈ p.beams → d a = d b) ∧
      (stdev ≠ 0 → perPair = false → ∀ x y, Chosen p noB noA x → Chosen p noB noA y →
        d x = d y → x = y) := by
  intro p'
  have hrun : Exec.forEach p.beams (addPair env rng k v false stdev perPair noB noA) p =
      (.ok (), p') := by
    change (Exec.forEach p.beams (addPair env rng k v false stdev perPair noB noA) p).1 = .ok ()
      at hok
    exact Prod.ext hok rfl
  obtain ⟨a1, a2, _, _, a5, d, d1, d2, _, d4⟩ :=
    forEach_addPair env rng hk hb v stdev perPair noB noA p.beams hn hrun
  refine ⟨a1, a2, fun x hx => a5 x fun h => hx (mem_selected.1 h), d,
    fun x hx => d1 x (mem_selected.2 hx), d2,
    fun h0 hp x y hx hy => d4 h0 hp x (mem_selected.2 hx) y (mem_selected.2 hy)⟩

example : (((addToProp demoEnv (fun n => (n : Rat)) [(.az, .num 1)] false (1/10) false false false).run
      (runF demoFull)).1 = .ok ()) ∧
    (List.range 5).map (fun r => (((addToProp demoEnv (fun n => (n : Rat)) [(.az, .num 1)] false
      (1/10) false false false).run (runF demoFull)).2.heap.cell r).attr .az) =
      [some (.num (-4)), some (.num (-39/10)), some (.num (62/10)), some (.num (63/10)),
        some (.num (-5))] := by decide +kernel

/-- **C45 (violation).** `add_to_prop` with `incl_ghosts` adds to the detectors but overwrites the
ghosts: the detector goes from 1 to 5/4, its ghost from 1/2 to 1/4. -/
theorem C45_violation_add_ghosts : ∃ ops : List (FOp Rat),
    PReachable demoEnv (fun _ => 1) (fun _ op => NoCount op) (runF ops) ∧
    HasGhosts (runF ops).heap 0 [2] ∧
    ((runF ops).heap.cell 0).attr .amplitude = some (.num 1) ∧
    ((runF ops).heap.cell 2).attr .amplitude = some (.num (1/2)) ∧
    let p' := ((addToProp demoEnv (fun _ => 1) [(.amplitude, .num (1/4))] true 0 false false
      false).run (runF ops)).2
    (p'.heap.cell 0).attr .amplitude = some (.num (5/4)) ∧
    (p'.heap.cell 2).attr .amplitude = some (.num (1/4)) := by
  refine ⟨[.create 1 1 10 false (.num 90) false [],
    .beam (.createGhost 0 (some "g") [(.amplitude, .num (1/2))])],
    runF_reachable _ (by simp [allF, NoCount, NoCountAssign]) (by decide +kernel), ?_⟩
  unfold HasGhosts
  decide +kernel

/-- **C45 (violation).** `set_global_prop_random` is meant to add Gaussian noise of the given size;
its deviates for the detectors (not for the ghosts) have mean one, so that even a noise realisation
of zero shifts every detector by the full size. -/
theorem C45_violation_random : ∃ ops : List (FOp Rat),
    PReachable demoEnv (fun _ => 1) (fun _ op => NoCount op) (runF ops) ∧
    HasGhosts (runF ops).heap 0 [2] ∧
    let p' := ((setGlobalPropRandom demoEnv (fun _ => 0) [(.amplitude, .num (1/4))] true).run
      (runF ops)).2
    ((runF ops).heap.cell 0).attr .amplitude = some (.num 1) ∧
    (p'.heap.cell 0).attr .amplitude = some (.num (5/4)) ∧
    ((runF ops).heap.cell 2).attr .amplitude = some (.num (1/2)) ∧
    (p'.heap.cell 2).attr .amplitude = some (.num (1/2)) := by
  refine ⟨[.create 1 1 10 false (.num 90) false [],
    .beam (.createGhost 0 (some "g") [(.amplitude, .num (1/2))])],
    runF_reachable _ (by simp [allF, NoCount, NoCountAssign]) (by decide +kernel), ?_⟩
  unfold HasGhosts
  decide +kernel

/-! ## C59 -/

/-- **C59 (partial).** If `create_reflected_ghosts` returns, each detector has got one new ghost, at
minus its offsets; no attribute of an existing object changes except its list and number of ghosts.
Without random part the amplitude is the given one, or else that of the detector.  With random part
it is the given amplitude (default 1) plus the sum of *all* draws so far, instead of the own draw:
this is the first draw only for the first ghost. -/
theorem C59_reflected_partial (env : Env K) (rng : Nat → K) (p : Plane K)
    (hr : PReachable env rng (fun _ op => NoCount op) p) (tag : Option String) (stdev : K)
    (kw : Dict K)
    (hok : ((createReflectedGhosts env rng none tag stdev kw).run p).1 = .ok ()) :
    let p' := ((createReflectedGhosts env rng none tag stdev kw).run p).2
    p'.heap.size = p.heap.size + (slots p.beams).length ∧ p'.beams = p.beams ∧ p'.ndet = p.ndet ∧
    (∀ x < p.heap.size, ∀ k, k ≠ .ghostCount →
      (p'.heap.cell x).attr k = (p.heap.cell x).attr k) ∧
    ∀ n r, (slots p.beams)[n]? = some r → ∃ g, g = p.heap.size + n ∧ GhostOf p'.heap r g ∧
      (p'.heap.cell g).isGhost = true ∧
      (∀ a, (p.heap.cell r).attr .az = some (.num a) →
        (p'.heap.cell g).attr .az = some (.num (-a))) ∧
      (∀ e, (p.heap.cell r).attr .el = some (.num e) →
        (p'.heap.cell g).attr .el = some (.num (-e))) ∧
      (stdev = 0 → (p'.heap.cell g).attr .amplitude =
        (Dict.get? kw .amplitude).or ((p.heap.cell r).attr .amplitude)) ∧
      ∀ b, (Dict.get? kw .amplitude).getD (.num 1) = .num b → stdev ≠ 0 →
        (p'.heap.cell g).attr .amplitude =
          some (.num (b + ∑ j ∈ Finset.range (n + 1), stdev * rng (p.draws + j))) := by
  have hb : BInv p := hr.binv fun _ _ h => h
  intro p'
  have hrun : broodLoop env rng stdev tag ((slots p.beams).map fun r => (r, reflectOpts)) kw p =
      (.ok (), p') := by
    rw [← reflectLoop_eq]
    exact Prod.ext hok rfl
  have hopt : ∀ (o : Obj K) (kw kw1 : Dict K), reflectOpts o kw = .ok kw1 →
      (∀ k, k ≠ .az → k ≠ .el → Dict.get? kw1 k = Dict.get? kw k) ∧
      (∀ a, o.attr .az = some (.num a) → Dict.get? kw1 .az = some (.num (-a))) ∧
      ∀ e, o.attr .el = some (.num e) → Dict.get? kw1 .el = some (.num (-e)) := by
    intro o kw kw1 h
    unfold reflectOpts at h
    simp only [bind, Except.bind, pure, Except.pure] at h
    rcases h1 : o.read .az with e | a <;> rw [h1] at h
    · cases h
    dsimp only at h
    rcases h2 : Val.neg a with e | a' <;> rw [h2] at h
    · cases h
    dsimp only at h
    rcases h3 : o.read .el with e | b <;> rw [h3] at h
    · cases h
    dsimp only at h
    rcases h4 : Val.neg b with e | b' <;> rw [h4] at h
    · cases h
    have h := (Except.ok.inj h).symm
    subst h
    refine ⟨?_, ?_, ?_⟩
    · intro k ha he
      rw [get?_cons, if_neg ha, get?_cons, if_neg he]
    · intro x hx
      rw [read_ok hx] at h1
      rw [← Except.ok.inj h1] at h2
      rw [get?_cons, if_pos rfl, ← Except.ok.inj h2]
    · intro x hx
      rw [read_ok hx] at h3
      rw [← Except.ok.inj h3] at h4
      rw [get?_cons, if_neg (by simp), get?_cons, if_pos rfl, ← Except.ok.inj h4]
  obtain ⟨b, hg⟩ := broodLoop_spec env rng stdev tag _ kw (by
    intro t ht o kw kw1 h
    obtain ⟨r, _, rfl⟩ := List.mem_map.1 ht
    exact (hopt o kw kw1 h).1 .amplitude (by simp) (by simp)) hb.wf (by
    intro t ht
    obtain ⟨r, hr, rfl⟩ := List.mem_map.1 ht
    exact hb.lt r hr) hrun
  refine ⟨by rw [b.size, List.length_map], b.beams, b.ndet, b.old, ?_⟩
  intro n r hn
  have g := hg n r reflectOpts (by rw [List.getElem?_map, hn]; rfl)
  refine ⟨_, rfl, mem_kids.1 g.mem, g.ghost, ?_, ?_, g.zero, ?_⟩
  · intro a ha
    obtain ⟨o, kwn, kw1, h1, h2, h3⟩ := g.attr
    rw [h3 .az (by simp [handedOn]) (by simp),
      (hopt o kwn kw1 h1).2.1 a (by rw [h2 .az (by simp)]; exact ha)]
    rfl
  · intro a ha
    obtain ⟨o, kwn, kw1, h1, h2, h3⟩ := g.attr
    rw [h3 .el (by simp [handedOn]) (by simp),
      (hopt o kwn kw1 h1).2.2 a (by rw [h2 .el (by simp)]; exact ha)]
    rfl
  · intro c hc h0
    refine g.rand h0 c ?_
    unfold popArg
    rcases h : Dict.get? kw .amplitude with _ | v <;> rw [h] at hc <;> exact hc

example : ((createReflectedGhosts demoEnv (fun _ => 1) none (some "r") (1/10)
    [(.amplitude, .num 2)]).run (runF demoFull)).1 = .ok () := by decide +kernel

/-- **C59 (partial).** The same for `create_crosstalk_ghosts` on a focal plane without empty slots:
the ghost of each detector is at the given offsets with the polarisation angle turned by 90 degrees;
it is alive exactly if its azimuth offset is not zero. -/
theorem C59_crosstalk_partial (env : Env K) (rng : Nat → K) (p : Plane K)
    (hr : PReachable env rng (fun _ op => NoCount op) p) (hf : Full p.beams)
    (azs els : List (Row K)) (ha : azs.length = p.beams.length) (he : els.length = p.beams.length)
    (tag : Option String) (stdev : K) (kw : Dict K)
    (hok : ((createCrosstalkGhosts env rng azs els none tag stdev kw).run p).1 = .ok ()) :
    let p' := ((createCrosstalkGhosts env rng azs els none tag stdev kw).run p).2
    p'.heap.size = p.heap.size + (slots p.beams).length ∧ p'.beams = p.beams ∧ p'.ndet = p.ndet ∧
    (∀ x < p.heap.size, ∀ k, k ≠ .ghostCount →
      (p'.heap.cell x).attr k = (p.heap.cell x).attr k) ∧
    ∀ n r az el, (slots p.beams)[n]? = some r → (flatRows azs)[n]? = some az →
      (flatRows els)[n]? = some el → ∃ g, g = p.heap.size + n ∧ GhostOf p'.heap r g ∧
      (p'.heap.cell g).isGhost = true ∧
      (p'.heap.cell g).attr .az = some az ∧ (p'.heap.cell g).attr .el = some el ∧
      (∀ x, (p.heap.cell r).attr .polang = some (.num x) →
        (p'.heap.cell g).attr .polang = some (.num (x + 90))) ∧
      (∀ x, az = .num x → ((p'.heap.cell g).attr .dead = some (.bool false) ↔ x ≠ 0)) ∧
      (stdev = 0 → (p'.heap.cell g).attr .amplitude =
        (Dict.get? kw .amplitude).or ((p.heap.cell r).attr .amplitude)) ∧
      ∀ b, (Dict.get? kw .amplitude).getD (.num 1) = .num b → stdev ≠ 0 →
        (p'.heap.cell g).attr .amplitude =
          some (.num (b + ∑ j ∈ Finset.range (n + 1), stdev * rng (p.draws + j))) := by
  have hb : BInv p := hr.binv fun _ _ h => h
  intro p'
  have hrun : broodLoop env rng stdev tag
      (((slots p.beams).zip ((flatRows azs).zip (flatRows els))).map fun t =>
        (t.1, fun o => crosstalkOpts o t.2.1 t.2.2)) kw p = (.ok (), p') := by
    rw [← crosstalkLoop_eq, ← crosstalkItems_full hf ha he]
    exact Prod.ext hok rfl
  have hopt : ∀ (o : Obj K) (a e : Val K) (kw kw1 : Dict K), crosstalkOpts o a e kw = .ok kw1 →
      Dict.get? kw1 .amplitude = Dict.get? kw .amplitude ∧ Dict.get? kw1 .az = some a ∧
      Dict.get? kw1 .el = some e ∧ Dict.get? kw1 .dead = some (.bool (!a.truthy)) ∧
      ∀ x, o.attr .polang = some (.num x) → Dict.get? kw1 .polang = some (.num (x + 90)) := by
    intro o a e kw kw1 h
    unfold crosstalkOpts at h
    simp only [bind, Except.bind, pure, Except.pure] at h
    rcases h1 : o.read .polang with er | q <;> rw [h1] at h
    · cases h
    dsimp only at h
    rcases h2 : q.add (.int 90) with er | q' <;> rw [h2] at h
    · cases h
    have h := (Except.ok.inj h).symm
    subst h
    refine ⟨rfl, rfl, rfl, rfl, ?_⟩
    intro x hx
    rw [read_ok hx] at h1
    rw [← Except.ok.inj h1] at h2
    have h2 := Except.ok.inj h2
    show some q' = _
    rw [← h2]
    simp
  have hlen := full_length hf
  have hla : (flatRows azs).length = (slots p.beams).length := by
    rw [hlen, ← ha]
    unfold flatRows
    induction azs with
    | nil => rfl
    | cons a l ih => simp; omega
  have hle : (flatRows els).length = (slots p.beams).length := by
    rw [hlen, ← he]
    unfold flatRows
    induction els with
    | nil => rfl
    | cons a l ih => simp; omega
  obtain ⟨b, hg⟩ := broodLoop_spec env rng stdev tag _ kw (by
    intro t ht o kw kw1 h
    obtain ⟨t', _, rfl⟩ := List.mem_map.1 ht
    exact (hopt o _ _ kw kw1 h).1) hb.wf (by
    intro t ht
    obtain ⟨t', ht', rfl⟩ := List.mem_map.1 ht
    exact hb.lt _ (List.of_mem_zip ht').1) hrun
  refine ⟨?_, b.beams, b.ndet, b.old, ?_⟩
  · rw [b.size, List.length_map, List.length_zip, List.length_zip, hla, hle]
    simp
  intro n r az el hn haz hel
  have g := hg n r (fun o => crosstalkOpts o az el) (by
    rw [List.getElem?_map]
    have : ((slots p.beams).zip ((flatRows azs).zip (flatRows els)))[n]? = some (r, az, el) := by
      rw [List.getElem?_zip_eq_some]
      refine ⟨hn, ?_⟩
      rw [List.getElem?_zip_eq_some]
      exact ⟨haz, hel⟩
    rw [this]; rfl)
  obtain ⟨o, kwn, kw1, h1, h2, h3⟩ := g.attr
  obtain ⟨_, o2, o3, o4, o5⟩ := hopt o az el kwn kw1 h1
  refine ⟨_, rfl, mem_kids.1 g.mem, g.ghost, ?_, ?_, ?_, ?_, g.zero, ?_⟩
  · rw [h3 .az (by simp [handedOn]) (by simp), o2]; rfl
  · rw [h3 .el (by simp [handedOn]) (by simp), o3]; rfl
  · intro x hx
    rw [h3 .polang (by simp [handedOn]) (by simp),
      o5 x (by rw [h2 .polang (by simp)]; exact hx)]
    rfl
  · intro x hx
    rw [h3 .dead (by simp [handedOn]) (by simp), o4, hx]
    simp [Val.truthy]
  · intro c hc h0
    refine g.rand h0 c ?_
    unfold popArg
    rcases h : Dict.get? kw .amplitude with _ | v <;> rw [h] at hc <;> exact hc

example : ((createCrosstalkGhosts demoEnv (fun _ => 1) [(.num 1, .num 2), (.num 3, .num 0)]
    [(.num 1, .num 2), (.num 3, .num 4)] none (some "x") 0 []).run (runF demoFull)).1 = .ok () := by
  decide +kernel

/-- **C59 (violation).** The second ghost does not have the base amplitude plus its own draw. -/
theorem C59_violation_accumulates : ∃ ops : List (FOp Rat), ∃ rng : Nat → Rat,
    PReachable demoEnv (fun _ => 1) (fun _ op => NoCount op) (runF ops) ∧
    slots (runF ops).beams = [0, 1] ∧
    let p' := ((createReflectedGhosts demoEnv rng none none (1/10) [(.amplitude, .num 2)]).run
      (runF ops)).2
    (p'.heap.cell 1).ghosts = some [3] ∧
    (p'.heap.cell 3).attr .amplitude ≠ some (.num (2 + 1/10 * rng 1)) := by
  refine ⟨[.create 1 1 10 false (.num 90) false []], fun _ => 1,
    runF_reachable _ (by simp [allF, NoCount]) (by decide +kernel), ?_⟩
  decide +kernel

/-! ## C69 -/

/-- Options of `create_focal_plane` that are handed on to every detector. -/
def commonKeys : List Key :=
  [.btype, .amplitude, .poFile, .egFile, .crossPol, .sensitiveFreq, .deconvQ, .normalize,
   .polangError, .symmetric, .hwp, .hwpMueller]

/-- **C69.** A successful `create_focal_plane` adds `nrow * ncol` new pairs after the existing ones
(or replaces these), touching no existing detector.  The pair in column `c` and row `e` is number
`c * nrow + e`; both detectors are at azimuth `-fov/2 + c fov/(ncol-1)` and elevation
`-fov/2 + e fov/(nrow-1)` (at `-fov/2` if there is a single column or row), B's angle is A's plus
`ab_diff`, A is an "A" and B a "B" detector, A is dead only if asked for, B also with `no_pairs`,
all other options are handed on, and all names differ. -/
theorem C69_grid (env : Env K) (rng : Nat → K) (p : Plane K)
    (hr : PReachable env rng (fun _ op => NoCount op) p) (nrow ncol : Int) (fov : K)
    (noPairs : Bool) (abDiff : Val K) (combine : Bool) (kw : Dict K)
    (hok : ((createFocalPlane env nrow ncol fov noPairs abDiff combine kw).run p).1 = .ok ()) :
    let p' := ((createFocalPlane env nrow ncol fov noPairs abDiff combine kw).run p).2
    let A := fun c e : Nat => p.heap.size + 2 * (c * nrow.toNat + e)
    let B := fun c e : Nat => p.heap.size + 2 * (c * nrow.toNat + e) + 1
    0 ≤ nrow ∧ 0 ≤ ncol ∧
    (∃ L, p'.beams = (if combine then p.beams else []) ++ L ∧ (L.length : Int) = nrow * ncol ∧
      ∀ c e : Nat, (c : Int) < ncol → (e : Int) < nrow →
        L[c * nrow.toNat + e]? = some (some (A c e), some (B c e))) ∧
    (∀ x < p.heap.size, p'.heap.cell x = p.heap.cell x) ∧
    (∀ c e : Nat, (c : Int) < ncol → (e : Int) < nrow →
      ∃ az el dead : Val K, ∃ qa qb : Val K,
      (az = .num (if ncol = 1 then -fov / 2 else -fov / 2 + c * (fov / (ncol - 1))) ∧
       el = .num (if nrow = 1 then -fov / 2 else -fov / 2 + e * (fov / (nrow - 1))) ∧
       dead = (Dict.get? kw .dead).getD (.bool false) ∧
       qa = (Dict.get? kw .polang).getD (.num 0) ∧ qa.add abDiff = .ok qb) ∧
      (∀ k, k ∈ commonKeys → (p'.heap.cell (A c e)).attr k = some (arg kw k) ∧
        (p'.heap.cell (B c e)).attr k = some (arg kw k)) ∧
      (p'.heap.cell (A c e)).attr .az = some az ∧ (p'.heap.cell (B c e)).attr .az = some az ∧
      (p'.heap.cell (A c e)).attr .el = some el ∧ (p'.heap.cell (B c e)).attr .el = some el ∧
      (p'.heap.cell (A c e)).attr .polang = some qa ∧
      (p'.heap.cell (B c e)).attr .polang = some qb ∧
      (p'.heap.cell (A c e)).attr .pol = some (.str "A") ∧
      (p'.heap.cell (B c e)).attr .pol = some (.str "B") ∧
      (p'.heap.cell (A c e)).attr .dead = some dead ∧
      (p'.heap.cell (B c e)).attr .dead =
        some (if dead.truthy then dead else .bool noPairs)) ∧
    ∃ nameA nameB : Nat → Nat → String,
      (∀ c e : Nat, (c : Int) < ncol → (e : Int) < nrow →
        (p'.heap.cell (A c e)).attr .name = some (.str (nameA c e)) ∧
        (p'.heap.cell (B c e)).attr .name = some (.str (nameB c e))) ∧
      ∀ c e c' e', nameA c e ≠ nameB c' e' ∧
        (nameA c e = nameA c' e' → c = c' ∧ e = e') ∧
        (nameB c e = nameB c' e' → c = c' ∧ e = e') := by
  have hb : BInv p := hr.binv fun _ _ h => h
  unfold createFocalPlane Exec.run at hok ⊢
  dsimp only at hok ⊢
  rcases hi : startIdx p combine with e | i <;> rw [hi] at hok
  · cases hok
  dsimp only at hok ⊢
  split at hok
  · cases hok
  rename_i hneg
  rw [if_neg hneg]
  rw [show (presetNdet p (2 * nrow * ncol) combine).heap = p.heap from rfl] at hok ⊢
  obtain ⟨g, hsame, hq⟩ := buildPairs_spec env
    (gridOpts nrow.toNat ncol.toNat fov noPairs abDiff kw i) p.heap hb.wf
  rcases hbp : buildPairs env (gridOpts nrow.toNat ncol.toNat fov noPairs abDiff kw i) p.heap
    with ⟨e | qs, h'⟩ <;> rw [hbp] at hok hq hsame <;> dsimp only at hok hq hsame ⊢
  · cases hok
  obtain ⟨_, q2, q3⟩ := hq qs rfl
  rw [gridOpts_length] at q2
  have hpos : ∀ c e : Nat, (c : Int) < ncol → (e : Int) < nrow →
      c * nrow.toNat + e < ncol.toNat * nrow.toNat ∧ (c * nrow.toNat + e) % nrow.toNat = e ∧
      (c * nrow.toNat + e) / nrow.toNat = c := by
    intro c e hc he
    have hc' : c < ncol.toNat := by omega
    have he' : e < nrow.toNat := by omega
    refine ⟨?_, ?_, ?_⟩
    · calc c * nrow.toNat + e < c * nrow.toNat + nrow.toNat := by omega
        _ = (c + 1) * nrow.toNat := by ring
        _ ≤ ncol.toNat * nrow.toNat := Nat.mul_le_mul_right _ hc'
    · rw [Nat.mul_comm, Nat.mul_add_mod, Nat.mod_eq_of_lt he']
    · rw [Nat.mul_comm, Nat.mul_add_div (by omega), Nat.div_eq_of_lt he', Nat.add_zero]
  -- the two detectors of a pair
  have hpair : ∀ c e : Nat, (c : Int) < ncol → (e : Int) < nrow → ∃ da db : Dict K,
      gridPair nrow.toNat ncol.toNat fov noPairs abDiff kw
        (i + 2 * (c * nrow.toNat + e : Nat)) e c = (.ok da, .ok db) ∧
      init env da = .ok (h'.cell (p.heap.size + 2 * (c * nrow.toNat + e))) ∧
      init env db = .ok (h'.cell (p.heap.size + 2 * (c * nrow.toNat + e) + 1)) := by
    intro c e hc he
    obtain ⟨h1, h2, h3⟩ := hpos c e hc he
    have := gridOpts_get nrow.toNat ncol.toNat fov noPairs abDiff kw i _ h1
    rw [h2, h3] at this
    obtain ⟨a, b, x, y, z⟩ := q3 _ _ this
    exact ⟨a, b, x, y, z⟩
  have hrest : ∀ k ∈ commonKeys, Dict.get? (kw.filter (·.1 ∉ gridReserved)) k = Dict.get? kw k := by
    intro k hk
    have hk' : k ∉ gridReserved := by
      simp only [commonKeys, List.mem_cons, List.not_mem_nil, or_false] at hk
      rcases hk with rfl | rfl | rfl | rfl | rfl | rfl | rfl | rfl | rfl | rfl | rfl | rfl <;>
        simp [gridReserved]
    exact get?_filter_mem kw hk'
  have hcommon : ∀ k ∈ commonKeys, k ∉ gridReserved ∧ k ∈ plainKeys := by
    intro k hk
    simp only [commonKeys, List.mem_cons, List.not_mem_nil, or_false] at hk
    rcases hk with rfl | rfl | rfl | rfl | rfl | rfl | rfl | rfl | rfl | rfl | rfl | rfl <;>
      simp [gridReserved, plainKeys]
  have hgrid : ∀ c e : Nat, (c : Int) < ncol → (e : Int) < nrow → ∃ qb,
      ((Dict.get? kw .polang).getD (.num 0)).add abDiff = .ok qb ∧ 
      ∀ k ∈ plainKeys, 
        (h'.cell (p.heap.size + 2 * (c * nrow.toNat + e))).attr k = some (arg
          ([(.az, .num (linspaceItem (-fov / 2) (fov / 2) ncol.toNat c)),
            (.el, .num (linspaceItem (-fov / 2) (fov / 2) nrow.toNat e)),
            (.name, .str (detName e c 'A')), (.polang, (Dict.get? kw .polang).getD (.num 0)),
            (.dead, (Dict.get? kw .dead).getD (.bool false)), (.pol, .str "A"),
            (.idx, .int (i + 2 * (c * nrow.toNat + e : Nat)))] ++
            kw.filter (·.1 ∉ gridReserved)) k) ∧
        (h'.cell (p.heap.size + 2 * (c * nrow.toNat + e) + 1)).attr k = some (arg
          ([(.az, .num (linspaceItem (-fov / 2) (fov / 2) ncol.toNat c)),
            (.el, .num (linspaceItem (-fov / 2) (fov / 2) nrow.toNat e)),
            (.name, .str (detName e c 'B')), (.polang, qb),
            (.dead, Val.or ((Dict.get? kw .dead).getD (.bool false)) (.bool noPairs)),
            (.pol, .str "B"), (.idx, .int (i + 2 * (c * nrow.toNat + e : Nat) + 1))] ++
            kw.filter (·.1 ∉ gridReserved)) k) := by
    intro c e hc he
    obtain ⟨da, db, x, y, z⟩ := hpair c e hc he
    unfold gridPair at x
    have hpop : ∀ k (d : Val K), popArg kw k d = (Dict.get? kw k).getD d := by
      intro k d; unfold popArg; rcases Dict.get? kw k with _ | v <;> rfl
    simp only [hpop, Prod.mk.injEq] at x
    obtain ⟨x1, x2⟩ := x
    rcases hadd : ((Dict.get? kw .polang).getD (.num 0)).add abDiff with er | qb <;>
      rw [hadd] at x2
    · cases x2
    have x1 := Except.ok.inj x1
    have x2 := Except.ok.inj x2
    refine ⟨qb, rfl, fun k hk => ⟨?_, ?_⟩⟩
    · rw [(init_spec env y).1 k hk, ← x1]
    · rw [(init_spec env z).1 k hk, ← x2]
  have hlin : ∀ (n : Int) (c : Nat), (c : Int) < n → 0 ≤ n →
      linspaceItem (-fov / 2) (fov / 2) n.toNat c =
        if n = 1 then -fov / 2 else -fov / 2 + c * (fov / (n - 1)) := by
    intro n c hc hn
    unfold linspaceItem
    have h1 : n.toNat = 1 ↔ n = 1 := by omega
    have h2 : ((n.toNat : Nat) : K) = (n : K) := by
      have : ((n.toNat : Nat) : Int) = n := Int.toNat_of_nonneg hn
      rw [← Int.cast_natCast, this]
    simp only [h1, h2]
    split
    · rfl
    · ring
  refine ⟨by omega, by omega, ⟨qs, ?_, ?_, ?_⟩, ?_, ?_, ?_⟩
  · cases combine <;> rfl
  · rw [q2, List.length_map, List.length_range]
    push_cast
    rw [Int.toNat_of_nonneg (by omega), Int.toNat_of_nonneg (by omega)]
    ring
  · intro c e hc he
    rw [q2, List.getElem?_map, List.getElem?_range (hpos c e hc he).1]
    rfl
  · exact hsame
  · intro c e hc he
    obtain ⟨qb, hqb, hat⟩ := hgrid c e hc he
    refine ⟨_, _, _, _, qb, ⟨rfl, rfl, rfl, rfl, hqb⟩, ?_, ?_⟩
    · intro k hk
      obtain ⟨hres, hpl⟩ := hcommon k hk
      obtain ⟨h1, h2⟩ := hat k hpl
      have harg : ∀ (l : Dict K), (∀ x ∈ l, x.1 ∈ gridReserved) →
          arg (l ++ kw.filter (·.1 ∉ gridReserved)) k = arg kw k := by
        intro l hl
        have hln : Dict.get? l k = none := get?_none_of l hl hres
        unfold arg
        rw [get?_append, hln, hrest k hk]
        rfl
      refine ⟨h1.trans ?_, h2.trans ?_⟩ <;>
      · congr 1
        exact harg _ (by simp [gridReserved])
    · have hp : ∀ k ∈ [Key.az, .el, .polang, .pol, .dead], k ∈ plainKeys := by
        intro k hk
        simp only [List.mem_cons, List.not_mem_nil, or_false] at hk
        rcases hk with rfl | rfl | rfl | rfl | rfl <;> simp [plainKeys]
      rw [← hlin ncol c hc (by omega), ← hlin nrow e he (by omega)]
      exact ⟨(hat .az (hp _ (by simp))).1, (hat .az (hp _ (by simp))).2,
        (hat .el (hp _ (by simp))).1, (hat .el (hp _ (by simp))).2,
        (hat .polang (hp _ (by simp))).1, (hat .polang (hp _ (by simp))).2,
        (hat .pol (hp _ (by simp))).1, (hat .pol (hp _ (by simp))).2,
        (hat .dead (hp _ (by simp))).1, (hat .dead (hp _ (by simp))).2⟩
  · refine ⟨fun c e => detName e c 'A', fun c e => detName e c 'B', ?_, ?_⟩
    · intro c e hc he
      obtain ⟨qb, _, hat⟩ := hgrid c e hc he
      exact hat .name (by simp [plainKeys])
    · intro c e c' e'
      refine ⟨fun h => ?_, fun h => ?_, fun h => ?_⟩
      · exact absurd (detName_inj h).2.2 (by decide)
      · exact ⟨(detName_inj h).2.1, (detName_inj h).1⟩
      · exact ⟨(detName_inj h).2.1, (detName_inj h).1⟩

/-- The detectors of a new pair are constructed from its keyword arguments. -/
theorem grid_init (env : Env K) (p : Plane K) (hb : BInv p) (nrow ncol : Int) (fov : K)
    (noPairs : Bool) (abDiff : Val K) (combine : Bool) (kw : Dict K)
    (hok : ((createFocalPlane env nrow ncol fov noPairs abDiff combine kw).run p).1 = .ok ()) :
    let p' := ((createFocalPlane env nrow ncol fov noPairs abDiff combine kw).run p).2
    p'.heap.size = p.heap.size + 2 * (ncol.toNat * nrow.toNat) ∧
    ∃ idx, ∀ n, n < ncol.toNat * nrow.toNat → ∃ da db : Dict K,
      gridPair nrow.toNat ncol.toNat fov noPairs abDiff kw (idx + 2 * n) (n % nrow.toNat)
        (n / nrow.toNat) = (.ok da, .ok db) ∧
      init env da = .ok (p'.heap.cell (p.heap.size + 2 * n)) ∧
      init env db = .ok (p'.heap.cell (p.heap.size + 2 * n + 1)) := by
  unfold createFocalPlane Exec.run at hok ⊢
  dsimp only at hok ⊢
  rcases hi : startIdx p combine with e | i <;> rw [hi] at hok
  · cases hok
  dsimp only at hok ⊢
  split at hok
  · cases hok
  rename_i hneg
  rw [if_neg hneg]
  rw [show (presetNdet p (2 * nrow * ncol) combine).heap = p.heap from rfl] at hok ⊢
  obtain ⟨g, hsame, hq⟩ := buildPairs_spec env
    (gridOpts nrow.toNat ncol.toNat fov noPairs abDiff kw i) p.heap hb.wf
  rcases hbp : buildPairs env (gridOpts nrow.toNat ncol.toNat fov noPairs abDiff kw i) p.heap
    with ⟨e | qs, h'⟩ <;> rw [hbp] at hok hq hsame <;> dsimp only at hok hq hsame ⊢
  · cases hok
  obtain ⟨q1, -, q3⟩ := hq qs rfl
  rw [gridOpts_length] at q1
  refine ⟨q1, i, fun n hn => ?_⟩
  obtain ⟨a, b, x, y, z⟩ := q3 _ _ (gridOpts_get nrow.toNat ncol.toNat fov noPairs abDiff kw i n hn)
  exact ⟨a, b, x, y, z⟩

/-- **C69, new detectors.** Each detector created by `create_focal_plane` is a main beam without
ghosts and without coefficients in memory.  Its limits are those of `Beam` with the given options:
`lmax` (not negative), `mmax` (not above `lmax`, and `lmax` if not given) and the width. -/
theorem C69_detectors [IsStrictOrderedRing K] (env : Env K) (rng : Nat → K) (p : Plane K)
    (hr : PReachable env rng (fun _ op => NoCount op) p) (nrow ncol : Int) (fov : K)
    (noPairs : Bool) (abDiff : Val K) (combine : Bool) (kw : Dict K)
    (hok : ((createFocalPlane env nrow ncol fov noPairs abDiff combine kw).run p).1 = .ok ()) :
    let p' := ((createFocalPlane env nrow ncol fov noPairs abDiff combine kw).run p).2
    ∀ r, p.heap.size ≤ r → r < p.heap.size + 2 * (ncol.toNat * nrow.toNat) →
      (r < p'.heap.size ∧ (p'.heap.cell r).isGhost = false ∧ (p'.heap.cell r).ghosts = some [] ∧
        (p'.heap.cell r).attr .ghostCount = some (.int 0) ∧ (p'.heap.cell r).attr .blm = none) ∧
      (0 < env.pi → LimVal .lmax (arg kw .lmax) → LimVal .mmax (arg kw .mmax) →
        LimVal .fwhm (arg kw .fwhm) →
        ∃ i L M F, arg kw .lmax = .int i ∧ L = max i 0 ∧
          M = (match arg kw .mmax with | .int m => min m L | _ => L) ∧
          F = (match arg kw .fwhm with
            | .num x => |x|
            | _ => degrees env ((14 / 10) * 2 * env.pi / L) * 60) ∧
          Limits (p'.heap.cell r) L M F) := by
  intro p' r h1 h2
  obtain ⟨hs, idx, hn⟩ := grid_init env p (hr.binv fun _ _ h => h) nrow ncol fov noPairs abDiff combine kw
    hok
  have hkeys : ∀ (l : Dict K) (k : Key), (∀ x ∈ l, x.1 ∈ gridReserved ∧ x.1 ≠ .ghost) →
      k ∈ [Key.lmax, .mmax, .fwhm] →
      arg (l ++ kw.filter (·.1 ∉ gridReserved)) k = arg kw k := by
    intro l k hl hk
    have hk' : k ∉ gridReserved := by
      simp only [List.mem_cons, List.not_mem_nil, or_false] at hk
      rcases hk with rfl | rfl | rfl <;> simp [gridReserved]
    unfold arg
    rw [get?_append, get?_none_of l (fun x hx => (hl x hx).1) hk', get?_filter_mem kw hk']
    rfl
  have hghost : ∀ (l : Dict K), (∀ x ∈ l, x.1 ∈ gridReserved ∧ x.1 ≠ .ghost) →
      (arg (l ++ kw.filter (·.1 ∉ gridReserved)) .ghost).truthy = false := by
    intro l hl
    have e1 : Dict.get? l .ghost = none := get?_none_of l (r := l.map Prod.fst)
      (fun x hx => List.mem_map_of_mem hx) (by
        intro hm
        obtain ⟨x, hx, e⟩ := List.mem_map.1 hm
        exact (hl x hx).2 e)
    have e2 : Dict.get? (kw.filter (·.1 ∉ gridReserved)) .ghost = none :=
      get?_none_of _ (r := (kw.filter (·.1 ∉ gridReserved)).map Prod.fst)
      (fun x hx => List.mem_map_of_mem hx) (by
        intro hm
        obtain ⟨x, hx, e⟩ := List.mem_map.1 hm
        have := (List.mem_filter.1 hx).2
        simp [e, gridReserved] at this)
    unfold arg
    rw [get?_append, e1, e2]
    rfl
  have key : ∀ d : Dict K, (∃ l : Dict K, (∀ x ∈ l, x.1 ∈ gridReserved ∧ x.1 ≠ .ghost) ∧
      d = l ++ kw.filter (·.1 ∉ gridReserved)) → init env d = .ok (p'.heap.cell r) →
      ((p'.heap.cell r).isGhost = false ∧ (p'.heap.cell r).ghosts = some [] ∧
        (p'.heap.cell r).attr .ghostCount = some (.int 0) ∧ (p'.heap.cell r).attr .blm = none) ∧
      (0 < env.pi → LimVal .lmax (arg kw .lmax) → LimVal .mmax (arg kw .mmax) →
        LimVal .fwhm (arg kw .fwhm) →
        ∃ i L M F, arg kw .lmax = .int i ∧ L = max i 0 ∧
          M = (match arg kw .mmax with | .int m => min m L | _ => L) ∧
          F = (match arg kw .fwhm with
            | .num x => |x|
            | _ => degrees env ((14 / 10) * 2 * env.pi / L) * 60) ∧
          Limits (p'.heap.cell r) L M F) := by
    rintro d ⟨l, hl, rfl⟩ hd
    obtain ⟨-, -, i3, -, i5, -, i7⟩ := init_spec env hd
    rw [hghost l hl] at i3
    refine ⟨⟨i3, (i5 i3).1, (i5 i3).2, i7⟩, fun hpi a1 a2 a3 => ?_⟩
    have k1 := hkeys l .lmax hl (by simp)
    have k2 := hkeys l .mmax hl (by simp)
    have k3 := hkeys l .fwhm hl (by simp)
    obtain ⟨i, L, M, F, b1, b2, b3, b4, b5, -⟩ := init_limits hpi hd (by rw [k1]; exact a1)
      (by rw [k2]; exact a2) (by rw [k3]; exact a3)
    rw [k1] at b1
    rw [k2] at b3
    rw [k3] at b4
    exact ⟨i, L, M, F, b1, b2, b3, b4, b5⟩
  have hpop : ∀ (da db : Dict K) (i : Int) (e c : Nat),
      gridPair nrow.toNat ncol.toNat fov noPairs abDiff kw i e c = (.ok da, .ok db) →
      ∀ d, d = da ∨ d = db → ∃ l : Dict K, (∀ x ∈ l, x.1 ∈ gridReserved ∧ x.1 ≠ .ghost) ∧
        d = l ++ kw.filter (·.1 ∉ gridReserved) := by
    intro da db i e c h
    unfold gridPair at h
    simp only [Prod.mk.injEq] at h
    obtain ⟨x1, x2⟩ := h
    rcases hadd : (popArg kw .polang (.num 0)).add abDiff with er | qb <;> rw [hadd] at x2
    · cases x2
    rintro d (rfl | rfl)
    · exact ⟨_, by simp [gridReserved], (Except.ok.inj x1).symm⟩
    · exact ⟨_, by simp [gridReserved], (Except.ok.inj x2).symm⟩
  have hd : ∃ d : Dict K, (∃ l : Dict K, (∀ x ∈ l, x.1 ∈ gridReserved ∧ x.1 ≠ .ghost) ∧
      d = l ++ kw.filter (·.1 ∉ gridReserved)) ∧ init env d = .ok (p'.heap.cell r) := by
    obtain ⟨da, db, y1, y2, y3⟩ := hn ((r - p.heap.size) / 2) (by omega)
    rcases Nat.mod_two_eq_zero_or_one (r - p.heap.size) with e | e
    · rw [show p.heap.size + 2 * ((r - p.heap.size) / 2) = r by omega] at y2
      exact ⟨da, hpop _ _ _ _ _ y1 _ (.inl rfl), y2⟩
    · rw [show p.heap.size + 2 * ((r - p.heap.size) / 2) + 1 = r by omega] at y3
      exact ⟨db, hpop _ _ _ _ _ y1 _ (.inr rfl), y3⟩
  obtain ⟨d, d1, d2⟩ := hd
  obtain ⟨k1, k2⟩ := key d d1 d2
  exact ⟨⟨by rw [hs]; exact h2, k1⟩, k2⟩

/-- Options with which `Beam` can be constructed: its parameters, with usual values of the limits. -/
structure GoodOptions (kw : Dict K) : Prop where
  known : ∀ x ∈ kw, (Dict.get? (defaults (K := K)) x.1).isSome
  lmax : ∃ i, arg kw .lmax = .int i ∧ (arg kw .fwhm = .none → 0 < i)
  mmax : arg kw .mmax = .none ∨ ∃ m, arg kw .mmax = .int m
  fwhm : arg kw .fwhm = .none ∨ ∃ x, arg kw .fwhm = .num x

theorem init_good [IsStrictOrderedRing K] (env : Env K) (kw : Dict K) (h : GoodOptions kw) :
    ∃ o, init env kw = .ok o := by
  obtain ⟨i, h1, h2⟩ := h.lmax
  have hall : (kw.all fun e => (Dict.get? (defaults (K := K)) e.1).isSome) = true :=
    List.all_eq_true.2 h.known
  unfold init
  rw [if_pos hall, h1, setLmax_int]
  simp only [bind, Except.bind, pure, Except.pure]
  have hL : ((initHead kw).put .lmax (.int (max i 0))).attr .lmax = some (.int (max i 0)) := by
    rw [put_attr, if_pos rfl]
  obtain ⟨M, hM⟩ : ∃ M : Int, setMmax ((initHead kw).put .lmax (.int (max i 0))) (arg kw .mmax) =
      .ok (((initHead kw).put .lmax (.int (max i 0))).put .mmax (.int M)) := by
    rcases h.mmax with e | ⟨m, e⟩
    · exact ⟨_, by rw [e, setMmax_none hL]⟩
    · exact ⟨_, by rw [e, setMmax_int hL]⟩
  rw [hM]
  dsimp only
  rcases h.fwhm with e | ⟨x, e⟩
  · rw [e, setFwhm_none (L := max i 0) env (by rw [put_attr, if_neg (by simp), put_attr, if_neg (by simp), hL]),
      if_neg (by have := h2 e; omega)]
    exact ⟨_, rfl⟩
  · rw [e, setFwhm_num]
    exact ⟨_, rfl⟩

theorem buildPairs_good (env : Env K) (l : List (PyM (Dict K) × PyM (Dict K)))
    (hl : ∀ x ∈ l, ∃ a b oa ob, x = (.ok a, .ok b) ∧ init env a = .ok oa ∧ init env b = .ok ob)
    (h : Heap K) : ∃ qs h', buildPairs env l h = (.ok qs, h') := by
  induction l generalizing h with
  | nil => exact ⟨_, _, rfl⟩
  | cons x l ih =>
    obtain ⟨a, b, oa, ob, rfl, ha, hb⟩ := hl x List.mem_cons_self
    obtain ⟨qs, h', e⟩ := ih (fun y hy => hl y (List.mem_cons_of_mem _ hy)) ((h.alloc oa).alloc ob)
    refine ⟨(some h.size, some (h.alloc oa).size) :: qs, h', ?_⟩
    unfold buildPairs newBeam
    dsimp only
    rw [ha]
    dsimp only
    rw [hb]
    dsimp only
    rw [e]

/-- **C69, success.** `create_focal_plane` with options `Beam` accepts, and an angle to which `ab_diff` can
be added, returns normally, for a new focal plane of any size. -/
theorem C69_succeeds [IsStrictOrderedRing K] (env : Env K) (p : Plane K) (nrow ncol : Int)
    (hrow : 0 ≤ nrow) (hcol : 0 ≤ ncol) (fov : K) (noPairs : Bool) (abDiff : Val K) (combine : Bool)
    (hnew : combine = false ∨ p.beams = []) (kw : Dict K) (hkw : GoodOptions kw)
    (hadd : ∃ q, ((Dict.get? kw .polang).getD (.num 0)).add abDiff = .ok q) :
    ((createFocalPlane env nrow ncol fov noPairs abDiff combine kw).run p).1 = .ok () := by
  have hi : ∃ i, startIdx p combine = .ok i := by
    rcases hnew with rfl | e
    · exact ⟨0, rfl⟩
    · refine ⟨0, ?_⟩
      unfold startIdx nextIdx beamsIdxs
      rw [e]
      cases combine <;> rfl
  obtain ⟨i, hi⟩ := hi
  obtain ⟨q, hq⟩ := hadd
  have hgood : ∀ l : Dict K, (∀ x ∈ l, x.1 ∈ gridReserved) →
      GoodOptions (l ++ kw.filter (·.1 ∉ gridReserved)) := by
    intro l hl
    have hk : ∀ k ∈ [Key.lmax, .mmax, .fwhm], arg (l ++ kw.filter (·.1 ∉ gridReserved)) k = arg kw k := by
      intro k hk
      have hk' : k ∉ gridReserved := by
        simp only [List.mem_cons, List.not_mem_nil, or_false] at hk
        rcases hk with rfl | rfl | rfl <;> simp [gridReserved]
      unfold arg
      rw [get?_append, get?_none_of l hl hk', get?_filter_mem kw hk']
      rfl
    refine ⟨?_, ?_, ?_, ?_⟩
    · intro x hx
      rcases List.mem_append.1 hx with hx | hx
      · have := hl x hx
        simp only [gridReserved, List.mem_cons, List.not_mem_nil, or_false] at this
        rcases this with e | e | e | e | e | e | e | e <;> rw [e] <;> rfl
      · exact hkw.known x (List.mem_filter.1 hx).1
    · rw [hk .lmax (by simp), hk .fwhm (by simp)]
      exact hkw.lmax
    · rw [hk .mmax (by simp)]
      exact hkw.mmax
    · rw [hk .fwhm (by simp)]
      exact hkw.fwhm
  obtain ⟨qs, h', hb⟩ := buildPairs_good env (gridOpts nrow.toNat ncol.toNat fov noPairs abDiff kw i) (by
    intro x hx
    unfold gridOpts at hx
    obtain ⟨n, -, rfl⟩ := List.mem_map.1 hx
    have hpop : popArg kw .polang (.num 0) = (Dict.get? kw .polang).getD (.num 0) := by
      unfold popArg; rcases Dict.get? kw .polang with _ | v <;> rfl
    unfold gridPair
    simp only [hpop, hq]
    obtain ⟨oa, ha⟩ := init_good env _ (hgood [(.az, .num (linspaceItem (-fov / 2) (fov / 2) ncol.toNat
        (n / nrow.toNat))), (.el, .num (linspaceItem (-fov / 2) (fov / 2) nrow.toNat (n % nrow.toNat))),
      (.name, .str (detName (n % nrow.toNat) (n / nrow.toNat) 'A')),
      (.polang, (Dict.get? kw .polang).getD (.num 0)), (.dead, popArg kw .dead (.bool false)),
      (.pol, .str "A"), (.idx, .int (i + 2 * n))] (by simp [gridReserved]))
    obtain ⟨ob, hb⟩ := init_good env _ (hgood [(.az, .num (linspaceItem (-fov / 2) (fov / 2) ncol.toNat
        (n / nrow.toNat))), (.el, .num (linspaceItem (-fov / 2) (fov / 2) nrow.toNat (n % nrow.toNat))),
      (.name, .str (detName (n % nrow.toNat) (n / nrow.toNat) 'B')),
      (.polang, q), (.dead, Val.or (popArg kw .dead (.bool false)) (.bool noPairs)),
      (.pol, .str "B"), (.idx, .int (i + 2 * n + 1))] (by simp [gridReserved]))
    exact ⟨_, _, oa, ob, rfl, ha, hb⟩) p.heap
  unfold createFocalPlane Exec.run
  dsimp only
  rw [hi]
  dsimp only
  rw [if_neg (by omega), show (presetNdet p (2 * nrow * ncol) combine).heap = p.heap from rfl, hb]

example : let p := ((createFocalPlane demoEnv 2 3 10 true (.num 90) true
      [(.polang, .num 5), (.lmax, .int 50)]).run (runF demoF)).2
    ((createFocalPlane demoEnv 2 3 10 true (.num 90) true
      [(.polang, .num 5), (.lmax, .int 50)]).run (runF demoF)).1 = .ok () ∧
    p.beams.length = 9 ∧ p.ndet = 16 ∧
    (p.heap.cell 13).attr .name = some (.str "r001c001B") ∧
    (p.heap.cell 13).attr .az = some (.num 0) ∧ (p.heap.cell 13).attr .el = some (.num 5) ∧
    (p.heap.cell 13).attr .polang = some (.num 95) := by decide +kernel

/-- Options that meet the hypotheses of `C69_succeeds`. -/
example : GoodOptions ([(.polang, .num 5), (.lmax, .int 50), (.btype, .str "Gaussian")] : Dict Rat) :=
  ⟨by decide, ⟨50, by decide, by decide⟩, .inl (by decide), .inl (by decide)⟩

/-- Those of `C69_detectors` are met, by detector 13 of this focal plane. -/
example : let kw : Dict Rat := [(.polang, .num 5), (.lmax, .int 50), (.mmax, .int 60), (.ghost, .bool true)]
    let p := ((createFocalPlane demoEnv 2 3 10 true (.num 90) true kw).run (runF demoF)).2
    ((createFocalPlane demoEnv 2 3 10 true (.num 90) true kw).run (runF demoF)).1 = .ok () ∧
    0 < demoEnv.pi ∧ arg kw .lmax = .int 50 ∧ arg kw .mmax = .int 60 ∧ arg kw .fwhm = .none ∧
    (p.heap.cell 13).isGhost = false ∧ (p.heap.cell 13).attr .mmax = some (.int 50) := by decide +kernel

end Verif.FocalPlane
