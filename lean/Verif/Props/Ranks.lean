import Verif.Spec.Ranks
import Verif.Props.Mpi
import Mathlib.Data.List.Nodup

/-!
# Property C121: one focal plane on many ranks
-/

namespace Verif.Props

open Verif.Ranks Verif.Spec Verif.Mpi

theorem newPairs_length : ∀ (l : List (Nat × Nat)) (i : Int), (newPairs l i).length = l.length
  | [], _ => rfl
  | _ :: l, i => by simp [newPairs, newPairs_length l]

theorem newPairs_labels : ∀ (l : List (Nat × Nat)) (i : Int),
    (newPairs l i).map (fun q => (q.1.label, q.2.label)) = l
  | [], _ => rfl
  | (a, b) :: l, i => by simp [newPairs, newPairs_labels l]

theorem newPairs_idx : ∀ (l : List (Nat × Nat)) (i : Int) (k : Int),
    k ∈ (dets (newPairs l i)).map Det.idx → i ≤ k
  | [], _, _ => by simp [newPairs, dets]
  | (a, b) :: l, i, k => by
    intro h
    simp only [newPairs, dets, List.flatMap_cons, List.map_append, List.mem_append] at h
    rcases h with h | h
    · simp at h; omega
    · have := newPairs_idx l (i + 2) k h
      omega

theorem newPairs_nodup : ∀ (l : List (Nat × Nat)) (i : Int),
    ((dets (newPairs l i)).map Det.idx).Nodup
  | [], _ => by simp [newPairs, dets]
  | (a, b) :: l, i => by
    have h1 := newPairs_nodup l (i + 2)
    have h2 := newPairs_idx l (i + 2)
    simp only [newPairs, dets, List.flatMap_cons, List.map_append]
    refine List.nodup_append.2 ⟨by simp, h1, ?_⟩
    intro x hx y hy hxy
    have := h2 y hy
    simp at hx
    omega

theorem dets_append (l m : List Pair) : dets (l ++ m) = dets l ++ dets m := by simp [dets]

theorem idxs_eq (i : Inst) : idxs i = (dets i.beams).map Det.idx := by
  simp [idxs, dets, List.map_flatMap]

theorem startIdx_gt (i : Inst) (k : Int) (hk : k ∈ (dets i.beams).map Det.idx) :
    k < startIdx i true := by
  unfold startIdx
  rw [if_pos rfl, idxs_eq]
  cases h : ((dets i.beams).map Det.idx).max? with
  | none =>
    rw [List.max?_eq_none_iff] at h
    rw [h] at hk
    cases hk
  | some m =>
    have := (List.max?_eq_some_iff.1 h).2 k hk
    simp only
    omega

/-- What holds for one instrument made without scattering. -/
structure Good (i : Inst) : Prop where
  count : i.ndet = 2 * i.beams.length
  distinct : ((dets i.beams).map Det.idx).Nodup

theorem store_good (i : Inst) (hi : Good i) (combine : Bool) (labels : List (Nat × Nat)) :
    Good (store i combine (newPairs labels (startIdx i combine)) (2 * labels.length)) := by
  cases combine with
  | false =>
    refine ⟨?_, newPairs_nodup _ _⟩
    simp [store, newPairs_length]
  | true =>
    constructor
    · have := hi.count
      simp only [store, if_true, List.length_append, newPairs_length]
      omega
    · simp only [store, if_true, dets_append, List.map_append]
      refine List.nodup_append.2 ⟨hi.distinct, newPairs_nodup _ _, ?_⟩
      intro x hx y hy hxy
      have h1 := startIdx_gt i x hx
      have h2 := newPairs_idx _ _ y hy
      omega

theorem dets_length (l : List Pair) : (dets l).length = 2 * l.length := by
  induction l with
  | nil => rfl
  | cons q l ih => simp only [dets, List.flatMap_cons, List.length_append] at *; simp [ih]; omega

theorem dets_get (l : List Pair) (j : Nat) :
    (dets l)[j]? = (l[j / 2]?).map fun q => if j % 2 = 0 then q.1 else q.2 := by
  induction l generalizing j with
  | nil => simp [dets]
  | cons q l ih =>
    have hd : dets (q :: l) = q.1 :: q.2 :: dets l := rfl
    rw [hd]
    match j with
    | 0 => simp
    | 1 => simp
    | j + 2 =>
      have h1 : (j + 2) / 2 = j / 2 + 1 := by omega
      have h2 : (j + 2) % 2 = j % 2 := by omega
      rw [h1, h2]
      simpa using ih j

/-- What killing does to the detectors, by their numbers. -/
def KilledBy (l l' : List Pair) (D : Nat → Prop) : Prop :=
  l'.length = l.length ∧ ∀ j d, (dets l)[j]? = some d →
    ∃ d', (dets l')[j]? = some d' ∧ d'.label = d.label ∧ d'.idx = d.idx ∧
      (d'.dead = true ↔ d.dead = true ∨ D j)

theorem killOne_spec (pairs : Bool) (l l' : List Pair) (k : Nat)
    (h : killOne pairs l k = .ok l') : KilledBy l l' (Drawn [k] pairs) := by
  cases pairs with
  | true =>
    simp only [killOne, if_true] at h
    split at h
    · rename_i q hq
      obtain rfl := Except.ok.inj h
      refine ⟨by simp, fun j d hj => ?_⟩
      rw [dets_get] at hj
      rw [dets_get]
      by_cases hk : j / 2 = k
      · subst hk
        rw [hq] at hj
        have hlt : j / 2 < l.length := (List.getElem?_eq_some_iff.1 hq).1
        simp only [Option.map_some, Option.some.injEq] at hj
        subst hj
        refine ⟨_, by rw [List.getElem?_set_self hlt]; rfl, ?_⟩
        by_cases h2 : j % 2 = 0 <;> simp [h2, killBoth, Drawn]
      · rw [List.getElem?_set_ne (Ne.symm hk)]
        exact ⟨d, hj, rfl, rfl, by simp [Drawn, hk]⟩
    · cases h
  | false =>
    simp only [killOne, Bool.false_eq_true, if_false] at h
    split at h
    · rename_i q hq
      obtain rfl := Except.ok.inj h
      refine ⟨by simp, fun j d hj => ?_⟩
      rw [dets_get] at hj
      rw [dets_get]
      by_cases hk : j / 2 = k / 2
      · rw [hk, hq] at hj
        have hlt : k / 2 < l.length := (List.getElem?_eq_some_iff.1 hq).1
        simp only [Option.map_some, Option.some.injEq] at hj
        subst hj
        refine ⟨_, by rw [hk, List.getElem?_set_self hlt]; rfl, ?_⟩
        rcases Nat.mod_two_eq_zero_or_one j with h2 | h2 <;>
          rcases Nat.mod_two_eq_zero_or_one k with h3 | h3
        · have : j = k := by omega
          simp [h2, h3, killSlot, Drawn, this]
        · have : j ≠ k := by omega
          simp [h2, h3, killSlot, Drawn, this]
        · have : j ≠ k := by omega
          simp [h2, h3, killSlot, Drawn, this]
        · have : j = k := by omega
          simp [h2, h3, killSlot, Drawn, this]
      · rw [List.getElem?_set_ne (Ne.symm hk)]
        refine ⟨d, hj, rfl, rfl, ?_⟩
        have : j ≠ k := by rintro rfl; exact hk rfl
        simp [Drawn, this]
    · cases h

theorem killAll_spec (pairs : Bool) : ∀ (ks : List Nat) (l l' : List Pair),
    killAll pairs l ks = .ok l' → KilledBy l l' (Drawn ks pairs) := by
  intro ks
  induction ks with
  | nil =>
    intro l l' h
    obtain rfl := Except.ok.inj h
    refine ⟨rfl, fun j d hj => ⟨d, hj, rfl, rfl, ?_⟩⟩
    cases pairs <;> simp [Drawn]
  | cons k ks ih =>
    intro l l' h
    simp only [killAll] at h
    split at h
    · rename_i m hm
      obtain ⟨h1, h2⟩ := killOne_spec pairs l m k hm
      obtain ⟨h3, h4⟩ := ih m l' h
      refine ⟨h3.trans h1, fun j d hj => ?_⟩
      obtain ⟨d1, e1, e2, e3, e4⟩ := h2 j d hj
      obtain ⟨d2, f1, f2, f3, f4⟩ := h4 j d1 e1
      refine ⟨d2, f1, f2.trans e2, f3.trans e3, ?_⟩
      rw [f4, e4]
      cases pairs <;> simp [Drawn, or_assoc]
    · cases h

theorem killAll_ok (pairs : Bool) : ∀ (ks : List Nat) (l : List Pair),
    (∀ k ∈ ks, k < if pairs then l.length else 2 * l.length) →
      ∃ l', killAll pairs l ks = .ok l' := by
  intro ks
  induction ks with
  | nil => exact fun l _ => ⟨l, rfl⟩
  | cons k ks ih =>
    intro l h
    have hk := h k (List.mem_cons_self ..)
    have : ∃ m, killOne pairs l k = .ok m := by
      cases pairs with
      | true =>
        simp only [if_true] at hk
        simp only [killOne, if_true, List.getElem?_eq_getElem hk]
        exact ⟨_, rfl⟩
      | false =>
        simp only [Bool.false_eq_true, if_false] at hk
        have hk' : k / 2 < l.length := by omega
        simp only [killOne, Bool.false_eq_true, if_false, List.getElem?_eq_getElem hk']
        exact ⟨_, rfl⟩
    obtain ⟨m, hm⟩ := this
    have hl := (killOne_spec pairs l m k hm).1
    obtain ⟨l', hl'⟩ := ih m (fun x hx => by
      rw [hl]; exact h x (List.mem_cons_of_mem _ hx))
    exact ⟨l', by simp only [killAll, hm]; exact hl'⟩

theorem killed_idx (l l' : List Pair) (D : Nat → Prop) (h : KilledBy l l' D) :
    (dets l').map Det.idx = (dets l).map Det.idx := by
  apply List.ext_getElem?
  intro j
  rw [List.getElem?_map, List.getElem?_map]
  cases hj : (dets l)[j]? with
  | none =>
    have : (dets l')[j]? = none := by
      rw [List.getElem?_eq_none_iff] at hj ⊢
      rw [dets_length] at hj ⊢
      rw [h.1]; exact hj
    rw [this]
  | some d =>
    obtain ⟨d', e1, _, e3, _⟩ := h.2 j d hj
    rw [e1]
    simp [e3]

/-- The next instruments, if all ranks hold the instrument `i` and the call does not scatter. -/
theorem step_same (size : Nat) (c : Call) (hc : Whole c) (w : Nat → Inst) (i : Inst) (hi : Good i)
    (hs : 0 < size) (hw : ∀ r, r < size → w r = i) :
    ∃ i', Good i' ∧ ∀ r, r < size → step size c w r = .ok i' := by
  cases c with
  | create labels combine scatter =>
    obtain rfl : scatter = false := hc
    refine ⟨_, store_good i hi combine labels, fun r hr => ?_⟩
    simp only [step, hw r hr]
    rfl
  | load labels combine scatter =>
    obtain rfl : scatter = false := hc
    refine ⟨_, store_good i hi combine labels, fun r hr => ?_⟩
    simp only [step, hw r hr, hw 0 hs, load, newPairs_length]
    rfl
  | kill choice pairs =>
    have hd : Draws choice := hc
    obtain ⟨l', hl'⟩ := killAll_ok pairs (choice (if pairs then i.ndet / 2 else i.ndet)) i.beams
      (fun k hk => by
        have := hd _ k hk
        have hcount := hi.count
        cases pairs <;> simp at this ⊢ <;> omega)
    have hk := killAll_spec pairs _ _ _ hl'
    refine ⟨⟨l', i.ndet⟩, ⟨?_, ?_⟩, fun r hr => ?_⟩
    · rw [hi.count]; simp only [hk.1]
    · simp only [killed_idx _ _ _ hk]; exact hi.distinct
    · simp only [step, hw r hr, hw 0 hs, kill, hl']

theorem reached_same (size : Nat) (hs : 0 < size) (w : Nat → Inst) (h : Reached size Whole w) :
    ∃ i, Good i ∧ ∀ r, r < size → w r = i := by
  induction h with
  | start => exact ⟨⟨[], 0⟩, ⟨rfl, by simp [dets]⟩, fun _ _ => rfl⟩
  | call w w' c _ hc hstep ih =>
    obtain ⟨i, hi, hw⟩ := ih
    obtain ⟨i', hi', h'⟩ := step_same size c hc w i hi hs hw
    refine ⟨i', hi', fun r hr => ?_⟩
    have := (hstep r hr).symm.trans (h' r hr)
    exact Except.ok.inj this

/-- **C121, part.** As long as no call scatters the detectors, all ranks hold the same focal plane
with the right number of detectors, all of different index; no further call fails on any rank; and
a scan works on every pair once over all ranks.
Missing: calls with `scatter=True`, see the violations below. -/
theorem C121_shared_partial (size : Nat) (hs : 0 < size) (w : Nat → Inst)
    (h : Reached size Whole w) :
    (∀ r, r < size → w r = w 0) ∧ (w 0).ndet = (dets (w 0).beams).length ∧
      ((dets (w 0).beams).map Det.idx).Nodup ∧
      (∀ c, Whole c → ∃ w' : Nat → Inst, ∀ r, r < size → step size c w r = .ok (w' r)) ∧
      ∃ work, (∀ r, r < size → scan size r true w = .ok (work r)) ∧
        ScannedOnce size (w 0).beams work := by
  obtain ⟨i, hi, hw⟩ := reached_same size hs w h
  have h0 := hw 0 hs
  refine ⟨fun r hr => (hw r hr).trans h0.symm, ?_, ?_, ?_, ?_⟩
  · rw [h0, dets_length]; exact hi.count
  · rw [h0]; exact hi.distinct
  · intro c hc
    obtain ⟨i', _, h'⟩ := step_same size c hc w i hi hs hw
    exact ⟨fun _ => i', h'⟩
  · obtain ⟨work, hlen, hwork, hflat, heq⟩ := C03_every_pair_scanned_once (w 0).beams size hs
    refine ⟨fun r => (work[r]?).getD [], fun r hr => ?_, ?_, fun r s hr hs' => ?_⟩
    · have hwr : work[r]? = some work[r] := List.getElem?_eq_getElem (by omega)
      have := hwork r hr
      rw [hwr] at this
      simp only [hwr, Option.getD_some]
      have h2 : scan size r true w = scanPasses (w 0).beams true size r := by
        simp only [scan, scanPasses, localBeams, if_true, hw r hr, h0]
      rw [h2]
      exact (Option.some.inj this).symm
    · rw [← hflat]
      congr 1
      apply List.ext_getElem?
      intro r
      rw [List.getElem?_map, List.getElem?_map]
      by_cases hr : r < size
      · rw [List.getElem?_range hr, List.getElem?_eq_getElem (show r < work.length by omega)]
        have hwr : work[r]? = some work[r] := List.getElem?_eq_getElem (by omega)
        simp only [Option.map_some, hwr, Option.getD_some]
      · rw [List.getElem?_eq_none (by simpa using hr),
          List.getElem?_eq_none (show work.length ≤ r by omega)]
        rfl
    · have hwr : work[r]? = some work[r] := List.getElem?_eq_getElem (by omega)
      have hws : work[s]? = some work[s] := List.getElem?_eq_getElem (by omega)
      simp only [hwr, hws, Option.getD_some]
      exact heq _ (List.getElem_mem _) _ (List.getElem_mem _)

/-- **C121.** Without scattering, killing detectors kills the same ones on every rank: those the
root has drawn, nothing else changes. -/
theorem C121_kill (size : Nat) (hs : 0 < size) (w w' : Nat → Inst)
    (h : Reached size Whole w) (choice : Nat → List Nat) (pairs : Bool)
    (hw : ∀ r, r < size → step size (.kill choice pairs) w r = .ok (w' r))
    (r : Nat) (hr : r < size) (j : Nat) (d : Det) (hj : (dets (w 0).beams)[j]? = some d) :
    ∃ d', (dets (w' r).beams)[j]? = some d' ∧ d'.label = d.label ∧ d'.idx = d.idx ∧
      (d'.dead = true ↔ d.dead = true ∨
        Drawn (choice (if pairs then (w 0).beams.length else 2 * (w 0).beams.length)) pairs j) := by
  obtain ⟨i, hi, hwi⟩ := reached_same size hs w h
  have h0 := hwi 0 hs
  have hstep := hw r hr
  simp only [step, kill, hwi r hr, h0] at hstep
  rw [h0] at hj ⊢
  split at hstep
  · rename_i b hb
    have hb' : b = (w' r).beams := by rw [← Except.ok.inj hstep]
    subst hb'
    have hk := killAll_spec pairs _ _ _ hb
    have hc : (if pairs then i.ndet / 2 else i.ndet) =
        if pairs then i.beams.length else 2 * i.beams.length := by
      rw [hi.count]
      cases pairs <;> simp
    rw [hc] at hk
    exact hk.2 j d hj
  · cases hstep

/-- **C121.** A call that scatters adds to the ranks an even split of the new pairs, and to the
number of detectors all of them on every rank.  The new detectors are numbered after those of the
root's focal plane. -/
theorem C121_split (size : Nat) (hs : 0 < size) (w : Nat → Inst) (h : Reached size Whole w)
    (labels : List (Nat × Nat)) (c : Call)
    (hc : c = .create labels true true ∨ c = .load labels true true) :
    ∃ (new : List Pair) (parts : List (List Pair)) (w' : Nat → Inst),
      new.map (fun q => (q.1.label, q.2.label)) = labels ∧ EvenSplit size new parts ∧
      ((dets ((w 0).beams ++ new)).map Det.idx).Nodup ∧
      ∀ r, r < size → step size c w r = .ok (w' r) ∧ (w' r).ndet = (w 0).ndet + 2 * labels.length ∧
        ∃ p, parts[r]? = some p ∧ (w' r).beams = (w 0).beams ++ p := by
  obtain ⟨i, hi, hwi⟩ := reached_same size hs w h
  have h0 := hwi 0 hs
  obtain ⟨parts, hp, hd⟩ := C01_distribute_array_even_split
    (newPairs labels (startIdx i true)) size hs
  refine ⟨newPairs labels (startIdx i true), parts,
    fun r => ⟨i.beams ++ (parts[r]?).getD [], i.ndet + 2 * labels.length⟩, ?_, hp, ?_, ?_⟩
  · exact newPairs_labels _ _
  · rw [h0]
    exact (store_good i hi true labels).distinct
  · intro r hr
    obtain ⟨p, hp1, hp2⟩ := hd r hr
    refine ⟨?_, by rw [h0], p, hp1, by simp only [h0, hp1, Option.getD_some]⟩
    rcases hc with rfl | rfl
    · simp only [step, create, hwi r hr, if_true, hp2, bind, Except.bind, pure, Except.pure, store,
        hp1, Option.getD_some]
    · simp only [step, load, hwi r hr, h0, if_true, C02_scatter_list_eq_distribute _ _ _ hr, hp2,
        bind, Except.bind, pure, Except.pure, store, hp1, Option.getD_some, newPairs_length]

/-- Four pairs are made and two detectors killed on three ranks. -/
example : ∃ w, Reached 3 Whole w ∧ (w 2).ndet = 8 ∧ ((dets (w 1).beams).filter (·.dead)).length = 2 :=
  by
  let w1 : Nat → Inst := fun _ => store ⟨[], 0⟩ true (newPairs [(0, 1), (2, 3), (4, 5), (6, 7)] 0) 8
  have h1 : Reached 3 Whole w1 := .call _ _ (.create [(0, 1), (2, 3), (4, 5), (6, 7)] true false)
    .start rfl (fun r _ => rfl)
  obtain ⟨b, hb⟩ : ∃ b, killAll false (w1 0).beams [1, 4] = .ok b := ⟨_, rfl⟩
  have h2 : Reached 3 Whole fun _ => ⟨b, 8⟩ := by
    refine .call _ _ (.kill (fun n => if n = 8 then [1, 4] else []) false) h1 ?_ (fun r _ => ?_)
    · intro n k hk
      by_cases hn : n = 8
      · subst hn; simp at hk; omega
      · simp [hn] at hk
    · show (match killAll false (w1 0).beams [1, 4] with
        | .ok b => Except.ok (⟨b, 8⟩ : Inst)
        | .error e => .error e) = _
      rw [hb]
  refine ⟨_, h2, rfl, ?_⟩
  obtain rfl := Except.ok.inj hb
  rfl

theorem mem_slice {α : Type} {l : List α} (hl : l.Nodup) {j a b : Nat} (hj : j < l.length)
    (h : l[j] ∈ (l.take b).drop a) : a ≤ j ∧ j < b := by
  obtain ⟨k, hk, e⟩ := List.getElem_of_mem h
  rw [List.getElem_drop, List.getElem_take] at e
  have hlen : a + k < (l.take b).length := by
    rw [List.length_drop] at hk; omega
  rw [List.length_take] at hlen
  have := (List.Nodup.getElem_inj_iff hl (hi := by omega) (hj := hj)).1 e
  omega

theorem nmax_lt (k size : Nat) (hk : 2 ≤ k) (hs : 2 ≤ size) : nmax k size < k := by
  have h1 := ceilDiv_mul_lt (k : Int) size (by omega)
  unfold nmax
  by_contra hc
  have h2 : (k : Int) - 1 ≤ ceilDiv (k : Int) size - 1 := by omega
  have h3 := Int.mul_le_mul h2 (show (2 : Int) ≤ size by omega) (by omega) (by omega)
  omega

theorem mem_passes {α : Type} {l : List α} {n : Nat} {q : α} (h : some q ∈ passes l n) :
    q ∈ l.take n := by
  unfold passes at h
  obtain ⟨k, hk, e⟩ := List.mem_map.1 h
  obtain ⟨hk', e⟩ := List.getElem?_eq_some_iff.1 e
  rw [List.mem_range] at hk
  refine List.mem_iff_getElem.2 ⟨k, by rw [List.length_take]; omega, ?_⟩
  rw [List.getElem_take]; exact e

theorem newPairs_nodup' (l : List (Nat × Nat)) (i : Int) : (newPairs l i).Nodup := by
  have h := newPairs_nodup l i
  have : ∀ m : List Pair, ((dets m).map Det.idx).Nodup → m.Nodup := by
    intro m
    induction m with
    | nil => simp
    | cons q m ih =>
      intro hm
      have hd : dets (q :: m) = q.1 :: q.2 :: dets m := rfl
      rw [hd, List.map_cons, List.map_cons, List.nodup_cons, List.nodup_cons] at hm
      refine List.nodup_cons.2 ⟨fun hq => hm.1 ?_, ih hm.2.2⟩
      refine List.mem_cons_of_mem _ (List.mem_map_of_mem ?_)
      exact List.mem_flatMap.2 ⟨q, hq, by simp⟩
  exact this _ h

/-- **C121 (violation).** Once the detectors have been scattered over two or more ranks when they
were created or loaded, a scan misses detectors, whether it is told to scatter or not: there is a
pair that no rank ever works on. -/
theorem C121_violation_scan (size : Nat) (hs : 2 ≤ size) (labels : List (Nat × Nat))
    (hn : size < labels.length) (c : Call)
    (hc : c = .create labels true true ∨ c = .load labels true true) (scatter : Bool) :
    ∃ w', (∀ r, r < size → step size c fresh r = .ok (w' r)) ∧
      ∃ q r₀, r₀ < size ∧ q ∈ (w' r₀).beams ∧
        ∀ r work, r < size → scan size r scatter w' = .ok work → some q ∉ work := by
  have hs0 : 0 < size := by omega
  let new := newPairs labels 0
  have hnew : new.length = labels.length := newPairs_length _ _
  have hnd : new.Nodup := newPairs_nodup' _ _
  let slice := fun r => (new.take (subStart new.length size (r + 1))).drop
    (subStart new.length size r)
  have hfresh : startIdx (fresh 0) true = 0 := rfl
  have hstep : ∀ r, r < size → step size c fresh r = .ok ⟨slice r, 2 * labels.length⟩ := by
    intro r hr
    rcases hc with rfl | rfl
    · show create size r labels true true ⟨[], 0⟩ = _
      have : distributeArray (newPairs labels 0) size r = .ok (slice r) :=
        distributeArray_eq _ _ _ hr
      simp only [create, if_true, show startIdx ⟨[], 0⟩ true = 0 from rfl, this, bind, Except.bind,
        pure, Except.pure, store, List.nil_append, Nat.zero_add]
    · show load size r labels true true ⟨[], 0⟩ ⟨[], 0⟩ = _
      have : scatterList (newPairs labels 0) size r = .ok (slice r) := scatterList_eq _ _ _ hr
      simp only [load, if_true, show startIdx ⟨[], 0⟩ true = 0 from rfl, this, bind, Except.bind,
        pure, Except.pure, store, List.nil_append, Nat.zero_add, newPairs_length]
  refine ⟨fun r => ⟨slice r, 2 * labels.length⟩, hstep, ?_⟩
  have hk2 : 2 ≤ subStart new.length size 1 ∧ subStart new.length size 1 < new.length := by
    rw [subStart_eq _ _ _ hs0]
    have hdm := Nat.div_add_mod new.length size
    have hml := Nat.mod_lt new.length hs0
    have hq : 1 ≤ new.length / size := (Nat.one_le_div_iff hs0).2 (by omega)
    have h2 : 2 * (new.length / size) ≤ size * (new.length / size) := Nat.mul_le_mul_right _ hs
    have hone : new.length / size = 1 → new.length % size ≠ 0 := by
      intro h1 h0
      rw [h1, h0] at hdm
      omega
    constructor
    · rcases Nat.lt_or_ge 1 (new.length / size) with h | h
      · omega
      · have := hone (by omega)
        omega
    · omega
  have hmem : ∀ j (hj : j < new.length), ∃ r₀, r₀ < size ∧ new[j] ∈ slice r₀ := by
    intro j hj
    have h := flatMap_slices new size size
    rw [subStart_size _ _ hs0, List.take_length] at h
    have hm : new[j] ∈ (List.range size).flatMap slice := by
      simp only [slice, h]
      exact List.getElem_mem _
    obtain ⟨r, hr, hm⟩ := List.mem_flatMap.1 hm
    exact ⟨r, List.mem_range.1 hr, hm⟩
  have hslice0 : slice 0 = new.take (subStart new.length size 1) := by
    simp [slice, subStart]
  cases scatter with
  | true =>
    have hj : new.length - 1 < new.length := by omega
    obtain ⟨r₀, hr₀, hq⟩ := hmem _ hj
    refine ⟨new[new.length - 1], r₀, hr₀, hq, fun r work hr h hin => ?_⟩
    simp only [scan, if_true, scatterList_eq _ _ _ hr, bind, Except.bind, pure, Except.pure] at h
    obtain rfl := Except.ok.inj h
    have h1 := List.mem_of_mem_take (List.mem_of_mem_drop (List.mem_of_mem_take (mem_passes hin)))
    rw [hslice0] at h1
    have := mem_slice hnd (a := 0) hj h1
    omega
  | false =>
    have hj : subStart new.length size 1 - 1 < new.length := by omega
    obtain ⟨r₀, hr₀, hq⟩ := hmem _ hj
    refine ⟨new[subStart new.length size 1 - 1], r₀, hr₀, hq, fun r work hr h hin => ?_⟩
    simp only [scan, Bool.false_eq_true, if_false] at h
    obtain rfl := Except.ok.inj h
    have h1 := mem_passes hin
    by_cases hr0 : r = 0
    · subst hr0
      rw [hslice0, List.length_take, Nat.min_eq_left (by omega), List.take_take] at h1
      have h2 := mem_slice hnd (a := 0) hj h1
      have h3 := nmax_lt _ _ hk2.1 hs
      omega
    · have h2 := mem_slice hnd hj (List.mem_of_mem_take h1)
      have h3 := subStart_mono new.length size 1 r (by omega)
      omega

/-- Five pairs over two ranks. -/
example : (2 : Nat) ≤ 2 ∧ 2 < [(0, 1), (2, 3), (4, 5), (6, 7), (8, 9)].length := by decide

/-- **C121 (violation).** After scattering at creation the ranks do not even make the same number
of passes in a scan, although each pass contains calls that all ranks have to make together. -/
theorem C121_violation_passes : ∃ (labels : List (Nat × Nat)) (w' : Nat → Inst),
    (∀ r, r < 2 → step 2 (.create labels true true) fresh r = .ok (w' r)) ∧
      ∃ a b, scan 2 0 true w' = .ok a ∧ scan 2 1 true w' = .ok b ∧ a.length ≠ b.length := by
  refine ⟨[(0, 1), (2, 3), (4, 5), (6, 7), (8, 9)], fun r => ⟨if r = 0 then
    [(⟨0, 0, false⟩, ⟨1, 1, false⟩), (⟨2, 2, false⟩, ⟨3, 3, false⟩), (⟨4, 4, false⟩, ⟨5, 5, false⟩)]
    else [(⟨6, 6, false⟩, ⟨7, 7, false⟩), (⟨8, 8, false⟩, ⟨9, 9, false⟩)], 10⟩, ?_, _, _, rfl, rfl,
    by decide⟩
  decide

/-- **C121 (violation).** Killing one detector of a scattered focal plane raises an IndexError on
the ranks that hold fewer pairs, and kills a detector on every other rank. -/
theorem C121_violation_kill : ∃ (labels : List (Nat × Nat)) (w : Nat → Inst),
    (∀ r, r < 2 → step 2 (.create labels true true) fresh r = .ok (w r)) ∧
      (∃ choice, Draws choice ∧ step 2 (.kill choice false) w 1 = .error .indexError ∧
        ∃ i, step 2 (.kill choice false) w 0 = .ok i) ∧
      ∃ choice, Draws choice ∧ (choice (w 0).ndet).length = 1 ∧ ∃ w' : Nat → Inst,
        (∀ r, r < 2 → step 2 (.kill choice false) w r = .ok (w' r)) ∧
        ∀ r, r < 2 → ∃ d ∈ dets (w' r).beams, d.dead = true := by
  have hdraw : ∀ k, Draws fun n => if k < n then [k] else [] := by
    intro k n x hx
    by_cases h : k < n
    · simp only [h, if_true, List.mem_singleton] at hx; omega
    · simp [h] at hx
  refine ⟨[(0, 1), (2, 3), (4, 5)], fun r => ⟨if r = 0 then
    [(⟨0, 0, false⟩, ⟨1, 1, false⟩), (⟨2, 2, false⟩, ⟨3, 3, false⟩)]
    else [(⟨4, 4, false⟩, ⟨5, 5, false⟩)], 6⟩, by decide, ⟨_, hdraw 2, rfl, _, rfl⟩, _, hdraw 0, rfl,
    fun r => ⟨if r = 0 then [(⟨0, 0, true⟩, ⟨1, 1, false⟩), (⟨2, 2, false⟩, ⟨3, 3, false⟩)]
    else [(⟨4, 4, true⟩, ⟨5, 5, false⟩)], 6⟩, by decide, ?_⟩
  decide

/-- **C121 (violation).** Two scattered creations give detectors of different ranks the same
index. -/
theorem C121_violation_idx : ∃ (l₁ l₂ : List (Nat × Nat)) (w w' : Nat → Inst),
    (∀ r, r < 2 → step 2 (.create l₁ true true) fresh r = .ok (w r)) ∧
      (∀ r, r < 2 → step 2 (.create l₂ true true) w r = .ok (w' r)) ∧
      ∃ d ∈ dets (w' 0).beams, ∃ e ∈ dets (w' 1).beams, d.label ≠ e.label ∧ d.idx = e.idx := by
  refine ⟨[(0, 1), (2, 3)], [(4, 5), (6, 7)],
    fun r => ⟨if r = 0 then [(⟨0, 0, false⟩, ⟨1, 1, false⟩)] else [(⟨2, 2, false⟩, ⟨3, 3, false⟩)], 4⟩,
    fun r => ⟨if r = 0 then [(⟨0, 0, false⟩, ⟨1, 1, false⟩), (⟨4, 2, false⟩, ⟨5, 3, false⟩)]
      else [(⟨2, 2, false⟩, ⟨3, 3, false⟩), (⟨6, 6, false⟩, ⟨7, 7, false⟩)], 8⟩, by decide, by decide,
    ?_⟩
  decide

end Verif.Props
