import Verif.Lemmas.Beam
import Verif.Spec.FocalPlane

/-!
# Lemmas about focal planes
-/

namespace Verif.FocalPlane

open Verif.Beam

variable {K : Type} [Field K] [LinearOrder K] [FloorRing K]

/-! ### computations that keep the heap well-formed and the indices of existing objects -/

/-- The heap stays well-formed, no object disappears and no index changes. -/
structure Grow (h h' : Heap K) : Prop where
  wf : WF h'
  size : h.size ≤ h'.size
  idx : ∀ r < h.size, (h'.cell r).attr .idx = (h.cell r).attr .idx

omit [FloorRing K] in
theorem Grow.refl {h : Heap K} (w : WF h) : Grow h h := ⟨w, Nat.le_refl _, fun _ _ => rfl⟩

omit [FloorRing K] in
theorem Grow.trans {a b c : Heap K} (x : Grow a b) (y : Grow b c) : Grow a c :=
  ⟨y.wf, Nat.le_trans x.size y.size, fun r hr =>
    (y.idx r (Nat.lt_of_lt_of_le hr x.size)).trans (x.idx r hr)⟩

omit [FloorRing K] in
theorem Grow.mild {h h' : Heap K} (w : WF h) (m : Mild h h') : Grow h h' :=
  ⟨w.mild m, Nat.le_of_eq m.size.symm, fun r _ => m.idx r⟩

/-- A computation with that property on heaps with at least `n` objects. -/
def Good {α : Type} (n : Nat) (x : Exec (Heap K) α) : Prop :=
  ∀ h, n ≤ h.size → WF h → Grow h (x.run h).2

omit [FloorRing K] in
theorem Good.mild {α : Type} {n : Nat} {x : Exec (Heap K) α} (hx : Keeps Mild x) : Good n x :=
  fun h _ w => Grow.mild w (hx h)

omit [FloorRing K] in
theorem Good.bind {α β : Type} {n : Nat} {x : Exec (Heap K) α} {f : α → Exec (Heap K) β}
    (hx : Good n x) (hf : ∀ a, Good n (f a)) : Good n (x >>= f) := by
  intro h hn w
  have h1 := hx h hn w
  rcases e : x.run h with ⟨e' | a, s'⟩ <;> rw [e] at h1
  · rw [Exec.run_bind_error e]; exact h1
  · rw [Exec.run_bind_ok e]
    exact h1.trans (hf a s' (Nat.le_trans hn h1.size) h1.wf)

omit [FloorRing K] in
theorem Good.pure {α : Type} {n : Nat} (a : α) : Good (K := K) n (pure a) :=
  fun _ _ w => Grow.refl w

omit [FloorRing K] in
theorem Good.lift {α : Type} {n : Nat} (a : PyM α) : Good (K := K) n (Exec.lift a) :=
  fun _ _ w => Grow.refl w

omit [FloorRing K] in
theorem Good.forEach {α : Type} {n : Nat} (l : List α) {f : α → Exec (Heap K) Unit}
    (hf : ∀ a ∈ l, Good n (f a)) : Good n (Exec.forEach l f) := by
  induction l with
  | nil => exact Good.pure ()
  | cons a l ih =>
    exact Good.bind (hf a (by simp)) fun _ => ih fun b hb => hf b (by simp [hb])

theorem good_setattr (env : Env K) {n : Nat} (r : Ref) {k : Key} (v : Val K)
    (hk : k ≠ .ghostCount) : Good n (setattr env r k v) :=
  Good.mild fun h => setattr_mild env r v hk h

theorem good_getattr (env : Env K) {n : Nat} (r : Ref) (k : Key) : Good n (getattr env r k) :=
  Good.mild fun h => getattr_mild env r k h

theorem good_op (env : Env K) (op : Op K) (hp : NoCountAssign op) {h : Heap K} (w : WF h)
    (hr : ∀ r ∈ op.refs, r < h.size) : Grow h (op.after env h) := by
  suffices h.size ≤ (op.after env h).size ∧
      ∀ r < h.size, ((op.after env h).cell r).attr .idx = (h.cell r).attr .idx from
    ⟨w.after env op hp hr, this.1, this.2⟩
  cases op with
  | new kw =>
    simp only [Op.after, newBeam, Exec.run]
    rcases init env kw with e | o
    · exact ⟨Nat.le_refl _, fun _ _ => rfl⟩
    · exact ⟨Nat.le_succ _, fun r hr => by dsimp only; rw [alloc_old _ _ hr]⟩
  | createGhost r0 tag kw =>
    have hr0 : r0 < h.size := hr r0 (by simp [Op.refs])
    simp only [Op.after]
    rcases hgi : (h.cell r0).isGhost with _ | _
    swap
    · rw [createGhost_ghost env hgi]; exact ⟨Nat.le_refl _, fun _ _ => rfl⟩
    obtain ⟨gs0, h1, h2, h3, h4⟩ := w.main r0 hr0 hgi
    rw [createGhost_main env hgi h1 h2]
    rcases hm : makeGhost env (h.cell r0) tag kw with e | gh
    · exact ⟨Nat.le_refl _, fun _ _ => rfl⟩
    · dsimp only
      refine ⟨Nat.le_succ _, fun x hx => ?_⟩
      rw [alloc_old _ _ (by exact hx), heap_put]
      split
      · rename_i e; subst e
        exact put_attr_ne (h.cell x) (k := .ghostCount) (k' := .idx) (.int (gs0.length + 1))
          (by simp)
      · rfl
  | setattr r k v =>
    have m := setattr_mild env r v hp h
    exact ⟨Nat.le_of_eq m.size.symm, fun r _ => m.idx r⟩
  | readBlm r =>
    have m := readBlm_mild env r h
    exact ⟨Nat.le_of_eq m.size.symm, fun r _ => m.idx r⟩
  | reuseBlm r q =>
    have m := reuseBlm_mild env r q h
    exact ⟨Nat.le_of_eq m.size.symm, fun r _ => m.idx r⟩
  | deleteBlm r d =>
    have m := deleteBlm_mild r d h
    exact ⟨Nat.le_of_eq m.size.symm, fun r _ => m.idx r⟩

theorem good_createGhost (env : Env K) {n : Nat} {r : Ref} (hr : r < n) (tag : Option String)
    (kw : Dict K) : Good n (createGhost env r tag kw) := fun h hn w =>
  good_op env (.createGhost r tag kw) trivial w (by
    intro x hx
    simp [Op.refs] at hx
    subst hx
    exact Nat.lt_of_lt_of_le hr hn)

theorem good_newBeam (env : Env K) {n : Nat} (kw : Dict K) : Good n (newBeam env kw) :=
  fun _ _ w => good_op env (.new kw) trivial w (by simp [Op.refs])

theorem good_setDead {n : Nat} (v : Val K) (r : Ref) : Good n (setDead v r) :=
  Good.mild fun h => setDeadAux_mild _ v r h

/-! ### numbering -/

/-- What `numberFlat` does, also when it stops at a `None`: objects in the given list may get an
index of at least `i`, no two the same; nothing else changes. -/
theorem numberFlat_spec (l : List (Option Ref)) (i : Int) (h : Heap K) :
    ∃ f : Ref → Option Int,
      (numberFlat l i h).2.size = h.size ∧
      (∀ r, (numberFlat l i h).2.cell r = match f r with
        | some k => (h.cell r).put .idx (.int k)
        | none => h.cell r) ∧
      (∀ r k, f r = some k → i ≤ k ∧ k < i + l.length ∧ some r ∈ l) ∧
      (∀ r s k, f r = some k → f s = some k → r = s) ∧
      ((numberFlat l i h).1 = .ok () → none ∉ l ∧ ∀ r, some r ∈ l → (f r).isSome) ∧
      (none ∉ l → (numberFlat l i h).1 = .ok ()) := by
  induction l generalizing i h with
  | nil => exact ⟨fun _ => none, by simp [numberFlat]⟩
  | cons a l ih =>
    cases a with
    | none => exact ⟨fun _ => none, by simp [numberFlat, putIdx]⟩
    | some a =>
      obtain ⟨f, h1, h2, h3, h4, h5, h6⟩ := ih (i + 1) (h.put a ((h.cell a).put .idx (.int i)))
      have e : numberFlat (some a :: l) i h =
          numberFlat l (i + 1) (h.put a ((h.cell a).put .idx (.int i))) := by
        simp [numberFlat, putIdx]
      rw [e]
      refine ⟨fun r => (f r).or (if r = a then some i else none), h1, ?_, ?_, ?_, ?_, ?_⟩
      · intro r
        rw [h2 r]
        rcases hf : f r with _ | k
        · by_cases hr : r = a
          · subst hr; simp [hf]
          · simp [hf, hr, heap_put_ne _ _ hr]
        · have hor : (f r).or (if r = a then some i else none) = some k := by rw [hf]; rfl
          dsimp only
          rw [hor]
          by_cases hr : r = a
          · subst hr
            rw [heap_put_same]
            simp [Obj.put]
          · rw [heap_put_ne _ _ hr]
      · intro r k hk
        rcases hf : f r with _ | k' <;> simp only [hf, Option.or] at hk
        · split at hk
          · rename_i hr
            cases hk
            subst hr
            refine ⟨Int.le_refl _, ?_, by simp⟩
            simp
          · cases hk
        · cases hk
          obtain ⟨a1, a2, a3⟩ := h3 r k hf
          refine ⟨by omega, ?_, by simp [a3]⟩
          simp at a2 ⊢; omega
      · intro r s k hr hs
        rcases hf : f r with _ | k1 <;> simp only [hf, Option.or] at hr <;>
          rcases hg : f s with _ | k2 <;> simp only [hg, Option.or] at hs
        · split at hr <;> split at hs <;> simp_all
        · split at hr
          · cases hr; cases hs
            have := (h3 s _ hg).1; omega
          · cases hr
        · split at hs
          · cases hr; cases hs
            have := (h3 r _ hf).1; omega
          · cases hs
        · cases hr; cases hs
          exact h4 r s _ hf hg
      · intro hok
        obtain ⟨b1, b2⟩ := h5 hok
        refine ⟨by simpa using b1, fun r hr => ?_⟩
        by_cases hra : r = a
        · subst hra
          rcases hf : f r with _ | k1 <;> simp [hf]
        · have hm : some r ∈ l := by
            rcases List.mem_cons.1 hr with h | h
            · cases h; exact absurd rfl hra
            · exact h
          obtain ⟨k, hk⟩ := Option.isSome_iff_exists.1 (b2 r hm)
          simp [hk, Option.or]
      · intro hn
        exact h6 (by simpa using hn)

/-- Numbering keeps the heap well-formed. -/
theorem numberFlat_wf (l : List (Option Ref)) (i : Int) {h : Heap K} (w : WF h) :
    WF (numberFlat l i h).2 := by
  obtain ⟨f, h1, h2, -, -, -, -⟩ := numberFlat_spec l i h
  have hat : ∀ r k, k ≠ .idx → ((numberFlat l i h).2.cell r).attr k = (h.cell r).attr k := by
    intro r k hk
    rw [h2 r]
    rcases f r with _ | k'
    · rfl
    · exact put_attr_ne _ _ hk
  have hgs : ∀ r, ((numberFlat l i h).2.cell r).ghosts = (h.cell r).ghosts := by
    intro r
    rw [h2 r]
    rcases f r with _ | k' <;> rfl
  have hgi : ∀ r, ((numberFlat l i h).2.cell r).isGhost = (h.cell r).isGhost :=
    fun r => isGhost_congr (hat r .ghost (by simp))
  refine ⟨?_, ?_, ?_, ?_⟩
  · intro r hr k hk
    rw [h1] at hr
    by_cases hki : k = .idx
    · subst hki
      rw [h2 r]
      rcases f r with _ | k'
      · exact w.keys r hr _ hk
      · simp
    · rw [hat r k hki]; exact w.keys r hr k hk
  · intro r hr hg
    rw [h1] at hr
    rw [hgi] at hg
    rw [hgs, hat r _ (by simp)]
    exact w.ghost r hr hg
  · intro r hr hg
    rw [h1] at hr
    rw [hgi] at hg
    obtain ⟨gs, a1, a2, a3, a4⟩ := w.main r hr hg
    refine ⟨gs, by rw [hgs, a1], by rw [hat r _ (by simp), a2], a3, fun g hg => ?_⟩
    rw [h1, hgi]
    exact a4 g hg
  · intro r r' gs gs' hr hr' hg hg'
    rw [h1] at hr hr'
    rw [hgs] at hg hg'
    exact w.disj r r' gs gs' hr hr' hg hg'

/-! ### building pairs -/

/-- What `buildPairs` does: it creates fresh objects only; if it succeeds, pair `n` consists of
the objects number `2n` and `2n+1` after the existing ones, built from the given options. -/
theorem buildPairs_spec (env : Env K) (l : List (PyM (Dict K) × PyM (Dict K))) (h : Heap K)
    (w : WF h) :
    Grow h (buildPairs env l h).2 ∧
    (∀ r < h.size, (buildPairs env l h).2.cell r = h.cell r) ∧
    ∀ qs, (buildPairs env l h).1 = .ok qs →
      (buildPairs env l h).2.size = h.size + 2 * l.length ∧
      qs = (List.range l.length).map (fun n => (some (h.size + 2 * n), some (h.size + 2 * n + 1))) ∧
      ∀ n (x : PyM (Dict K) × PyM (Dict K)), l[n]? = some x → ∃ a b, x = (.ok a, .ok b) ∧
        init env a = .ok ((buildPairs env l h).2.cell (h.size + 2 * n)) ∧
        init env b = .ok ((buildPairs env l h).2.cell (h.size + 2 * n + 1)) := by
  induction l generalizing h with
  | nil =>
    refine ⟨Grow.refl w, fun _ _ => rfl, fun qs hq => ?_⟩
    simp only [buildPairs] at hq ⊢
    cases hq
    simp
  | cons x l ih =>
    obtain ⟨a, b⟩ := x
    unfold buildPairs
    rcases a with e | a
    · exact ⟨Grow.refl w, fun _ _ => rfl, fun qs hq => by cases hq⟩
    dsimp only
    have ha : newBeam env a h = match init env a with
        | .ok o => (.ok h.size, h.alloc o)
        | .error e => (.error e, h) := rfl
    rw [ha]
    have g1 := good_newBeam env (n := 0) a h (Nat.zero_le _) w
    unfold Exec.run at g1
    rw [ha] at g1
    rcases hia : init env a with e | oa <;> rw [hia] at g1 <;> dsimp only at g1 ⊢
    · exact ⟨Grow.refl w, fun _ _ => rfl, fun qs hq => by cases hq⟩
    rcases b with e | b <;> dsimp only
    · exact ⟨g1, fun r hr => alloc_old _ _ hr, fun qs hq => by cases hq⟩
    have hb : newBeam env b (h.alloc oa) = match init env b with
        | .ok o => (.ok (h.alloc oa).size, (h.alloc oa).alloc o)
        | .error e => (.error e, h.alloc oa) := rfl
    rw [hb]
    have g2 := good_newBeam env (n := 0) b (h.alloc oa) (Nat.zero_le _) g1.wf
    unfold Exec.run at g2
    rw [hb] at g2
    rcases hib : init env b with e | ob <;> rw [hib] at g2 <;> dsimp only at g2 ⊢
    · exact ⟨g1, fun r hr => alloc_old _ _ hr, fun qs hq => by cases hq⟩
    have hs : ((h.alloc oa).alloc ob).size = h.size + 2 := rfl
    have hold : ∀ r < h.size, ((h.alloc oa).alloc ob).cell r = h.cell r := by
      intro r hr
      rw [alloc_old _ _ (Nat.lt_succ_of_lt hr), alloc_old _ _ hr]
    obtain ⟨i1, i2, i3⟩ := ih ((h.alloc oa).alloc ob) g2.wf
    have hg := (g1.trans g2).trans i1
    have hold2 : ∀ r < h.size, (buildPairs env l ((h.alloc oa).alloc ob)).2.cell r = h.cell r := by
      intro r hr
      rw [i2 r (by rw [hs]; exact Nat.lt_of_lt_of_le hr (Nat.le_add_right _ _)), hold r hr]
    rcases hq : buildPairs env l ((h.alloc oa).alloc ob) with ⟨e | qs, h'⟩ <;>
      rw [hq] at hg hold2 i2 i3 <;> dsimp only at hg hold2 i2 i3 ⊢
    · exact ⟨hg, hold2, fun qs hq => by cases hq⟩
    refine ⟨hg, hold2, fun qs' hqs => ?_⟩
    cases hqs
    obtain ⟨j1, j2, j3⟩ := i3 qs rfl
    refine ⟨?_, ?_, ?_⟩
    · rw [j1, hs]; simp; omega
    · rw [j2, hs, List.length_cons, List.range_succ_eq_map, List.map_cons, List.map_map]
      congr 1
      apply List.map_congr_left
      intro n _
      simp only [Function.comp]
      congr 2 <;> omega
    · intro n x hx
      cases n with
      | zero =>
        simp at hx
        subst hx
        refine ⟨a, b, rfl, ?_, ?_⟩
        · rw [hia, i2 _ (by rw [hs]; show h.size + 2 * 0 < h.size + 2; omega)]
          rw [alloc_old _ _ (by show h.size + 2 * 0 < h.size + 1; omega)]
          rw [show h.size + 2 * 0 = h.size from rfl, alloc_new]
        · rw [hib, i2 _ (by rw [hs]; show h.size + 2 * 0 + 1 < h.size + 2; omega)]
          have := alloc_new (h.alloc oa) ob
          rw [alloc_size] at this
          rw [show h.size + 2 * 0 + 1 = h.size + 1 from rfl, this]
      | succ n =>
        obtain ⟨a', b', e1, e2, e3⟩ := j3 n x (by simpa using hx)
        refine ⟨a', b', e1, ?_, ?_⟩
        · rw [e2, hs, show h.size + 2 + 2 * n = h.size + 2 * (n + 1) by omega]
        · rw [e3, hs, show h.size + 2 + 2 * n = h.size + 2 * (n + 1) by omega]

/-! ### planes -/

/-- The detectors are existing objects with an index, and different ones have different indices. -/
structure PInv (p : Plane K) : Prop where
  wf : WF p.heap
  lt : ∀ r ∈ slots p.beams, r < p.heap.size
  idx : ∀ r ∈ slots p.beams, ∃ i, (p.heap.cell r).attr .idx = some (.int i)
  inj : ∀ r ∈ slots p.beams, ∀ s ∈ slots p.beams,
    (p.heap.cell r).attr .idx = (p.heap.cell s).attr .idx → r = s

omit [FloorRing K] in
/-- The heap grows, the plane does not gain beams. -/
theorem PInv.grow {p p' : Plane K} (w : PInv p) (g : Grow p.heap p'.heap)
    (hb : ∀ r ∈ slots p'.beams, r ∈ slots p.beams) : PInv p' := by
  refine ⟨g.wf, fun r hr => Nat.lt_of_lt_of_le (w.lt r (hb r hr)) g.size, fun r hr => ?_, ?_⟩
  · rw [g.idx r (w.lt r (hb r hr))]; exact w.idx r (hb r hr)
  · intro r hr s hs he
    rw [g.idx r (w.lt r (hb r hr)), g.idx s (w.lt s (hb s hs))] at he
    exact w.inj r (hb r hr) s (hb s hs) he

omit [Field K] [LinearOrder K] [FloorRing K] in
theorem slots_append (l l' : List Pair) : slots (l ++ l') = slots l ++ slots l' := by
  simp [slots]

omit [Field K] [LinearOrder K] [FloorRing K] in
theorem mapM_idxOf (h : Heap K) (l : List Ref) (js : List Int)
    (hj : l.mapM (idxOf h) = .ok js) :
    (∀ r ∈ l, ∃ i ∈ js, (h.cell r).attr .idx = some (.int i)) ∧
    ∀ i ∈ js, ∃ r ∈ l, (h.cell r).attr .idx = some (.int i) := by
  induction l generalizing js with
  | nil => cases hj; simp
  | cons a l ih =>
    rw [List.mapM_cons] at hj
    rcases ha : idxOf h a with e | i <;> rw [ha] at hj
    · cases hj
    rcases hl : l.mapM (idxOf h) with e | js' <;> rw [hl] at hj
    · cases hj
    cases hj
    have hia : (h.cell a).attr .idx = some (.int i) := by
      unfold idxOf at ha
      split at ha
      · cases ha; assumption
      · cases ha
    obtain ⟨h1, h2⟩ := ih js' hl
    refine ⟨?_, ?_⟩
    · intro r hr
      rcases List.mem_cons.1 hr with rfl | hr
      · exact ⟨i, by simp, hia⟩
      · obtain ⟨j, hj, e⟩ := h1 r hr
        exact ⟨j, by simp [hj], e⟩
    · intro j hj
      rcases List.mem_cons.1 hj with rfl | hj
      · exact ⟨a, by simp, hia⟩
      · obtain ⟨r, hr, e⟩ := h2 j hj
        exact ⟨r, by simp [hr], e⟩

omit [Field K] [LinearOrder K] [FloorRing K] in
/-- `startIdx` with `combine` is larger than every index on the plane. -/
theorem startIdx_lt {p : Plane K} {i : Int} (h : startIdx p true = .ok i) :
    ∀ r ∈ slots p.beams, ∃ j, (p.heap.cell r).attr .idx = some (.int j) ∧ j < i := by
  unfold startIdx nextIdx beamsIdxs at h
  rw [if_pos rfl] at h
  rcases hl : (slots p.beams).mapM (idxOf p.heap) with e | js <;> rw [hl] at h
  · cases h
  dsimp only at h
  intro r hr
  obtain ⟨j, hj, e⟩ := (mapM_idxOf p.heap _ js hl).1 r hr
  refine ⟨j, e, ?_⟩
  rcases hm : js.max? with _ | m <;> rw [hm] at h
  · rw [List.max?_eq_none_iff] at hm
    subst hm
    cases hj
  · have hi : m + 1 = i := Except.ok.inj h
    have := (List.max?_eq_some_iff.1 hm).2 j hj
    omega

omit [Field K] [LinearOrder K] [FloorRing K] in
theorem mapM_idxOf_ok (h : Heap K) (l : List Ref)
    (hl : ∀ r ∈ l, ∃ i, (h.cell r).attr .idx = some (.int i)) :
    ∃ js, l.mapM (idxOf h) = .ok js := by
  induction l with
  | nil => exact ⟨[], rfl⟩
  | cons a l ih =>
    obtain ⟨i, hi⟩ := hl a (by simp)
    obtain ⟨js, hj⟩ := ih fun r hr => hl r (by simp [hr])
    refine ⟨i :: js, ?_⟩
    rw [List.mapM_cons, hj]
    unfold idxOf
    rw [hi]
    rfl

omit [FloorRing K] in
theorem startIdx_ok {p : Plane K} (w : PInv p) (c : Bool) : ∃ i, startIdx p c = .ok i := by
  cases c with
  | false => exact ⟨0, rfl⟩
  | true =>
    obtain ⟨js, hj⟩ := mapM_idxOf_ok p.heap _ w.idx
    unfold startIdx nextIdx beamsIdxs
    rw [if_pos rfl, hj]
    exact ⟨_, rfl⟩

/-- Adding fresh pairs with consecutive indices. -/
theorem PInv.fresh {p p' : Plane K} (w : PInv p) {combine : Bool} {i : Int}
    (hi : startIdx p combine = .ok i) (g : Grow p.heap p'.heap) (n : Nat)
    (hs : p'.heap.size = p.heap.size + 2 * n) (qs : List Pair)
    (hq : qs = (List.range n).map fun m =>
      (some (p.heap.size + 2 * m), some (p.heap.size + 2 * m + 1)))
    (hb : p'.beams = if combine then p.beams ++ qs else qs)
    (ha : ∀ m < n, (p'.heap.cell (p.heap.size + 2 * m)).attr .idx = some (.int (i + 2 * m)) ∧
      (p'.heap.cell (p.heap.size + 2 * m + 1)).attr .idx = some (.int (i + 2 * m + 1))) :
    PInv p' := by
  have hnew : ∀ r ∈ slots qs, ∃ m < 2 * n, r = p.heap.size + m ∧
      (p'.heap.cell r).attr .idx = some (.int (i + m)) := by
    intro r hr
    subst hq
    unfold slots at hr
    rw [List.mem_flatMap] at hr
    obtain ⟨q, hq, hr⟩ := hr
    rw [List.mem_map] at hq
    obtain ⟨m, hm, rfl⟩ := hq
    rw [List.mem_range] at hm
    simp only [Option.toList, List.mem_append, List.mem_singleton] at hr
    rcases hr with rfl | rfl
    · refine ⟨2 * m, by omega, rfl, ?_⟩
      rw [(ha m hm).1]; push_cast; rfl
    · refine ⟨2 * m + 1, by omega, rfl, ?_⟩
      rw [(ha m hm).2]; push_cast; rw [Int.add_assoc]
  have hcase : ∀ r ∈ slots p'.beams, (combine = true ∧ r ∈ slots p.beams) ∨ r ∈ slots qs := by
    intro r hr
    rw [hb] at hr
    cases combine with
    | false => exact .inr hr
    | true =>
      rw [if_pos rfl, slots_append, List.mem_append] at hr
      rcases hr with hr | hr
      · exact .inl ⟨rfl, hr⟩
      · exact .inr hr
  have hold : ∀ r, combine = true → r ∈ slots p.beams →
      ∃ j, (p'.heap.cell r).attr .idx = some (.int j) ∧ j < i := by
    intro r hc hr
    subst hc
    rw [g.idx r (w.lt r hr)]
    exact startIdx_lt hi r hr
  refine ⟨g.wf, fun r hr => ?_, fun r hr => ?_, fun r hr s hs' he => ?_⟩
  · rcases hcase r hr with ⟨_, hr⟩ | hr
    · exact Nat.lt_of_lt_of_le (w.lt r hr) g.size
    · obtain ⟨m, hm, rfl, _⟩ := hnew r hr
      rw [hs]; exact Nat.add_lt_add_left hm _
  · rcases hcase r hr with ⟨hc, hr⟩ | hr
    · obtain ⟨j, hj, _⟩ := hold r hc hr; exact ⟨j, hj⟩
    · obtain ⟨m, _, _, e⟩ := hnew r hr; exact ⟨_, e⟩
  · rcases hcase r hr with ⟨hc, hr⟩ | hr <;> rcases hcase s hs' with ⟨hc', hs'⟩ | hs'
    · rw [g.idx r (w.lt r hr), g.idx s (w.lt s hs')] at he
      exact w.inj r hr s hs' he
    · obtain ⟨j, hj, hlt⟩ := hold r hc hr
      obtain ⟨m, _, _, e⟩ := hnew s hs'
      rw [hj, e] at he
      simp at he
      omega
    · obtain ⟨j, hj, hlt⟩ := hold s hc' hs'
      obtain ⟨m, _, _, e⟩ := hnew r hr
      rw [hj, e] at he
      simp at he
      omega
    · obtain ⟨m, _, rfl, e⟩ := hnew r hr
      obtain ⟨m', _, rfl, e'⟩ := hnew s hs'
      rw [e, e'] at he
      simp at he
      rw [he]

/-! ### calls that create or change objects only -/

/-- The heap grows in the sense above; the focal plane is not changed. -/
structure PGrow (p p' : Plane K) : Prop where
  heap : Grow p.heap p'.heap
  beams : p'.beams = p.beams
  ndet : p'.ndet = p.ndet

omit [FloorRing K] in
theorem PGrow.refl {p : Plane K} (w : WF p.heap) : PGrow p p := ⟨Grow.refl w, rfl, rfl⟩

omit [FloorRing K] in
theorem PGrow.trans {a b c : Plane K} (x : PGrow a b) (y : PGrow b c) : PGrow a c :=
  ⟨x.heap.trans y.heap, y.beams.trans x.beams, y.ndet.trans x.ndet⟩

/-- A computation with that property. -/
def PGood {α : Type} (n : Nat) (x : Exec (Plane K) α) : Prop :=
  ∀ p, n ≤ p.heap.size → WF p.heap → PGrow p (x.run p).2

omit [FloorRing K] in
theorem PGood.bind {α β : Type} {n : Nat} {x : Exec (Plane K) α} {f : α → Exec (Plane K) β}
    (hx : PGood n x) (hf : ∀ a, PGood n (f a)) : PGood n (x >>= f) := by
  intro h hn w
  have h1 := hx h hn w
  rcases e : x.run h with ⟨e' | a, s'⟩ <;> rw [e] at h1
  · rw [Exec.run_bind_error e]; exact h1
  · rw [Exec.run_bind_ok e]
    exact h1.trans (hf a s' (Nat.le_trans hn h1.heap.size) h1.heap.wf)

omit [FloorRing K] in
theorem PGood.forEach {α : Type} {n : Nat} (l : List α) {f : α → Exec (Plane K) Unit}
    (hf : ∀ a ∈ l, PGood n (f a)) : PGood n (Exec.forEach l f) := by
  induction l with
  | nil => exact fun p _ w => PGrow.refl w
  | cons a l ih =>
    exact PGood.bind (hf a (by simp)) fun _ => ih fun b hb => hf b (by simp [hb])

omit [FloorRing K] in
theorem Good.onHeap {α : Type} {n : Nat} {x : Exec (Heap K) α} (hx : Good n x) :
    PGood n (onHeap x) := by
  intro p hn w
  have := hx p.heap hn w
  unfold Exec.run at this
  unfold FocalPlane.onHeap Exec.run
  dsimp only
  rcases e : x p.heap with ⟨r, h⟩
  rw [e] at this
  exact ⟨this, rfl, rfl⟩

omit [FloorRing K] in
theorem good_draw {n : Nat} (rng : Nat → K) : PGood n (draw rng) :=
  fun _ _ w => ⟨Grow.refl w, rfl, rfl⟩

omit [FloorRing K] in
theorem good_perturb {n : Nat} (rng : Nat → K) (s : K) (kw : Dict K) :
    PGood n (perturb rng s kw) := by
  intro p _ w
  unfold perturb Exec.run
  dsimp only
  split
  · exact PGrow.refl w
  · split <;> exact ⟨Grow.refl w, rfl, rfl⟩

theorem good_reflectOne (env : Env K) (rng : Nat → K) (s : K) (tag : Option String) {n : Nat}
    (kw : Dict K) {r : Ref} (hr : r < n) : PGood n (reflectOne env rng s tag kw r) := by
  intro p hn w
  unfold reflectOne Exec.run
  dsimp only
  rcases reflectOpts (p.heap.cell r) kw with e | kw1
  · exact PGrow.refl w
  dsimp only
  have g1 := good_perturb rng s kw1 (n := n) p hn w
  unfold Exec.run at g1
  rcases e1 : perturb rng s kw1 p with ⟨e | kw2, p2⟩ <;> rw [e1] at g1
  · exact g1
  dsimp only at g1 ⊢
  have g2 := (good_createGhost env hr tag kw2).onHeap p2 (Nat.le_trans hn g1.heap.size) g1.heap.wf
  unfold Exec.run at g2
  rcases e2 : onHeap (createGhost env r tag kw2) p2 with ⟨e | _, p3⟩ <;> rw [e2] at g2 <;>
    exact g1.trans g2

theorem good_reflectLoop (env : Env K) (rng : Nat → K) (s : K) (tag : Option String) {n : Nat}
    (l : List Ref) (hl : ∀ r ∈ l, r < n) (kw : Dict K) :
    PGood n (reflectLoop env rng s tag l kw) := by
  induction l generalizing kw with
  | nil => exact fun p _ w => PGrow.refl w
  | cons r l ih =>
    intro p hn w
    unfold reflectLoop Exec.run
    dsimp only
    have g1 := good_reflectOne env rng s tag kw (hl r (by simp)) p hn w
    unfold Exec.run at g1
    rcases e1 : reflectOne env rng s tag kw r p with ⟨e | kw2, p2⟩ <;> rw [e1] at g1
    · exact g1
    · exact g1.trans (ih (fun x hx => hl x (by simp [hx])) kw2 p2
        (Nat.le_trans hn g1.heap.size) g1.heap.wf)

theorem good_crosstalkOne (env : Env K) (rng : Nat → K) (s : K) (tag : Option String) {n : Nat}
    (kw : Dict K) {r : Option Ref} (hr : ∀ x, r = some x → x < n) (az el : Val K) :
    PGood n (crosstalkOne env rng s tag kw r az el) := by
  intro p hn w
  unfold crosstalkOne Exec.run
  cases r with
  | none => exact PGrow.refl w
  | some r =>
    dsimp only
    rcases crosstalkOpts (p.heap.cell r) az el kw with e | kw1
    · exact PGrow.refl w
    dsimp only
    have g1 := good_perturb rng s kw1 (n := n) p hn w
    unfold Exec.run at g1
    rcases e1 : perturb rng s kw1 p with ⟨e | kw2, p2⟩ <;> rw [e1] at g1
    · exact g1
    dsimp only at g1 ⊢
    have g2 := (good_createGhost env (hr r rfl) tag kw2).onHeap p2
      (Nat.le_trans hn g1.heap.size) g1.heap.wf
    unfold Exec.run at g2
    rcases e2 : onHeap (createGhost env r tag kw2) p2 with ⟨e | _, p3⟩ <;> rw [e2] at g2 <;>
      exact g1.trans g2

theorem good_crosstalkLoop (env : Env K) (rng : Nat → K) (s : K) (tag : Option String) {n : Nat}
    (l : List (Option Ref × Val K × Val K)) (hl : ∀ x ∈ l, ∀ r, x.1 = some r → r < n)
    (kw : Dict K) : PGood n (crosstalkLoop env rng s tag l kw) := by
  induction l generalizing kw with
  | nil => exact fun p _ w => PGrow.refl w
  | cons x l ih =>
    obtain ⟨r, az, el⟩ := x
    intro p hn w
    unfold crosstalkLoop Exec.run
    dsimp only
    have g1 := good_crosstalkOne env rng s tag kw (hl (r, az, el) (by simp)) az el p hn w
    unfold Exec.run at g1
    rcases e1 : crosstalkOne env rng s tag kw r az el p with ⟨e | kw2, p2⟩ <;> rw [e1] at g1
    · exact g1
    · exact g1.trans (ih (fun x hx => hl x (by simp [hx])) kw2 p2
        (Nat.le_trans hn g1.heap.size) g1.heap.wf)

omit [Field K] [LinearOrder K] [FloorRing K] in
theorem crosstalkItems_mem (qs : List Pair) (as es : List (Row K)) :
    ∀ x ∈ crosstalkItems qs as es, ∀ r, x.1 = some r → r ∈ slots qs := by
  induction qs generalizing as es with
  | nil => intro x hx; simp [crosstalkItems] at hx
  | cons q qs ih =>
    intro x hx r hr
    cases as with
    | nil => simp [crosstalkItems] at hx
    | cons a as =>
      cases es with
      | nil => simp [crosstalkItems] at hx
      | cons e es =>
        simp only [crosstalkItems, List.mem_cons] at hx
        simp only [slots, List.flatMap_cons, List.mem_append]
        rcases hx with rfl | rfl | hx
        · left; left; simpa using hr
        · left; right; simpa using hr
        · exact .inr (ih as es x hx r hr)

theorem good_killSlot {n : Nat} (r : Option Ref) : Good (K := K) n (killSlot r) := by
  cases r with
  | none => exact Good.lift _
  | some r => exact good_setDead _ r

theorem good_killOne {n : Nat} (beams : List Pair) (pairs : Bool) (k : Nat) :
    Good (K := K) n (killOne beams pairs k) := by
  unfold killOne
  split
  · split
    · exact Good.lift _
    · exact Good.bind (good_killSlot _) fun _ => good_killSlot _
  · split
    · exact Good.lift _
    · exact good_killSlot _

theorem good_applyProps (env : Env K) {n : Nat} (ps : Dict K) (hp : ∀ e ∈ ps, e.1 ≠ .ghostCount)
    (r : Ref) : Good n (applyProps env ps r) :=
  Good.forEach ps fun e he => good_setattr env r e.2 (hp e he)

omit [FloorRing K] in
theorem good_ghostsOf {n : Nat} (r : Ref) : Good (K := K) n (ghostsOf r) := by
  intro h _ w
  unfold ghostsOf Exec.run
  dsimp only
  split <;> exact Grow.refl w

theorem good_applyBeam (env : Env K) {n : Nat} (ps : Dict K) (hp : ∀ e ∈ ps, e.1 ≠ .ghostCount)
    (incl : Bool) (r : Ref) : Good n (applyBeam env ps incl r) := by
  refine Good.bind (good_applyProps env ps hp r) fun _ => ?_
  split
  · exact Good.bind (good_ghostsOf r) fun gs => Good.forEach gs fun g _ =>
      good_applyProps env ps hp g
  · exact Good.pure ()

theorem good_getattrOrZero (env : Env K) {n : Nat} (r : Ref) (k : Key) :
    Good n (getattrOrZero env r k) := by
  intro h hn w
  have g := good_getattr env (n := n) r k h hn w
  unfold Exec.run at g
  unfold getattrOrZero Exec.run
  dsimp only
  rcases e : getattr env r k h with ⟨e' | v, h'⟩ <;> rw [e] at g
  · cases e' <;> exact g
  · exact g

theorem good_addBeam (env : Env K) {n : Nat} {k : Key} (hk : k ≠ .ghostCount) (v : Val K)
    (incl : Bool) (r : Ref) : Good n (addBeam env k v incl r) := by
  refine Good.bind ?_ fun _ => ?_
  · exact Good.bind (good_getattrOrZero env r k) fun v0 => Good.bind (Good.lift _) fun w =>
      good_setattr env r w hk
  · split
    · exact Good.bind (good_ghostsOf r) fun gs => Good.forEach gs fun g _ =>
        Good.bind (good_getattrOrZero env g k) fun _ => good_setattr env g v hk
    · exact Good.pure ()

theorem good_addSlot (env : Env K) (rng : Nat → K) {n : Nat} {k : Key} (hk : k ≠ .ghostCount)
    (v : Val K) (incl : Bool) (s : K) (pp skip : Bool) (z : K) (r : Option Ref) :
    PGood n (addSlot env rng k v incl s pp skip z r) := by
  intro p hn w
  unfold addSlot Exec.run
  split
  · exact PGrow.refl w
  · dsimp only
    have hp : PGrow p (if s = 0 ∨ pp = true then p else { p with draws := p.draws + 1 }) := by
      split
      · exact PGrow.refl w
      · exact ⟨Grow.refl w, rfl, rfl⟩
    generalize (if s = 0 ∨ pp = true then p else { p with draws := p.draws + 1 }) = p1 at hp ⊢
    cases r with
    | none => exact hp
    | some r =>
      dsimp only
      rcases jitter s (if pp = true then z else rng p.draws) v with e | v'
      · exact hp
      · exact hp.trans ((good_addBeam env hk v' incl r).onHeap p1
          (Nat.le_trans hn hp.heap.size) hp.heap.wf)

theorem good_addPair (env : Env K) (rng : Nat → K) {n : Nat} {k : Key} (hk : k ≠ .ghostCount)
    (v : Val K) (incl : Bool) (s : K) (pp nb na : Bool) (q : Pair) :
    PGood n (addPair env rng k v incl s pp nb na q) := by
  intro p hn w
  unfold addPair Exec.run
  dsimp only
  have hp : PGrow p (if s ≠ 0 ∧ pp = true then { p with draws := p.draws + 1 } else p) := by
    split
    · exact ⟨Grow.refl w, rfl, rfl⟩
    · exact PGrow.refl w
  generalize (if s ≠ 0 ∧ pp = true then { p with draws := p.draws + 1 } else p) = p1 at hp ⊢
  have g1 := good_addSlot env rng hk v incl s pp na (rng p.draws) q.1 p1
    (Nat.le_trans hn hp.heap.size) hp.heap.wf
  unfold Exec.run at g1
  rcases e : addSlot env rng k v incl s pp na (rng p.draws) q.1 p1 with ⟨e' | _, p2⟩ <;>
    rw [e] at g1
  · exact hp.trans g1
  · have h2 := hp.trans g1
    exact h2.trans (good_addSlot env rng hk v incl s pp nb (rng p.draws) q.2 p2
      (Nat.le_trans hn h2.heap.size) h2.heap.wf)

theorem good_randomAll (env : Env K) (rng : Nat → K) {n : Nat} (loc : K) (ps : Dict K)
    (hp : ∀ e ∈ ps, e.1 ≠ .ghostCount) (r : Ref) : PGood n (randomAll env rng loc ps r) :=
  PGood.forEach ps fun e he => PGood.bind (good_draw rng) fun z => Good.onHeap <|
    Good.bind (good_getattr env r e.1) fun _ => Good.bind (Good.lift _) fun _ =>
      Good.bind (Good.lift _) fun _ => good_setattr env r _ (hp e he)

theorem good_randomBeam (env : Env K) (rng : Nat → K) {n : Nat} (ps : Dict K)
    (hp : ∀ e ∈ ps, e.1 ≠ .ghostCount) (incl : Bool) (r : Ref) :
    PGood n (randomBeam env rng ps incl r) := by
  refine PGood.bind (good_randomAll env rng 1 ps hp r) fun _ => ?_
  split
  · exact PGood.bind (good_ghostsOf r).onHeap fun gs => PGood.forEach gs fun g _ =>
      good_randomAll env rng 0 ps hp g
  · exact fun p _ w => PGrow.refl w

/-- Calls that do not add or remove detectors. -/
def FOp.local : FOp K → Prop
  | .add .. => False
  | .remove .. => False
  | .create .. => False
  | .input .. => False
  | .load .. => False
  | _ => True

theorem local_grow (env : Env K) (rng : Nat → K) (op : FOp K) (hl : op.local) (hc : NoCount op)
    {p : Plane K} (w : WF p.heap) (hlt : ∀ r ∈ slots p.beams, r < p.heap.size)
    (hr : ∀ r ∈ op.refs, r < p.heap.size) : PGrow p ((op.exec env rng).run p).2 := by
  have hch : ∀ b : Option (List Pair), (∀ r ∈ slots (b.getD []), r < p.heap.size) →
      ∀ r ∈ slots (chosen p b), r < p.heap.size := by
    intro b hb r hr
    cases b with
    | none => exact hlt r hr
    | some l =>
      cases l with
      | nil => exact hlt r hr
      | cons q l => exact hb r hr
  cases op with
  | beam op => exact ⟨good_op env op hc w hr, rfl, rfl⟩
  | add => exact hl.elim
  | remove => exact hl.elim
  | create => exact hl.elim
  | input => exact hl.elim
  | load => exact hl.elim
  | reflect b t s kw =>
    exact good_reflectLoop env rng s t _ (hch b hr) kw p (Nat.le_refl _) w
  | crosstalk a e b t s kw =>
    exact good_crosstalkLoop env rng s t _
      (fun x hx r e => hch b hr r (crosstalkItems_mem _ _ _ x hx r e)) kw p (Nat.le_refl _) w
  | kill ch f pr =>
    show PGrow p (killChannels ch f pr p).2
    unfold killChannels
    dsimp only
    split
    · exact PGrow.refl w
    · exact (Good.forEach _ fun k _ => good_killOne p.beams pr k).onHeap p (Nat.le_refl _) w
  | setProp ps g nb na =>
    exact (Good.forEach _ fun r _ => good_applyBeam env ps hc g r).onHeap p (Nat.le_refl _) w
  | addProp ps g s pp nb na =>
    show PGrow p (addToProp env rng ps g s pp nb na p).2
    unfold addToProp
    split
    · rename_i k v
      exact PGood.forEach _ (fun q _ => good_addPair env rng (hc (k, v) (by simp)) v g s pp nb na q)
        p (Nat.le_refl _) w
    · exact PGrow.refl w
  | randomProp ps g =>
    exact PGood.forEach _ (fun r _ => good_randomBeam env rng ps hc g r) p (Nat.le_refl _) w
  | btypes v =>
    exact (Good.forEach _ fun r _ => good_setattr env r v (by simp)).onHeap p (Nat.le_refl _) w

/-! ### calls that add detectors -/

omit [Field K] [LinearOrder K] [FloorRing K] in
theorem mem_flatten (l : List Pair) (r : Ref) : some r ∈ flatten l ↔ r ∈ slots l := by
  induction l with
  | nil => simp [flatten, slots]
  | cons q l ih =>
    simp only [flatten, slots, List.flatMap_cons, List.mem_cons, List.mem_append]
    rw [ih]
    simp only [slots, Option.mem_toList, eq_comm, Option.mem_def, or_assoc]

theorem none_mem_flatten (l : List Pair) :
    none ∉ flatten l ↔ ∀ q ∈ l, q.1 ≠ none ∧ q.2 ≠ none := by
  induction l with
  | nil => simp [flatten]
  | cons q l ih =>
    rw [List.forall_mem_cons, ← ih]
    simp only [flatten, List.mem_cons, not_or, and_assoc, ne_eq, eq_comm]

theorem noNone_iff (a : Arg) : none ∉ toNumber a ↔ a.noNone := by
  cases a with
  | single r => simp [toNumber, Arg.noNone, eq_comm]
  | flat l => rfl
  | nested l => exact none_mem_flatten l

theorem mem_toNumber (a : Arg) (r : Ref) : some r ∈ toNumber a ↔ r ∈ a.refs := by
  cases a with
  | single r => simp [toNumber, Arg.refs, eq_comm]
  | flat l =>
    simp only [toNumber, Arg.refs, List.mem_flatMap, Option.mem_toList]
    constructor
    · intro h; exact ⟨_, h, rfl⟩
    · rintro ⟨x, hx, h⟩
      rwa [h] at hx
  | nested l => exact mem_flatten l r

theorem mem_toAdd (a : Arg) (r : Ref) : r ∈ slots (toAdd a) ↔ r ∈ a.refs := by
  cases a with
  | single r => simp [toAdd, Arg.refs, slots]
  | flat l => simp [toAdd, Arg.refs, slots, List.mem_flatMap]
  | nested l => rfl

theorem PInv.add {p : Plane K} (w : PInv p) (a : Arg) (c : Bool) (hc : c = true ∨ a.noNone)
    (hr : ∀ r ∈ a.refs, r < p.heap.size) : PInv ((addToFocalPlane a c).run p).2 := by
  unfold addToFocalPlane Exec.run
  dsimp only
  split
  · exact w
  rcases hi : startIdx p c with e | i
  · exact w
  dsimp only
  obtain ⟨f, h1, h2, h3, h4, h5, h6⟩ := numberFlat_spec (toNumber a) i p.heap
  have hwf := numberFlat_wf (toNumber a) i w.wf
  -- index of an object that got a number, or kept its old one
  have hsome : ∀ r k, f r = some k →
      ((numberFlat (toNumber a) i p.heap).2.cell r).attr .idx = some (.int k) := by
    intro r k hf; rw [h2 r, hf]; simp
  have hnone : ∀ r, f r = none →
      ((numberFlat (toNumber a) i p.heap).2.cell r).attr .idx = (p.heap.cell r).attr .idx := by
    intro r hf; rw [h2 r, hf]
  have hold : c = true → ∀ r ∈ slots p.beams, f r = none →
      ∃ j, ((numberFlat (toNumber a) i p.heap).2.cell r).attr .idx = some (.int j) ∧ j < i := by
    intro hc r hr hf
    subst hc
    rw [hnone r hf]
    exact startIdx_lt hi r hr
  -- the key fact about two objects
  have key : ∀ r s, (f r = none → c = true ∧ r ∈ slots p.beams) →
      (f s = none → c = true ∧ s ∈ slots p.beams) →
      ((numberFlat (toNumber a) i p.heap).2.cell r).attr .idx =
        ((numberFlat (toNumber a) i p.heap).2.cell s).attr .idx → r = s := by
    intro r s hr hs he
    rcases hfr : f r with _ | k <;> rcases hfs : f s with _ | k'
    · rw [hnone r hfr, hnone s hfs] at he
      exact w.inj r (hr hfr).2 s (hs hfs).2 he
    · obtain ⟨j, hj, hlt⟩ := hold (hr hfr).1 r (hr hfr).2 hfr
      rw [hj, hsome s k' hfs] at he
      have := (h3 s k' hfs).1
      simp at he; omega
    · obtain ⟨j, hj, hlt⟩ := hold (hs hfs).1 s (hs hfs).2 hfs
      rw [hj, hsome r k hfr] at he
      have := (h3 r k hfr).1
      simp at he; omega
    · rw [hsome r k hfr, hsome s k' hfs] at he
      simp at he
      subst he
      exact h4 r s k hfr hfs
  have hidx : ∀ r, (f r = none → r ∈ slots p.beams) →
      ∃ j, ((numberFlat (toNumber a) i p.heap).2.cell r).attr .idx = some (.int j) := by
    intro r hr
    rcases hfr : f r with _ | k
    · rw [hnone r hfr]; exact w.idx r (hr hfr)
    · exact ⟨k, hsome r k hfr⟩
  rcases hn : numberFlat (toNumber a) i p.heap with ⟨e | _, h'⟩ <;>
    rw [hn] at h1 hwf h5 h6 key hidx <;> dsimp only at h1 hwf h5 h6 key hidx ⊢
  · -- stopped at a `None`: only possible with `combine`
    have hct : c = true := by
      rcases hc with hc | hc
      · exact hc
      · have := h6 ((noNone_iff a).2 hc)
        cases this
    refine ⟨hwf, fun r hr => ?_, fun r hr => ?_, fun r hr s hs he => ?_⟩
    · dsimp only; rw [h1]; exact w.lt r hr
    · exact hidx r fun _ => hr
    · exact key r s (fun _ => ⟨hct, hr⟩) (fun _ => ⟨hct, hs⟩) he
  · obtain ⟨_, h5⟩ := h5 rfl
    have hadd : ∀ r, r ∈ slots (toAdd a) → f r ≠ none := by
      intro r hr he
      have := h5 r ((mem_toNumber a r).2 ((mem_toAdd a r).1 hr))
      rw [he] at this
      cases this
    have hcase : ∀ r ∈ slots (extend { p with heap := h' } (toAdd a) (ndetToAdd a) c).beams,
        (c = true ∧ r ∈ slots p.beams) ∨ r ∈ slots (toAdd a) := by
      intro r hr
      unfold extend at hr
      split at hr
      · rename_i hct
        dsimp only at hr
        rw [slots_append, List.mem_append] at hr
        rcases hr with hr | hr
        · exact .inl ⟨hct, hr⟩
        · exact .inr hr
      · exact .inr hr
    have hheap : (extend { p with heap := h' } (toAdd a) (ndetToAdd a) c).heap = h' := by
      unfold extend; split <;> rfl
    have hcn : ∀ r ∈ slots (extend { p with heap := h' } (toAdd a) (ndetToAdd a) c).beams,
        f r = none → c = true ∧ r ∈ slots p.beams := by
      intro r hr hf
      rcases hcase r hr with h | h
      · exact h
      · exact absurd hf (hadd r h)
    refine ⟨by rw [hheap]; exact hwf, fun r hr' => ?_, fun r hr' => ?_, fun r hr' s hs he => ?_⟩
    · rw [hheap, h1]
      rcases hcase r hr' with h | h
      · exact w.lt r h.2
      · exact hr r ((mem_toAdd a r).1 h)
    · rw [hheap]; exact hidx r fun hf => (hcn r hr' hf).2
    · rw [hheap] at he
      exact key r s (hcn r hr') (hcn s hs) he

theorem mem_slots (l : List Pair) (r : Ref) :
    r ∈ slots l ↔ ∃ q ∈ l, q.1 = some r ∨ q.2 = some r := by
  simp only [slots, List.mem_flatMap, List.mem_append, Option.mem_toList, Option.mem_def]

theorem PInv.remove {p : Plane K} (w : PInv p) (a : Arg) :
    PInv ((removeFromFocalPlane a).run p).2 := by
  unfold removeFromFocalPlane Exec.run
  dsimp only
  split
  · exact w
  refine w.grow (Grow.refl w.wf) fun r hr => ?_
  rw [mem_slots] at hr ⊢
  obtain ⟨q, hq, hr⟩ := hr
  rw [List.mem_filter, List.mem_map] at hq
  obtain ⟨⟨q', hq', rfl⟩, _⟩ := hq
  refine ⟨q', hq', ?_⟩
  rcases hr with hr | hr
  · left; unfold dropSlot at hr; dsimp only at hr; split at hr
    · cases hr
    · exact hr
  · right; unfold dropSlot at hr; dsimp only at hr; split at hr
    · cases hr
    · exact hr

theorem gridOpts_length (nrow ncol : Nat) (fov : K) (np : Bool) (ab : Val K) (kw : Dict K)
    (i : Int) : (gridOpts nrow ncol fov np ab kw i).length = ncol * nrow := by
  simp [gridOpts]

theorem gridOpts_get (nrow ncol : Nat) (fov : K) (np : Bool) (ab : Val K) (kw : Dict K)
    (i : Int) (m : Nat) (hm : m < ncol * nrow) :
    (gridOpts nrow ncol fov np ab kw i)[m]? =
      some (gridPair nrow ncol fov np ab kw (i + 2 * m) (m % nrow) (m / nrow)) := by
  simp [gridOpts, hm]

theorem gridPair_idx {nrow ncol : Nat} {fov : K} {np : Bool} {ab : Val K} {kw : Dict K}
    {i : Int} {e c : Nat} {a b : Dict K}
    (h : gridPair nrow ncol fov np ab kw i e c = (.ok a, .ok b)) :
    arg a .idx = .int i ∧ arg b .idx = .int (i + 1) := by
  unfold gridPair at h
  simp only [Prod.mk.injEq] at h
  obtain ⟨h1, h2⟩ := h
  have h1 := Except.ok.inj h1
  rcases hp : (popArg kw .polang (.num 0)).add ab with e | q <;> rw [hp] at h2
  · cases h2
  have h2 := Except.ok.inj h2
  subst h1 h2
  exact ⟨rfl, rfl⟩

theorem finishOpts_idx {d kw : Dict K} {i : Int} {s : Val K} {pol : String} {dead : Bool}
    {d' : Dict K} (h : finishOpts d kw i s pol dead = .ok d') : arg d' .idx = .int i := by
  unfold finishOpts at h
  dsimp only at h
  rcases hp : (popArg ((.idx, .int i) :: (kw.filter (·.1 ∉ [Key.pol, .ghost, .idx]) ++ d))
    .polang (.int 0)).add s with e | q <;> rw [hp] at h
  · cases h
  have h := Except.ok.inj h
  subst h
  cases dead <;> rfl

theorem loadOpts_length (kw : Dict K) (np : Bool) (qa qb : Val K) (i : Int)
    (fs : List (BeamFile K)) : (loadOpts kw np qa qb i fs).length = fs.length := by
  induction fs generalizing i with
  | nil => rfl
  | cons f fs ih => simp [loadOpts, ih]

theorem loadOpts_get (kw : Dict K) (np : Bool) (qa qb : Val K) (i : Int) (fs : List (BeamFile K))
    (m : Nat) : (loadOpts kw np qa qb i fs)[m]? = fs[m]?.map fun f =>
      ((filePair kw np qa qb (i + 2 * m) f).map Prod.fst,
       (filePair kw np qa qb (i + 2 * m) f).map Prod.snd) := by
  induction fs generalizing i m with
  | nil => simp [loadOpts]
  | cons f fs ih =>
    cases m with
    | zero => simp [loadOpts]
    | succ m =>
      simp only [loadOpts, List.getElem?_cons_succ, ih]
      rw [show i + 2 + 2 * (m : Int) = i + 2 * ((m + 1 : Nat) : Int) by push_cast; ring]

theorem filePair_idx {kw : Dict K} {np : Bool} {qa qb : Val K} {i : Int} {f : BeamFile K}
    {a b : Dict K} (h1 : (filePair kw np qa qb i f).map Prod.fst = .ok a)
    (h2 : (filePair kw np qa qb i f).map Prod.snd = .ok b) :
    arg a .idx = .int i ∧ arg b .idx = .int (i + 1) := by
  rcases hp : filePair kw np qa qb i f with e | ⟨a', b'⟩ <;> rw [hp] at h1 h2
  · cases h1
  cases h1
  cases h2
  unfold filePair at hp
  rcases h3 : fileOpts f with e | ⟨x, y⟩ <;> rw [h3] at hp
  · cases hp
  simp only [bind, Except.bind, pure, Except.pure] at hp
  rcases h4 : finishOpts x kw i qa "A" false with e | x' <;> rw [h4] at hp
  · cases hp
  dsimp only at hp
  rcases h5 : finishOpts y kw (i + 1) qb "B" np with e | y' <;> rw [h5] at hp
  · cases hp
  cases hp
  exact ⟨finishOpts_idx h4, finishOpts_idx h5⟩

theorem init_idx (env : Env K) {kw : Dict K} {o : Obj K} (h : init env kw = .ok o) :
    o.attr .idx = some (arg kw .idx) := (init_spec env h).1 .idx (by simp [plainKeys])

theorem PInv.create (env : Env K) {p : Plane K} (w : PInv p) (nrow ncol : Int) (fov : K)
    (np : Bool) (ab : Val K) (c : Bool) (kw : Dict K) :
    PInv ((createFocalPlane env nrow ncol fov np ab c kw).run p).2 := by
  unfold createFocalPlane Exec.run
  dsimp only
  have hpre : ∀ h, Grow p.heap h →
      PInv { presetNdet p (2 * nrow * ncol) c with heap := h } :=
    fun h g => w.grow (p' := { presetNdet p (2 * nrow * ncol) c with heap := h }) g
      fun r hr => hr
  rcases hi : startIdx p c with e | i
  · exact hpre p.heap (Grow.refl w.wf)
  dsimp only
  split
  · exact hpre p.heap (Grow.refl w.wf)
  obtain ⟨g, -, hq⟩ := buildPairs_spec env
    (gridOpts nrow.toNat ncol.toNat fov np ab kw i) p.heap w.wf
  have hhp : (presetNdet p (2 * nrow * ncol) c).heap = p.heap := rfl
  rw [hhp]
  rcases hb : buildPairs env (gridOpts nrow.toNat ncol.toNat fov np ab kw i) p.heap with ⟨e | qs, h'⟩ <;>
    rw [hb] at g hq <;> dsimp only at g hq ⊢
  · exact hpre h' g
  obtain ⟨q1, q2, q3⟩ := hq qs rfl
  rw [gridOpts_length] at q1 q2
  refine w.fresh (p' := extendBeams { presetNdet p (2 * nrow * ncol) c with heap := h' } qs c)
    hi g _ q1 qs q2 rfl fun m hm => ?_
  obtain ⟨a, b, e1, e2, e3⟩ := q3 m _ (gridOpts_get _ _ fov np ab kw i m hm)
  obtain ⟨f1, f2⟩ := gridPair_idx e1
  refine ⟨?_, ?_⟩
  · exact (init_idx env e2).trans (by rw [f1])
  · exact (init_idx env e3).trans (by rw [f2])

theorem PInv.load (env : Env K) {p : Plane K} (w : PInv p) (fs : List (BeamFile K))
    (np c : Bool) (qa qb : Val K) (kw : Dict K) :
    PInv ((loadFocalPlane env fs np c qa qb kw).run p).2 := by
  unfold loadFocalPlane Exec.run
  dsimp only
  rcases hi : startIdx p c with e | i
  · exact w
  dsimp only
  obtain ⟨g, -, hq⟩ := buildPairs_spec env (loadOpts kw np qa qb i fs) p.heap w.wf
  rcases hb : buildPairs env (loadOpts kw np qa qb i fs) p.heap with ⟨e | qs, h'⟩ <;>
    rw [hb] at g hq <;> dsimp only at g hq ⊢
  · exact w.grow (p' := { p with heap := h' }) g fun r hr => hr
  obtain ⟨q1, q2, q3⟩ := hq qs rfl
  rw [loadOpts_length] at q1 q2
  have hbm : (extend { p with heap := h' } qs (2 * qs.length) c).beams =
      if c then p.beams ++ qs else qs := by unfold extend; split <;> rfl
  have hhp : (extend { p with heap := h' } qs (2 * qs.length) c).heap = h' := by
    unfold extend; split <;> rfl
  refine w.fresh (p' := extend { p with heap := h' } qs (2 * qs.length) c) hi
    (by rw [hhp]; exact g) _ (by rw [hhp]; exact q1) qs q2 hbm fun m hm => ?_
  rw [hhp]
  have hf : ∃ f, fs[m]? = some f := ⟨fs[m], List.getElem?_eq_getElem hm⟩
  obtain ⟨f, hf⟩ := hf
  obtain ⟨a, b, e1, e2, e3⟩ := q3 m _ (by rw [loadOpts_get, hf]; rfl)
  rw [Prod.mk.injEq] at e1
  obtain ⟨f1, f2⟩ := filePair_idx e1.1 e1.2
  exact ⟨(init_idx env e2).trans (by rw [f1]), (init_idx env e3).trans (by rw [f2])⟩

theorem PInv.empty : PInv (emptyPlane : Plane K) :=
  ⟨WF.empty, by simp [emptyPlane, slots], by simp [emptyPlane, slots],
    by simp [emptyPlane, slots]⟩

theorem PInv.step (env : Env K) (rng : Nat → K) {p : Plane K} (w : PInv p) (op : FOp K)
    (hc : NoCount op) (hn : Numbers op) (hr : ∀ r ∈ op.refs, r < p.heap.size) :
    PInv ((op.exec env rng).run p).2 := by
  have hl : op.local → PInv ((op.exec env rng).run p).2 := by
    intro h
    have g := local_grow env rng op h hc w.wf w.lt hr
    exact w.grow g.heap fun r hr => by rw [g.beams] at hr; exact hr
  cases op with
  | add a c => exact w.add a c hn hr
  | remove a => exact w.remove a
  | create nrow ncol fov np ab c kw => exact w.create env nrow ncol fov np ab c kw
  | input => exact hn.elim
  | load fs np c qa qb kw => exact w.load env fs np c qa qb kw
  | _ => exact hl trivial

/-! ### what holds without any restriction on the numbering -/

/-- The heap is well-formed and the detectors are existing objects. -/
structure BInv (p : Plane K) : Prop where
  wf : WF p.heap
  lt : ∀ r ∈ slots p.beams, r < p.heap.size

theorem BInv.empty : BInv (emptyPlane : Plane K) := ⟨WF.empty, by simp [emptyPlane, slots]⟩

theorem slots_fresh (s n : Nat) : slots ((List.range n).map fun m =>
    (some (s + 2 * m), some (s + 2 * m + 1))) = (List.range (2 * n)).map (s + ·) := by
  induction n with
  | zero => rfl
  | succ n ih =>
    rw [List.range_succ, List.map_append, slots_append, ih,
      show 2 * (n + 1) = 2 * n + 1 + 1 by omega, List.range_succ, List.range_succ]
    simp [slots, Nat.add_assoc]

omit [FloorRing K] in
theorem BInv.fresh {p p' : Plane K} (w : BInv p) {c : Bool} (g : Grow p.heap p'.heap) (n : Nat)
    (hs : p'.heap.size = p.heap.size + 2 * n) (qs : List Pair)
    (hq : qs = (List.range n).map fun m =>
      (some (p.heap.size + 2 * m), some (p.heap.size + 2 * m + 1)))
    (hb : p'.beams = if c then p.beams ++ qs else qs) : BInv p' := by
  refine ⟨g.wf, fun r hr => ?_⟩
  have hnew : r ∈ slots qs → r < p'.heap.size := by
    intro h
    rw [hq, slots_fresh, List.mem_map] at h
    obtain ⟨m, hm, rfl⟩ := h
    rw [List.mem_range] at hm
    rw [hs]; exact Nat.add_lt_add_left hm _
  rw [hb] at hr
  split at hr
  · rw [slots_append, List.mem_append] at hr
    rcases hr with hr | hr
    · exact Nat.lt_of_lt_of_le (w.lt r hr) g.size
    · exact hnew hr
  · exact hnew hr

theorem BInv.step (env : Env K) (rng : Nat → K) {p : Plane K} (w : BInv p) (op : FOp K)
    (hc : NoCount op) (hr : ∀ r ∈ op.refs, r < p.heap.size) :
    BInv ((op.exec env rng).run p).2 := by
  have hl : op.local → BInv ((op.exec env rng).run p).2 := by
    intro h
    have g := local_grow env rng op h hc w.wf w.lt hr
    exact ⟨g.heap.wf, fun r hr => by
      rw [g.beams] at hr; exact Nat.lt_of_lt_of_le (w.lt r hr) g.heap.size⟩
  have hg : ∀ p' : Plane K, Grow p.heap p'.heap → p'.beams = p.beams → BInv p' :=
    fun p' g hb => ⟨g.wf, fun r hr => by
      rw [hb] at hr; exact Nat.lt_of_lt_of_le (w.lt r hr) g.size⟩
  cases op with
  | add a c =>
    show BInv (addToFocalPlane a c p).2
    unfold addToFocalPlane
    split
    · exact w
    split
    · exact w
    rename_i i hi
    obtain ⟨f, h1, h2, h3, h4, h5, h6⟩ := numberFlat_spec (toNumber a) i p.heap
    have hwf := numberFlat_wf (toNumber a) i w.wf
    rcases hn : numberFlat (toNumber a) i p.heap with ⟨e | _, h'⟩ <;>
      rw [hn] at h1 hwf <;> dsimp only at h1 hwf ⊢
    · exact ⟨hwf, fun r hr => by dsimp only; rw [h1]; exact w.lt r hr⟩
    · have hheap : (extend { p with heap := h' } (toAdd a) (ndetToAdd a) c).heap = h' := by
        unfold extend; split <;> rfl
      refine ⟨by rw [hheap]; exact hwf, fun r hr' => ?_⟩
      rw [hheap, h1]
      unfold extend at hr'
      split at hr'
      · dsimp only at hr'
        rw [slots_append, List.mem_append] at hr'
        rcases hr' with h | h
        · exact w.lt r h
        · exact hr r ((mem_toAdd a r).1 h)
      · exact hr r ((mem_toAdd a r).1 hr')
  | remove a =>
    show BInv (removeFromFocalPlane a p).2
    unfold removeFromFocalPlane
    split
    · exact w
    refine ⟨w.wf, fun r hr => w.lt r ?_⟩
    dsimp only at hr
    rw [mem_slots] at hr ⊢
    obtain ⟨q, hq, hr⟩ := hr
    rw [List.mem_filter, List.mem_map] at hq
    obtain ⟨⟨q', hq', rfl⟩, _⟩ := hq
    refine ⟨q', hq', ?_⟩
    rcases hr with hr | hr
    · left; unfold dropSlot at hr; dsimp only at hr; split at hr
      · cases hr
      · exact hr
    · right; unfold dropSlot at hr; dsimp only at hr; split at hr
      · cases hr
      · exact hr
  | create nrow ncol fov np ab c kw =>
    show BInv (createFocalPlane env nrow ncol fov np ab c kw p).2
    unfold createFocalPlane
    dsimp only
    split
    · exact hg _ (Grow.refl w.wf) rfl
    rename_i i hi
    split
    · exact hg _ (Grow.refl w.wf) rfl
    rw [show (presetNdet p (2 * nrow * ncol) c).heap = p.heap from rfl]
    obtain ⟨g, -, hq⟩ := buildPairs_spec env
      (gridOpts nrow.toNat ncol.toNat fov np ab kw i) p.heap w.wf
    rcases hb : buildPairs env (gridOpts nrow.toNat ncol.toNat fov np ab kw i) p.heap
      with ⟨e | qs, h'⟩ <;> rw [hb] at g hq <;> dsimp only at g hq ⊢
    · exact hg _ g rfl
    obtain ⟨q1, q2, -⟩ := hq qs rfl
    exact w.fresh (c := c) (p' := extendBeams { presetNdet p (2 * nrow * ncol) c with heap := h' }
      qs c) g _ q1 qs q2 rfl
  | input a e q d c kw =>
    show BInv (inputFocalPlane env a e q d c kw p).2
    unfold inputFocalPlane
    dsimp only
    split
    swap
    · exact w
    split
    · exact hg _ (Grow.refl w.wf) rfl
    rename_i i hi
    rw [show (presetNdet p (2 * a.length) c).heap = p.heap from rfl]
    obtain ⟨g, -, hq⟩ := buildPairs_spec env
      (inputOpts kw 0 a e q (d.getD (a.map fun _ => (.bool false, .bool false)))) p.heap w.wf
    rcases hb : buildPairs env (inputOpts kw 0 a e q
      (d.getD (a.map fun _ => (.bool false, .bool false)))) p.heap
      with ⟨e | qs, h'⟩ <;> rw [hb] at g hq <;> dsimp only at g hq ⊢
    · exact hg _ g rfl
    obtain ⟨q1, q2, -⟩ := hq qs rfl
    exact w.fresh (c := c) (p' := extendBeams { presetNdet p (2 * a.length) c with heap := h' }
      qs c) g _ q1 qs q2 rfl
  | load fs np c qa qb kw =>
    show BInv (loadFocalPlane env fs np c qa qb kw p).2
    unfold loadFocalPlane
    split
    · exact w
    rename_i i hi
    obtain ⟨g, -, hq⟩ := buildPairs_spec env (loadOpts kw np qa qb i fs) p.heap w.wf
    rcases hb : buildPairs env (loadOpts kw np qa qb i fs) p.heap with ⟨e | qs, h'⟩ <;>
      rw [hb] at g hq <;> dsimp only at g hq ⊢
    · exact hg _ g rfl
    obtain ⟨q1, q2, -⟩ := hq qs rfl
    have hbm : (extend { p with heap := h' } qs (2 * qs.length) c).beams =
        if c then p.beams ++ qs else qs := by unfold extend; split <;> rfl
    have hhp : (extend { p with heap := h' } qs (2 * qs.length) c).heap = h' := by
      unfold extend; split <;> rfl
    exact w.fresh (c := c) (p' := extend { p with heap := h' } qs (2 * qs.length) c)
      (by rw [hhp]; exact g) _ (by rw [hhp]; exact q1) qs q2 hbm
  | _ => exact hl trivial

theorem PReachable.binv {env : Env K} {rng : Nat → K} {P : Plane K → FOp K → Prop}
    (hP : ∀ p op, P p op → NoCount op) {p : Plane K} (hr : PReachable env rng P p) : BInv p := by
  induction hr with
  | start => exact BInv.empty
  | step op _ hp hrf ih => exact ih.step env rng op (hP _ op hp) hrf

/-! ### counting -/

/-- The count is the number of occupied slots and no pair is empty. -/
structure CInv (p : Plane K) : Prop where
  count : p.ndet = (slots p.beams).length
  pair : ∀ q ∈ p.beams, q ≠ (none, none)

theorem slots_length_cons (q : Pair) (l : List Pair) :
    (slots (q :: l)).length = q.1.toList.length + q.2.toList.length + (slots l).length := by
  simp [slots, Nat.add_assoc]

theorem slots_toAdd (a : Arg) (hn : none ∉ toNumber a) :
    (((slots (toAdd a)).length : Int) = ndetToAdd a) ∧ ∀ q ∈ toAdd a, q ≠ (none, none) := by
  cases a with
  | single r =>
    cases r with
    | none => simp [toNumber] at hn
    | some r => simp [toAdd, slots, ndetToAdd]
  | flat l =>
    change none ∉ l at hn
    change ((slots (l.map fun r => (r, none))).length : Int) = l.length ∧
      ∀ q ∈ l.map (fun r => ((r, none) : Pair)), q ≠ (none, none)
    induction l with
    | nil => simp [slots]
    | cons r l ih =>
      rw [List.mem_cons, not_or] at hn
      obtain ⟨i1, i2⟩ := ih hn.2
      cases r with
      | none => exact absurd rfl hn.1
      | some r =>
        refine ⟨?_, ?_⟩
        · rw [List.map_cons, slots_length_cons]
          push_cast
          rw [i1]
          simp; omega
        · rw [List.map_cons, List.forall_mem_cons]
          exact ⟨by simp, i2⟩
  | nested l =>
    change none ∉ flatten l at hn
    change ((slots l).length : Int) = 2 * l.length ∧ ∀ q ∈ l, q ≠ (none, none)
    induction l with
    | nil => simp [slots]
    | cons q l ih =>
      obtain ⟨a, b⟩ := q
      simp only [flatten, List.mem_cons, not_or] at hn
      obtain ⟨i1, i2⟩ := ih hn.2.2
      cases a with
      | none => exact absurd rfl hn.1
      | some a =>
        cases b with
        | none => exact absurd rfl hn.2.1
        | some b =>
          refine ⟨?_, ?_⟩
          · rw [slots_length_cons]
            push_cast
            rw [i1]
            simp; omega
          · rw [List.forall_mem_cons]
            exact ⟨by simp, i2⟩

/-- Slots left after removal. -/
theorem slots_drop (bad : List (Option Ref)) (l : List Pair) :
    slots ((l.map fun q => (dropSlot bad q.1, dropSlot bad q.2)).filter (· ≠ (none, none))) =
      (slots l).filter fun r => some r ∉ bad := by
  induction l with
  | nil => rfl
  | cons q l ih =>
    obtain ⟨a, b⟩ := q
    have hslot : ∀ x : Option Ref, (dropSlot bad x).toList =
        x.toList.filter fun r => some r ∉ bad := by
      intro x
      unfold dropSlot
      cases x with
      | none => split <;> rfl
      | some r =>
        by_cases h : some r ∈ bad <;> simp [h]
    have hcons : slots ((a, b) :: l) = a.toList ++ b.toList ++ slots l := by simp [slots]
    rw [hcons, List.filter_append, List.filter_append, ← hslot, ← hslot, ← ih, List.map_cons]
    dsimp only
    rw [List.filter_cons]
    split
    · simp [slots]
    · rename_i h
      have h : dropSlot bad a = none ∧ dropSlot bad b = none := by simpa using h
      rw [h.1, h.2]
      simp

theorem dropCount_sum (bad : List (Option Ref)) (hn : none ∉ bad) (l : List Pair) :
    (l.map (dropCount bad)).sum =
      ((slots l).length : Int) - ((slots l).filter fun r => some r ∉ bad).length := by
  induction l with
  | nil => rfl
  | cons q l ih =>
    obtain ⟨a, b⟩ := q
    have hcons : slots ((a, b) :: l) = a.toList ++ b.toList ++ slots l := by simp [slots]
    have h1 : ∀ x : Option Ref, (if x ∈ bad then (1 : Int) else 0) =
        (x.toList.length : Int) - (x.toList.filter fun r => some r ∉ bad).length := by
      intro x
      cases x with
      | none => simp [hn]
      | some r => by_cases h : some r ∈ bad <;> simp [h]
    rw [List.map_cons, List.sum_cons, ih, hcons, List.filter_append, List.filter_append]
    simp only [List.length_append, dropCount]
    rw [h1 a, h1 b]
    push_cast
    omega

theorem inputOpts_length (kw : Dict K) (i : Nat) (as es qs ds : List (Row K))
    (h1 : es.length = as.length) (h2 : qs.length = as.length) (h3 : ds.length = as.length) :
    (inputOpts kw i as es qs ds).length = as.length := by
  induction as generalizing i es qs ds with
  | nil =>
    cases es <;> simp_all [inputOpts]
  | cons a as ih =>
    rcases es with _ | ⟨e, es⟩
    · simp at h1
    rcases qs with _ | ⟨q, qs⟩
    · simp at h2
    rcases ds with _ | ⟨d, ds⟩
    · simp at h3
    simp only [inputOpts, List.length_cons, Nat.add_right_cancel_iff] at h1 h2 h3 ⊢
    exact ih (i + 1) es qs ds h1 h2 h3

theorem CInv.fresh {p p' : Plane K} (w : CInv p) {c : Bool} {n : Nat} {m : Int}
    (hm : m = 2 * n) (qs : List Pair)
    (hq : qs = (List.range n).map fun m =>
      (some (p.heap.size + 2 * m), some (p.heap.size + 2 * m + 1)))
    (hb : p'.beams = if c then p.beams ++ qs else qs)
    (hd : p'.ndet = if c then p.ndet + m else m) : CInv p' := by
  have hl : ((slots qs).length : Int) = m := by
    rw [hq, slots_fresh]; simp [hm]
  have hne : ∀ q ∈ qs, q ≠ (none, none) := by
    intro q h
    rw [hq, List.mem_map] at h
    obtain ⟨_, _, rfl⟩ := h
    simp
  refine ⟨?_, ?_⟩
  · rw [hb, hd]
    cases c with
    | false => exact hl.symm
    | true => simp only [if_pos]; rw [slots_append, List.length_append, w.count]; push_cast; omega
  · rw [hb]
    cases c with
    | false => exact hne
    | true =>
      intro q h
      simp only [if_pos, List.mem_append] at h
      rcases h with h | h
      · exact w.pair q h
      · exact hne q h

theorem CInv.step (env : Env K) (rng : Nat → K) {p : Plane K} (b : BInv p) (w : CInv p)
    (op : FOp K) (hc : NoCount op) (hn : Counts env rng p op)
    (hr : ∀ r ∈ op.refs, r < p.heap.size) : CInv ((op.exec env rng).run p).2 := by
  have hl : op.local → CInv ((op.exec env rng).run p).2 := by
    intro h
    have g := local_grow env rng op h hc b.wf b.lt hr
    exact ⟨by rw [g.ndet, g.beams]; exact w.count, by rw [g.beams]; exact w.pair⟩
  cases op with
  | add a c =>
    show CInv (addToFocalPlane a c p).2
    unfold addToFocalPlane
    split
    · exact w
    split
    · exact w
    rename_i i hi
    obtain ⟨f, h1, h2, h3, h4, h5, h6⟩ := numberFlat_spec (toNumber a) i p.heap
    rcases hn : numberFlat (toNumber a) i p.heap with ⟨e | _, h'⟩ <;>
      rw [hn] at h5 <;> dsimp only at h5 ⊢
    · exact ⟨w.count, w.pair⟩
    · obtain ⟨s1, s2⟩ := slots_toAdd a (h5 rfl).1
      unfold extend
      split
      · refine ⟨?_, ?_⟩
        · dsimp only
          rw [slots_append, List.length_append, w.count]; push_cast; omega
        · intro q hq
          dsimp only at hq
          rw [List.mem_append] at hq
          rcases hq with hq | hq
          · exact w.pair q hq
          · exact s2 q hq
      · exact ⟨s1.symm, s2⟩
  | remove a =>
    show CInv (removeFromFocalPlane a p).2
    unfold removeFromFocalPlane
    split
    · exact w
    refine ⟨?_, ?_⟩
    · dsimp only
      have hnb : none ∉ badList a := by
        have := (noNone_iff a).2 hn
        cases a <;> exact this
      rw [slots_drop, dropCount_sum _ hnb, w.count]
      omega
    · intro q hq
      dsimp only at hq
      rw [List.mem_filter] at hq
      simpa using hq.2
  | create nrow ncol fov np ab c kw =>
    change (createFocalPlane env nrow ncol fov np ab c kw p).1 = .ok () at hn
    show CInv (createFocalPlane env nrow ncol fov np ab c kw p).2
    unfold createFocalPlane at hn ⊢
    dsimp only at hn ⊢
    rcases hi : startIdx p c with e | i <;> rw [hi] at hn
    · cases hn
    dsimp only at hn ⊢
    split at hn
    · cases hn
    rename_i hneg
    rw [if_neg hneg]
    rw [show (presetNdet p (2 * nrow * ncol) c).heap = p.heap from rfl] at hn ⊢
    obtain ⟨g, -, hq⟩ := buildPairs_spec env
      (gridOpts nrow.toNat ncol.toNat fov np ab kw i) p.heap b.wf
    rcases hb : buildPairs env (gridOpts nrow.toNat ncol.toNat fov np ab kw i) p.heap
      with ⟨e | qs, h'⟩ <;> rw [hb] at hn hq <;> dsimp only at hn hq ⊢
    · cases hn
    obtain ⟨q1, q2, -⟩ := hq qs rfl
    rw [gridOpts_length] at q2
    have hm : 2 * nrow * ncol = 2 * ((ncol.toNat * nrow.toNat : Nat) : Int) := by
      push_cast
      rw [Int.toNat_of_nonneg (by omega), Int.toNat_of_nonneg (by omega)]
      ring
    exact w.fresh (c := c) (p' := extendBeams { presetNdet p (2 * nrow * ncol) c with heap := h' }
      qs c) hm qs q2 rfl rfl
  | input a e q d c kw =>
    obtain ⟨hn, l1, l2, l3⟩ := hn
    change (inputFocalPlane env a e q d c kw p).1 = .ok () at hn
    show CInv (inputFocalPlane env a e q d c kw p).2
    unfold inputFocalPlane at hn ⊢
    dsimp only at hn ⊢
    split at hn
    swap
    · cases hn
    rename_i hct
    rw [if_pos hct]
    rcases hi : startIdx p c with e | i <;> rw [hi] at hn
    · cases hn
    dsimp only at hn ⊢
    rw [show (presetNdet p (2 * a.length) c).heap = p.heap from rfl] at hn ⊢
    obtain ⟨g, -, hq⟩ := buildPairs_spec env
      (inputOpts kw 0 a e q (d.getD (a.map fun _ => (.bool false, .bool false)))) p.heap b.wf
    rcases hb : buildPairs env (inputOpts kw 0 a e q
      (d.getD (a.map fun _ => (.bool false, .bool false)))) p.heap
      with ⟨e | qs, h'⟩ <;> rw [hb] at hn hq <;> dsimp only at hn hq ⊢
    · cases hn
    obtain ⟨q1, q2, -⟩ := hq qs rfl
    rw [inputOpts_length kw 0 a e q _ l1 l2 (by
      cases d with
      | none => simp
      | some d => exact l3 d rfl)] at q2
    exact w.fresh (c := c) (p' := extendBeams { presetNdet p (2 * a.length) c with heap := h' }
      qs c) rfl qs q2 rfl rfl
  | load fs np c qa qb kw =>
    show CInv (loadFocalPlane env fs np c qa qb kw p).2
    unfold loadFocalPlane
    split
    · exact w
    rename_i i hi
    obtain ⟨g, -, hq⟩ := buildPairs_spec env (loadOpts kw np qa qb i fs) p.heap b.wf
    rcases hb : buildPairs env (loadOpts kw np qa qb i fs) p.heap with ⟨e | qs, h'⟩ <;>
      rw [hb] at hq <;> dsimp only at hq ⊢
    · exact ⟨w.count, w.pair⟩
    obtain ⟨q1, q2, -⟩ := hq qs rfl
    have hbm : (extend { p with heap := h' } qs (2 * qs.length) c).beams =
        if c then p.beams ++ qs else qs := by unfold extend; split <;> rfl
    have hnd : (extend { p with heap := h' } qs (2 * qs.length) c).ndet =
        if c then p.ndet + 2 * qs.length else 2 * qs.length := by unfold extend; split <;> rfl
    have hql : qs.length = (loadOpts kw np qa qb i fs).length := by rw [q2]; simp
    rw [← hql] at q2
    exact w.fresh (c := c) (p' := extend { p with heap := h' } qs (2 * qs.length) c) rfl qs q2
      hbm hnd
  | _ => exact hl trivial

end Verif.FocalPlane
