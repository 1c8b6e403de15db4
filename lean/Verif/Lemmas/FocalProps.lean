import Mathlib.Algebra.BigOperators.Group.Finset.Basic
import Mathlib.Tactic.Ring
import Verif.Spec.FocalPlane
import Verif.Lemmas.FocalPlane

/-!
# Lemmas: what the methods acting on all detectors do to each object
-/

namespace Verif.FocalPlane

open Verif.Beam

variable {K : Type} [Field K] [LinearOrder K] [FloorRing K]

/-! ### dead flags -/

/-- The ghosts of an object; none for a ghost. -/
def kids (h : Heap K) (r : Ref) : List Ref := (h.cell r).ghosts.getD []

omit [Field K] [LinearOrder K] [FloorRing K] in
theorem kids_mild {h h' : Heap K} (m : Mild h h') (r : Ref) : kids h' r = kids h r := by
  unfold kids; rw [m.ghosts]

omit [Field K] [LinearOrder K] [FloorRing K] in
theorem mem_kids {h : Heap K} {r x : Ref} :
    x ∈ kids h r ↔ ∃ gs, (h.cell r).ghosts = some gs ∧ x ∈ gs := by
  unfold kids
  rcases (h.cell r).ghosts with _ | gs <;> simp

omit [Field K] [LinearOrder K] [FloorRing K] in
theorem markAll_mild (v : Val K) (l : List Ref) (h : Heap K) : Mild h (markAll v l h) := by
  refine ⟨rfl, ?_, ?_, ?_, ?_, ?_⟩
  · intro x; simp only [markAll]; split <;> rfl
  · intro x; simp only [markAll]; split
    · exact put_attr_ne (k := .dead) (k' := .ghost) _ v (by simp)
    · rfl
  · intro x; simp only [markAll]; split
    · exact put_attr_ne (k := .dead) (k' := .ghostCount) _ v (by simp)
    · rfl
  · intro x; simp only [markAll]; split
    · exact put_attr_ne (k := .dead) (k' := .idx) _ v (by simp)
    · rfl
  · intro x k _ hk; simp only [markAll]; split
    · rw [put_attr]; split
      · rfl
      · exact hk
    · exact hk

omit [Field K] [LinearOrder K] [FloorRing K] in
theorem markAll_markAll (v : Val K) (l l' : List Ref) (h : Heap K) :
    markAll v l' (markAll v l h) = markAll v (l ++ l') h := by
  refine heap_ext rfl fun x => ?_
  simp only [markAll, List.mem_append]
  by_cases h1 : x ∈ l <;> by_cases h2 : x ∈ l' <;> simp [h1, h2]

omit [FloorRing K] in
theorem setDead_wf {h : Heap K} (w : WF h) (v : Val K) {r : Ref} (hr : r < h.size) :
    setDead v r h = (.ok (), markAll v (r :: kids h r) h) := by
  rcases hg : (h.cell r).ghosts with _ | gs
  · rw [setDead_ghost v r h hg]
    unfold kids; rw [hg]
    congr 1
    refine heap_ext rfl fun x => ?_
    rw [heap_put]
    by_cases hx : x = r
    · subst hx; simp [markAll]
    · simp [markAll, hx]
  · rw [setDead_spec v r gs h hg fun g hm => ((w.ghosts_lt hr hg).2.2.2 g hm).2.2]
    unfold kids; rw [hg]; rfl

omit [FloorRing K] in
theorem forEach_setDead (v : Val K) (rs : List Ref) {h : Heap K} (w : WF h)
    (hlt : ∀ r ∈ rs, r < h.size) :
    Exec.forEach rs (setDead v) h =
      (.ok (), markAll v (rs.flatMap fun r => r :: kids h r) h) := by
  induction rs generalizing h with
  | nil => simp [Exec.forEach, markAll]; rfl
  | cons r rs ih =>
    have := Exec.run_forEach_cons r rs (setDead v) h
    unfold Exec.run at this
    rw [this, setDead_wf w v (hlt r (by simp))]
    dsimp only
    have m := markAll_mild v (r :: kids h r) h
    rw [ih (w.mild m) fun x hx => by rw [m.size]; exact hlt x (by simp [hx])]
    rw [markAll_markAll, List.flatMap_cons]
    congr 4
    funext x
    rw [kids_mild m]

/-! ### full focal planes -/

theorem full_length {l : List Pair} (hf : Full l) : (slots l).length = 2 * l.length := by
  induction l with
  | nil => rfl
  | cons q l ih =>
    have h := hf q (by simp)
    rw [slots_length_cons, ih fun q hq => hf q (by simp [hq])]
    obtain ⟨a, b⟩ := q
    rcases a with _ | a
    · simp at h
    rcases b with _ | b
    · simp at h
    simp; omega

theorem full_get {l : List Pair} (hf : Full l) {n : Nat} {q : Pair} (hq : l[n]? = some q) :
    q = ((slots l)[2 * n]?, (slots l)[2 * n + 1]?) := by
  induction l generalizing n with
  | nil => simp at hq
  | cons q' l ih =>
    have h := hf q' (by simp)
    obtain ⟨a, b⟩ := q'
    rcases a with _ | a
    · simp at h
    rcases b with _ | b
    · simp at h
    have hs : slots ((some a, some b) :: l) = a :: b :: slots l := rfl
    cases n with
    | zero => simp at hq; rw [hs, ← hq]; rfl
    | succ n =>
      rw [List.getElem?_cons_succ] at hq
      rw [hs, show 2 * (n + 1) = 2 * n + 1 + 1 by omega]
      simp only [List.getElem?_cons_succ]
      exact ih (fun q hq => hf q (by simp [hq])) hq

/-- Slots hit by a kill index. -/
def targets (pairs : Bool) (k : Nat) : List Nat := if pairs then [2 * k, 2 * k + 1] else [k]

omit [FloorRing K] in
theorem killOne_full {l : List Pair} (hf : Full l) (pairs : Bool) (k : Nat)
    (hk : ∀ i ∈ targets pairs k, i < (slots l).length) (h : Heap K) :
    killOne l pairs k h =
      Exec.forEach ((targets pairs k).filterMap fun i => (slots l)[i]?)
        (setDead (K := K) (.bool true)) h := by
  have hlen := full_length hf
  cases pairs with
  | true =>
    simp only [targets, if_true] at hk ⊢
    have h1 := hk (2 * k) (by simp)
    have h2 := hk (2 * k + 1) (by simp)
    have hkl : k < l.length := by omega
    have hq := List.getElem?_eq_getElem hkl
    have hg := full_get hf hq
    unfold killOne
    rw [hq]
    simp only [if_true]
    rw [hg, List.getElem?_eq_getElem h1, List.getElem?_eq_getElem h2]
    simp only [List.filterMap_cons, List.getElem?_eq_getElem h1, List.getElem?_eq_getElem h2,
      List.filterMap_nil]
    simp only [killSlot, Exec.forEach, bind, pure]
    rcases setDead (K := K) (.bool true) (slots l)[2 * k] h with ⟨e | u, h'⟩
    · rfl
    · dsimp only
      rcases setDead (K := K) (.bool true) (slots l)[2 * k + 1] h' with ⟨e | u, h'⟩ <;> rfl
  | false =>
    simp only [targets, Bool.false_eq_true, if_false] at hk ⊢
    have h1 := hk k (by simp)
    have hkl : k / 2 < l.length := by omega
    have hq := List.getElem?_eq_getElem hkl
    have hg := full_get hf hq
    unfold killOne
    rw [hq]
    simp only [Bool.false_eq_true, if_false]
    have hs : (if k % 2 = 0 then l[k / 2].1 else l[k / 2].2) = (slots l)[k]? := by
      rw [hg]
      split
      · rename_i h0; dsimp only; congr 1; omega
      · rename_i h0; dsimp only; congr 1; omega
    rw [hs, List.getElem?_eq_getElem h1]
    simp only [List.filterMap_cons, List.getElem?_eq_getElem h1, List.filterMap_nil]
    simp only [killSlot, Exec.forEach, bind, pure]
    rcases setDead (K := K) (.bool true) (slots l)[k] h with ⟨e | u, h'⟩ <;> rfl

theorem forEach_append {σ α : Type} (l l' : List α) (f : α → Exec σ Unit) (s : σ) :
    Exec.forEach (l ++ l') f s = match Exec.forEach l f s with
      | (.ok _, s') => Exec.forEach l' f s'
      | (.error e, s') => (.error e, s') := by
  induction l generalizing s with
  | nil => rfl
  | cons a l ih =>
    have h1 := Exec.run_forEach_cons a l f s
    have h2 := Exec.run_forEach_cons a (l ++ l') f s
    unfold Exec.run at h1 h2
    rw [List.cons_append, h1, h2]
    rcases f a s with ⟨e | u, s'⟩
    · rfl
    · exact ih s'

omit [FloorRing K] in
theorem forEach_kill {l : List Pair} (hf : Full l) (pairs : Bool) (ks : List Nat)
    (hk : ∀ k ∈ ks, ∀ i ∈ targets pairs k, i < (slots l).length) (h : Heap K) :
    Exec.forEach ks (killOne l pairs) h =
      Exec.forEach ((ks.flatMap (targets pairs)).filterMap fun i => (slots l)[i]?)
        (setDead (K := K) (.bool true)) h := by
  induction ks generalizing h with
  | nil => rfl
  | cons k ks ih =>
    have h1 := Exec.run_forEach_cons k ks (killOne (K := K) l pairs) h
    unfold Exec.run at h1
    rw [h1, killOne_full hf pairs k (hk k (by simp)), List.flatMap_cons, List.filterMap_append,
      forEach_append]
    rcases Exec.forEach ((targets pairs k).filterMap fun i => (slots l)[i]?)
      (setDead (K := K) (.bool true)) h with ⟨e | u, s'⟩
    · rfl
    · exact ih (fun k hk' => hk k (by simp [hk'])) s'

theorem filterMap_get (l : List Ref) (is : List Nat) (hi : ∀ i ∈ is, i < l.length) :
    (is.filterMap fun i => l[i]?).length = is.length ∧
    (∀ x ∈ is.filterMap fun i => l[i]?, x ∈ l) ∧
    (l.Nodup → is.Nodup → (is.filterMap fun i => l[i]?).Nodup) := by
  refine ⟨?_, ?_, ?_⟩
  · induction is with
    | nil => rfl
    | cons i is ih =>
      rw [List.filterMap_cons, List.getElem?_eq_getElem (hi i (by simp))]
      simp [ih fun i h => hi i (by simp [h])]
  · intro x hx
    rw [List.mem_filterMap] at hx
    obtain ⟨i, _, h⟩ := hx
    exact List.mem_of_getElem? h
  · intro hl
    induction is with
    | nil => intro _; simp
    | cons i is ih =>
      intro hn
      rw [List.nodup_cons] at hn
      have hil := hi i (by simp)
      rw [List.filterMap_cons, List.getElem?_eq_getElem hil]
      simp only
      rw [List.nodup_cons]
      refine ⟨?_, ih (fun i h => hi i (by simp [h])) hn.2⟩
      intro hm
      rw [List.mem_filterMap] at hm
      obtain ⟨j, hj, he⟩ := hm
      have hjl := hi j (by simp [hj])
      rw [List.getElem?_eq_getElem hjl, Option.some_inj] at he
      have := (List.Nodup.getElem_inj_iff hl).1 he
      subst this
      exact hn.1 hj

theorem targets_nodup (pairs : Bool) {ks : List Nat} (h : ks.Nodup) :
    (ks.flatMap (targets pairs)).Nodup := by
  cases pairs with
  | false =>
    have : ks.flatMap (targets false) = ks := by
      induction ks with
      | nil => rfl
      | cons k ks ih => rw [List.flatMap_cons, ih (List.nodup_cons.1 h).2]; rfl
    rwa [this]
  | true =>
    rw [List.nodup_flatMap]
    refine ⟨fun k _ => by simp [targets], ?_⟩
    refine h.imp ?_
    intro a b hab
    simp [targets, List.disjoint_left]
    omega

theorem targets_length (pairs : Bool) (ks : List Nat) :
    (ks.flatMap (targets pairs)).length = if pairs then 2 * ks.length else ks.length := by
  induction ks with
  | nil => cases pairs <;> rfl
  | cons k ks ih =>
    rw [List.flatMap_cons, List.length_append, ih]
    cases pairs <;> simp [targets] <;> omega

/-! ### attributes of all detectors -/

omit [Field K] [LinearOrder K] [FloorRing K] in
theorem put_cell (h : Heap K) (r : Ref) : h.put r (h.cell r) = h := by
  refine heap_ext rfl fun x => ?_
  rw [heap_put]; split
  · rename_i e; rw [e]
  · rfl

omit [Field K] [LinearOrder K] [FloorRing K] in
theorem put_put (h : Heap K) (r : Ref) (o o' : Obj K) : (h.put r o).put r o' = h.put r o' := by
  refine heap_ext rfl fun x => ?_
  rw [heap_put, heap_put, heap_put]; split <;> rfl

theorem applyProps_spec (env : Env K) {ps : Dict K} (hd : ∀ e ∈ ps, e.1 ≠ .dead) (r : Ref)
    {h h' : Heap K} (hok : applyProps env ps r h = (.ok (), h')) :
    ∃ o, assign env ps (h.cell r) = .ok o ∧ h' = h.put r o := by
  induction ps generalizing h with
  | nil =>
    injection hok with _ h2
    exact ⟨h.cell r, rfl, by rw [put_cell]; exact h2.symm⟩
  | cons e ps ih =>
    have h1 := Exec.run_forEach_cons e ps (fun e => setattr env r e.1 e.2) h
    unfold Exec.run at h1
    unfold applyProps at hok
    rw [h1] at hok
    unfold setattr at hok
    rw [if_neg (hd e (by simp))] at hok
    unfold setPlain at hok
    rcases ho : objSet env (h.cell r) e.1 e.2 with err | o <;> rw [ho] at hok
    · cases hok
    · obtain ⟨o', h3, h4⟩ := ih (fun e he => hd e (by simp [he])) hok
      rw [heap_put_same] at h3
      refine ⟨o', ?_, by rw [h4, put_put]⟩
      simp only [assign, ho]
      exact h3

theorem assign_ghosts (env : Env K) {ps : Dict K} {o o' : Obj K}
    (h : assign env ps o = .ok o') : o'.ghosts = o.ghosts := by
  induction ps generalizing o with
  | nil => cases h; rfl
  | cons e ps ih =>
    unfold assign at h
    rcases ho : objSet env o e.1 e.2 with err | o1 <;> rw [ho] at h
    · cases h
    · obtain ⟨⟨w, hw⟩, _⟩ := objSet_put env ho
      rw [ih h, hw]; rfl

theorem forEach_applyProps (env : Env K) {ps : Dict K} (hd : ∀ e ∈ ps, e.1 ≠ .dead)
    {xs : List Ref} (hn : xs.Nodup) {h h' : Heap K}
    (hok : Exec.forEach xs (applyProps env ps) h = (.ok (), h')) :
    h'.size = h.size ∧ (∀ x ∈ xs, assign env ps (h.cell x) = .ok (h'.cell x)) ∧
      ∀ x ∉ xs, h'.cell x = h.cell x := by
  induction xs generalizing h with
  | nil => injection hok with _ h2; subst h2; simp
  | cons a xs ih =>
    have h1 := Exec.run_forEach_cons a xs (applyProps env ps) h
    unfold Exec.run at h1
    rw [h1] at hok
    rcases ha : applyProps env ps a h with ⟨e | u, h2⟩ <;> rw [ha] at hok
    · cases hok
    obtain ⟨o, h3, h4⟩ := applyProps_spec env hd a ha
    rw [List.nodup_cons] at hn
    obtain ⟨i1, i2, i3⟩ := ih hn.2 hok
    subst h4
    refine ⟨i1, ?_, ?_⟩
    · intro x hx
      rcases List.mem_cons.1 hx with rfl | hx'
      · rw [i3 x hn.1, heap_put_same]; exact h3
      · rw [← i2 x hx', heap_put_ne]
        rintro rfl; exact hn.1 hx'
    · intro x hx
      rw [List.mem_cons, not_or] at hx
      rw [i3 x hx.2, heap_put_ne _ _ hx.1]

/-- The objects visited, in order. -/
def visited (h : Heap K) (incl : Bool) (rs : List Ref) : List Ref :=
  rs.flatMap fun r => r :: if incl then kids h r else []

omit [Field K] [LinearOrder K] [FloorRing K] in
theorem visited_congr {h h' : Heap K} (hg : ∀ x, (h'.cell x).ghosts = (h.cell x).ghosts)
    (incl : Bool) (rs : List Ref) : visited h' incl rs = visited h incl rs := by
  unfold visited kids
  congr 1
  funext x
  rw [hg]

theorem applyProps_ghosts (env : Env K) {ps : Dict K} (hd : ∀ e ∈ ps, e.1 ≠ .dead) {r : Ref}
    {h h' : Heap K} (hok : applyProps env ps r h = (.ok (), h')) (x : Ref) :
    (h'.cell x).ghosts = (h.cell x).ghosts := by
  obtain ⟨o, h1, h2⟩ := applyProps_spec env hd r hok
  rw [h2, heap_put]
  split
  · rename_i e; subst e; exact assign_ghosts env h1
  · rfl

theorem forEach_applyProps_ghosts (env : Env K) {ps : Dict K} (hd : ∀ e ∈ ps, e.1 ≠ .dead)
    {xs : List Ref} {h h' : Heap K}
    (hok : Exec.forEach xs (applyProps env ps) h = (.ok (), h')) (x : Ref) :
    (h'.cell x).ghosts = (h.cell x).ghosts := by
  induction xs generalizing h with
  | nil => injection hok with _ h2; rw [h2]
  | cons a xs ih =>
    have h1 := Exec.run_forEach_cons a xs (applyProps env ps) h
    unfold Exec.run at h1
    rw [h1] at hok
    rcases ha : applyProps env ps a h with ⟨e | u, h2⟩ <;> rw [ha] at hok
    · cases hok
    rw [ih hok, applyProps_ghosts env hd ha]

theorem applyBeam_visit (env : Env K) {ps : Dict K} (hd : ∀ e ∈ ps, e.1 ≠ .dead) (incl : Bool)
    (r : Ref) {h h' : Heap K} (hok : applyBeam env ps incl r h = (.ok (), h')) :
    Exec.forEach (r :: if incl then kids h r else []) (applyProps env ps) h = (.ok (), h') := by
  have h1 := Exec.run_forEach_cons r (if incl then kids h r else []) (applyProps env ps) h
  unfold Exec.run at h1
  rw [h1]
  unfold applyBeam at hok
  simp only [bind] at hok
  rcases ha : applyProps env ps r h with ⟨e | u, h2⟩ <;> rw [ha] at hok
  · cases hok
  dsimp only at hok ⊢
  cases incl with
  | false => exact hok
  | true =>
    simp only [if_true] at hok ⊢
    unfold applyGhosts ghostsOf at hok
    simp only [bind] at hok
    have hk : (h2.cell r).ghosts = (h.cell r).ghosts := applyProps_ghosts env hd ha r
    unfold kids
    rw [← hk]
    rcases hg : (h2.cell r).ghosts with _ | gs <;> rw [hg] at hok
    · cases hok
    · exact hok

theorem forEach_visit (env : Env K) {ps : Dict K} (hd : ∀ e ∈ ps, e.1 ≠ .dead) (incl : Bool)
    (rs : List Ref) {h h' : Heap K}
    (hok : Exec.forEach rs (applyBeam env ps incl) h = (.ok (), h')) :
    Exec.forEach (visited h incl rs) (applyProps env ps) h = (.ok (), h') := by
  induction rs generalizing h with
  | nil => exact hok
  | cons r rs ih =>
    have h1 := Exec.run_forEach_cons r rs (applyBeam env ps incl) h
    unfold Exec.run at h1
    rw [h1] at hok
    rcases ha : applyBeam env ps incl r h with ⟨e | u, h2⟩ <;> rw [ha] at hok
    · cases hok
    have h3 := applyBeam_visit env hd incl r ha
    have h4 := ih hok
    rw [visited_congr (forEach_applyProps_ghosts env hd h3)] at h4
    unfold visited at h4 ⊢
    rw [List.flatMap_cons, forEach_append, h3]
    exact h4

omit [FloorRing K] in
theorem visited_nodup {h : Heap K} (w : WF h) {rs : List Ref} (hn : rs.Nodup)
    (hlt : ∀ r ∈ rs, r < h.size) (incl : Bool)
    (hm : incl = true → ∀ r ∈ rs, (h.cell r).isGhost = false) : (visited h incl rs).Nodup := by
  cases incl with
  | false =>
    have : visited h false rs = rs := by
      unfold visited
      induction rs with
      | nil => rfl
      | cons r rs ih =>
        rw [List.flatMap_cons, ih (List.nodup_cons.1 hn).2
          (fun r hr => hlt r (by simp [hr])) (by simp)]
        rfl
    rwa [this]
  | true =>
    have hk : ∀ r ∈ rs, ∀ x ∈ kids h r, (h.cell x).isGhost = true := by
      intro r hr x hx
      obtain ⟨gs, h1, h2⟩ := mem_kids.1 hx
      exact ((w.ghosts_lt (hlt r hr) h1).2.2.2 x h2).2.1
    unfold visited
    rw [List.nodup_flatMap]
    refine ⟨?_, ?_⟩
    · intro r hr
      simp only [if_true, List.nodup_cons]
      refine ⟨fun hx => ?_, ?_⟩
      · have := hk r hr r hx; rw [hm rfl r hr] at this; cases this
      · obtain ⟨gs, h1, _, h3, _⟩ := w.main r (hlt r hr) (hm rfl r hr)
        unfold kids; rw [h1]; exact h3
    · refine List.Pairwise.imp_of_mem ?_ hn
      intro a b ha hb hab
      simp only [if_true, Function.onFun, List.disjoint_left, List.mem_cons]
      rintro x (rfl | hx) (rfl | hy)
      · exact hab rfl
      · have := hk b hb x hy; rw [hm rfl x ha] at this; cases this
      · have := hk a ha x hx; rw [hm rfl x hb] at this; cases this
      · obtain ⟨gs, h1, h2⟩ := mem_kids.1 hx
        obtain ⟨gs', h3, h4⟩ := mem_kids.1 hy
        exact hab (w.disj a b gs gs' (hlt a ha) (hlt b hb) h1 h3 x h2 h4)

theorem selected_sublist (noB noA : Bool) (l : List Pair) :
    (selected noB noA l).Sublist (slots l) := by
  unfold selected slots
  induction l with
  | nil => simp
  | cons q l ih =>
    rw [List.flatMap_cons, List.flatMap_cons]
    refine List.Sublist.append (List.Sublist.append ?_ ?_) ih <;> split <;> simp

theorem mem_selected {noB noA : Bool} {l : List Pair} {r : Ref} :
    r ∈ selected noB noA l ↔
      ∃ q ∈ l, (noA = false ∧ q.1 = some r) ∨ (noB = false ∧ q.2 = some r) := by
  unfold selected
  rw [List.mem_flatMap]
  refine exists_congr fun q => and_congr_right fun _ => ?_
  rw [List.mem_append]
  cases noA <;> cases noB <;> simp

theorem objSet_plain (env : Env K) (o : Obj K) {k : Key} (hk : k ∉ special) (v : Val K) :
    objSet env o k v = .ok (o.put k v) := by
  unfold objSet
  cases k <;> simp [special] at hk ⊢

/-- All values stored one after another. -/
def putAll (ps : Dict K) (o : Obj K) : Obj K := ps.foldl (fun o e => o.put e.1 e.2) o

theorem assign_plain (env : Env K) {ps : Dict K} (hk : ∀ e ∈ ps, e.1 ∉ special) (o : Obj K) :
    assign env ps o = .ok (putAll ps o) := by
  induction ps generalizing o with
  | nil => rfl
  | cons e ps ih =>
    unfold assign
    rw [objSet_plain env o (hk e (by simp))]
    exact ih (fun e he => hk e (by simp [he])) _

omit [Field K] [LinearOrder K] [FloorRing K] in
theorem putAll_ghosts (ps : Dict K) (o : Obj K) : (putAll ps o).ghosts = o.ghosts := by
  unfold putAll
  induction ps generalizing o with
  | nil => rfl
  | cons e ps ih => rw [List.foldl_cons, ih]; rfl

omit [Field K] [LinearOrder K] [FloorRing K] in
theorem putAll_attr_not {ps : Dict K} {k : Key} (hk : k ∉ ps.map Prod.fst) (o : Obj K) :
    (putAll ps o).attr k = o.attr k := by
  unfold putAll
  induction ps generalizing o with
  | nil => rfl
  | cons e ps ih =>
    rw [List.map_cons, List.mem_cons, not_or] at hk
    rw [List.foldl_cons, ih hk.2, put_attr_ne _ _ hk.1]

omit [Field K] [LinearOrder K] [FloorRing K] in
theorem putAll_attr_mem {ps : Dict K} (hn : (ps.map Prod.fst).Nodup) {k : Key} {v : Val K}
    (hm : (k, v) ∈ ps) (o : Obj K) : (putAll ps o).attr k = some v := by
  induction ps generalizing o with
  | nil => simp at hm
  | cons e ps ih =>
    rw [List.map_cons, List.nodup_cons] at hn
    rcases List.mem_cons.1 hm with h | h
    · subst h
      have := putAll_attr_not hn.1 (o.put k v)
      unfold putAll at this ⊢
      rw [List.foldl_cons, this]
      simp
    · exact ih hn.2 h (o.put e.1 e.2)

theorem applyProps_plain (env : Env K) {ps : Dict K} (hk : ∀ e ∈ ps, e.1 ∉ special) (r : Ref)
    (h : Heap K) : ∃ h', applyProps env ps r h = (.ok (), h') := by
  unfold applyProps
  induction ps generalizing h with
  | nil => exact ⟨h, rfl⟩
  | cons e ps ih =>
    have h1 := Exec.run_forEach_cons e ps (fun e => setattr env r e.1 e.2) h
    unfold Exec.run at h1
    rw [h1]
    have he := hk e (by simp)
    have hd : e.1 ≠ .dead := by intro h; rw [h] at he; simp [special] at he
    unfold setattr
    rw [if_neg hd]
    unfold setPlain
    rw [objSet_plain env _ he]
    exact ih (fun e he => hk e (by simp [he])) _

theorem forEach_applyProps_plain (env : Env K) {ps : Dict K} (hk : ∀ e ∈ ps, e.1 ∉ special)
    (xs : List Ref) (h : Heap K) : ∃ h', Exec.forEach xs (applyProps env ps) h = (.ok (), h') := by
  induction xs generalizing h with
  | nil => exact ⟨h, rfl⟩
  | cons a xs ih =>
    have h1 := Exec.run_forEach_cons a xs (applyProps env ps) h
    unfold Exec.run at h1
    rw [h1]
    obtain ⟨h', h2⟩ := applyProps_plain env hk a h
    rw [h2]
    exact ih h'

theorem special_dead {ps : Dict K} (hk : ∀ e ∈ ps, e.1 ∉ special) : ∀ e ∈ ps, e.1 ≠ .dead := by
  intro e he h
  have := hk e he
  rw [h] at this; simp [special] at this

theorem forEach_applyBeam_plain (env : Env K) {ps : Dict K} (hk : ∀ e ∈ ps, e.1 ∉ special)
    (incl : Bool) (rs : List Ref) (h : Heap K)
    (hm : incl = true → ∀ r ∈ rs, (h.cell r).ghosts.isSome) :
    ∃ h', Exec.forEach rs (applyBeam env ps incl) h = (.ok (), h') := by
  have hd := special_dead hk
  induction rs generalizing h with
  | nil => exact ⟨h, rfl⟩
  | cons r rs ih =>
    have h1 := Exec.run_forEach_cons r rs (applyBeam env ps incl) h
    unfold Exec.run at h1
    rw [h1]
    have hb : ∃ h', applyBeam env ps incl r h = (.ok (), h') ∧
        ∀ x, (h'.cell x).ghosts = (h.cell x).ghosts := by
      obtain ⟨h2, h3⟩ := applyProps_plain env hk r h
      have hg2 := applyProps_ghosts env hd h3
      unfold applyBeam
      simp only [bind, h3]
      cases incl with
      | false => exact ⟨h2, rfl, hg2⟩
      | true =>
        simp only [if_true]
        unfold applyGhosts ghostsOf
        simp only [bind]
        obtain ⟨gs, hgs⟩ := Option.isSome_iff_exists.1 (hm rfl r (by simp))
        rw [hg2, hgs]
        dsimp only
        obtain ⟨h4, h5⟩ := forEach_applyProps_plain env hk gs h2
        exact ⟨h4, h5, fun x => by
          rw [forEach_applyProps_ghosts env hd h5 x, hg2]⟩
    obtain ⟨h2, h3, h4⟩ := hb
    rw [h3]
    exact ih h2 fun hi x hx => by rw [h4]; exact hm hi x (by simp [hx])

/-- Assigning `dead`: the ghosts get the flag whether or not they are included. -/
theorem forEach_applyBeam_dead (env : Env K) (v : Val K) (incl : Bool) (rs : List Ref)
    {h : Heap K} (w : WF h) (hlt : ∀ r ∈ rs, r < h.size)
    (hm : incl = true → ∀ r ∈ rs, (h.cell r).isGhost = false) :
    ∃ l, Exec.forEach rs (applyBeam env [(.dead, v)] incl) h = (.ok (), markAll v l h) ∧
      ∀ x, x ∈ l ↔ ∃ r ∈ rs, x = r ∨ x ∈ kids h r := by
  induction rs generalizing h with
  | nil => exact ⟨[], by simp [Exec.forEach, markAll]; rfl, by simp⟩
  | cons r rs ih =>
    have h1 := Exec.run_forEach_cons r rs (applyBeam env [(.dead, v)] incl) h
    unfold Exec.run at h1
    rw [h1]
    have hap : ∀ (r : Ref) (h : Heap K), WF h → r < h.size →
        applyProps env [(.dead, v)] r h = (.ok (), markAll v (r :: kids h r) h) := by
      intro r h w hr
      have h1 := Exec.run_forEach_cons ((.dead, v) : Key × Val K) []
        (fun e => setattr env r e.1 e.2) h
      unfold Exec.run at h1
      unfold applyProps
      rw [h1]
      unfold setattr
      rw [if_pos rfl, setDead_wf w v hr]
      rfl
    have hfe : ∀ (xs : List Ref) (h : Heap K), WF h → (∀ x ∈ xs, x < h.size ∧ kids h x = []) →
        Exec.forEach xs (applyProps env [(.dead, v)]) h = (.ok (), markAll v xs h) := by
      intro xs
      induction xs with
      | nil => intro h _ _; simp [Exec.forEach, markAll]; rfl
      | cons x xs ihx =>
        intro h w hx
        have h1 := Exec.run_forEach_cons x xs (applyProps env [(.dead, v)]) h
        unfold Exec.run at h1
        rw [h1, hap x h w (hx x (by simp)).1, (hx x (by simp)).2]
        dsimp only
        have m := markAll_mild v [x] h
        rw [ihx _ (w.mild m) fun y hy => by
          rw [m.size, kids_mild m]; exact hx y (by simp [hy])]
        rw [markAll_markAll]; rfl
    have hb : applyBeam env [(.dead, v)] incl r h = (.ok (), markAll v (r :: kids h r) h) := by
      unfold applyBeam
      simp only [bind, hap r h w (hlt r (by simp))]
      cases incl with
      | false => rfl
      | true =>
        simp only [if_true]
        obtain ⟨gs, g1, _, _, g4⟩ := w.main r (hlt r (by simp)) (hm rfl r (by simp))
        have m := markAll_mild v (r :: kids h r) h
        unfold applyGhosts ghostsOf
        simp only [bind]
        rw [m.ghosts, g1]
        dsimp only
        have hk : kids h r = gs := by unfold kids; rw [g1]; rfl
        rw [hfe gs _ (w.mild m) fun x hx => ?_]
        · rw [markAll_markAll, hk]
          congr 1
          refine heap_ext rfl fun x => ?_
          simp [markAll]
        · refine ⟨by rw [m.size]; exact (g4 x hx).1, ?_⟩
          rw [kids_mild m]
          unfold kids
          rw [(w.ghost x (g4 x hx).1 (g4 x hx).2).1]; rfl
    rw [hb]
    dsimp only
    have m := markAll_mild v (r :: kids h r) h
    obtain ⟨l, hl1, hl2⟩ := ih (w.mild m) (fun x hx => by rw [m.size]; exact hlt x (by simp [hx]))
      fun hi x hx => by rw [isGhost_congr (m.ghost x)]; exact hm hi x (by simp [hx])
    refine ⟨(r :: kids h r) ++ l, ?_, ?_⟩
    · rw [hl1, markAll_markAll]
    · intro x
      rw [List.mem_append, hl2]
      simp only [List.mem_cons, kids_mild m, exists_eq_or_imp]

/-! ### ghosts of all detectors -/

/-- The attributes a ghost takes from the options or else from its parent. -/
def handedOn : List Key :=
  [.az, .el, .polang, .pol, .btype, .dead, .amplitude, .poFile, .egFile, .crossPol, .deconvQ,
   .normalize, .polangError]

/-- The effect of a successful `create_ghost` on all objects. -/
structure Born (h h' : Heap K) (r : Ref) (kw : Dict K) : Prop where
  wf : WF h'
  size : h'.size = h.size + 1
  old : ∀ x < h.size, ∀ k, k ≠ .ghostCount → (h'.cell x).attr k = (h.cell x).attr k
  lists : ∀ x < h.size, (h'.cell x).ghosts =
    if x = r then some (kids h r ++ [h.size]) else (h.cell x).ghosts
  ghost : (h'.cell h.size).isGhost = true
  attr : ∀ k ∈ handedOn, (h'.cell h.size).attr k = (Dict.get? kw k).or ((h.cell r).attr k)

theorem createGhost_born (env : Env K) {h h' : Heap K} (w : WF h) {r : Ref} (hr : r < h.size)
    (tag : Option String) (kw : Dict K) (hok : createGhost env r tag kw h = (.ok (), h')) :
    Born h h' r kw ∧ (h.cell r).isGhost = false := by
  rcases hi : (h.cell r).isGhost with _ | _
  swap
  · have := createGhost_ghost env hi tag kw
    unfold Exec.run at this
    rw [this] at hok; cases hok
  obtain ⟨gs, g1, g2, g3, g4⟩ := w.main r hr hi
  have hcm := createGhost_main env hi g1 g2 tag kw
  unfold Exec.run at hcm
  rw [hcm] at hok
  rcases hm : makeGhost env (h.cell r) tag kw with e | g <;> rw [hm] at hok
  · cases hok
  dsimp only at hok
  injection hok with _ hh
  have hgh := makeGhost_isGhost env hm
  obtain ⟨pn, nm, opts, _, _, ho, hin⟩ := makeGhost_init env hm
  obtain ⟨i1, i2, i3, i4, _, _⟩ := init_spec env hin
  have hnew : h'.cell h.size = g.put .ghostIdx (.int gs.length) := by
    rw [← hh]; exact alloc_new (h.put r _) _
  have hold : ∀ x < h.size, h'.cell x = if x = r then
      { (h.cell r).put .ghostCount (.int (gs.length + 1)) with ghosts := some (gs ++ [h.size]) }
      else h.cell x := by
    intro x hx
    rw [← hh, alloc_old _ _ (by exact hx), heap_put]
  refine ⟨⟨?_, ?_, ?_, ?_, ?_, ?_⟩, rfl⟩
  · rw [← hh]
    refine w.addGhost hr hi g1 ?_ ?_ ?_ ?_
    · rw [put_isGhost _ _ (by simp)]; exact hgh
    · exact (i4 hgh).1
    · rw [put_attr_ne (k := .ghostIdx) (k' := .ghostCount) _ _ (by simp)]; exact (i4 hgh).2
    · intro k hk
      rw [put_attr]; split
      · rfl
      · exact i2 k hk
  · rw [← hh]; rfl
  · intro x hx k hk
    rw [hold x hx]
    split
    · rename_i e; subst e
      exact put_attr_ne (h.cell x) (k := .ghostCount) (k' := k) (.int (gs.length + 1)) hk
    · rfl
  · intro x hx
    rw [hold x hx]
    unfold kids
    rw [g1]
    split <;> rfl
  · rw [hnew, put_isGhost _ _ (by simp)]; exact hgh
  · intro k hk
    have hne : k ≠ .ghostIdx := by rintro rfl; simp [handedOn] at hk
    have hpl : k ∈ plainKeys := by
      simp only [handedOn, List.mem_cons, List.not_mem_nil, or_false] at hk
      rcases hk with rfl | rfl | rfl | rfl | rfl | rfl | rfl | rfl | rfl | rfl | rfl | rfl | rfl <;>
        simp [plainKeys]
    have hin' : k ∈ inheritedKeys := by
      simp only [handedOn, List.mem_cons, List.not_mem_nil, or_false] at hk
      rcases hk with rfl | rfl | rfl | rfl | rfl | rfl | rfl | rfl | rfl | rfl | rfl | rfl | rfl <;>
        simp [inheritedKeys]
    have hs : ((h.cell r).attr k).isSome := w.keys r hr k (by simp [beamKeys, hpl])
    rw [hnew, put_attr_ne _ _ hne, i1 k hpl]
    exact ghost_arg kw ho k hin' hs

omit [FloorRing K] in
theorem perturb_ok {rng : Nat → K} {stdev : K} {kw kw' : Dict K} {p p' : Plane K}
    (h : perturb rng stdev kw p = (.ok kw', p')) :
    (stdev = 0 ∧ kw' = kw ∧ p' = p) ∨ (stdev ≠ 0 ∧ ∃ a,
      (popArg kw .amplitude (.num 1)).add (.num (stdev * rng p.draws)) = .ok a ∧
      kw' = (.amplitude, a) :: kw ∧ p' = { p with draws := p.draws + 1 }) := by
  unfold perturb at h
  split at h
  · rename_i h0
    injection h with h1 h2
    exact .inl ⟨h0, (Except.ok.inj h1).symm, h2.symm⟩
  · rename_i h0
    split at h
    · injection h with h1 h2; cases h1
    · rename_i a ha
      injection h with h1 h2
      exact .inr ⟨h0, a, ha, (Except.ok.inj h1).symm, h2.symm⟩

/-- One item of the loops creating ghosts: options, perturbation, creation. -/
structure Item (rng : Nat → K) (stdev : K) (p p' : Plane K) (r : Ref) (kw1 kw' : Dict K) :
    Prop where
  born : Born p.heap p'.heap r kw'
  beams : p'.beams = p.beams
  ndet : p'.ndet = p.ndet
  same : ∀ k, k ≠ .amplitude → Dict.get? kw' k = Dict.get? kw1 k
  zero : stdev = 0 → kw' = kw1 ∧ p'.draws = p.draws
  rand : stdev ≠ 0 → p'.draws = p.draws + 1 ∧ ∃ a,
    (popArg kw1 .amplitude (.num 1)).add (.num (stdev * rng p.draws)) = .ok a ∧
    Dict.get? kw' .amplitude = some a

theorem item_of (env : Env K) {rng : Nat → K} {stdev : K} {tag : Option String}
    {kw1 kw' : Dict K} {r : Ref} {p p1 p' : Plane K} (w : WF p.heap) (hr : r < p.heap.size)
    (h1 : perturb rng stdev kw1 p = (.ok kw', p1))
    (h2 : onHeap (createGhost env r tag kw') p1 = (.ok (), p')) :
    Item rng stdev p p' r kw1 kw' := by
  have hp1 : p1.heap = p.heap ∧ p1.beams = p.beams ∧ p1.ndet = p.ndet := by
    rcases perturb_ok h1 with ⟨_, _, rfl⟩ | ⟨_, _, _, _, rfl⟩ <;> simp
  unfold onHeap at h2
  rw [hp1.1] at h2
  rcases hc : createGhost env r tag kw' p.heap with ⟨e | u, hh⟩ <;> rw [hc] at h2
  · cases h2
  dsimp only at h2
  injection h2 with _ h2
  have hb := (createGhost_born env w hr tag kw' hc).1
  refine ⟨by rw [← h2]; exact hb, by rw [← h2]; exact hp1.2.1, by rw [← h2]; exact hp1.2.2,
    ?_, ?_, ?_⟩
  · intro k hk
    rcases perturb_ok h1 with ⟨_, rfl, _⟩ | ⟨_, _, _, rfl, _⟩
    · rfl
    · simp only [Dict.get?, List.lookup]
      split
      · rename_i he; simp at he; exact absurd he hk
      · rfl
  · intro h0
    rcases perturb_ok h1 with ⟨_, e, e'⟩ | ⟨h, _⟩
    · exact ⟨e, by rw [← h2, e']⟩
    · exact absurd h0 h
  · intro h0
    rcases perturb_ok h1 with ⟨h, _⟩ | ⟨_, a, ha, e, e'⟩
    · exact absurd h h0
    · exact ⟨by rw [← h2, e'], a, ha, by rw [e]; rfl⟩

/-- The state after some ghosts were added, compared with the state before. -/
structure Brood (p p' : Plane K) (n : Nat) : Prop where
  wf : WF p'.heap
  size : p'.heap.size = p.heap.size + n
  beams : p'.beams = p.beams
  ndet : p'.ndet = p.ndet
  old : ∀ x < p.heap.size, ∀ k, k ≠ .ghostCount →
    (p'.heap.cell x).attr k = (p.heap.cell x).attr k
  kids : ∀ x < p.heap.size, kids p.heap x ⊆ kids p'.heap x

omit [FloorRing K] in
theorem Brood.refl {p : Plane K} (w : WF p.heap) : Brood p p 0 :=
  ⟨w, rfl, rfl, rfl, fun _ _ _ _ => rfl, fun _ _ => List.Subset.refl _⟩

omit [FloorRing K] in
theorem Item.brood {rng : Nat → K} {stdev : K} {p p' : Plane K} {r : Ref} {kw1 kw' : Dict K}
    (w : WF p.heap) (i : Item rng stdev p p' r kw1 kw') : 
    (∀ x < p.heap.size, kids p.heap x ⊆ kids p'.heap x) ∧
      (r < p.heap.size → p.heap.size ∈ kids p'.heap r) := by
  refine ⟨fun x hx => ?_, fun hr => ?_⟩
  · have := i.born.lists x hx
    unfold kids
    rw [this]
    split
    · rename_i e; subst e
      intro y hy
      simp only [Option.getD_some, List.mem_append]
      exact .inl hy
    · exact List.Subset.refl _
  · have := i.born.lists r hr
    unfold kids
    rw [this, if_pos rfl]
    simp

/-- How the options for a ghost follow from the parent and the options so far. -/
abbrev Maker (K : Type) := Obj K → Dict K → PyM (Dict K)

/-- The common form of the two loops creating ghosts. -/
def broodLoop (env : Env K) (rng : Nat → K) (stdev : K) (tag : Option String) :
    List (Ref × Maker K) → Dict K → Exec (Plane K) Unit
  | [], _ => fun p => (.ok (), p)
  | (r, f) :: l, kw => fun p => match f (p.heap.cell r) kw with
    | .error e => (.error e, p)
    | .ok kw1 => match perturb rng stdev kw1 p with
      | (.error e, p) => (.error e, p)
      | (.ok kw', p) => match onHeap (createGhost env r tag kw') p with
        | (.error e, p) => (.error e, p)
        | (.ok _, p) => broodLoop env rng stdev tag l kw' p

theorem reflectLoop_eq (env : Env K) (rng : Nat → K) (stdev : K) (tag : Option String)
    (rs : List Ref) (kw : Dict K) (p : Plane K) :
    reflectLoop env rng stdev tag rs kw p =
      broodLoop env rng stdev tag (rs.map fun r => (r, reflectOpts)) kw p := by
  induction rs generalizing kw p with
  | nil => rfl
  | cons r rs ih =>
    unfold reflectLoop reflectOne
    rw [List.map_cons]
    unfold broodLoop
    rcases reflectOpts (p.heap.cell r) kw with e | kw1
    · rfl
    dsimp only
    rcases perturb rng stdev kw1 p with ⟨e | kw2, p1⟩
    · rfl
    dsimp only
    rcases onHeap (createGhost env r tag kw2) p1 with ⟨e | u, p2⟩
    · rfl
    exact ih kw2 p2

theorem crosstalkLoop_eq (env : Env K) (rng : Nat → K) (stdev : K) (tag : Option String)
    (l : List (Ref × Val K × Val K)) (kw : Dict K) (p : Plane K) :
    crosstalkLoop env rng stdev tag (l.map fun t => (some t.1, t.2.1, t.2.2)) kw p =
      broodLoop env rng stdev tag (l.map fun t => (t.1, fun o => crosstalkOpts o t.2.1 t.2.2))
        kw p := by
  induction l generalizing kw p with
  | nil => rfl
  | cons t l ih =>
    obtain ⟨r, a, e⟩ := t
    rw [List.map_cons, List.map_cons]
    unfold crosstalkLoop crosstalkOne broodLoop
    dsimp only
    rcases crosstalkOpts (p.heap.cell r) a e kw with e | kw1
    · rfl
    dsimp only
    rcases perturb rng stdev kw1 p with ⟨e | kw2, p1⟩
    · rfl
    dsimp only
    rcases onHeap (createGhost env r tag kw2) p1 with ⟨e | u, p2⟩
    · rfl
    exact ih kw2 p2

omit [Field K] [LinearOrder K] [FloorRing K] in
theorem crosstalkItems_full {l : List Pair} (hf : Full l) {azs els : List (Row K)}
    (ha : azs.length = l.length) (he : els.length = l.length) :
    crosstalkItems l azs els = ((slots l).zip ((flatRows azs).zip (flatRows els))).map
      fun t => (some t.1, t.2.1, t.2.2) := by
  induction l generalizing azs els with
  | nil => rfl
  | cons q l ih =>
    rcases azs with _ | ⟨a, azs⟩
    · simp at ha
    rcases els with _ | ⟨e, els⟩
    · simp at he
    have h := hf q (by simp)
    obtain ⟨x, y⟩ := q
    rcases x with _ | x
    · simp at h
    rcases y with _ | y
    · simp at h
    unfold crosstalkItems
    rw [ih (fun q hq => hf q (by simp [hq])) (by simpa using ha) (by simpa using he)]
    rfl

/-- What is known of the ghost made for one item. -/
structure Ghostling (rng : Nat → K) (stdev : K) (p p' : Plane K) (kw : Dict K) (n : Nat) (r : Ref)
    (f : Maker K) : Prop where
  mem : p.heap.size + n ∈ kids p'.heap r
  ghost : (p'.heap.cell (p.heap.size + n)).isGhost = true
  attr : ∃ o kwn kw1, f o kwn = .ok kw1 ∧
    (∀ k, k ≠ .ghostCount → o.attr k = (p.heap.cell r).attr k) ∧
    ∀ k ∈ handedOn, k ≠ .amplitude → (p'.heap.cell (p.heap.size + n)).attr k =
      (Dict.get? kw1 k).or ((p.heap.cell r).attr k)
  zero : stdev = 0 → (p'.heap.cell (p.heap.size + n)).attr .amplitude =
    (Dict.get? kw .amplitude).or ((p.heap.cell r).attr .amplitude)
  rand : stdev ≠ 0 → ∀ b, popArg kw .amplitude (.num 1) = .num b →
    (p'.heap.cell (p.heap.size + n)).attr .amplitude =
      some (.num (b + ∑ j ∈ Finset.range (n + 1), stdev * rng (p.draws + j)))

theorem broodLoop_spec (env : Env K) (rng : Nat → K) (stdev : K) (tag : Option String)
    (l : List (Ref × Maker K)) (kw : Dict K)
    (hf : ∀ t ∈ l, ∀ o kw kw1, t.2 o kw = .ok kw1 →
      Dict.get? kw1 .amplitude = Dict.get? kw .amplitude) {p p' : Plane K} (w : WF p.heap)
    (hlt : ∀ t ∈ l, t.1 < p.heap.size)
    (hok : broodLoop env rng stdev tag l kw p = (.ok (), p')) :
    Brood p p' l.length ∧ ∀ n r f, l[n]? = some (r, f) → Ghostling rng stdev p p' kw n r f := by
  induction l generalizing kw p with
  | nil => injection hok with _ h; subst h; exact ⟨Brood.refl w, by simp⟩
  | cons t l ih =>
    obtain ⟨r, f⟩ := t
    unfold broodLoop at hok
    rcases h1 : f (p.heap.cell r) kw with e | kw1 <;> rw [h1] at hok
    · cases hok
    dsimp only at hok
    rcases h2 : perturb rng stdev kw1 p with ⟨e | kw2, p1⟩ <;> rw [h2] at hok
    · cases hok
    dsimp only at hok
    rcases h3 : onHeap (createGhost env r tag kw2) p1 with ⟨e | u, p2⟩ <;> rw [h3] at hok
    · cases hok
    dsimp only at hok
    have hr : r < p.heap.size := hlt (r, f) (by simp)
    have it := item_of env w hr h2 h3
    obtain ⟨k1, k2⟩ := it.brood w
    have hsz := it.born.size
    obtain ⟨b, hg⟩ := ih kw2 (fun t ht => hf t (by simp [ht])) it.born.wf
      (fun t ht => by rw [hsz]; exact Nat.lt_succ_of_lt (hlt t (by simp [ht]))) hok
    have hamp := hf (r, f) (by simp) _ _ _ h1
    have hks : ∀ x < p.heap.size, kids p.heap x ⊆ kids p'.heap x := fun x hx =>
      List.Subset.trans (k1 x hx) (b.kids x (by rw [hsz]; exact Nat.lt_succ_of_lt hx))
    refine ⟨⟨b.wf, ?_, b.beams.trans it.beams, b.ndet.trans it.ndet, ?_, hks⟩, ?_⟩
    · rw [b.size, hsz, List.length_cons]; omega
    · intro x hx k hk
      rw [b.old x (by rw [hsz]; exact Nat.lt_succ_of_lt hx) k hk]
      exact it.born.old x hx k hk
    · intro n r' f' hn
      cases n with
      | zero =>
        rw [List.getElem?_cons_zero] at hn
        have hn := Option.some.inj hn
        injection hn with e1 e2
        subst e1; subst e2
        have hlt' : p.heap.size < p2.heap.size := by rw [hsz]; exact Nat.lt_succ_self _
        have hcell : ∀ k, k ≠ .ghostCount → (p'.heap.cell (p.heap.size + 0)).attr k =
            (p2.heap.cell p.heap.size).attr k := fun k hk => b.old _ hlt' k hk
        refine ⟨?_, ?_, ?_, ?_, ?_⟩
        · exact b.kids r (by rw [hsz]; exact Nat.lt_succ_of_lt hr) (k2 hr)
        · rw [isGhost_congr (hcell .ghost (by simp))]; exact it.born.ghost
        · refine ⟨p.heap.cell r, kw, kw1, h1, fun _ _ => rfl, ?_⟩
          intro k hk ha
          rw [hcell k (by rintro rfl; simp [handedOn] at hk), it.born.attr k hk, it.same k ha]
        · intro h0
          rw [hcell .amplitude (by simp), it.born.attr .amplitude (by simp [handedOn]),
            (it.zero h0).1, hamp]
        · intro h0 c hc
          obtain ⟨_, a, ha, ha'⟩ := it.rand h0
          rw [hcell .amplitude (by simp), it.born.attr .amplitude (by simp [handedOn]), ha']
          have : popArg kw1 .amplitude (.num 1) = .num c := by
            unfold popArg at hc ⊢; rw [hamp]; exact hc
          rw [this] at ha
          have ha := Except.ok.inj ha
          rw [← ha]
          simp
      | succ n =>
        rw [List.getElem?_cons_succ] at hn
        have g := hg n r' f' hn
        have hr' : r' < p.heap.size := hlt (r', f') (by
          rw [List.mem_cons]; exact .inr (List.mem_of_getElem? hn))
        have hidx : p2.heap.size + n = p.heap.size + (n + 1) := by rw [hsz]; omega
        have hcell : ∀ k, k ≠ .ghostCount →
            (p2.heap.cell r').attr k = (p.heap.cell r').attr k :=
          fun k hk => it.born.old r' hr' k hk
        refine ⟨?_, ?_, ?_, ?_, ?_⟩
        · rw [← hidx]; exact g.mem
        · rw [← hidx]; exact g.ghost
        · obtain ⟨o, kwn, kw1', a1, a2, a3⟩ := g.attr
          refine ⟨o, kwn, kw1', a1, fun k hk => (a2 k hk).trans (hcell k hk), ?_⟩
          intro k hk ha
          rw [← hidx, a3 k hk ha, hcell k (by rintro rfl; simp [handedOn] at hk)]
        · intro h0
          rw [← hidx, g.zero h0, (it.zero h0).1, hamp, hcell .amplitude (by simp)]
        · intro h0 c hc
          obtain ⟨hd, a, ha, ha'⟩ := it.rand h0
          have : popArg kw1 .amplitude (.num 1) = .num c := by
            unfold popArg at hc ⊢; rw [hamp]; exact hc
          rw [this] at ha
          have ha := Except.ok.inj ha
          have hp2 : popArg kw2 .amplitude (.num 1) = .num (c + stdev * rng p.draws) := by
            unfold popArg; rw [ha', ← ha]
          rw [← hidx, g.rand h0 _ hp2, hd, Finset.sum_range_succ' _ (n + 1)]
          congr 2
          have : ∀ j, rng (p.draws + 1 + j) = rng (p.draws + (j + 1)) := by
            intro j; congr 1; omega
          simp only [this, Nat.add_zero]
          ring

/-! ### adding to an attribute -/

theorem addBeam_plain (env : Env K) {k : Key} (hk : k ∉ special) (hb : k ≠ .blm) (v : Val K)
    (r : Ref) {h h' : Heap K} (hok : addBeam env k v false r h = (.ok (), h')) :
    ∃ w, (((h.cell r).attr k).getD (.int 0)).add v = .ok w ∧ h' = h.put r ((h.cell r).put k w) := by
  have hd : k ≠ .dead := by rintro rfl; simp [special] at hk
  have hp : k ≠ .polangTruth := by rintro rfl; simp [special] at hk
  have hg : getattrOrZero env r k h = (.ok (((h.cell r).attr k).getD (.int 0)), h) := by
    unfold getattrOrZero getattr
    rw [if_neg hb, if_neg hp]
    unfold getPlain Obj.read
    rcases (h.cell r).attr k with _ | v0 <;> rfl
  unfold addBeam addMain at hok
  simp only [bind, hg] at hok
  unfold Exec.lift at hok
  rcases ha : (((h.cell r).attr k).getD (.int 0)).add v with e | w <;> rw [ha] at hok
  · cases hok
  dsimp only at hok
  unfold setattr at hok
  rw [if_neg hd] at hok
  unfold setPlain at hok
  rw [objSet_plain env _ hk] at hok
  injection hok with _ h2
  exact ⟨w, rfl, h2.symm⟩

theorem addSlot_spec (env : Env K) (rng : Nat → K) {k : Key} (hk : k ∉ special) (hb : k ≠ .blm)
    (v : Val K) (stdev : K) (perPair skip : Bool) (zi : Nat) (r : Option Ref) {p p' : Plane K}
    (hok : addSlot env rng k v false stdev perPair skip (rng zi) r p = (.ok (), p')) :
    p'.beams = p.beams ∧ p'.ndet = p.ndet ∧ p.draws ≤ p'.draws ∧
    p'.heap.size = p.heap.size ∧
    (∀ x, ¬ (skip = false ∧ r = some x) → p'.heap.cell x = p.heap.cell x) ∧
    ∀ x, skip = false → r = some x →
      (perPair = true → Added rng k v stdev zi (p.heap.cell x) (p'.heap.cell x)) ∧
      (perPair = false → Added rng k v stdev p.draws (p.heap.cell x) (p'.heap.cell x) ∧
        (stdev ≠ 0 → p.draws < p'.draws)) := by
  unfold addSlot at hok
  cases skip with
  | true =>
    injection hok with _ h; subst h
    exact ⟨rfl, rfl, Nat.le_refl _, rfl, fun _ _ => rfl, fun _ h => by cases h⟩
  | false =>
    simp only [Bool.false_eq_true, if_false] at hok
    rcases r with _ | r
    · injection hok with _ h; subst h
      refine ⟨?_, ?_, ?_, ?_, ?_, fun _ _ h => by cases h⟩
      · split <;> rfl
      · split <;> rfl
      · split <;> simp
      · split <;> rfl
      · intro x _; split <;> rfl
    · dsimp only at hok
      have hp0 : ∀ q : Plane K, q = (if stdev = 0 ∨ perPair = true then p
          else { p with draws := p.draws + 1 }) → q.heap = p.heap ∧ q.beams = p.beams ∧
          q.ndet = p.ndet ∧ p.draws ≤ q.draws ∧
          (stdev ≠ 0 → perPair = false → p.draws < q.draws) := by
        intro q hq; subst hq
        split
        · rename_i h; exact ⟨rfl, rfl, rfl, Nat.le_refl _, fun a b => by
            rcases h with h | h
            · exact absurd h a
            · rw [b] at h; cases h⟩
        · exact ⟨rfl, rfl, rfl, Nat.le_succ _, fun _ _ => Nat.lt_succ_self _⟩
      generalize hq : (if stdev = 0 ∨ perPair = true then p
          else { p with draws := p.draws + 1 }) = q at hok
      obtain ⟨q1, q2, q3, q4, q5⟩ := hp0 q hq.symm
      rcases hj : jitter stdev (if perPair = true then rng zi else rng p.draws) v with e | dv <;>
        rw [hj] at hok
      · cases hok
      dsimp only at hok
      unfold onHeap at hok
      rw [q1] at hok
      rcases ha : addBeam env k dv false r p.heap with ⟨e | u, h'⟩ <;> rw [ha] at hok
      · cases hok
      injection hok with _ h
      obtain ⟨w, w1, w2⟩ := addBeam_plain env hk hb dv r ha
      subst h
      refine ⟨q2, q3, q4, by rw [w2]; rfl, ?_, ?_⟩
      · intro x hx
        dsimp only
        rw [w2, heap_put_ne]
        rintro rfl; exact hx ⟨rfl, rfl⟩
      · intro x _ hx
        have hx := Option.some.inj hx
        subst hx
        have hadd : ∀ d, jitter stdev (rng d) v = .ok dv →
            Added rng k v stdev d (p.heap.cell r) (h'.cell r) := fun d hd =>
          ⟨dv, w, by
            unfold jitter at hd
            split at hd
            · rw [if_pos ‹_›]; exact (Except.ok.inj hd).symm
            · rw [if_neg ‹_›]; exact hd, w1, by rw [w2, heap_put_same]⟩
        refine ⟨?_, ?_⟩
        · intro hpp; subst hpp
          exact hadd zi (by simpa using hj)
        · intro hpp; subst hpp
          exact ⟨hadd p.draws (by simpa using hj), fun h0 => q5 h0 rfl⟩

theorem forEach_addPair (env : Env K) (rng : Nat → K) {k : Key} (hk : k ∉ special)
    (hb : k ≠ .blm) (v : Val K) (stdev : K) (perPair noB noA : Bool) (l : List Pair)
    (hn : (slots l).Nodup) {p p' : Plane K}
    (hok : Exec.forEach l (addPair env rng k v false stdev perPair noB noA) p = (.ok (), p')) :
    p'.beams = p.beams ∧ p'.ndet = p.ndet ∧ p.draws ≤ p'.draws ∧ p'.heap.size = p.heap.size ∧
    (∀ x, x ∉ selected noB noA l → p'.heap.cell x = p.heap.cell x) ∧
    ∃ d : Ref → Nat,
      (∀ x ∈ selected noB noA l, Added rng k v stdev (d x) (p.heap.cell x) (p'.heap.cell x)) ∧
      (perPair = true → ∀ a b, (some a, some b) ∈ l → d a = d b) ∧
      (stdev ≠ 0 → ∀ x ∈ selected noB noA l, p.draws ≤ d x ∧ d x < p'.draws) ∧
      (stdev ≠ 0 → perPair = false → ∀ x ∈ selected noB noA l, ∀ y ∈ selected noB noA l,
        d x = d y → x = y) := by
  induction l generalizing p with
  | nil =>
    injection hok with _ h; subst h
    exact ⟨rfl, rfl, Nat.le_refl _, rfl, fun _ _ => rfl, fun _ => 0, by simp [selected]⟩
  | cons q l ih =>
    have h1 := Exec.run_forEach_cons q l (addPair env rng k v false stdev perPair noB noA) p
    unfold Exec.run at h1
    rw [h1] at hok
    rcases hq : addPair env rng k v false stdev perPair noB noA q p with ⟨e | u, p3⟩ <;>
      rw [hq] at hok
    · cases hok
    dsimp only at hok
    unfold addPair at hq
    dsimp only at hq
    generalize hp1 : (if stdev ≠ 0 ∧ perPair = true then { p with draws := p.draws + 1 } else p)
      = p1 at hq
    have f1 : p1.heap = p.heap ∧ p1.beams = p.beams ∧ p1.ndet = p.ndet ∧ p.draws ≤ p1.draws ∧
        (stdev ≠ 0 → perPair = true → p.draws < p1.draws) := by
      subst hp1; split
      · exact ⟨rfl, rfl, rfl, Nat.le_succ _, fun _ _ => Nat.lt_succ_self _⟩
      · rename_i h; exact ⟨rfl, rfl, rfl, Nat.le_refl _, fun a b => absurd ⟨a, b⟩ h⟩
    rcases hs1 : addSlot env rng k v false stdev perPair noA (rng p.draws) q.1 p1
      with ⟨e | u', p2⟩ <;> rw [hs1] at hq
    · cases hq
    dsimp only at hq
    obtain ⟨a1, a2, a3, a4, a5, a6⟩ := addSlot_spec env rng hk hb v stdev perPair noA p.draws q.1 hs1
    obtain ⟨b1, b2, b3, b4, b5, b6⟩ := addSlot_spec env rng hk hb v stdev perPair noB p.draws q.2 hq
    have hsl : slots (q :: l) = (q.1.toList ++ q.2.toList) ++ slots l := by simp [slots]
    have hse : selected noB noA (q :: l) = ((if noA then [] else q.1.toList) ++
        (if noB then [] else q.2.toList)) ++ selected noB noA l := by simp [selected]
    rw [hsl, List.nodup_append'] at hn
    obtain ⟨n1, n2, n3⟩ := hn
    rw [List.nodup_append'] at n1
    obtain ⟨c1, c2, c3, c4, c5, d, d1, d2, d3, d4⟩ := ih n2 hok
    have hle1 : p.draws ≤ p2.draws := Nat.le_trans f1.2.2.2.1 a3
    have hle : p.draws ≤ p3.draws := Nat.le_trans hle1 b3
    -- membership
    have hmem : ∀ x, x ∈ selected noB noA (q :: l) ↔
        ((noA = false ∧ q.1 = some x) ∨ (noB = false ∧ q.2 = some x)) ∨
          x ∈ selected noB noA l := by
      intro x; rw [hse, List.mem_append, List.mem_append]
      cases noA <;> cases noB <;> simp
    have hdis : ∀ x, q.1 = some x → q.2 ≠ some x := fun x h1 h2 =>
      n1.2.2 (by simp [h1]) (by simp [h2] : x ∈ q.2.toList)
    have hfar : ∀ x, q.1 = some x ∨ q.2 = some x → x ∉ slots l := fun x h hl =>
      n3 (by rw [List.mem_append]; rcases h with h | h <;> simp [h]) hl
    have hfar' : ∀ x, q.1 = some x ∨ q.2 = some x → x ∉ selected noB noA l := fun x h hl =>
      hfar x h ((selected_sublist noB noA l).subset hl)
    refine ⟨c1.trans (b1.trans (a1.trans f1.2.1)), c2.trans (b2.trans (a2.trans f1.2.2.1)),
      Nat.le_trans hle c3, c4.trans (b4.trans (a4.trans (by rw [f1.1]))), ?_, ?_⟩
    · intro x hx
      rw [hmem, not_or, not_or] at hx
      rw [c5 x hx.2, b5 x hx.1.2, a5 x hx.1.1, f1.1]
    -- the numbers of the deviates
    refine ⟨fun x => if q.1 = some x then (if perPair then p.draws else p1.draws)
      else if q.2 = some x then (if perPair then p.draws else p2.draws) else d x, ?_, ?_, ?_, ?_⟩
    · intro x hx
      rw [hmem] at hx
      dsimp only
      rcases hx with (⟨hA, hx⟩ | ⟨hB, hx⟩) | hx
      · have hx2 := hdis x hx
        have := a6 x hA hx
        rw [f1.1] at this
        rw [if_pos hx, c5 x (hfar' x (.inl hx)), b5 x fun h => hx2 h.2]
        cases perPair with
        | true => exact this.1 rfl
        | false => exact (this.2 rfl).1
      · have hx1 : q.1 ≠ some x := fun h => hdis x h hx
        have := b6 x hB hx
        rw [a5 x fun h => hx1 h.2, f1.1] at this
        rw [if_neg hx1, if_pos hx, c5 x (hfar' x (.inr hx))]
        cases perPair with
        | true => exact this.1 rfl
        | false => exact (this.2 rfl).1
      · have hx1 : q.1 ≠ some x := fun h => hfar' x (.inl h) hx
        have hx2 : q.2 ≠ some x := fun h => hfar' x (.inr h) hx
        rw [if_neg hx1, if_neg hx2]
        have := d1 x hx
        rwa [b5 x fun h => hx2 h.2, a5 x fun h => hx1 h.2, f1.1] at this
    · intro hpp a b hab
      subst hpp
      rcases List.mem_cons.1 hab with h | h
      · subst h
        by_cases e : a = b <;> simp [e]
      · have ha : a ∈ slots l := (mem_slots l a).2 ⟨_, h, .inl rfl⟩
        have hb' : b ∈ slots l := (mem_slots l b).2 ⟨_, h, .inr rfl⟩
        have h1 : ∀ y, y ∈ slots l → q.1 ≠ some y ∧ q.2 ≠ some y := fun y hy =>
          ⟨fun h => hfar y (.inl h) hy, fun h => hfar y (.inr h) hy⟩
        simp only [(h1 a ha).1, (h1 a ha).2, (h1 b hb').1, (h1 b hb').2, if_false]
        exact d2 rfl a b h
    · intro h0 x hx
      rw [hmem] at hx
      dsimp only
      rcases hx with (⟨hA, hx⟩ | ⟨hB, hx⟩) | hx
      · rw [if_pos hx]
        cases hpp : perPair with
        | true =>
          simp only [if_true]
          exact ⟨Nat.le_refl _, Nat.lt_of_lt_of_le (f1.2.2.2.2 h0 hpp)
            (Nat.le_trans a3 (Nat.le_trans b3 c3))⟩
        | false =>
          simp only [Bool.false_eq_true, if_false]
          exact ⟨f1.2.2.2.1, Nat.lt_of_lt_of_le (((a6 x hA hx).2 hpp).2 h0)
            (Nat.le_trans b3 c3)⟩
      · rw [if_neg fun h => hdis x h hx, if_pos hx]
        cases hpp : perPair with
        | true =>
          simp only [if_true]
          exact ⟨Nat.le_refl _, Nat.lt_of_lt_of_le (f1.2.2.2.2 h0 hpp)
            (Nat.le_trans a3 (Nat.le_trans b3 c3))⟩
        | false =>
          simp only [Bool.false_eq_true, if_false]
          exact ⟨hle1, Nat.lt_of_lt_of_le (((b6 x hB hx).2 hpp).2 h0) c3⟩
      · rw [if_neg fun h => hfar' x (.inl h) hx, if_neg fun h => hfar' x (.inr h) hx]
        exact ⟨Nat.le_trans hle (d3 h0 x hx).1, (d3 h0 x hx).2⟩
    · intro h0 hpp x hx y hy hxy
      subst hpp
      dsimp only at hxy
      simp only [Bool.false_eq_true, if_false] at hxy
      -- position of each number
      have pos : ∀ x, x ∈ selected noB noA (q :: l) → ∀ m,
          (if q.1 = some x then p1.draws else if q.2 = some x then p2.draws else d x) = m →
          (q.1 = some x ∧ m = p1.draws ∧ p1.draws < p2.draws) ∨
          (q.2 = some x ∧ m = p2.draws ∧ p2.draws < p3.draws) ∨
          (x ∈ selected noB noA l ∧ m = d x ∧ p3.draws ≤ d x) := by
        intro x hx m hm
        rw [hmem] at hx
        rcases hx with (⟨hA, hx⟩ | ⟨hB, hx⟩) | hx
        · rw [if_pos hx] at hm
          exact .inl ⟨hx, hm.symm, ((a6 x hA hx).2 rfl).2 h0⟩
        · rw [if_neg fun h => hdis x h hx, if_pos hx] at hm
          exact .inr (.inl ⟨hx, hm.symm, ((b6 x hB hx).2 rfl).2 h0⟩)
        · rw [if_neg fun h => hfar' x (.inl h) hx, if_neg fun h => hfar' x (.inr h) hx] at hm
          exact .inr (.inr ⟨hx, hm.symm, (d3 h0 x hx).1⟩)
      rcases pos x hx _ hxy with ⟨hx1, ex, lx⟩ | ⟨hx1, ex, lx⟩ | ⟨hx1, ex, lx⟩ <;>
      rcases pos y hy _ rfl with ⟨hy1, ey, ly⟩ | ⟨hy1, ey, ly⟩ | ⟨hy1, ey, ly⟩ <;>
      rw [ex] at ey
      · rw [hx1] at hy1; exact Option.some.inj hy1
      · omega
      · omega
      · omega
      · rw [hx1] at hy1; exact Option.some.inj hy1
      · omega
      · omega
      · omega
      · exact d4 h0 rfl x hx1 y hy1 ey

omit [Field K] [LinearOrder K] [FloorRing K] in
theorem get?_none_of (l : Dict K) {r : List Key} (hl : ∀ x ∈ l, x.1 ∈ r) {k : Key}
    (hk : k ∉ r) : Dict.get? l k = none := by
  induction l with
  | nil => rfl
  | cons x l ih =>
    rw [get?_cons, if_neg, ih fun y hy => hl y (List.mem_cons_of_mem _ hy)]
    rintro rfl
    exact hk (hl x List.mem_cons_self)

omit [Field K] [LinearOrder K] [FloorRing K] in
theorem get?_filter_mem (d : Dict K) {r : List Key} {k : Key} (hk : k ∉ r) :
    Dict.get? (d.filter (·.1 ∉ r)) k = Dict.get? d k := by
  induction d with
  | nil => rfl
  | cons x d ih =>
    by_cases hx : x.1 ∈ r
    · rw [List.filter_cons_of_neg (by simpa using hx), ih, get?_cons, if_neg]
      rintro rfl
      exact hk hx
    · rw [List.filter_cons_of_pos (by simpa using hx), get?_cons, ih, get?_cons]

end Verif.FocalPlane
