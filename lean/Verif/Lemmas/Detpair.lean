import Verif.Lemmas.BeamMore
import Verif.Spec.Detpair

/-!
# Lemmas about the preparation of a detector pair
-/

namespace Verif.Beam

open Verif.Spinmaps

variable {K : Type} [Field K] [LinearOrder K] [FloorRing K]

/-! ### loading -/

omit [FloorRing K] in
/-- What is loaded is held from then on. -/
theorem loaded_holds (env : Env K) {o o' : Obj K} {v : Val K} (hl : loaded env o = .ok (v, o')) :
    o'.attr .blm = some v := by
  have hp : ∀ (o : Obj K) v', (o.put .blm v').attr .blm = some v' := fun o v' => by
    rw [put_attr, if_pos rfl]
  unfold loaded at hl
  split at hl
  · cases hl; assumption
  · rcases he : env.loadBlm o.attr with e | ⟨v', m⟩ <;> rw [he] at hl
    · cases hl
    simp only [bind, Except.bind, pure, Except.pure] at hl
    split at hl
    · cases hl; exact hp _ _
    · rcases hm : o.read .mmax with e | mm <;> rw [hm] at hl
      · cases hl
      dsimp only at hl
      split at hl
      · cases hl
      · split at hl
        · split at hl
          · cases hl
          · cases hl; exact hp _ _
        · cases hl; exact hp _ _

variable [IsStrictOrderedRing K]

omit [FloorRing K] in
/-- Loading, for a beam that stands for coefficients. -/
theorem Describes.loaded {env : Env K} {o : Obj K} {v : Val K} {M : Int}
    (h : Describes env o v M) : ∃ o', loaded env o = .ok (v, o') ∧
      o'.attr .mmax = some (.int M) := by
  have hp : ∀ (o : Obj K) (v : Val K), (o.put .blm v).attr .mmax = o.attr .mmax := fun o v =>
    put_attr_ne _ _ (by simp)
  cases h with
  | held _ h1 h2 => exact ⟨o, loaded_kept env h1, h2⟩
  | made _ h1 h2 h3 =>
    refine ⟨o.put .blm v, ?_, by rw [hp]; exact h3⟩
    unfold Beam.loaded
    rw [h1, h2]
    rfl
  | file f M L h1 h2 h3 h4 =>
    by_cases hf : f < M
    · refine ⟨(o.put .mmax (.int (min f L))).put .blm v, ?_, ?_⟩
      · unfold Beam.loaded
        rw [h1, h2]
        have : ((f : Int) : K) < (M : K) := by exact_mod_cast hf
        simp only [bind, Except.bind, pure, Except.pure, read_ok h3, Val.toNum, if_pos this,
          setMmax_int h4]
      · rw [hp, put_attr, if_pos rfl, if_pos hf]
    · refine ⟨o.put .blm v, ?_, by rw [hp, if_neg hf]; exact h3⟩
      unfold Beam.loaded
      rw [h1, h2]
      have : ¬ ((f : Int) : K) < (M : K) := fun hh => hf (by exact_mod_cast hh)
      simp only [bind, Except.bind, pure, Except.pure, read_ok h3, Val.toNum, if_neg this]

omit [FloorRing K] in
theorem minSpin_int (M s : Int) : minSpin (.int M : Val K) s = .ok (.int (min M s)) := by
  unfold minSpin
  simp only [Val.toNum]
  by_cases h : s < M
  · have : ((s : Int) : K) < (M : K) := by exact_mod_cast h
    rw [if_pos this, min_eq_right (by omega)]
  · have : ¬ ((s : Int) : K) < (M : K) := fun hh => h (by exact_mod_cast hh)
    rw [if_neg this, min_eq_left (by omega)]

/-! ### looking at coefficients -/

/-- `h'` is `h` after looking at the coefficients of some beams of `S`, among them all of `R`. -/
structure Warm (env : Env K) (S : List Ref) (R : Ref → Prop) (h h' : Heap K) : Prop where
  size : h'.size = h.size
  out : ∀ x, x ∉ S → h'.cell x = h.cell x
  done : ∀ x, R x → ∃ v, loaded env (h.cell x) = .ok (v, h'.cell x)
  cell : ∀ x, h'.cell x = h.cell x ∨ ∃ v, loaded env (h.cell x) = .ok (v, h'.cell x)

omit [FloorRing K] [IsStrictOrderedRing K] in
theorem Warm.refl (env : Env K) (S : List Ref) (h : Heap K) : Warm env S (fun _ => False) h h :=
  ⟨rfl, fun _ _ => rfl, fun _ h => h.elim, fun _ => .inl rfl⟩

omit [FloorRing K] [IsStrictOrderedRing K] in
theorem Warm.mono {env : Env K} {S T : List Ref} {R Q : Ref → Prop} {h h' : Heap K}
    (w : Warm env S R h h') (hST : ∀ x ∈ S, x ∈ T) (hRQ : ∀ x, Q x → R x) : Warm env T Q h h' :=
  ⟨w.size, fun x hx => w.out x fun hS => hx (hST x hS), fun x hx => w.done x (hRQ x hx), w.cell⟩

omit [FloorRing K] [IsStrictOrderedRing K] in
theorem Warm.attr {env : Env K} {S : List Ref} {R : Ref → Prop} {h h' : Heap K}
    (w : Warm env S R h h') (x : Ref)
    {k : Key} (h1 : k ≠ .blm) (h2 : k ≠ .mmax) : (h'.cell x).attr k = (h.cell x).attr k := by
  rcases w.cell x with e | ⟨v, e⟩
  · rw [e]
  · exact (loaded_attr env e).2.1 k h1 h2

omit [FloorRing K] [IsStrictOrderedRing K] in
theorem Warm.ghosts {env : Env K} {S : List Ref} {R : Ref → Prop} {h h' : Heap K}
    (w : Warm env S R h h') (x : Ref) :
    (h'.cell x).ghosts = (h.cell x).ghosts := by
  rcases w.cell x with e | ⟨v, e⟩
  · rw [e]
  · exact (loaded_attr env e).1

omit [FloorRing K] [IsStrictOrderedRing K] in
/-- Looking at coefficients gives what was described at the beginning. -/
theorem Warm.read {env : Env K} {S : List Ref} {R : Ref → Prop} {h h' : Heap K}
    (w : Warm env S R h h') {r : Ref}
    (hr : r ∈ S) {v : Val K} {o : Obj K} (hl : loaded env (h.cell r) = .ok (v, o)) :
    ∃ h'', Exec.run (readBlm env r) h' = (.ok v, h'') ∧
      Warm env S (fun x => R x ∨ x = r) h h'' ∧ h''.cell r = o := by
  have key : loaded env (h'.cell r) = .ok (v, o) := by
    rcases w.cell r with e | ⟨u, e⟩
    · rw [e]; exact hl
    · rw [hl] at e
      cases e
      exact loaded_kept env (loaded_holds env hl)
  refine ⟨h'.put r o, ?_, ⟨?_, fun x hx => ?_, fun x hx => ?_, fun x => ?_⟩, heap_put_same _ _ _⟩
  · unfold readBlm Exec.run
    dsimp only
    rw [key]
  · rw [heap_put_size, w.size]
  · rw [heap_put_ne _ _ (by rintro rfl; exact hx hr), w.out x hx]
  · rw [heap_put]
    split
    · rename_i e
      subst e
      exact ⟨v, hl⟩
    · rename_i e
      exact w.done x (hx.resolve_right e)
  · rw [heap_put]
    split
    · rename_i e
      subst e
      exact .inr ⟨v, hl⟩
    · exact w.cell x

omit [FloorRing K] in
theorem ensureBlm_warm {env : Env K} {S : List Ref} {R : Ref → Prop} {h h' : Heap K}
    (w : Warm env S R h h') {g : Ref}
    (hg : g ∈ S) {v : Val K} {M : Int} (hd : Describes env (h.cell g) v M)
    (fb : Ref → Exec (Heap K) Unit) :
    ∃ h'', Exec.run (ensureBlm env fb g) h' = (.ok (), h'') ∧
      Warm env S (fun x => R x ∨ x = g) h h'' := by
  obtain ⟨o, ho, -⟩ := hd.loaded
  obtain ⟨h'', h1, h2, -⟩ := w.read hg ho
  refine ⟨h'', ?_, h2⟩
  have : Exec.run (hasBlm env g) h' = (.ok true, h'') := by
    unfold Exec.run at h1
    unfold hasBlm Exec.run
    dsimp only
    rw [h1]
  unfold ensureBlm
  rw [Exec.run_bind_ok this]
  rfl

theorem pyGet_nat {α : Type} {l : List α} {i : Nat} {x : α} (h : l[i]? = some x) :
    pyGet l (i : Int) = .ok x := by
  obtain ⟨hi, e⟩ := List.getElem?_eq_some_iff.1 h
  unfold pyGet
  have h0 : (if (i : Int) < 0 then (i : Int) + l.length else i) = i := if_neg (by omega)
  simp only [h0]
  rw [if_neg (by omega)]
  simp [h]

omit [FloorRing K] in
theorem ensureLoop_warm {env : Env K} {S : List Ref} {R : Ref → Prop} {h : Heap K} (gs : List Ref)
    (hS : ∀ g ∈ gs, g ∈ S) (hd : ∀ g ∈ gs, ∃ v M, Describes env (h.cell g) v M)
    (fb : Nat → Ref → Exec (Heap K) Unit) (n i : Nat) (hi : i + n = gs.length) (h' : Heap K)
    (w : Warm env S R h h') :
    ∃ h'', Exec.run (ensureLoop env fb gs i n) h' = (.ok (), h'') ∧
      Warm env S (fun x => R x ∨ x ∈ gs.drop i) h h'' := by
  induction n generalizing i h' R with
  | zero =>
    refine ⟨h', rfl, w.mono (fun _ h => h) fun x hx => hx.resolve_right fun hm => ?_⟩
    rw [List.drop_eq_nil_of_le (by omega)] at hm
    cases hm
  | succ n ih =>
    have hlt : i < gs.length := by omega
    have hm : gs[i] ∈ gs := List.getElem_mem hlt
    obtain ⟨v, M, hv⟩ := hd _ hm
    obtain ⟨h1, e1, w1⟩ := ensureBlm_warm w (hS _ hm) hv (fb i)
    obtain ⟨h2, e2, w2⟩ := ih (i + 1) (by omega) h1 w1
    refine ⟨h2, ?_, w2.mono (fun _ h => h) fun x hx => ?_⟩
    swap
    · rw [List.drop_eq_getElem_cons hlt, List.mem_cons] at hx
      rcases hx with hx | hx | hx
      · exact .inl (.inl hx)
      · exact .inl (.inr hx)
      · exact .inr hx
    have e0 : Exec.run (Exec.lift (pyGet gs (i : Int)) : Exec (Heap K) Ref) h' =
        (.ok gs[i], h') := by
      rw [Exec.run_lift, pyGet_nat (List.getElem?_eq_getElem hlt)]
    unfold ensureLoop
    rw [Exec.run_bind_ok e0, Exec.run_bind_ok e1, e2]

omit [IsStrictOrderedRing K] [FloorRing K] in
theorem run_plain {h : Heap K} {r : Ref} {k : Key} {v : Val K} (hv : (h.cell r).attr k = some v) :
    Exec.run (getPlain r k) h = (.ok v, h) := by
  unfold getPlain Exec.run
  dsimp only
  rw [read_ok hv]

omit [IsStrictOrderedRing K] [FloorRing K] in
theorem run_ghostList {h : Heap K} {r : Ref} {gs : List Ref} (hg : (h.cell r).ghosts = some gs) :
    Exec.run (ghostList r) h = (.ok gs, h) := by
  unfold ghostList Exec.run
  dsimp only
  rw [hg]

theorem ensureGhosts_warm {env : Env K} {S : List Ref} {R : Ref → Prop} {h h' : Heap K} {r : Ref}
    {gs : List Ref}
    (hf : Family h r gs) (hS : ∀ g ∈ gs, g ∈ S)
    (hd : ∀ g ∈ gs, ∃ v M, Describes env (h.cell g) v M) (fb : Nat → Ref → Exec (Heap K) Unit)
    (w : Warm env S R h h') :
    ∃ h'', Exec.run (ensureGhosts env fb r) h' = (.ok (), h'') ∧
      Warm env S (fun x => R x ∨ x ∈ gs) h h'' := by
  have e0 : Exec.run (ghostList r) h' = (.ok gs, h') := run_ghostList (by
    rw [w.ghosts]; exact hf.own.2.2)
  unfold ensureGhosts
  rw [Exec.run_bind_ok e0]
  by_cases hgs : gs = []
  · rw [if_pos hgs]
    refine ⟨h', rfl, w.mono (fun _ h => h) fun x hx => hx.resolve_right fun hm => ?_⟩
    rw [hgs] at hm
    cases hm
  rw [if_neg hgs]
  have e1 : Exec.run (getPlain r .ghostCount) h' = (.ok (.int gs.length), h') := run_plain (by
    rw [w.attr r (by simp) (by simp)]; exact hf.count)
  obtain ⟨h'', e2, w2⟩ := ensureLoop_warm gs hS hd fb gs.length 0 (by omega) h' w
  refine ⟨h'', ?_, w2⟩
  have e3 : Exec.run (Exec.lift (Val.toInt (.int gs.length : Val K)) : Exec (Heap K) Int) h' =
      (.ok (gs.length : Int), h') := rfl
  rw [Exec.run_bind_ok e1, Exec.run_bind_ok e3]
  simpa using e2

/-! ### making maps -/

omit [IsStrictOrderedRing K] [FloorRing K] in
theorem run_makeMaps {D : Type} {mk : Maker K D} {h : Heap K} {r : Ref} {v s sy mu : Val K} {d : D}
    (h1 : (h.cell r).attr .symmetric = some sy) (h2 : (h.cell r).attr .hwpMueller = some mu)
    (hd : mk v s sy mu = .ok d) : Exec.run (makeMaps mk r v s) h = (.ok d, h) := by
  unfold makeMaps
  rw [Exec.run_bind_ok (run_plain h1), Exec.run_bind_ok (run_plain h2), Exec.run_lift, hd]

omit [FloorRing K] in
theorem mainMaps_spec {D : Type} {env : Env K} {mk : Maker K D} {S : List Ref} {R : Ref → Prop}
    {h h' : Heap K} {r : Ref} (w : Warm env S R h h') (hr : r ∉ S) {v : Val K} {M : Int}
    (hd : Describes env (h.cell r) v M) {M0 maxSpin : Int}
    (h0 : (h.cell r).attr .mmax = some (.int M0)) {sy mu : Val K} {d : D}
    (h1 : (h.cell r).attr .symmetric = some sy) (h2 : (h.cell r).attr .hwpMueller = some mu)
    (hm : mk v (.int (min M0 maxSpin)) sy mu = .ok d) :
    ∃ h'', Exec.run (mainMaps env mk maxSpin r) h' = (.ok (d, v, .int (min M0 maxSpin)), h'') ∧
      Warm env (r :: S) (fun x => R x ∨ x = r) h h'' := by
  obtain ⟨o, ho, hM⟩ := hd.loaded
  have w' : Warm env (r :: S) R h h' := w.mono (fun x hx => List.mem_cons_of_mem _ hx) fun _ h => h
  obtain ⟨h'', e1, w1, hc⟩ := w'.read (List.mem_cons_self) ho
  refine ⟨h'', ?_, w1⟩
  have e0 : Exec.run (getPlain r .mmax) h' = (.ok (.int M0), h') := run_plain (by
    rw [w.out r hr]; exact h0)
  have e2 : Exec.run (Exec.lift (minSpin (.int M0 : Val K) maxSpin) : Exec (Heap K) (Val K)) h' =
      (.ok (.int (min M0 maxSpin)), h') := by rw [Exec.run_lift, minSpin_int]
  have e3 := run_makeMaps (h := h'') (r := r) (by rw [w1.attr r (by simp) (by simp)]; exact h1)
    (by rw [w1.attr r (by simp) (by simp)]; exact h2) hm
  unfold mainMaps
  rw [Exec.run_bind_ok e0, Exec.run_bind_ok e2, Exec.run_bind_ok e1, Exec.run_bind_ok e3]
  rfl

omit [FloorRing K] in
theorem ghostMaps_spec {D : Type} {env : Env K} {mk : Maker K D} {S : List Ref} {R : Ref → Prop}
    {h h' : Heap K} {r : Ref} (w : Warm env S R h h') (hr : r ∈ S) {v : Val K} {M maxSpin : Int}
    (hd : Describes env (h.cell r) v M) {sy mu : Val K} {d : D}
    (h1 : (h.cell r).attr .symmetric = some sy) (h2 : (h.cell r).attr .hwpMueller = some mu)
    (hm : mk v (.int (min M maxSpin)) sy mu = .ok d) :
    ∃ h'', Exec.run (ghostMaps env mk maxSpin r) h' = (.ok (d, v, .int (min M maxSpin)), h'') ∧
      Warm env S R h h'' := by
  obtain ⟨o, ho, hM⟩ := hd.loaded
  obtain ⟨h'', e1, w1, hc⟩ := w.read hr ho
  refine ⟨h'', ?_, w1.mono (fun _ h => h) fun _ h => .inl h⟩
  have e0 : Exec.run (getPlain r .mmax) h'' = (.ok (.int M), h'') := run_plain (by rw [hc]; exact hM)
  have e2 : Exec.run (Exec.lift (minSpin (.int M : Val K) maxSpin) : Exec (Heap K) (Val K)) h'' =
      (.ok (.int (min M maxSpin)), h'') := by rw [Exec.run_lift, minSpin_int]
  have e3 := run_makeMaps (h := h'') (r := r) (by rw [w1.attr r (by simp) (by simp)]; exact h1)
    (by rw [w1.attr r (by simp) (by simp)]; exact h2) hm
  unfold ghostMaps
  rw [Exec.run_bind_ok e1, Exec.run_bind_ok e0, Exec.run_bind_ok e2, Exec.run_bind_ok e3]
  rfl

omit [IsStrictOrderedRing K] in
theorem ghostIndices_spec (h : Heap K) (gs : List Ref) (i : Nat)
    (hi : ∀ (k : Nat) (g : Ref), gs[k]? = some g →
      (h.cell g).attr .ghostIdx = some (.int ((i + k : Nat) : Int))) :
    Exec.run (ghostIndices gs) h = (.ok ((List.range' i gs.length).map fun n : Nat => (n : Int)), h) := by
  induction gs generalizing i with
  | nil => rfl
  | cons g gs ih =>
    have e0 : Exec.run (getPlain g .ghostIdx) h = (.ok (.int i), h) := run_plain (by
      simpa using hi 0 g rfl)
    have e1 : Exec.run (Exec.lift (Val.toInt (.int i : Val K)) : Exec (Heap K) Int) h =
      (.ok (i : Int), h) := rfl
    have e2 := ih (i + 1) fun k g' hg => by
      have := hi (k + 1) g' (by simpa using hg)
      rw [this]
      congr 3
      omega
    unfold ghostIndices
    rw [Exec.run_bind_ok e0, Exec.run_bind_ok e1, Exec.run_bind_ok e2]
    simp [List.range'_succ]

theorem npUnique_range (n : Nat) :
    npUnique ((List.range' 0 n).map fun k : Nat => (k : Int)) =
      (List.range' 0 n).map fun k : Nat => ((k : Int), k) := by
  have hnd : ((List.range' 0 n).map fun k : Nat => (k : Int)).Nodup :=
    (List.nodup_range' (step := 1)).map fun a b h => by exact_mod_cast h
  unfold npUnique
  rw [hnd.dedup]
  have hs : ((List.range' 0 n).map fun k : Nat => (k : Int)).insertionSort (· ≤ ·) =
      (List.range' 0 n).map fun k : Nat => (k : Int) := by
    apply List.Pairwise.insertionSort_eq
    rw [List.pairwise_map]
    exact (List.pairwise_lt_range' (step := 1)).imp fun h => by exact_mod_cast h.le
  rw [hs, List.map_map]
  apply List.map_congr_left
  intro k hk
  have hk : k < n := by simpa using hk
  simp only [Function.comp_apply, Prod.mk.injEq, true_and]
  have := hnd.idxOf_getElem k (by simpa using hk)
  simpa using this

theorem setItem_last {α : Type} (l : List α) (x y : α) :
    pySetItem (l ++ [x]) (l.length : Int) y = .ok (l ++ [y]) := by
  unfold pySetItem
  have h0 : (if (l.length : Int) < 0 then (l.length : Int) + (l ++ [x]).length else l.length) =
      l.length := if_neg (by omega)
  simp only [h0]
  rw [if_neg (by simp)]
  simp

omit [FloorRing K] in
theorem uniqueLoop_spec {D : Type} {env : Env K} {mk : Maker K D} {S : List Ref} {R : Ref → Prop}
    {h : Heap K}
    {maxSpin : Int} (gs : List Ref) (hS : ∀ g ∈ gs, g ∈ S) {v : Ref → Val K} {M : Ref → Int}
    {d : Ref → D} {sy mu : Ref → Val K}
    (hd : ∀ g ∈ gs, Describes env (h.cell g) (v g) (M g))
    (h1 : ∀ g ∈ gs, (h.cell g).attr .symmetric = some (sy g))
    (h2 : ∀ g ∈ gs, (h.cell g).attr .hwpMueller = some (mu g))
    (hm : ∀ g ∈ gs, mk (v g) (.int (min (M g) maxSpin)) (sy g) (mu g) = .ok (d g))
    (n i : Nat) (hi : i + n = gs.length) (last : Val K × Val K) (h' : Heap K)
    (w : Warm env S R h h') :
    ∃ h'', Exec.run (uniqueLoop env mk maxSpin gs ((List.range' i n).map fun k : Nat => ((k : Int), k))
        ((gs.take i).map fun g => some (d g)) last) h' =
      (.ok (gs.map fun g => some (d g), ((gs.drop i).getLast?.elim last fun g =>
        (v g, .int (min (M g) maxSpin)))), h'') ∧ Warm env S R h h'' := by
  induction n generalizing i last h' with
  | zero =>
    refine ⟨h', ?_, w⟩
    have : i = gs.length := by omega
    subst this
    simp [uniqueLoop]
  | succ n ih =>
    have hlt : i < gs.length := by omega
    have hg : gs[i] ∈ gs := List.getElem_mem hlt
    obtain ⟨h1', e1, w1⟩ := ghostMaps_spec w (hS _ hg) (hd _ hg) (h1 _ hg) (h2 _ hg) (hm _ hg)
    obtain ⟨h2', e2, w2⟩ := ih (i + 1) (by omega) (v gs[i], .int (min (M gs[i]) maxSpin)) h1' w1
    refine ⟨h2', ?_, w2⟩
    have hlen : ((gs.take i).map fun g => some (d g)).length = i := by simp; omega
    rw [List.range'_succ, List.map_cons]
    unfold uniqueLoop
    have a1 : Exec.run (Exec.lift (pySetItem (((gs.take i).map fun g => some (d g)) ++ [none])
        (i : Int) none) : Exec (Heap K) _) h' =
        (.ok (((gs.take i).map fun g => some (d g)) ++ [none]), h') := by
      rw [Exec.run_lift]
      conv_lhs => rw [← hlen]
      rw [hlen]
      have := setItem_last ((gs.take i).map fun g => some (d g)) none none
      rw [hlen] at this
      rw [this]
    have a2 : Exec.run (Exec.lift (pyGet gs (i : Int)) : Exec (Heap K) Ref) h' =
        (.ok gs[i], h') := by
      rw [Exec.run_lift, pyGet_nat (List.getElem?_eq_getElem hlt)]
    have a3 : Exec.run (Exec.lift (pySetItem (((gs.take i).map fun g => some (d g)) ++ [none])
        (i : Int) (some (d gs[i]))) : Exec (Heap K) _) h1' =
        (.ok ((gs.take (i + 1)).map fun g => some (d g)), h1') := by
      rw [Exec.run_lift]
      have := setItem_last ((gs.take i).map fun g => some (d g)) none (some (d gs[i]))
      rw [hlen] at this
      have ht : gs.take (i + 1) = gs.take i ++ [gs[i]] := by
        rw [List.take_add_one, List.getElem?_eq_getElem hlt]
        rfl
      rw [this, ht, List.map_append]
      rfl
    rw [Exec.run_bind_ok a1, Exec.run_bind_ok a2, Exec.run_bind_ok e1, Exec.run_bind_ok a3, e2]
    congr 3
    rw [List.drop_eq_getElem_cons hlt]
    rcases hl : gs.drop (i + 1) with _ | ⟨x, xs⟩
    · simp
    · rw [List.getLast?_cons_cons, List.getLast?_eq_some_getLast (List.cons_ne_nil x xs)]
      rfl

theorem allGhostMaps_spec {D : Type} {env : Env K} {mk : Maker K D} {S : List Ref} {R : Ref → Prop}
    {h : Heap K}
    {maxSpin : Int} {r : Ref} (gs : List Ref) (hf : Family h r gs) (hS : ∀ g ∈ gs, g ∈ S)
    {v : Ref → Val K} {M : Ref → Int} {d : Ref → D} {sy mu : Ref → Val K}
    (hd : ∀ g ∈ gs, Describes env (h.cell g) (v g) (M g))
    (h1 : ∀ g ∈ gs, (h.cell g).attr .symmetric = some (sy g))
    (h2 : ∀ g ∈ gs, (h.cell g).attr .hwpMueller = some (mu g))
    (hm : ∀ g ∈ gs, mk (v g) (.int (min (M g) maxSpin)) (sy g) (mu g) = .ok (d g))
    (last : Val K × Val K) (h' : Heap K)
    (w : Warm env S R h h') :
    ∃ h'', Exec.run (allGhostMaps env mk maxSpin r last) h' =
      (.ok (gs.map fun g => some (d g), (gs.getLast?.elim last fun g =>
        (v g, .int (min (M g) maxSpin)))), h'') ∧ Warm env S R h h'' := by
  have e0 : Exec.run (ghostList r) h' = (.ok gs, h') := run_ghostList (by
    rw [w.ghosts]; exact hf.own.2.2)
  unfold allGhostMaps
  rw [Exec.run_bind_ok e0]
  by_cases hgs : gs = []
  · subst hgs
    exact ⟨h', rfl, w⟩
  rw [if_neg hgs]
  have e1 : Exec.run (getPlain r .ghostCount) h' = (.ok (.int gs.length), h') := run_plain (by
    rw [w.attr r (by simp) (by simp)]; exact hf.count)
  have e2 := ghostIndices_spec h' gs 0 fun k g hg => by
    rw [w.attr g (by simp) (by simp), (hf.ghost k g hg).2, Nat.zero_add]
  obtain ⟨h'', e3, w3⟩ := uniqueLoop_spec gs hS hd h1 h2 hm gs.length 0 (by omega) last h' w
  refine ⟨h'', ?_, w3⟩
  rw [Exec.run_bind_ok e1, if_pos (by simp [Val.toNum]), Exec.run_bind_ok e2, npUnique_range]
  simpa using e3

/-! ### deleting -/

omit [Field K] [LinearOrder K] [FloorRing K] [IsStrictOrderedRing K] in
theorem deleteBlm_run {h : Heap K} {r : Ref} {gs : List Ref} (hg : (h.cell r).ghosts = some gs) :
    ∃ h', Exec.run (deleteBlm r true) h = (.ok (), h') ∧ h'.size = h.size ∧
      (∀ x, (h'.cell x).ghosts = (h.cell x).ghosts) ∧
      ∀ x k, (h'.cell x).attr k = if k = .blm ∧ x ∈ r :: gs then none else (h.cell x).attr k := by
  have key := deleteBlm_attr hg true
  have hg' : ((dropBlm r h).cell r).ghosts = some gs := by
    unfold dropBlm
    rw [heap_put, if_pos rfl]
    exact hg
  refine ⟨(Exec.run (deleteBlm r true) h).2, Prod.ext (key r .blm).1 rfl, ?_, fun x => ?_,
    fun x k => ?_⟩
  · unfold deleteBlm Exec.run
    dsimp only
    rw [hg']
    dsimp only
    rw [if_pos rfl, (dropAll_attr gs (dropBlm r h) r .blm).2.2]
    rfl
  · unfold deleteBlm Exec.run
    dsimp only
    rw [hg']
    dsimp only
    rw [if_pos rfl, (dropAll_attr gs (dropBlm r h) x .blm).2.1]
    unfold dropBlm
    rw [heap_put]
    split
    · rename_i e
      rw [e]
    · rfl
  · rw [(key x k).2]
    simp

/-! ### the pair -/

omit [FloorRing K] [IsStrictOrderedRing K] in
theorem groundMaps_spec {D : Type} {ground : Option (Maker K D)} {last : Val K × Val K}
    {sy mu : Val K} {gr : Option D} (hgr : GroundIs ground last sy mu gr) {h : Heap K} {r : Ref}
    (h1 : (h.cell r).attr .symmetric = some sy) (h2 : (h.cell r).attr .hwpMueller = some mu) :
    Exec.run (groundMaps ground r last) h = (.ok gr, h) := by
  unfold groundMaps
  unfold GroundIs at hgr
  cases ground with
  | none => rw [hgr]; rfl
  | some mk =>
    obtain ⟨d, hd, rfl⟩ := hgr
    dsimp only
    rw [Exec.run_bind_ok (run_makeMaps h1 h2 hd)]
    rfl

omit [IsStrictOrderedRing K] [FloorRing K] in
theorem Family.not_mem {h : Heap K} {r r' : Ref} {gs gs' : List Ref} (hf : Family h r gs)
    (hf' : Family h r' gs') : r ∉ gs' := by
  intro hm
  obtain ⟨k, hk, e⟩ := List.mem_iff_getElem.1 hm
  have := (hf'.ghost k r (by rw [List.getElem?_eq_getElem hk, e])).1
  rw [hf.own.2.1] at this
  cases this

/-- Everything about `init_detpair` for a pair whose beams stand for coefficients. -/
theorem initDetpair_spec {D : Type} {env : Env K} {mk : Maker K D} {ground : Option (Maker K D)}
    {maxSpin : Int} {h : Heap K} {a : Ref} {gs : List Ref} {B : Option (Ref × List Ref)}
    (hA : Family h a gs) (hB : ∀ b ∈ B, Family h b.1 b.2)
    {v : Ref → Val K} {M : Ref → Int}
    (hd : ∀ x ∈ a :: gs ++ B.elim [] Prod.snd, Describes env (h.cell x) (v x) (M x))
    {M0 : Int} (h0 : (h.cell a).attr .mmax = some (.int M0)) {sy mu : Ref → Val K}
    (h1 : ∀ x ∈ a :: gs, (h.cell x).attr .symmetric = some (sy x))
    (h2 : ∀ x ∈ a :: gs, (h.cell x).attr .hwpMueller = some (mu x))
    {da : D} (hm : mk (v a) (.int (min M0 maxSpin)) (sy a) (mu a) = .ok da)
    {d : Ref → D}
    (hg : ∀ g ∈ gs, mk (v g) (.int (min (M g) maxSpin)) (sy g) (mu g) = .ok (d g))
    {gr : Option D}
    (hgr : GroundIs ground (gs.getLast?.elim (v a, .int (min M0 maxSpin)) fun g =>
      (v g, .int (min (M g) maxSpin))) (sy a) (mu a) gr) :
    ∃ h', Exec.run (initDetpair env mk ground maxSpin a (B.map Prod.fst)) h =
        (.ok ⟨da, gr, gs.map fun g => some (d g)⟩, h') ∧
      After (a :: gs ++ B.elim [] fun b => b.1 :: b.2) (a :: gs ++ B.elim [] Prod.snd) M h h' := by
  set S := gs ++ B.elim [] Prod.snd with hS
  have haS : a ∉ S := by
    rw [hS, List.mem_append]
    rintro (hm | hm)
    · exact hA.not_mem hA hm
    · cases B with
      | none => simp at hm
      | some b => exact hA.not_mem (hB b rfl) hm
  have hgS : ∀ g ∈ gs, g ∈ S := fun g hg => List.mem_append_left _ hg
  have hdS : ∀ g ∈ S, Describes env (h.cell g) (v g) (M g) := fun g hg =>
    hd g (List.mem_cons_of_mem _ hg)
  -- the ghosts of A
  obtain ⟨k1, e1, w1⟩ := ensureGhosts_warm hA hgS
    (fun g hg => ⟨_, _, hdS g (hgS g hg)⟩) (fallbackA env a) (Warm.refl env S h)
  -- the ghosts of B
  have step2 : ∃ k2, Exec.run (onB (B.map Prod.fst) (ensureGhosts env fun _ => reuseFirst env a)) k1 =
      (.ok (), k2) ∧ Warm env S (fun x => x ∈ S) h k2 := by
    cases B with
    | none =>
      refine ⟨k1, rfl, w1.mono (fun _ h => h) fun x hx => ?_⟩
      rcases List.mem_append.1 hx with hx | hx
      · exact .inr hx
      · cases hx
    | some b =>
      have hbS : ∀ g ∈ b.2, g ∈ S := fun g hg => List.mem_append_right _ hg
      obtain ⟨k2, e2, w2⟩ := ensureGhosts_warm (hB b rfl) hbS
        (fun g hg => ⟨_, _, hdS g (hbS g hg)⟩) (fun _ => reuseFirst env a) w1
      refine ⟨k2, e2, w2.mono (fun _ h => h) fun x hx => ?_⟩
      rcases List.mem_append.1 hx with hx | hx
      · exact .inl (.inr hx)
      · exact .inr hx
  obtain ⟨k2, e2, w2⟩ := step2
  -- the maps
  obtain ⟨k3, e3, w3⟩ := mainMaps_spec w2 haS (hd a (by simp)) h0 (h1 a (by simp))
    (h2 a (by simp)) hm
  obtain ⟨k4, e4, w4⟩ := allGhostMaps_spec gs hA (fun g hg => List.mem_cons_of_mem a (hgS g hg))
    (fun g hg => hdS g (hgS g hg)) (fun g hg => h1 g (List.mem_cons_of_mem _ hg))
    (fun g hg => h2 g (List.mem_cons_of_mem _ hg)) hg (v a, .int (min M0 maxSpin)) k3 w3
  have e5 := groundMaps_spec hgr (h := k4) (r := a)
    (by rw [w4.attr a (by simp) (by simp)]; exact h1 a (by simp))
    (by rw [w4.attr a (by simp) (by simp)]; exact h2 a (by simp))
  have e6 : Exec.run (initMaps env mk ground maxSpin a) k2 =
      (.ok ⟨da, gr, gs.map fun g => some (d g)⟩, k4) := by
    unfold initMaps
    rw [Exec.run_bind_ok e3, Exec.run_bind_ok e4, Exec.run_bind_ok e5]
    rfl
  -- deleting
  obtain ⟨k5, e7, hs5, hg5, ha5⟩ := deleteBlm_run (h := k4) (r := a) (gs := gs)
    (by rw [w4.ghosts]; exact hA.own.2.2)
  have step8 : ∃ k6, Exec.run (onB (B.map Prod.fst) fun b => deleteBlm b true) k5 = (.ok (), k6) ∧
      k6.size = k4.size ∧ (∀ x, (k6.cell x).ghosts = (k4.cell x).ghosts) ∧
      ∀ x k, (k6.cell x).attr k =
        if k = .blm ∧ x ∈ a :: gs ++ B.elim [] fun b => b.1 :: b.2 then none
        else (k4.cell x).attr k := by
    cases B with
    | none => exact ⟨k5, rfl, hs5, hg5, fun x k => by rw [ha5]; simp⟩
    | some b =>
      obtain ⟨k6, e8, hs6, hg6, ha6⟩ := deleteBlm_run (h := k5) (r := b.1) (gs := b.2)
        (by rw [hg5, w4.ghosts]; exact (hB b rfl).own.2.2)
      refine ⟨k6, e8, hs6.trans hs5, fun x => (hg6 x).trans (hg5 x), fun x k => ?_⟩
      rw [ha6, ha5]
      simp only [Option.elim_some, List.mem_append]
      by_cases q1 : k = .blm <;> by_cases q2 : x ∈ a :: gs <;> by_cases q3 : x ∈ b.1 :: b.2 <;>
        simp only [q1, q2, q3, true_and, false_and, if_true, if_false, or_true, true_or, or_false]
  obtain ⟨k6, e8, hs6, hg6, ha6⟩ := step8
  refine ⟨k6, ?_, ?_⟩
  · unfold initDetpair
    rw [Exec.run_bind_ok e1, Exec.run_bind_ok e2, Exec.run_bind_ok e6, Exec.run_bind_ok e7,
      Exec.run_bind_ok e8]
    rfl
  · refine ⟨hs6.trans w4.size, fun x => (hg6 x).trans (w4.ghosts x), fun x k hk hk' => ?_,
      fun x hx => ?_, fun x hx => ?_, fun x hx => ?_, fun x hx => ?_⟩
    · rw [ha6, if_neg fun h => hk h.1, w4.attr x hk hk']
    · rw [ha6, if_pos ⟨rfl, hx⟩]
    · rw [ha6, if_neg fun h => hx h.2, w4.out]
      intro hm
      apply hx
      rcases List.mem_cons.1 hm with rfl | hm
      · simp
      · rcases List.mem_append.1 hm with hm | hm
        · exact List.mem_append_left _ (List.mem_cons_of_mem _ hm)
        · refine List.mem_append_right _ ?_
          cases B with
          | none => cases hm
          | some b => exact List.mem_cons_of_mem _ hm
    · rw [ha6, if_neg (by simp)]
      have hx' : x ∈ S ∨ x = a := (List.mem_cons.1 hx).symm
      obtain ⟨u, hu⟩ := w4.done x hx'
      obtain ⟨o, ho, hM⟩ := (hd x hx).loaded
      rw [ho] at hu
      cases hu
      exact hM
    · rw [ha6, if_neg (by simp), w4.out]
      exact hx

end Verif.Beam
