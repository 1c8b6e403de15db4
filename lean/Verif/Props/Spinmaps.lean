import Verif.Model.Spinmaps
import Verif.Lemmas.Timeline
import Mathlib.Data.List.Sort

/-!
# Properties of spin maps

C56 (invalid coefficients are detected), C57 (maps of ghosts), C70 (ground maps).
-/

noncomputable section

namespace Verif.Spinmaps

open Verif.Timeline

/-! ## C56 -/

theorem scanRows_spec {α : Type} (fin : α → Bool) (rows : List (List α)) (i : Nat) :
    ((scanRows fin rows i).2 = true ↔ ∃ r ∈ rows, ∃ x ∈ r, fin x = false) ∧
    ((scanRows fin rows i).2 = false → (scanRows fin rows i).1 = i + rows.length) := by
  induction rows generalizing i with
  | nil => simp [scanRows]
  | cons r rs ih =>
    unfold scanRows
    by_cases h : r.all fin = true
    · rw [if_pos h]
      refine ⟨?_, ?_⟩
      · rw [(ih (i + 1)).1]
        constructor
        · rintro ⟨r', hr', hx⟩
          exact ⟨r', List.mem_cons_of_mem _ hr', hx⟩
        · rintro ⟨r', hr', x, hx, hf⟩
          rcases List.mem_cons.1 hr' with rfl | hr'
          · rw [List.all_eq_true] at h
            rw [h x hx] at hf
            cases hf
          · exact ⟨r', hr', x, hx, hf⟩
      · intro hc
        rw [(ih (i + 1)).2 hc, List.length_cons]
        omega
    · rw [if_neg h]
      refine ⟨?_, by simp⟩
      simp only [true_iff]
      simp only [Bool.not_eq_true, List.all_eq_false] at h
      obtain ⟨x, hx, hf⟩ := h
      exact ⟨r, List.mem_cons_self, x, hx, by simpa using hf⟩

/-- C56: a NaN or infinity anywhere in the sky coefficients is detected. -/
theorem C56_sky_detected {α : Type} (fin : α → Bool) (alm blm : List (List α))
    (inputV beamV : Bool) (h : ∃ r ∈ alm, ∃ x ∈ r, fin x = false) :
    checkInput fin alm blm inputV beamV = .error .valueError := by
  unfold checkInput
  split
  · rfl
  · split
    · rfl
    · dsimp only
      rw [if_pos]
      left
      exact (scanRows_spec fin alm 0).1.2 h

/-- C56: one in the beam coefficients is detected if it is in a row with a number of at least the
number of rows of the sky (only a fourth row of the beam, with a sky of three rows).  Missing: the
other rows of the beam, see `C56_violation`. -/
theorem C56_beam_detected_partial {α : Type} (fin : α → Bool) (alm blm : List (List α))
    (inputV beamV : Bool) (j : Nat) (hj : alm.length ≤ j) (r : List α) (hr : blm[j]? = some r)
    (h : ∃ x ∈ r, fin x = false) :
    checkInput fin alm blm inputV beamV = .error .valueError := by
  unfold checkInput
  split
  · rfl
  · split
    · rfl
    · dsimp only
      rw [if_pos]
      cases ha : (scanRows fin alm 0).2 with
      | true => exact Or.inl rfl
      | false =>
        right
        rw [(scanRows_spec fin alm 0).2 ha, Nat.zero_add]
        refine (scanRows_spec fin _ _).1.2 ⟨r, ?_, h⟩
        rw [List.mem_iff_getElem?]
        refine ⟨j - alm.length, ?_⟩
        rw [List.getElem?_drop, show alm.length + (j - alm.length) = j by omega]
        exact hr

/-- C56, violation: with a finite sky, none of the first `len(alm)` rows of the beam is looked at:
whatever is in a beam with no more rows than the sky is accepted. -/
theorem C56_violation {α : Type} (fin : α → Bool) (alm blm : List (List α))
    (ha : ∀ r ∈ alm, ∀ x ∈ r, fin x = true) (hl : blm.length ≤ alm.length) :
    checkInput fin alm blm false false = .ok () := by
  unfold checkInput
  rw [if_neg (by simp), if_neg (by simp)]
  have h1 : (scanRows fin alm 0).2 = false := by
    rw [← Bool.not_eq_true, (scanRows_spec fin alm 0).1]
    rintro ⟨r, hr, x, hx, hf⟩
    rw [ha r hr x hx] at hf
    cases hf
  dsimp only
  rw [if_neg]
  rw [(scanRows_spec fin alm 0).2 h1, h1, Nat.zero_add, List.drop_eq_nil_of_le hl]
  simp [scanRows]

/-- A beam of three rows that has a NaN (`none`) in each of them, and a sky of three rows. -/
example : checkInput (α := Option Int) Option.isSome [[some 1], [some 2], [some 3]]
    [[none], [none], [none]] false false = .ok () :=
  C56_violation _ _ _ (by decide) (by decide)

/-- The hypotheses of the other two are met. -/
example : checkInput (α := Option Int) Option.isSome [[some 1], [some 2], [none]]
    [[some 1], [some 2], [some 3]] false false = .error .valueError :=
  C56_sky_detected _ _ _ _ _ (by decide)

example : checkInput (α := Option Int) Option.isSome [[some 1], [some 2], [some 3]]
    [[some 1], [some 2], [some 3], [some 4, none]] false true = .error .valueError :=
  C56_beam_detected_partial _ _ _ _ _ 3 (by decide) _ rfl (by decide)

/-! ## C57 -/

theorem pySetItem_last {α : Type} (l : List α) (x v : α) :
    pySetItem (l ++ [x]) (l.length : Int) v = .ok (l ++ [v]) := by
  unfold pySetItem
  have h0 : ¬ ((l.length : Int) < 0) := by omega
  simp only [h0, if_false]
  rw [if_neg (by simp)]
  simp

theorem pySetItem_beyond {α : Type} (l : List α) (u : Int) (v : α) (h : (l.length : Int) ≤ u) :
    pySetItem l u v = .error .indexError := by
  unfold pySetItem
  have h0 : ¬ (u < 0) := by omega
  simp only [h0, if_false]
  rw [if_pos (Or.inr h)]

theorem ghostLoop_contiguous {G D : Type} (f : G → PyM D) (ghosts : List G)
    (us : List (Int × Nat)) (l : List (Option D)) (d : Nat → D)
    (hu : ∀ k (h : k < us.length), us[k].1 = (l.length : Int) + k)
    (hd : ∀ p ∈ us, ∃ g, ghosts[p.2]? = some g ∧ f g = .ok (d p.2)) :
    ghostLoop f ghosts us l = .ok (l ++ us.map fun p => some (d p.2)) := by
  induction us generalizing l with
  | nil => simp [ghostLoop]
  | cons p us ih =>
    rcases p with ⟨u, i⟩
    have h0 : u = (l.length : Int) := by
      have := hu 0 (by simp)
      rw [List.getElem_cons_zero] at this
      simpa using this
    obtain ⟨g, hg1, hg2⟩ := hd (u, i) List.mem_cons_self
    unfold ghostLoop
    rw [h0, pySetItem_last]
    simp only [bind, Except.bind]
    rw [pyGet_nat ghosts i g hg1]
    dsimp only
    rw [hg2]
    dsimp only
    rw [pySetItem_last]
    dsimp only
    rw [ih]
    · simp
    · intro k hk
      have := hu (k + 1) (by simpa using hk)
      simp only [List.getElem_cons_succ] at this
      rw [this, List.length_append]
      push_cast
      simp only [List.length_cons, List.length_nil]
      push_cast
      ring
    · intro p hp
      exact hd p (List.mem_cons_of_mem _ hp)

theorem npUnique_get (a : List Int) (p : Int × Nat) (h : p ∈ npUnique a) :
    p.1 ∈ a ∧ p.2 = a.idxOf p.1 := by
  unfold npUnique at h
  obtain ⟨x, hx, rfl⟩ := List.mem_map.1 h
  rw [(List.perm_insertionSort _ _).mem_iff, List.mem_dedup] at hx
  exact ⟨hx, rfl⟩

theorem npUnique_sorted (a : List Int) : ((npUnique a).map (·.1)).Pairwise (· < ·) := by
  unfold npUnique
  rw [List.map_map]
  have e : (((fun x : Int × Nat => x.1) ∘ fun x => (x, a.idxOf x)) : Int → Int) = id := rfl
  rw [e, List.map_id]
  have h1 : (a.dedup.insertionSort (· ≤ ·)).Pairwise (· ≤ ·) := List.pairwise_insertionSort _ _
  have h2 : (a.dedup.insertionSort (· ≤ ·)).Nodup :=
    (List.perm_insertionSort _ _).nodup_iff.2 (List.nodup_dedup a)
  rw [List.Nodup] at h2
  exact (h1.and h2).imp (by
    intro x y h
    have := h.1
    have h' := h.2
    omega)

theorem npUnique_mem (a : List Int) (x : Int) : x ∈ (npUnique a).map (·.1) ↔ x ∈ a := by
  unfold npUnique
  rw [List.map_map]
  have e : (((fun x : Int × Nat => x.1) ∘ fun x => (x, a.idxOf x)) : Int → Int) = id := rfl
  rw [e, List.map_id, (List.perm_insertionSort _ _).mem_iff, List.mem_dedup]

/-- If the values are exactly `0 .. k-1`, `np.unique` gives them in order. -/
theorem npUnique_contiguous (a : List Int) (k : Nat)
    (h : ∀ x : Int, x ∈ a ↔ 0 ≤ x ∧ x < k) : (npUnique a).map (·.1) = intRange 0 k := by
  have h2 : (intRange 0 k).Pairwise (· < ·) := by
    unfold intRange
    rw [List.pairwise_map]
    exact List.pairwise_lt_range.imp (by intro a b; simp)
  apply List.Perm.eq_of_pairwise (le := (· < ·)) _ (npUnique_sorted a) h2
  · rw [List.perm_ext_iff_of_nodup]
    · intro x
      rw [npUnique_mem, h, intRange, List.mem_map]
      constructor
      · intro hx
        exact ⟨x.toNat, by simp; omega, by omega⟩
      · rintro ⟨n, hn, rfl⟩
        simp at hn
        omega
    · exact (npUnique_sorted a).imp (by intro a b h; omega)
    · exact h2.imp (by intro a b h; omega)
  · intro a b _ _ h1 h2
    omega

/-- C57: if the ghost indices that occur are `0 .. k-1`, and ghosts with the same index have the
same maps (they share coefficients), then spin maps are made and each ghost finds its own under its
index. -/
theorem C57_lookup_partial {G D : Type} (idx : G → Int) (f : G → PyM D) (b : G) (ghosts : List G)
    (k : Nat) (hidx : ∀ x : Int, (∃ g ∈ ghosts, idx g = x) ↔ 0 ≤ x ∧ x < k)
    (db : D) (hb : f b = .ok db) (d : G → D) (hf : ∀ g ∈ ghosts, f g = .ok (d g))
    (hshare : ∀ g ∈ ghosts, ∀ g' ∈ ghosts, idx g = idx g' → d g = d g') :
    ∃ sm, initSpinmapsG idx f none b ghosts = .ok sm ∧ sm.main = db ∧
      sm.ghosts.length = k ∧ ∀ g ∈ ghosts, pyGet sm.ghosts (idx g) = .ok (some (d g)) := by
  have hmem : ∀ x : Int, x ∈ ghosts.map idx ↔ 0 ≤ x ∧ x < k := by
    intro x
    rw [List.mem_map, hidx]
  have hu := npUnique_contiguous (ghosts.map idx) k hmem
  have hlen : (npUnique (ghosts.map idx)).length = k := by
    have := congrArg List.length hu
    simpa [intRange] using this
  have hval : ∀ j (h : j < (npUnique (ghosts.map idx)).length),
      (npUnique (ghosts.map idx))[j].1 = (j : Int) := by
    intro j h
    have : ((npUnique (ghosts.map idx)).map (·.1))[j]'(by simpa using h) = (j : Int) := by
      simp only [hu, intRange, List.getElem_map, List.getElem_range]
      omega
    simpa using this
  have hpos : ∀ p ∈ npUnique (ghosts.map idx), ∃ g ∈ ghosts, ghosts[p.2]? = some g ∧
      idx g = p.1 := by
    intro p hp
    obtain ⟨h1, h2⟩ := npUnique_get _ p hp
    have hlt : p.2 < (ghosts.map idx).length := by
      rw [h2]; exact List.idxOf_lt_length_of_mem h1
    have hlt' : p.2 < ghosts.length := by simpa using hlt
    refine ⟨ghosts[p.2], List.getElem_mem hlt', List.getElem?_eq_getElem hlt', ?_⟩
    have h3 : (ghosts.map idx)[p.2]'hlt = p.1 := by
      simp only [h2, List.getElem_idxOf]
    simpa using h3
  have key := ghostLoop_contiguous f ghosts (npUnique (ghosts.map idx)) []
    (fun i => match ghosts[i]? with
      | some g => d g
      | none => db)
    (by intro j h; rw [hval j h]; simp)
    (by
      intro p hp
      obtain ⟨g, hg1, hg2, -⟩ := hpos p hp
      refine ⟨g, hg2, ?_⟩
      rw [hg2]
      exact hf g hg1)
  refine ⟨⟨db, none, (npUnique (ghosts.map idx)).map fun p => some (match ghosts[p.2]? with
      | some g => d g
      | none => db)⟩, ?_, rfl, ?_, ?_⟩
  · unfold initSpinmapsG
    rw [hb, key]
    rfl
  · simpa using hlen
  · intro g hg
    have hi := (hidx (idx g)).1 ⟨g, hg, rfl⟩
    obtain ⟨j, hj⟩ := Int.eq_ofNat_of_zero_le hi.1
    have hjk : j < (npUnique (ghosts.map idx)).length := by rw [hlen]; omega
    rw [hj]
    apply pyGet_nat
    rw [List.getElem?_map, List.getElem?_eq_getElem hjk, Option.map_some]
    obtain ⟨g', hg1, hg2, hg3⟩ := hpos _ (List.getElem_mem hjk)
    rw [hg2]
    dsimp only
    rw [hshare g' hg1 g hg (by rw [hg3, hval j hjk, hj])]

/-- The error of the loop when the next index lies beyond the end. -/
theorem ghostLoop_gap {G D : Type} (f : G → PyM D) (ghosts : List G) (us us' : List (Int × Nat))
    (l : List (Option D)) (u : Int) (i : Nat) (d : Nat → D)
    (hu : ∀ k (h : k < us.length), us[k].1 = (l.length : Int) + k)
    (hd : ∀ p ∈ us, ∃ g, ghosts[p.2]? = some g ∧ f g = .ok (d p.2))
    (hgap : (l.length : Int) + us.length < u) :
    ghostLoop f ghosts (us ++ (u, i) :: us') l = .error .indexError := by
  induction us generalizing l with
  | nil =>
    rw [List.nil_append, ghostLoop, pySetItem_beyond _ _ _ (by simp at hgap ⊢; omega)]
    rfl
  | cons p us ih =>
    rcases p with ⟨v, j⟩
    have h0 : v = (l.length : Int) := by
      have := hu 0 (by simp)
      rw [List.getElem_cons_zero] at this
      simpa using this
    obtain ⟨g, hg1, hg2⟩ := hd (v, j) List.mem_cons_self
    rw [List.cons_append]
    unfold ghostLoop
    rw [h0, pySetItem_last]
    simp only [bind, Except.bind]
    rw [pyGet_nat ghosts j g hg1]
    dsimp only
    rw [hg2]
    dsimp only
    rw [pySetItem_last]
    dsimp only
    apply ih
    · intro k hk
      have := hu (k + 1) (by simpa using hk)
      simp only [List.getElem_cons_succ] at this
      rw [this]
      simp only [List.length_append, List.length_cons, List.length_nil]
      push_cast
      ring
    · intro p hp
      exact hd p (List.mem_cons_of_mem _ hp)
    · simp at hgap ⊢
      omega

/-- C57, violation: three ghosts of which the second reuses the coefficients (and so the index) of
the first have indices 0, 0, 2: initializing the spin maps fails, whatever the maps are. -/
theorem C57_reuse_violation {D : Type} (d0 d2 db : D) :
    initSpinmapsG (G := Int) (fun g => g)
      (fun g => if g = 0 then .ok d0 else if g = 2 then .ok d2 else .ok db) none (-1) [0, 0, 2] =
      .error .indexError := by
  have hu : npUnique [0, 0, 2] = [(0, 0), (2, 2)] := by decide +kernel
  have := ghostLoop_gap (G := Int) (D := D)
    (fun g => if g = 0 then .ok d0 else if g = 2 then .ok d2 else .ok db) [0, 0, 2] [(0, 0)] []
    [] 2 2 (fun _ => d0) (by
      intro k hk
      have : k = 0 := by simpa using hk
      subst this
      rfl) (by
      intro p hp
      have : p = (0, 0) := by simpa using hp
      subst this
      exact ⟨0, rfl, rfl⟩) (by simp)
  unfold initSpinmapsG
  rw [List.map_id', hu]
  rw [List.cons_append, List.nil_append] at this
  rw [this]
  rfl

/-- The hypotheses of `C57_lookup_partial` are met: five ghosts of which two share coefficients with
others. -/
example : ∃ sm, initSpinmapsG (G := Int × Nat) (·.1) (fun g => .ok (10 * g.1)) none (7, 0)
      [(0, 1), (1, 2), (1, 3), (2, 4), (0, 5)] = .ok sm ∧ sm.main = 70 ∧ sm.ghosts.length = 3 ∧
    ∀ g ∈ [((0 : Int), 1), (1, 2), (1, 3), (2, 4), (0, 5)],
      pyGet sm.ghosts g.1 = .ok (some (10 * g.1)) :=
  C57_lookup_partial (G := Int × Nat) (D := Int) (fun g => g.1) (fun g => .ok (10 * g.1)) (7, 0)
    [(0, 1), (1, 2), (1, 3), (2, 4), (0, 5)] 3 (by
    intro x
    simp
    omega) 70 rfl (fun g => 10 * g.1) (by intros; rfl) (by
    intro g _ g' _ h
    have h : g.1 = g'.1 := h
    show 10 * g.1 = 10 * g'.1
    rw [h])

/-! ## C70: ground maps -/

/-- C70: without ghosts the ground maps are those of the main beam.  Missing: ghosts, see
`C70_ground_beam_violation`. -/
theorem C70_ground_beam_partial {G D : Type} (idx : G → Int) (f : G → PyM D) (gr : G → G → PyM D)
    (b : G) (db dg : D) (hb : f b = .ok db) (hg : gr b b = .ok dg) :
    initSpinmapsG idx f (some gr) b [] = .ok ⟨db, some dg, []⟩ := by
  unfold initSpinmapsG
  rw [hb]
  have hu : npUnique (List.map idx []) = [] := by
    simp [npUnique]
  rw [hu]
  simp only [bind, Except.bind, ghostLoop, List.getLast?_nil, pure, Except.pure]
  rw [hg]

/-- C70, violation: with a ghost the ground maps are made with the beam of the ghost. -/
theorem C70_ground_beam_violation {G D : Type} (idx : G → Int) (f : G → PyM D)
    (gr : G → G → PyM D) (b g : G) (hi : idx g = 0) (db d dg : D) (hb : f b = .ok db)
    (hf : f g = .ok d) (hg : gr b g = .ok dg) :
    initSpinmapsG idx f (some gr) b [g] = .ok ⟨db, some dg, [some d]⟩ := by
  unfold initSpinmapsG
  rw [hb]
  have hu : npUnique (List.map idx [g]) = [(0, 0)] := by
    rw [List.map_cons, hi, List.map_nil]
    decide +kernel
  have := ghostLoop_contiguous f [g] [(0, 0)] [] (fun _ => d) (by
      intro k hk
      have : k = 0 := by simpa using hk
      subst this
      rfl) (by
      intro p hp
      have : p = (0, 0) := by simpa using hp
      subst this
      exact ⟨g, rfl, hf⟩)
  rw [hu, this]
  simp only [bind, Except.bind, pure, Except.pure]
  have h1 : ([((0 : Int), (0 : Nat))].getLast?) = some (0, 0) := rfl
  rw [h1]
  dsimp only
  rw [pyGet_nat [g] 0 g rfl]
  dsimp only
  rw [hg]
  rfl

/-- The main beam 5 would give ground maps 500, but those of the ghost 0 are made. -/
example : initSpinmapsG (G := Int) (fun g => g) (fun g => .ok g) (some fun _ c => .ok (100 * c)) 5
    [0] = .ok ⟨5, some 0, [some 0]⟩ :=
  C70_ground_beam_violation _ _ _ 5 0 rfl 5 0 0 rfl rfl rfl

/-- C70: the ground maps of `init_spinmaps` itself: without ghosts they are made with the coefficients and
the azimuthal range of the main beam.  Missing: ghosts, see `C70_ground_coefficients_violation`. -/
theorem C70_ground_coefficients_partial (Y : Harmonics) (alm ground : List (List ℂ)) (maxSpin : Int) (nside : Nat)
    (inputV beamV : Bool) (b : BeamData) (db dg : SpinDict)
    (hb : spinmapsOf Y alm b.blm (min b.mmax maxSpin) nside b.symmetric b.mueller inputV beamV = .ok db)
    (hg : spinmapsOf Y ground b.blm (min b.mmax maxSpin) nside b.symmetric b.mueller inputV beamV = .ok dg) :
    initSpinmaps Y alm (some ground) maxSpin nside inputV beamV b [] = .ok ⟨db, some dg, []⟩ :=
  C70_ground_beam_partial (G := BeamData) (fun g => g.ghostIdx)
    (fun g => spinmapsOf Y alm g.blm (min g.mmax maxSpin) nside g.symmetric g.mueller inputV beamV)
    (fun b last => spinmapsOf Y ground last.blm (min last.mmax maxSpin) nside b.symmetric b.mueller inputV beamV)
    b db dg hb hg

/-- C70, violation: with a ghost the ground maps of `init_spinmaps` are made with the coefficients and the
azimuthal range of the ghost, but with the symmetry and the Mueller matrix of the main beam. -/
theorem C70_ground_coefficients_violation (Y : Harmonics) (alm ground : List (List ℂ)) (maxSpin : Int)
    (nside : Nat) (inputV beamV : Bool) (b g : BeamData) (hi : g.ghostIdx = 0) (db d dg : SpinDict)
    (hb : spinmapsOf Y alm b.blm (min b.mmax maxSpin) nside b.symmetric b.mueller inputV beamV = .ok db)
    (hf : spinmapsOf Y alm g.blm (min g.mmax maxSpin) nside g.symmetric g.mueller inputV beamV = .ok d)
    (hg : spinmapsOf Y ground g.blm (min g.mmax maxSpin) nside b.symmetric b.mueller inputV beamV = .ok dg) :
    initSpinmaps Y alm (some ground) maxSpin nside inputV beamV b [g] = .ok ⟨db, some dg, [some d]⟩ :=
  C70_ground_beam_violation (G := BeamData) (fun g => g.ghostIdx)
    (fun g => spinmapsOf Y alm g.blm (min g.mmax maxSpin) nside g.symmetric g.mueller inputV beamV)
    (fun b last => spinmapsOf Y ground last.blm (min last.mmax maxSpin) nside b.symmetric b.mueller inputV beamV)
    b g hi db d dg hb hf hg

end Verif.Spinmaps
