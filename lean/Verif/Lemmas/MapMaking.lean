import Verif.Spec.MapMaking
import Verif.Lemmas.Timeline
import Verif.Lemmas.Observe

/-! # Lemmas: binned maps -/

noncomputable section

namespace Verif.MapMaking

open Verif.Chunks Verif.Timeline Verif.Spinmaps

@[simp] theorem zero_vec : (0 : Cell).vec = 0 := rfl
@[simp] theorem zero_proj : (0 : Cell).proj = 0 := rfl
@[simp] theorem add_vec (a b : Cell) : (a + b).vec = a.vec + b.vec := rfl
@[simp] theorem add_proj (a b : Cell) : (a + b).proj = a.proj + b.proj := rfl

instance : AddCommMonoid Cell where
  add_assoc a b c := by ext i <;> simp [add_assoc]
  zero_add a := by ext i <;> simp
  add_zero a := by ext i <;> simp
  add_comm a b := by ext i <;> simp [add_comm]
  nsmul := nsmulRec

/-- The cell of a pixel. -/
def cellAt (os : List Obs) (p : Nat) : Cell :=
  ((here p os).map fun o => sampleCell o.c o.s o.d).sum

theorem cellAt_nil (p : Nat) : cellAt [] p = 0 := rfl

theorem cellAt_append (a b : List Obs) (p : Nat) : cellAt (a ++ b) p = cellAt a p + cellAt b p := by
  simp [cellAt, here]

theorem cellAt_perm {a b : List Obs} (h : a.Perm b) (p : Nat) : cellAt a p = cellAt b p :=
  ((h.filter _).map _).sum_eq

theorem cellAt_vec (os : List Obs) (p : Nat) : (cellAt os p).vec = vecAt os p := by
  unfold cellAt vecAt
  induction here p os with
  | nil => rfl
  | cons o os ih =>
    simp only [List.map_cons, List.sum_cons, add_vec, ih]
    congr 1
    funext i
    fin_cases i <;> simp [sampleCell, Obs.w, mul_comm]

theorem sym_add (a b : Fin 6 → ℝ) : sym (a + b) = sym a + sym b := by
  ext i j
  fin_cases i <;> fin_cases j <;> simp [sym]

theorem cellAt_proj (os : List Obs) (p : Nat) : sym (cellAt os p).proj = projAt os p := by
  unfold cellAt projAt
  induction here p os with
  | nil =>
    ext i j
    fin_cases i <;> fin_cases j <;> simp [sym]
  | cons o os ih =>
    simp only [List.map_cons, List.sum_cons, add_proj, sym_add, ih]
    congr 1
    ext i j
    fin_cases i <;> fin_cases j <;> simp [sym, sampleCell, Obs.w, Matrix.vecMulVec, mul_comm]

/-- The maps that contain `os`. -/
def mapsOf (N : Nat) (os : List Obs) : Maps := (List.range N).map (cellAt os)

theorem mapsOf_nil (nside : Nat) : mapsOf (12 * nside ^ 2) [] = allocateMaps nside := by
  unfold mapsOf allocateMaps
  apply List.ext_getElem (by simp)
  intro k h1 h2
  simp [cellAt_nil]

theorem holds_mapsOf (nside : Nat) (os : List Obs) : Holds nside (mapsOf (12 * nside ^ 2) os) os := by
  refine ⟨by simp [mapsOf], ?_⟩
  intro p c h
  unfold mapsOf at h
  rw [List.getElem?_map] at h
  rcases hp : (List.range (12 * nside ^ 2))[p]? with _ | p'
  · rw [hp] at h
    simp at h
  · rw [hp] at h
    have hp' : p' = p := by
      have := List.getElem?_eq_some_iff.1 hp
      obtain ⟨_, e⟩ := this
      simpa using e.symm
    subst hp'
    obtain rfl := Option.some.inj h
    exact ⟨cellAt_vec os p', cellAt_proj os p'⟩

theorem iadd_mapsOf (N : Nat) (a b : List Obs) :
    iadd (mapsOf N a) (mapsOf N b) = .ok (mapsOf N (a ++ b)) := by
  unfold iadd
  rw [if_pos (by simp [mapsOf])]
  congr 1
  unfold mapsOf
  rw [List.zipWith_map, List.zipWith_self]
  apply List.map_congr_left
  intro p _
  rw [cellAt_append]

theorem deposit_mapsOf (N : Nat) (os : List Obs) (r : Int × ℝ × ℝ) (d : ℝ) (h : 0 ≤ r.1) :
    deposit (mapsOf N os) r d = mapsOf N (os ++ [⟨r.1, r.2.1, r.2.2, d⟩]) := by
  unfold deposit mapsOf
  apply List.ext_getElem (by simp)
  intro k h1 h2
  simp only [List.length_map, List.length_range] at h2
  rw [List.getElem_modify]
  simp only [List.getElem_map, List.getElem_range]
  rw [cellAt_append]
  split_ifs with hk
  · congr 1
    unfold cellAt here
    rw [List.filter_cons_of_pos (by simp; omega)]
    simp
  · have : cellAt [⟨r.1, r.2.1, r.2.2, d⟩] k = 0 := by
      unfold cellAt here
      rw [List.filter_cons_of_neg (by simp; omega)]
      rfl
    rw [this, add_zero]

/-- The observations of a list of samples. -/
def obsOf (xs : List ((Int × ℝ × ℝ) × ℝ × Bool)) : List Obs :=
  (xs.filter fun x => !x.2.2).map fun x => ⟨x.1.1, x.1.2.1, x.1.2.2, x.2.1⟩

theorem fromTod_mapsOf (N : Nat) (xs : List ((Int × ℝ × ℝ) × ℝ × Bool))
    (hx : ∀ x ∈ xs, 0 ≤ x.1.1) (os : List Obs) :
    fromTod (mapsOf N os) xs = mapsOf N (os ++ obsOf xs) := by
  induction xs generalizing os with
  | nil => simp [fromTod, obsOf]
  | cons x xs ih =>
    obtain ⟨r, d, f⟩ := x
    unfold fromTod
    have hx' : ∀ x ∈ xs, 0 ≤ x.1.1 := fun y hy => hx y (List.mem_cons_of_mem _ hy)
    cases f with
    | true =>
      rw [if_pos rfl, ih hx']
      simp [obsOf]
    | false =>
      rw [if_neg (by simp), deposit_mapsOf N os r d (hx _ List.mem_cons_self), ih hx']
      simp [obsOf]

theorem slice_get {α : Type} (l : List α) (i n : Nat) (k : Nat)
    (hk : k < n) : (pySlice l (i : Int) ((i + n : Nat) : Int))[k]? = l[i + k]? := by
  rw [pySlice_nat, List.getElem?_drop, List.getElem?_take, if_pos (by omega)]

theorem slice_length {α : Type} (l : List α) (i n : Nat) (h : i + n ≤ l.length) :
    (pySlice l (i : Int) ((i + n : Nat) : Int)).length = n := by
  rw [pySlice_nat, List.length_drop, List.length_take]
  omega

theorem hwpAt_alpha {hwp : Option HwpAng} {h : HwpAng} (e : hwp = some h) (varphi : ℝ) (k : Nat) :
    hwpAt h varphi k = alphaAt hwp k * 180 / Real.pi - varphi := by
  subst e
  cases h <;> rfl

theorem list_of_get {α : Type} (l : List α) (d : α) (n : Nat) (h : l.length = n) :
    l = (List.range n).map fun k => (l[k]?).getD d := by
  apply List.ext_getElem (by simp [h])
  intro k h1 h2
  simp [h1]

theorem binLocal_spec (q : QExt) (hq : PixOk q) (mission : List Chunk) (su : Setup)
    (hns : 0 < su.nsideOut) (st : State) (off : Quat.Q) (polang : ℝ) (s : Sub) (i n : Nat)
    (h : BinOk mission su st s i n) (tod : List ℝ) (ht : tod.length = n) :
    binLocal q mission su st off polang tod .none s =
      .ok (mapsOf (12 * su.nsideOut ^ 2)
        (observations q su st off polang i n fun k => (tod[k]?).getD 0)) := by
  obtain ⟨c, hc1, hc2, hc3⟩ := h.sub.chunk
  obtain ⟨hw, hhw⟩ := Option.ne_none_iff_exists'.1 h.hwp
  have e1 : s.start - c.start = (i : Int) := by omega
  have e2 : s.stop - c.start = ((i + n : Nat) : Int) := by push_cast; omega
  have hb := slice_length st.qBore i n h.sub.bore
  have hc := slice_length st.ctime i n h.sub.times
  have hflag : ∃ f, flagOf su.flag (i : Int) ((i + n : Nat) : Int) .none = .ok f ∧
      (f.all fun f => decide (f.length = n)) = true ∧
      flagList n f = (List.range n).map fun k => flagged su i k := by
    unfold flagOf flagged
    rcases hf : su.flag with _ | f
    · refine ⟨none, rfl, rfl, ?_⟩
      apply List.ext_getElem (by simp [flagList])
      intro k h1 h2
      simp [flagList]
    · refine ⟨_, rfl, ?_, ?_⟩
      · simp only [Option.all_some, decide_eq_true_eq]
        exact slice_length f i n (h.flags f hf)
      · show pySlice f _ _ = _
        rw [list_of_get (pySlice f (i : Int) ((i + n : Nat) : Int)) false n
          (slice_length f i n (h.flags f hf))]
        apply List.map_congr_left
        intro k hk
        rw [slice_get f i n k (List.mem_range.1 hk)]
  obtain ⟨f, hf1, hf2, hf3⟩ := hflag
  unfold binLocal
  rw [hhw]
  simp only [bind, Except.bind]
  unfold Chunks.chunk2idx
  rw [hc1]
  simp only [bind, Except.bind, pure, Except.pure]
  rw [e1, e2, hf1]
  dsimp only
  rw [hb]
  rw [if_pos (by
    unfold sameSize
    rw [hf2]
    cases hw with
    | fixed a => simp [ht]
    | array a => simp [ht, h.sub.hwp a hhw])]
  congr 1
  rw [← mapsOf_nil, hf3]
  have hz : List.zip (binPointing q hw su.varphi su.nsideOut (binOff off polang)
      (pySlice st.ctime (i : Int) ((i + n : Nat) : Int))
      (pySlice st.qBore (i : Int) ((i + n : Nat) : Int)))
      (List.zip tod ((List.range n).map fun k => flagged su i k)) =
      (List.range n).map fun k => (q.quat2pix ((st.qBore[i + k]?).getD 0)
        (q.hwpQuat (alphaAt st.hwpAng k * 180 / Real.pi - su.varphi)) (binOff off polang)
        ((st.ctime[i + k]?).getD 0) su.nsideOut, (tod[k]?).getD 0, flagged su i k) := by
    rw [list_of_get tod 0 n ht]
    unfold binPointing
    rw [hb, List.zip_map', List.zip_map']
    apply List.map_congr_left
    intro k hk
    have hk := List.mem_range.1 hk
    rw [slice_get _ i n k hk, slice_get _ i n k hk, hwpAt_alpha hhw]
    congr 2
    rw [← list_of_get tod 0 n ht]
  rw [hz, fromTod_mapsOf]
  · congr 1
    rw [List.nil_append]
    unfold obsOf observations
    rw [List.filter_map, List.map_map]
    rfl
  · intro y hy
    obtain ⟨k, _, rfl⟩ := List.mem_map.1 hy
    exact (hq _ _ _ _ _ hns).1

theorem binTod_spec (q : QExt) (hq : PixOk q) (mission : List Chunk) (su : Setup)
    (hns : 0 < su.nsideOut) (st : State) (off : Quat.Q) (polang : ℝ) (s : Sub) (i n : Nat)
    (h : BinOk mission su st s i n) (tod : List ℝ) (ht : tod.length = n) (os : List Obs) :
    binTod q mission su st off polang tod .none s (mapsOf (12 * su.nsideOut ^ 2) os) =
      .ok (mapsOf (12 * su.nsideOut ^ 2)
        (os ++ observations q su st off polang i n fun k => (tod[k]?).getD 0)) := by
  unfold binTod
  rw [binLocal_spec q hq mission su hns st off polang s i n h tod ht]
  simp only [bind, Except.bind]
  exact iadd_mapsOf _ _ _

/-! ### scanning changes the timeline only -/

theorem bind_ok {α β : Type} {x : PyM α} {f : α → PyM β} {b : β} (h : (x >>= f) = .ok b) :
    ∃ a, x = .ok a ∧ f a = .ok b := by
  cases x with
  | error e => cases h
  | ok a => exact ⟨a, rfl, h⟩

theorem scan_state {x : Ext} {mission : List Chunk} {st : State} {b : Beam} {s : Sub}
    {ground interp add : Bool} {r : Ret × State}
    (h : scan x mission st b s ground interp add = .ok r) :
    r.2 = { st with tod := some r.1.tod } := by
  unfold scan at h
  split_ifs at h
  all_goals
    obtain ⟨d, _, h⟩ := bind_ok h
    obtain ⟨ns, _, h⟩ := bind_ok h
    obtain ⟨ij, _, h⟩ := bind_ok h
    obtain ⟨bore, _, h⟩ := bind_ok h
    rcases ns with _ | n
    · obtain ⟨_, h', _⟩ := bind_ok h
      cases h'
    · dsimp only at h
      obtain ⟨nside, _, h⟩ := bind_ok h
      obtain ⟨t, _, h⟩ := bind_ok h
      obtain ⟨t', _, h⟩ := bind_ok h
      simp only [pure, Except.pure, Except.ok.injEq] at h
      subst h
      rfl

theorem ghostScans_state {x : Ext} {mission : List Chunk} {s : Sub} {ground interp : Bool}
    (gs : List Beam) {n : Nat} {st : State} {r : Nat × State}
    (h : ghostScans x mission s ground interp gs n st = .ok r) :
    ∃ t, r.2 = { st with tod := t } := by
  induction gs generalizing n st with
  | nil =>
    unfold ghostScans at h
    obtain rfl := Except.ok.inj h
    exact ⟨st.tod, rfl⟩
  | cons g gs ih =>
    unfold ghostScans at h
    split_ifs at h with hg
    · exact ih h
    · obtain ⟨a, h1, h2⟩ := bind_ok h
      have e := scan_state h1
      obtain ⟨t, ht⟩ := ih h2
      refine ⟨t, ?_⟩
      rw [ht, e]

theorem scanDetector_state {x : Ext} {mission : List Chunk} {b : Beam} {ghosts : List Beam}
    {s : Sub} {ground interp savePoint : Bool} {st : State} {r : Ret × State}
    (h : scanDetector x mission b ghosts s ground interp savePoint st = .ok r) :
    r.2 = { st with tod := some r.1.tod } := by
  unfold scanDetector at h
  by_cases hg : b.ghost = true
  · rw [if_pos hg] at h
    cases h
  rw [if_neg hg] at h
  obtain ⟨a, h1, h2⟩ := bind_ok h
  obtain ⟨t, ht⟩ := ghostScans_state ghosts h1
  obtain ⟨n, st1⟩ := a
  dsimp only at ht h2
  subst ht
  by_cases hgr : ground = true
  · rw [if_pos hgr] at h2
    obtain ⟨a, h3, h4⟩ := bind_ok h2
    cases savePoint with
    | true => cases h4
    | false =>
      rw [if_neg (by simp)] at h4
      rw [scan_state h4, scan_state h3]
  · rw [if_neg hgr] at h2
    rw [scan_state h2]

end Verif.MapMaking
