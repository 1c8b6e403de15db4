import Verif.Spec.ScanObjects
import Verif.Lemmas.ScanInstrument
import Verif.Props.Detpair

/-!
# Lemmas about whole scans with beam objects
-/

noncomputable section

namespace Verif.ScanObjects

open Verif.Beam Verif.Timeline Verif.Spinmaps Verif.MapMaking Verif.ScanInstrument Verif.Chunks

variable {E : Type}

/-! ### beams -/

theorem describes_unique {env : Env ℝ} {o : Obj ℝ} {v v' : Val ℝ} {M M' : Int}
    (hn : o.attr .blm = none) (h : Describes env o v M) (h' : Describes env o v' M') :
    v = v' ∧ M = M' := by
  cases h with
  | held _ a => rw [hn] at a; cases a
  | made _ a b c =>
    cases h' with
    | held _ a => rw [hn] at a; cases a
    | made _ a' b' c' =>
      rw [b] at b'; rw [c] at c'
      cases b'; cases c'
      exact ⟨rfl, rfl⟩
    | file _ _ _ a' b' =>
      rw [b] at b'
      cases b'
  | file f M1 L a b c d =>
    cases h' with
    | held _ a => rw [hn] at a; cases a
    | made _ a' b' c' =>
      rw [b] at b'
      cases b'
    | file f' M1' L' a' b' c' d' =>
      rw [b] at b'; rw [c] at c'; rw [d] at d'
      cases b'; cases c'; cases d'
      exact ⟨rfl, rfl⟩

/-- Nothing but coefficients and azimuthal limit differs. -/
structure Alike (o o' : Obj ℝ) : Prop where
  attr : ∀ k, k ≠ .blm → k ≠ .mmax → o'.attr k = o.attr k
  ghosts : o'.ghosts = o.ghosts

theorem describes_after {env : Env ℝ} (hf : LimitFree env) {o o' : Obj ℝ} (ha : Alike o o')
    {v : Val ℝ} {M : Int} (hn : o.attr .blm = none) (hn' : o'.attr .blm = none)
    (hm : o'.attr .mmax = o.attr .mmax ∨ o'.attr .mmax = some (.int M))
    (h : Describes env o v M) : Describes env o' v M := by
  have hl : env.loadBlm o'.attr = env.loadBlm o.attr := hf _ _ ha.attr
  cases h with
  | held _ h1 => rw [hn] at h1; cases h1
  | made _ h1 h2 h3 =>
    refine .made _ hn' (hl.trans h2) ?_
    rcases hm with e | e
    · exact e.trans h3
    · exact e
  | file f M1 L h1 h2 h3 h4 =>
    have h4' := (ha.attr .lmax (by simp) (by simp)).trans h4
    rcases hm with hm | hm
    · exact .file f M1 L hn' (hl.trans h2) (hm.trans h3) h4'
    · have e := Describes.file (env := env) (v := v) f _ L hn' (hl.trans h2) hm h4'
      have : (if f < (if f < M1 then min f L else M1) then min f L
          else (if f < M1 then min f L else M1)) = if f < M1 then min f L else M1 := by
        by_cases q : f < M1
        · simp only [if_pos q]
          rw [if_neg (by omega)]
        · simp only [if_neg q]
      rw [this] at e
      exact e

theorem coarse_iff {env : Env ℝ} {o : Obj ℝ} {v : Val ℝ} {M M0 : Int} (hn : o.attr .blm = none)
    (h : Describes env o v M) (h0 : o.attr .mmax = some (.int M0)) (hc : ¬ Coarse env o) : M0 = M := by
  cases h with
  | held _ h1 => rw [hn] at h1; cases h1
  | made _ h1 h2 h3 => rw [h0] at h3; cases h3; rfl
  | file f M1 L h1 h2 h3 h4 =>
    rw [h0] at h3
    cases h3
    rw [if_neg]
    exact fun hlt => hc ⟨v, f, M0, h2, h0, hlt⟩

/-- With the limit of its coefficients a beam is not coarse. -/
theorem not_coarse {env : Env ℝ} (hf : LimitFree env) {o o' : Obj ℝ} (ha : Alike o o') {v : Val ℝ}
    {M : Int} (hn : o.attr .blm = none) (h : Describes env o v M)
    (hm : o'.attr .mmax = some (.int M)) : ¬ Coarse env o' := by
  have hl : env.loadBlm o'.attr = env.loadBlm o.attr := hf _ _ ha.attr
  rintro ⟨v', f', M', e1, e2, e3⟩
  rw [hm] at e2
  rw [hl] at e1
  cases e2
  cases h with
  | held _ h1 => rw [hn] at h1; cases h1
  | made _ h1 h2 h3 => rw [h2] at e1; cases e1
  | file f M1 L h1 h2 h3 h4 =>
    rw [h2] at e1
    cases e1
    by_cases q : f' < M1
    · rw [if_pos q] at e3
      omega
    · rw [if_neg q] at e3
      exact q e3

theorem coarse_same {env : Env ℝ} (hf : LimitFree env) {o o' : Obj ℝ} (ha : Alike o o')
    (hm : o'.attr .mmax = o.attr .mmax) (h : Coarse env o') : Coarse env o := by
  obtain ⟨v, f, M, h1, h2, h3⟩ := h
  exact ⟨v, f, M, (hf _ _ ha.attr) ▸ h1, hm ▸ h2, h3⟩

/-! ### reading attributes -/

theorem add_toNum {v e : Val ℝ} {x y : ℝ} (hv : v.toNum = some x) (he : e.toNum = some y) :
    ∃ w, v.add e = .ok w ∧ w.toNum = some (x + y) := by
  cases v <;> cases e <;> simp only [Val.toNum, Option.some.injEq, reduceCtorEq] at hv he <;>
    subst hv <;> subst he <;> refine ⟨_, rfl, ?_⟩ <;> simp [Val.toNum] <;> (try split) <;> simp

theorem readPoint_of {o : Obj ℝ} {b : Timeline.Beam} (h : PointOf o b) : readPoint o = .ok b := by
  obtain ⟨v1, d1, d2⟩ := h.dead
  obtain ⟨v2, a1, a2⟩ := h.az
  obtain ⟨v3, e1, e2⟩ := h.el
  obtain ⟨v4, v5, x, y, p1, p2, p3, p4, p5⟩ := h.polang
  obtain ⟨w, w1, w2⟩ := add_toNum p3 p4
  have hi : idxOf o = .ok b.ghostIdx := by
    have := h.number
    unfold idxOf
    by_cases hg : o.isGhost = true
    · rw [if_pos hg] at this ⊢
      rw [Obj.read, this]
      rfl
    · rw [if_neg hg] at this ⊢
      rw [this]
  have hp : polangTruth o = .ok w := by
    unfold polangTruth Obj.read
    rw [p1, p2]
    exact w1
  have r1 : o.read .dead = .ok v1 := by rw [Obj.read, d1]
  have r2 : o.read .az = .ok v2 := by rw [Obj.read, a1]
  have r3 : o.read .el = .ok v3 := by rw [Obj.read, e1]
  unfold readPoint numOf
  rw [hi, hp, r1, r2, r3]
  simp only [bind, Except.bind, pure, Except.pure, a2, e2, w2]
  rw [← d2, ← p5, ← h.ghost]

theorem readPair_of {h : Heap ℝ} {p : ObjPair} {q : Pair} (hp : PairOf h p q) :
    readPair h p = .ok q := by
  have hg : ∀ (l : List Ref) (l' : List Timeline.Beam),
      List.Forall₂ (fun g c => PointOf (h.cell g) c) l l' →
      (l.mapM fun g => readPoint (h.cell g)) = .ok l' := by
    intro l l' hl
    induction hl with
    | nil => rfl
    | cons h1 _ ih =>
      rw [List.mapM_cons, readPoint_of h1, ih]
      rfl
  have hone : ∀ r b, OneOf h r b → readOne h r = .ok b := by
    intro r b hb
    cases hb with
    | none => rfl
    | some r b hb =>
      obtain ⟨v, v1, v2⟩ := hb.polang
      have hr : (h.cell r).read .polang = .ok v := by rw [Obj.read, v1]
      unfold readOne readBin numOf
      dsimp only
      rw [readPoint_of hb.main, hg _ _ hb.ghosts, hr]
      simp only [bind, Except.bind, pure, Except.pure, v2]
  unfold readPair
  rw [hone _ _ hp.1, hone _ _ hp.2]
  rfl

theorem PointOf.alike {o o' : Obj ℝ} (ha : Alike o o') {b : Timeline.Beam} (h : PointOf o b) :
    PointOf o' b := by
  have hg := isGhost_congr (ha.attr .ghost (by simp) (by simp))
  refine ⟨?_, ?_, ?_, ?_, ?_, ?_⟩
  · rw [ha.attr _ (by simp) (by simp)]; exact h.dead
  · rw [hg]; exact h.ghost
  · rw [hg, ha.attr _ (by simp) (by simp)]; exact h.number
  · rw [ha.attr _ (by simp) (by simp)]; exact h.az
  · rw [ha.attr _ (by simp) (by simp)]; exact h.el
  · rw [ha.attr _ (by simp) (by simp), ha.attr .polangError (by simp) (by simp)]; exact h.polang

theorem PairOf.alike {h h' : Heap ℝ} (ha : ∀ x, Alike (h.cell x) (h'.cell x)) {p : ObjPair} {q : Pair}
    (hp : PairOf h p q) : PairOf h' p q := by
  have hone : ∀ r b, OneOf h r b → OneOf h' r b := by
    intro r b hb
    cases hb with
    | none => exact .none
    | some r b hb =>
      refine .some r b ⟨hb.main.alike (ha r), ?_, ?_⟩
      · rw [(ha r).ghosts]
        exact hb.ghosts.imp fun _ _ h => h.alike (ha _)
      · rw [(ha r).attr _ (by simp) (by simp)]
        exact hb.polang
  exact ⟨hone _ _ hp.1, hone _ _ hp.2⟩

theorem usedBy_alike {h h' : Heap ℝ} (ha : ∀ x, Alike (h.cell x) (h'.cell x)) (p : ObjPair) :
    usedBy h' p = usedBy h p := by
  have : ∀ r, ghostsOf h' r = ghostsOf h r := by
    intro r
    cases r with
    | none => rfl
    | some r =>
      unfold ghostsOf
      dsimp only
      rw [(ha r).ghosts]
  unfold usedBy
  rw [this, this]

theorem After.alike {S T : List Ref} {M : Ref → Int} {h h' : Heap ℝ} (ha : After S T M h h') (x : Ref) :
    Alike (h.cell x) (h'.cell x) := ⟨ha.attr x, ha.ghosts x⟩

theorem usedBy_pair {env : Env ℝ} {h : Heap ℝ} {a : Ref} {gs : List Ref} {B : Option (Ref × List Ref)}
    {v : Ref → Val ℝ} {M : Ref → Int} {sy mu : Ref → Val ℝ} (hp : PairOk env h a gs B v M sy mu) :
    usedBy h (some a, B.map Prod.fst) = a :: gs ++ B.elim [] Prod.snd := by
  unfold usedBy
  have e : ghostsOf h (some a) = gs := by
    unfold ghostsOf
    dsimp only
    rw [hp.famA.own.2.2]
    rfl
  have e' : ghostsOf h (B.map Prod.fst) = B.elim [] Prod.snd := by
    cases B with
    | none => rfl
    | some b =>
      unfold ghostsOf
      dsimp only [Option.map_some, Option.elim_some]
      rw [(hp.famB b rfl).own.2.2]
      rfl
  dsimp only
  rw [e, e']
  rfl

/-! ### other pairs -/

/-- What the preparation of a pair means for pairs. -/
theorem Prepared.after {s : ObjWorld E} {nside : Nat} {h h' : Heap ℝ} (hf : LimitFree s.env)
    {S T : List Ref} {M1 : Ref → Int} {v1 : Ref → Val ℝ} (ha : After S T M1 h h')
    (hT : ∀ x ∈ T, (h.cell x).attr .blm = none ∧ Describes s.env (h.cell x) (v1 x) (M1 x))
    {p : ObjPair} {q : Pair} {sm sm' : Spinmaps SpinDict} (hp : Prepared s nside h p q sm sm')
    (hc : ∀ a, p.1 = some a → a ∈ T → ¬ Coarse s.env (h.cell a)) :
    Prepared s nside h' p q sm sm' := by
  cases hp with
  | empty => exact .empty sm sm'
  | pair a gs B v M sy mu M0 q da da' d ok fresh mmax fewer read size main main' ghosts dict dict'
      dicts =>
    have fam : ∀ r gs, Family h r gs → Family h' r gs := fun r gs f =>
      ⟨⟨ha.size ▸ f.own.1, (isGhost_congr (ha.attr r .ghost (by simp) (by simp))).trans f.own.2.1,
        (ha.ghosts r).trans f.own.2.2⟩, (ha.attr r _ (by simp) (by simp)).trans f.count,
        fun k g hk => ⟨(isGhost_congr (ha.attr g .ghost (by simp) (by simp))).trans (f.ghost k g hk).1,
          (ha.attr g _ (by simp) (by simp)).trans (f.ghost k g hk).2⟩⟩
    have fresh' : ∀ x ∈ a :: gs ++ B.elim [] Prod.snd, (h'.cell x).attr .blm = none := by
      intro x hx
      by_cases hS : x ∈ S
      · exact ha.gone x hS
      · exact (ha.kept x hS).trans (fresh x hx)
    have desc : ∀ x ∈ a :: gs ++ B.elim [] Prod.snd, Describes s.env (h'.cell x) (v x) (M x) := by
      intro x hx
      refine describes_after hf (After.alike ha x) (fresh x hx) (fresh' x hx) ?_ (ok.blm x hx)
      by_cases hxT : x ∈ T
      · refine .inr ?_
        rw [(describes_unique (fresh x hx) (ok.blm x hx) (hT x hxT).2).2]
        exact ha.limit x hxT
      · exact .inl (ha.other x hxT)
    refine .pair a gs B v M sy mu M0 q da da' d ⟨fam _ _ ok.famA, fun b hb => fam _ _ (ok.famB b hb),
      desc, fun x hx => (ha.attr x _ (by simp) (by simp)).trans (ok.symmetric x hx),
      fun x hx => (ha.attr x _ (by simp) (by simp)).trans (ok.mueller x hx)⟩ fresh' ?_ fewer
      (PairOf.alike (After.alike ha) read) size main main' ghosts dict dict' dicts
    by_cases haT : a ∈ T
    · rw [ha.limit a haT, coarse_iff (fresh a (by simp)) (hT a haT).2 mmax (hc a rfl haT)]
    · exact (ha.other a haT).trans mmax

theorem Settled.after {s : ObjWorld E} {h h' : Heap ℝ} (hf : LimitFree s.env)
    {S T : List Ref} {M1 : Ref → Int} {v1 : Ref → Val ℝ} (ha : After S T M1 h h')
    (hT : ∀ x ∈ T, (h.cell x).attr .blm = none ∧ Describes s.env (h.cell x) (v1 x) (M1 x))
    {a : Ref} (hc : ¬ Coarse s.env (h.cell a)) : ¬ Coarse s.env (h'.cell a) := by
  by_cases haT : a ∈ T
  · exact not_coarse hf (After.alike ha a) (hT a haT).1 (hT a haT).2 (ha.limit a haT)
  · exact fun h1 => hc (coarse_same hf (After.alike ha a) (ha.other a haT) h1)

/-! ### the detectors of a pair -/

theorem readPoint_ok {o : Obj ℝ} {b : Timeline.Beam} (h : readPoint o = .ok b) :
    b.ghost = o.isGhost ∧ (∀ k : Int, o.isGhost = true → o.attr .ghostIdx = some (.int k) →
      b.ghostIdx = k) := by
  unfold readPoint at h
  obtain ⟨dead, -, h⟩ := bind_ok h
  obtain ⟨idx, hi, h⟩ := bind_ok h
  obtain ⟨_, -, h⟩ := bind_ok h
  obtain ⟨_, -, h⟩ := bind_ok h
  obtain ⟨_, -, h⟩ := bind_ok h
  obtain ⟨_, -, h⟩ := bind_ok h
  obtain ⟨_, -, h⟩ := bind_ok h
  obtain ⟨_, -, h⟩ := bind_ok h
  cases h
  refine ⟨rfl, fun k hg hk => ?_⟩
  unfold idxOf at hi
  rw [if_pos hg, Obj.read, hk] at hi
  cases hi
  rfl

theorem mapM_mem {α β : Type} {f : α → PyM β} : ∀ {l : List α} {l' : List β},
    l.mapM f = .ok l' → ∀ b ∈ l', ∃ (k : Nat) (a : α), l[k]? = some a ∧ f a = .ok b := by
  intro l
  induction l with
  | nil =>
    intro l' h b hb
    cases h
    cases hb
  | cons x l ih =>
    intro l' h b hb
    rw [List.mapM_cons] at h
    obtain ⟨y, hy, h⟩ := bind_ok h
    obtain ⟨ys, hys, h⟩ := bind_ok h
    cases h
    rcases List.mem_cons.1 hb with rfl | hb
    · exact ⟨0, x, rfl, hy⟩
    · obtain ⟨k, a, h1, h2⟩ := ih hys b hb
      exact ⟨k + 1, a, by simpa using h1, h2⟩

theorem readBin_ok {h : Heap ℝ} {r : Ref} {gs : List Ref} (hf : Family h r gs) {b : BinBeam}
    (hb : readBin h r = .ok b) : b.beam.ghost = false ∧ ∀ g ∈ b.ghosts, g.ghost = true ∧
      ∃ k : Nat, k < gs.length ∧ g.ghostIdx = k := by
  unfold readBin at hb
  obtain ⟨c, hc, hb⟩ := bind_ok hb
  obtain ⟨l, hl, hb⟩ := bind_ok hb
  obtain ⟨_, -, hb⟩ := bind_ok hb
  obtain ⟨_, -, hb⟩ := bind_ok hb
  cases hb
  refine ⟨(readPoint_ok hc).1.trans hf.own.2.1, fun g hg => ?_⟩
  rw [hf.own.2.2] at hl
  obtain ⟨k, x, h1, h2⟩ := mapM_mem hl g hg
  obtain ⟨h3, h4⟩ := hf.ghost k x h1
  refine ⟨(readPoint_ok h2).1.trans h3, k, ?_, (readPoint_ok h2).2 k h3 h4⟩
  exact (List.getElem?_eq_some_iff.1 h1).1

theorem pyGet_map {α β : Type} (l : List α) (f : α → β) (k : Nat) (hk : k < l.length) :
    pyGet (l.map f) (k : Int) = .ok (f l[k]) := by
  have e : (if (k : Int) < 0 then (k : Int) + (l.map f).length else k) = k :=
    if_neg (by omega)
  unfold pyGet
  rw [e]
  simp [hk]

theorem live_some {o : Option BinBeam} {b : BinBeam} (hb : live o = some b) : o = some b := by
  cases o with
  | none => cases hb
  | some c =>
    have hb : (if c.beam.dead = true then none else some c) = some b := hb
    by_cases hd : c.beam.dead = true
    · rw [if_pos hd] at hb
      cases hb
    · rw [if_neg hd] at hb
      exact hb

/-- The ghosts of the detectors of a pair have numbers of ghosts of A. -/
theorem ghost_numbers {env : Env ℝ} {h : Heap ℝ} {a : Ref} {gs : List Ref}
    {B : Option (Ref × List Ref)} {v : Ref → Val ℝ} {M : Ref → Int} {sy mu : Ref → Val ℝ} {q : Pair}
    (ok : PairOk env h a gs B v M sy mu) (fewer : ∀ b ∈ B, b.2.length ≤ gs.length)
    (read : readPair h (some a, B.map Prod.fst) = .ok q) {b : BinBeam}
    (hb : live q.1 = some b ∨ live q.2 = some b) :
    ∀ g ∈ b.ghosts, ∃ k : Nat, k < gs.length ∧ g.ghostIdx = k := by
  unfold readPair at read
  obtain ⟨x, hx, read⟩ := bind_ok read
  obtain ⟨y, hy, read⟩ := bind_ok read
  cases read
  intro g hg
  rcases hb with hb | hb
  · cases live_some hb
    unfold readOne at hx
    obtain ⟨ba, hba, hx⟩ := bind_ok hx
    cases hx
    exact ((readBin_ok ok.famA hba).2 g hg).2
  · have := live_some hb
    subst this
    cases B with
    | none => cases hy
    | some B =>
      unfold readOne at hy
      obtain ⟨bb, hbb, hy⟩ := bind_ok hy
      cases hy
      obtain ⟨k, h1, h2⟩ := ((readBin_ok (ok.famB B rfl) hbb).2 g hg).2
      exact ⟨k, lt_of_lt_of_le h1 (fewer B rfl), h2⟩

/-- The spin maps fit to the detectors. -/
theorem Prepared.maps {s : ObjWorld E} {nside : Nat} {h : Heap ℝ} {p : ObjPair} {q : Pair}
    {sm sm' : Spinmaps SpinDict} (hp : Prepared s nside h p q sm sm') :
    MapsOk { s.w with spinmaps := fun _ => .ok sm } nside sm q := by
  cases hp with
  | empty => exact .inl rfl
  | pair a gs B v M sy mu M0 q da da' d ok fresh mmax fewer read size main main' ghosts dict dict'
      dicts =>
    have read := readPair_of read
    unfold readPair at read
    obtain ⟨x, hx, read⟩ := bind_ok read
    obtain ⟨y, hy, read⟩ := bind_ok read
    cases read
    unfold readOne at hx
    obtain ⟨ba, hba, hx⟩ := bind_ok hx
    cases hx
    have key : ∀ r gr, Family h r gr → gr.length ≤ gs.length → ∀ b, readBin h r = .ok b →
        b.beam.ghost = false ∧ DictOk (12 * nside ^ 2) da ∧
        ∀ g ∈ b.ghosts, g.dead = false → g.ghost = true ∧
          ∃ d', pyGet (gs.map fun g => some (d g)) g.ghostIdx = .ok (some d') ∧
            DictOk (12 * nside ^ 2) d' := by
      intro r gr hfam hle b hb
      obtain ⟨h1, h2⟩ := readBin_ok hfam hb
      refine ⟨h1, dict, fun g hg _ => ?_⟩
      obtain ⟨h3, k, h4, h5⟩ := h2 g hg
      refine ⟨h3, d (gs[k]'(by omega)), ?_, dicts _ (List.getElem_mem _)⟩
      rw [h5, pyGet_map _ _ _ (by omega)]
    refine .inr ⟨ba, rfl, rfl, size, fun b hb => ?_⟩
    rcases hb with hb | hb
    · cases live_some hb
      exact key a gs ok.famA le_rfl _ hba
    · have := live_some hb
      subst this
      cases B with
      | none => cases hy
      | some B =>
        unfold readOne at hy
        obtain ⟨bb, hbb, hy⟩ := bind_ok hy
        cases hy
        exact key B.1 B.2 (ok.famB B rfl) (fewer B rfl) _ hbb

/-! ### one pass -/

/-- Preparing a pair. -/
theorem Prepared.init {s : ObjWorld E} {nside : Nat} {h : Heap ℝ} (hf : LimitFree s.env) {o : Opts}
    (hpre : o.preview = false) (hgr : o.ground = false)
    (hre : o.reuseSpinmaps = false) {p : ObjPair} {q : Pair} {sm sm' : Spinmaps SpinDict}
    (hp : Prepared s nside h p q sm sm') : ∃ h', (∀ i : Inst E, ∃ i',
        initPair s o p i h = .ok (i', h') ∧
        ScanInstrument.initPair { s.w with spinmaps := fun _ => .ok sm } o q i = .ok i') ∧
      readPair h' p = .ok q ∧ Prepared s nside h' p q sm' sm' ∧ Settled s.env h' p ∧
      ∃ (S : List Ref) (M1 : Ref → Int) (v1 : Ref → Val ℝ), After S (usedBy h p) M1 h h' ∧ ∀ x ∈ usedBy h p,
        (h.cell x).attr .blm = none ∧ Describes s.env (h.cell x) (v1 x) (M1 x) := by
  cases hp with
  | empty =>
    refine ⟨h, fun i => ⟨i, rfl, rfl⟩, rfl, .empty _ _, fun a ha => (by cases ha), [],
      fun _ => 0, fun _ => .none, ⟨rfl, fun _ => rfl, fun _ _ _ _ => rfl, by simp, fun _ _ => rfl,
      fun x hx => (by cases hx), fun _ _ => rfl⟩, fun x hx => (by cases hx)⟩
  | pair a gs B v M sy mu M0 q da da' d ok fresh mmax fewer read size main main' ghosts dict dict'
      dicts =>
    obtain ⟨h', e, ha⟩ := C117_maps s.env s.sky none s.maxSpin h a gs B v M sy mu ok M0 mmax da main d
      ghosts none rfl
    have hT : ∀ x ∈ a :: gs ++ B.elim [] Prod.snd,
        (h.cell x).attr .blm = none ∧ Describes s.env (h.cell x) (v x) (M x) :=
      fun x hx => ⟨fresh x hx, ok.blm x hx⟩
    have hread := PairOf.alike (After.alike ha) read
    refine ⟨h', fun i => ⟨{ i with
      st := { i.st with maps := ⟨da, none, gs.map fun g => some (d g)⟩ }
      hasMaps := true }, ?_, ?_⟩, readPair_of hread, ?_, ?_, ?_⟩
    · unfold initPair
      simp only [hpre, hre, hgr, Bool.and_false, Bool.false_eq_true, if_false]
      rw [e]
      rfl
    · obtain ⟨q1, q2⟩ := q
      have hq : ∃ b, q1 = some b := by
        have read := readPair_of read
        unfold readPair at read
        obtain ⟨x, hx, read⟩ := bind_ok read
        obtain ⟨y, hy, read⟩ := bind_ok read
        cases read
        unfold readOne at hx
        obtain ⟨ba, hba, hx⟩ := bind_ok hx
        cases hx
        exact ⟨_, rfl⟩
      obtain ⟨b, rfl⟩ := hq
      unfold ScanInstrument.initPair
      simp only [hpre, hre, Bool.and_false, Bool.false_eq_true, if_false, bind, Except.bind,
        pure, Except.pure]
    · obtain ⟨ok', fresh'⟩ := ok.after hf fresh ha
      exact .pair a gs B v M sy mu (M a) q da' da' d ok' fresh' (ha.limit a (by simp)) fewer hread size
        main' main' ghosts dict' dict' dicts
    · intro x hx
      cases hx
      exact not_coarse hf (After.alike ha a) (fresh a (by simp)) (ok.blm a (by simp))
        (ha.limit a (by simp))
    · rw [usedBy_pair ok]
      exact ⟨_, M, v, ha, hT⟩

/-- A pass on objects is a pass on the detectors they describe, with their own spin maps. -/
theorem Prepared.pass {s : ObjWorld E} {nside : Nat} {h : Heap ℝ} (hf : LimitFree s.env) {o : Opts}
    (hpre : o.preview = false) (hgr : o.ground = false)
    (hre : o.reuseSpinmaps = false) {p : ObjPair} {q : Pair} {sm sm' : Spinmaps SpinDict}
    (hp : Prepared s nside h p q sm sm') : ∃ h', (∀ (first : Bool) (i i' : Inst E),
        ScanInstrument.scanPass { s.w with spinmaps := fun _ => .ok sm } o first q i = .ok i' →
        scanPass s o first p (i, h) = .ok (i', h')) ∧
      Prepared s nside h' p q sm' sm' ∧ Settled s.env h' p ∧
      ∃ (S : List Ref) (M1 : Ref → Int) (v1 : Ref → Val ℝ), After S (usedBy h p) M1 h h' ∧ ∀ x ∈ usedBy h p,
        (h.cell x).attr .blm = none ∧ Describes s.env (h.cell x) (v1 x) (M1 x) := by
  obtain ⟨h', h1, h2, h3, h4, h5⟩ := hp.init hf hpre hgr hre
  refine ⟨h', fun first i i' hs => ?_, h3, h4, h5⟩
  have eR : scanPass s o first p (i, h) = (if first then .ok i else resetAll s.w i).bind fun i =>
      (initPair s o p i h).bind fun x => (readPair x.2 p).bind fun pair =>
        (scanChunks s o first pair x.1).bind fun i => .ok (i, x.2) := by
    unfold scanPass
    cases first <;> rfl
  have eL : ScanInstrument.scanPass { s.w with spinmaps := fun _ => .ok sm } o first q i =
      (if first then .ok i else resetAll s.w i).bind fun i =>
      (ScanInstrument.initPair { s.w with spinmaps := fun _ => .ok sm } o q i).bind fun i =>
        scanChunks s o first q i := by
    unfold ScanInstrument.scanPass
    cases first <;> rfl
  rw [eR]
  rw [eL] at hs
  obtain ⟨i1, e1, hs⟩ := bind_ok hs
  obtain ⟨i2, e2, hs⟩ := bind_ok hs
  obtain ⟨i3, g1, g2⟩ := h1 i1
  rw [e2] at g2
  cases g2
  rw [e1]
  simp only [Except.bind]
  rw [g1]
  simp only
  rw [h2]
  simp only
  rw [hs]

/-! ### all passes -/

theorem points_maps (w : World E) (f : BinBeam → PyM (Spinmaps SpinDict)) (M : Motion) (pre : Bool) :
    ∀ (cs : List Chunk) (e e' : E), Points w M pre e cs e' →
      Points { w with spinmaps := f } M pre e cs e'
  | [], _, _, h => h
  | _ :: cs, _, e', ⟨p, e1, h1, h2, h3⟩ => ⟨p, e1, h1, h2, points_maps w f M pre cs e1 e' h3⟩

/-- What the pair sees. -/
def objObs (s : ObjWorld E) (M : Motion) (o : Opts) (nside N : Nat) (q : ObjPair → Pair)
    (sm : ObjPair → Spinmaps SpinDict) (p : ObjPair) : List Obs :=
  (List.range N).flatMap (pairObs M s.w.x s.w.q s.w.varphi s.w.nsideOut o.ctalk
    (detects M s.w.x o.interp nside (sm p)) (q p))

/-- A pair that was prepared, and is so for good. -/
def Done (s : ObjWorld E) (nside : Nat) (q : ObjPair → Pair) (sm' : ObjPair → Spinmaps SpinDict)
    (h : Heap ℝ) (p : ObjPair) : Prop :=
  Prepared s nside h p (q p) (sm' p) (sm' p) ∧ Settled s.env h p

theorem loop_objects (s : ObjWorld E) (hf : LimitFree s.env) (hx : ExtOk s.w.x) (hq : PixOk s.w.q)
    (hns : 0 < s.w.nsideOut) (M : Motion) (o : Opts) (hbin : o.binning = true)
    (hpre : o.preview = false) (hgr : o.ground = false) (hre : o.reuseSpinmaps = false) (N : Nat)
    (mission : List Chunk) (hmi : Mission N mission)
    (r0 : Rot ℝ) (h0 : Hwp.State ℝ) (hr : Data.RotOk r0 0) (hr0 : r0.reset = r0)
    (hh0 : h0.reset = h0) (hmv : Moves s.w.fsamp M r0 h0 mission) (P : Bool → E → Prop)
    (hst : ∀ first e, P first e →
      ∃ e', Points s.w M (!first) e mission e' ∧ ∃ e'', s.w.resetEl e' = .ok e'' ∧ P false e'')
    (nside : Nat) (q : ObjPair → Pair) (sm sm' : ObjPair → Spinmaps SpinDict)
    (ps : List (Option ObjPair)) : ∀ (done : List ObjPair) (first : Bool) (i : Inst E) (h : Heap ℝ)
      (os : List Obs),
      (∀ p ∈ ps.filterMap id, Prepared s nside h p (q p) (sm p) (sm' p)) →
      Apart s.env h (ps.filterMap id) →
      (∀ p ∈ done, Done s nside q sm' h p) →
      (if first then i.rot = r0 ∧ i.hwp = h0 ∧ P true i.el
        else i.rot.reset = r0 ∧ i.hwp.reset = h0 ∧ ∃ e, s.w.resetEl i.el = .ok e ∧ P false e) →
      (i.chunks = mission.map fun c => (c, false)) →
      i.maps = mapsOf (12 * s.w.nsideOut ^ 2) os →
      ∃ i' h', scanLoop s o first ps (i, h) = .ok (i', h') ∧
        i'.maps = mapsOf (12 * s.w.nsideOut ^ 2) (os ++
          (ps.filterMap id).flatMap (objObs s M o nside N q sm)) ∧
        ∀ p ∈ done ++ ps.filterMap id, Done s nside q sm' h' p := by
  induction ps with
  | nil =>
    intro done first i h os _ _ hd _ _ hm
    exact ⟨i, h, rfl, by simpa using hm, by simpa using hd⟩
  | cons p ps ih =>
    intro done first i h os hp hap hd hstart hch hm
    have hone : ∃ e0, (if first then i.rot = r0 ∧ i.hwp = h0 ∧ i.el = e0
        else i.rot.reset = r0 ∧ i.hwp.reset = h0 ∧ s.w.resetEl i.el = .ok e0) ∧ P first e0 := by
      cases first with
      | true =>
        obtain ⟨a, b, c⟩ := hstart
        exact ⟨i.el, ⟨a, b, rfl⟩, c⟩
      | false =>
        obtain ⟨a, b, e, c, d⟩ := hstart
        exact ⟨e, ⟨a, b, c⟩, d⟩
    obtain ⟨e0, hs0, hP⟩ := hone
    obtain ⟨e', q1, e'', q2, q3⟩ := hst first e0 hP
    -- the pass
    have hpp : ∃ q0 m m', Prepared s nside h (p.getD (none, none)) q0 m m' ∧
        (∀ p', p = some p' → q0 = q p' ∧ m = sm p' ∧ m' = sm' p') ∧
        (p = none → q0 = (none, none)) := by
      cases p with
      | none => exact ⟨_, sm (none, none), sm (none, none), .empty _ _, by simp, fun _ => rfl⟩
      | some p => exact ⟨_, _, _, hp p (by simp), by simp, by simp⟩
    obtain ⟨q0, m, m', hprep, hsome, hnone⟩ := hpp
    obtain ⟨h1, g1, g2, g3, S, M1, v1, ha, hT⟩ := hprep.pass hf hpre hgr hre
    obtain ⟨i1, k1, k2, k3, k4, k5, k6⟩ := pass_spec { s.w with spinmaps := fun _ => .ok m } hq hns M o
      hbin hgr q0 _ N mission hmi
      (pairGood_scan { s.w with spinmaps := fun _ => .ok m } hx M mission o hpre hre nside m q0
        hprep.maps) first i r0 h0 e0 e' hs0 hr (points_maps _ _ _ _ _ _ _ q1) hmv hch os hm
    have hmem : ∀ p' ∈ ps.filterMap id, p' ∈ (p :: ps).filterMap id := by
      intro p' hp'
      cases p with
      | none => simpa using hp'
      | some p => exact List.mem_cons_of_mem _ (by simpa using hp')
    have hap' : Apart s.env h (ps.filterMap id) := by
      cases p with
      | none => simpa using hap
      | some p =>
        have : Apart s.env h (p :: ps.filterMap id) := by simpa using hap
        exact (List.pairwise_cons.1 this).2
    have hfirst : ∀ p' ∈ ps.filterMap id, ∀ a, p'.1 = some a → a ∈ usedBy h (p.getD (none, none)) →
        ¬ Coarse s.env (h.cell a) := by
      intro p' hp' a e1 e2
      cases p with
      | none => cases e2
      | some p =>
        have : Apart s.env h (p :: ps.filterMap id) := by simpa using hap
        exact (List.pairwise_cons.1 this).1 p' hp' a e1 e2
    obtain ⟨i2, h2, f1, f2, f3⟩ := ih (done ++ p.toList) false i1 h1 _
      (fun p' hp' => (hp p' (hmem p' hp')).after hf ha hT (hfirst p' hp'))
      (hap'.imp fun {p1 p2} hh a e1 e2 => Settled.after hf ha hT
        (hh a e1 (by rwa [usedBy_alike (After.alike ha)] at e2)))
      (fun p' hp' => by
        rcases List.mem_append.1 hp' with hp' | hp'
        · obtain ⟨c1, c2⟩ := hd p' hp'
          exact ⟨c1.after hf ha hT fun a e _ => c2 a e, fun a e => Settled.after hf ha hT (c2 a e)⟩
        · cases p with
          | none => cases hp'
          | some p =>
            obtain rfl : p' = p := by simpa using hp'
            obtain ⟨rfl, rfl, rfl⟩ := hsome p' rfl
            exact ⟨g2, g3⟩)
      ⟨k2.trans hr0, k3.trans hh0, e'', by rw [k4]; exact q2, q3⟩ (k5.trans hch) k6
    refine ⟨i2, h2, ?_, ?_, ?_⟩
    · unfold scanLoop
      rw [g1 first i i1 k1]
      exact f1
    · rw [f2, List.append_assoc]
      congr 2
      cases p with
      | none =>
        obtain rfl := hnone rfl
        have : missionObs { s.w with spinmaps := fun _ => .ok m } M o N
            (detects M s.w.x o.interp nside m) (none, none) = [] := by
          unfold missionObs
          rw [List.flatMap_eq_nil_iff]
          intro t _
          unfold pairObs
          simp [live]
        dsimp only at this ⊢
        rw [this]
        simp
      | some p =>
        obtain ⟨rfl, rfl, rfl⟩ := hsome p rfl
        simp only [List.filterMap_cons, id, List.flatMap_cons]
        rfl
    · intro p' hp'
      refine f3 p' ?_
      cases p with
      | none => simpa using hp'
      | some p => simpa using hp'

/-- All ranks, and the beam objects afterwards. -/
theorem all_objects (s : ObjWorld E) (hf : LimitFree s.env) (hx : ExtOk s.w.x) (hq : PixOk s.w.q)
    (hns : 0 < s.w.nsideOut) (M : Motion) (o : Opts) (hbin : o.binning = true)
    (hpre : o.preview = false) (hgr : o.ground = false) (hre : o.reuseSpinmaps = false) (N : Nat)
    (mission : List Chunk) (hmi : Mission N mission) (i : Inst E) (hi : Ready s.w mission i)
    (hmv : Moves s.w.fsamp M i.rot i.hwp mission) (hst : Steady s.w M mission i.el)
    (nside : Nat) (q : ObjPair → Pair) (sm sm' : ObjPair → Spinmaps SpinDict) (h : Heap ℝ)
    (beams : List ObjPair) (hp : ∀ p ∈ beams, Prepared s nside h p (q p) (sm p) (sm' p))
    (hap : Apart s.env h beams) (mpi : Bool) (size : Nat) (hsize : 0 < size)
    (hone : mpi = false → size = 1) :
    ∃ h', scanAll s o beams mpi true size (i, h) = .ok (mapsOf (12 * s.w.nsideOut ^ 2)
        (beams.flatMap (objObs s M o nside N q sm)), h') ∧ (mpi = true → h' = h) ∧
      (mpi = false → ∀ p ∈ beams, Done s nside q sm' h' p) := by
  obtain ⟨work, w1, w2, w3, -⟩ := Props.C03_every_pair_scanned_once beams size hsize
  obtain ⟨P, p1, p2⟩ := hst
  have hrot := ready_rot hi
  have hmem : ∀ l ∈ work, ∀ p ∈ l.filterMap id, p ∈ beams := by
    intro l hl p hp
    rw [← w3]
    exact List.mem_flatten.2 ⟨_, List.mem_map_of_mem hl, hp⟩
  have hapart : ∀ l ∈ work, Apart s.env h (l.filterMap id) := by
    intro l hl
    unfold Apart at hap
    rw [← w3] at hap
    exact (List.pairwise_flatten.1 hap).1 _ (List.mem_map_of_mem hl)
  have hrank : ∀ l ∈ work, ∃ i' h', scanLoop s o true l (i, h) = .ok (i', h') ∧
      i'.maps = mapsOf (12 * s.w.nsideOut ^ 2)
        ((l.filterMap id).flatMap (objObs s M o nside N q sm)) ∧
      ∀ p ∈ l.filterMap id, Done s nside q sm' h' p := by
    intro l hl
    obtain ⟨i', h', g1, g2, g3⟩ := loop_objects s hf hx hq hns M o hbin hpre hgr hre N mission hmi i.rot
      i.hwp hrot hi.rot hi.hwp hmv P p2 nside q sm sm' l [] true i h []
      (fun p hp' => hp p (hmem l hl p hp')) (hapart l hl) (by simp) ⟨rfl, rfl, p1⟩ hi.chunks
      (by rw [hi.maps, mapsOf_nil])
    exact ⟨i', h', g1, by simpa using g2, by simpa using g3⟩
  have hlist : ∀ rs : List Nat, (∀ r ∈ rs, r < size) → ∃ ys,
      rs.mapM (fun r => scanInstrument s o beams mpi true size r (i, h)) = Except.ok (ε := PyErr) ys ∧
      ys.map (·.1.maps) = ((rs.map fun r => (work[r]?).getD []).map fun l =>
        (l.filterMap id).flatMap (objObs s M o nside N q sm)).map (mapsOf (12 * s.w.nsideOut ^ 2)) ∧
      ys.length = rs.length ∧ ∀ y ∈ ys, (mpi = true → y.2 = h) ∧
        (mpi = false → ∃ r ∈ rs, ∀ p ∈ ((work[r]?).getD []).filterMap id, Done s nside q sm' y.2 p) := by
    intro rs
    induction rs with
    | nil => exact fun _ => ⟨[], rfl, rfl, rfl, by simp⟩
    | cons r rs ih =>
      intro hrs
      obtain ⟨ys, e1, e2, e3, e4⟩ := ih fun r hr => hrs r (List.mem_cons_of_mem _ hr)
      have hr := hrs r List.mem_cons_self
      have hlt : r < work.length := by omega
      have hwr := w2 r hr
      rw [List.getElem?_eq_getElem hlt] at hwr
      obtain ⟨i', h', g1, g2, g3⟩ := hrank work[r] (List.getElem_mem hlt)
      have hs : scanInstrument s o beams mpi true size r (i, h) =
          .ok (i', if (mpi && true) = true then h else h') := by
        unfold scanInstrument
        rw [← Option.some.inj hwr]
        simp only [bind, Except.bind]
        rw [g1]
        rfl
      refine ⟨(i', if (mpi && true) = true then h else h') :: ys, ?_, ?_, ?_, ?_⟩
      · rw [List.mapM_cons, hs]
        simp only [bind, Except.bind]
        rw [e1]
        rfl
      · simp only [List.map_cons, List.getElem?_eq_getElem hlt, Option.getD_some]
        rw [e2, g2]
      · simp [e3]
      · intro y hy
        rcases List.mem_cons.1 hy with rfl | hy
        · refine ⟨fun hm => by simp [hm], fun hm => ⟨r, by simp, ?_⟩⟩
          simp only [List.getElem?_eq_getElem hlt, Option.getD_some, hm, Bool.false_and,
            Bool.false_eq_true, if_false]
          exact g3
        · refine ⟨(e4 y hy).1, fun hm => ?_⟩
          obtain ⟨r', c1, c2⟩ := (e4 y hy).2 hm
          exact ⟨r', List.mem_cons_of_mem _ c1, c2⟩
  obtain ⟨ys, e1, e2, e3, e4⟩ := hlist (List.range size) fun r hr => List.mem_range.1 hr
  have hw : ((List.range size).map fun r => (work[r]?).getD []) = work := by
    apply List.ext_getElem (by simp [w1])
    intro k h1 h2
    simp [h2]
  have hl : 0 < ys.length := by rw [e3, List.length_range]; exact hsize
  refine ⟨ys[0].2, ?_, (e4 _ (List.getElem_mem hl)).1, fun hm p hpb => ?_⟩
  · have hroot : pyGet ys 0 = .ok ys[0] := by
      have := pyGet_map ys id 0 hl
      simpa using this
    unfold scanAll
    rw [e1]
    simp only [bind, Except.bind, pure, Except.pure]
    rw [hroot, e2, hw, hi.maps]
    have hlen : (allocateMaps s.w.nsideOut).length = 12 * s.w.nsideOut ^ 2 := by simp [allocateMaps]
    dsimp only
    rw [hlen, reduce_mapsOf]
    congr 3
    rw [← w3]
    simp only [List.flatMap_def, List.map_flatten, List.flatten_flatten, List.map_map]
    rfl
  · obtain ⟨r, c1, c2⟩ := (e4 _ (List.getElem_mem hl)).2 hm
    have hs1 := hone hm
    subst hs1
    obtain rfl : r = 0 := by simpa using c1
    refine c2 p ?_
    obtain ⟨l, rfl⟩ : ∃ l, work = [l] := List.length_eq_one_iff.1 w1
    rw [← w3] at hpb
    simpa using hpb

end Verif.ScanObjects
