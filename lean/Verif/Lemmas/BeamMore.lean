import Verif.Lemmas.Beam
import Verif.Spec.BeamMore

/-!
# Lemmas about pointing attributes and the life of coefficients
-/

namespace Verif.Beam

variable {K : Type} [Field K] [LinearOrder K] [FloorRing K]

omit [FloorRing K] in
theorem Val.add_num [DecidableEq K] {v w : Val K} {x y : K} (hv : IsNum v x) (hw : IsNum w y) :
    ∃ u, v.add w = .ok u ∧ IsNum u (x + y) := by
  unfold IsNum at *
  cases v <;> cases w <;> simp only [Val.toNum, Option.some.injEq, reduceCtorEq] at hv hw <;>
    subst hv hw <;> refine ⟨_, rfl, ?_⟩ <;> simp [Val.toNum]

omit [FloorRing K] in
theorem polangTruth_num {o : Obj K} {p e : K} (hp : HasNum o .polang p)
    (he : HasNum o .polangError e) : ∃ u, polangTruth o = .ok u ∧ IsNum u (p + e) := by
  obtain ⟨v, hv, hvx⟩ := hp
  obtain ⟨w, hw, hwx⟩ := he
  obtain ⟨u, hu, hux⟩ := Val.add_num hvx hwx
  refine ⟨u, ?_, hux⟩
  unfold polangTruth
  rw [read_ok hv, read_ok hw]
  exact hu

theorem getattr_same (env : Env K) (r : Ref) {k k' : Key} (h1 : k ≠ .blm) (h2 : k ≠ .mmax) :
    Keeps (Same k) (getattr env r k') := by
  unfold getattr
  split
  · exact readBlm_same env r h1 h2
  · split
    · exact fun h => Same.refl k h
    · exact fun h => Same.refl k h

theorem copyAttr_same (env : Env K) (r p : Ref) {k k' : Key} (h1 : k ≠ .blm) (h2 : k ≠ .mmax)
    (hk : k ≠ k') : Keeps (Same k) (copyAttr env r p k') :=
  Keeps.bind (R := Same k) Same.trans (getattr_same env p h1 h2)
    fun v => setattr_same env r v hk

theorem shareIdx_same (env : Env K) (r p : Ref) {k : Key} (h1 : k ≠ .blm) (h2 : k ≠ .mmax)
    (hk : k ≠ .ghostIdx) : Keeps (Same k) (shareIdx env r p) := by
  intro h
  unfold shareIdx Exec.run
  dsimp only
  split
  · exact copyAttr_same env r p h1 h2 hk h
  · exact Same.refl k h

theorem reuseBlm_same (env : Env K) (r p : Ref) {k : Key} (hk : k ∈ pointingKeys) :
    Keeps (Same k) (reuseBlm env r p) := by
  have hb : ∀ k' ∉ pointingKeys, k ≠ k' := fun k' hk' e => hk' (e ▸ hk)
  have c : ∀ k' ∉ pointingKeys, Keeps (Same k) (copyAttr env r p k') := fun k' hk' =>
    copyAttr_same env r p (hb _ (by simp [pointingKeys])) (hb _ (by simp [pointingKeys])) (hb _ hk')
  unfold reuseBlm
  refine Keeps.bind Same.trans (shareIdx_same env r p (hb _ (by simp [pointingKeys]))
    (hb _ (by simp [pointingKeys])) (hb _ (by simp [pointingKeys]))) fun _ => ?_
  refine Keeps.bind Same.trans (c _ (by simp [pointingKeys])) fun _ => ?_
  refine Keeps.bind Same.trans (c _ (by simp [pointingKeys])) fun _ => ?_
  refine Keeps.bind Same.trans (c _ (by simp [pointingKeys])) fun _ => ?_
  refine Keeps.bind Same.trans (c _ (by simp [pointingKeys])) fun _ => ?_
  exact c _ (by simp [pointingKeys])

/-- An operation changes a pointing attribute of an existing beam only by assigning it. -/
theorem after_pointing (env : Env K) {h : Heap K} (w : WF h) (op : Op K)
    (hr : ∀ x ∈ op.refs, x < h.size) {r : Ref} (hlt : r < h.size) {k : Key}
    (hk : k ∈ pointingKeys) (hop : ∀ v, op ≠ .setattr r k v) :
    ((op.after env h).cell r).attr k = (h.cell r).attr k := by
  have hb : ∀ k' ∉ pointingKeys, k ≠ k' := fun k' hk' e => hk' (e ▸ hk)
  cases op with
  | new kw =>
    simp only [Op.after, newBeam, Exec.run]
    rcases hi : init env kw with e | o
    · rfl
    · dsimp only
      rw [alloc_old _ _ hlt]
  | createGhost x tag kw =>
    have hx : x < h.size := hr x (by simp [Op.refs])
    simp only [Op.after]
    rcases hgi : (h.cell x).isGhost with _ | _
    swap
    · rw [createGhost_ghost env hgi]
    obtain ⟨gs0, h1, h2, h3, h4⟩ := w.main x hx hgi
    rw [createGhost_main env hgi h1 h2]
    rcases hm : makeGhost env (h.cell x) tag kw with e | gh
    · rfl
    dsimp only
    rw [alloc_old _ _ (by rw [heap_put_size]; exact hlt), heap_put]
    split
    · rename_i e
      subst e
      exact put_attr_ne (h.cell r) _ (hb _ (by simp [pointingKeys]))
    · rfl
  | setattr x k' v =>
    by_cases e : k = k'
    · subst e
      have hne : x ≠ r := by rintro rfl; exact hop v rfl
      simp only [Op.after]
      unfold setattr
      rw [if_neg (hb _ (by simp [pointingKeys]))]
      unfold setPlain Exec.run
      dsimp only
      rcases ho : objSet env (h.cell x) k v with e | o
      · rfl
      · dsimp only
        rw [heap_put_ne _ _ (Ne.symm hne)]
    · exact setattr_same env x v e h r
  | readBlm x =>
    exact readBlm_same env x (hb _ (by simp [pointingKeys])) (hb _ (by simp [pointingKeys])) h r
  | reuseBlm x p => exact reuseBlm_same env x p hk h r
  | deleteBlm x d => exact deleteBlm_same (hb _ (by simp [pointingKeys])) x d h r

/-- Assigning a pointing attribute. -/
theorem set_pointing (env : Env K) (h : Heap K) (r : Ref) {k : Key} (hk : k ∈ pointingKeys)
    (v : Val K) : Exec.run (setattr env r k v) h = (.ok (), h.put r ((h.cell r).put k v)) := by
  simp only [pointingKeys, List.mem_cons, List.not_mem_nil, or_false] at hk
  rcases hk with rfl | rfl | rfl | rfl <;>
    simp [setattr, setPlain, Exec.run, objSet]

omit [LinearOrder K] [FloorRing K] in
theorem arg_pointing {kw : Dict K} [LinearOrder K]
    (hkw : ∀ k ∈ pointingKeys, ∀ v, Dict.get? kw k = some v → ∃ x, IsNum v x)
    {k : Key} (hk : k ∈ pointingKeys) : ∃ x, IsNum (arg kw k) x := by
  unfold arg
  rcases he : Dict.get? kw k with _ | v
  · simp only [pointingKeys, List.mem_cons, List.not_mem_nil, or_false] at hk
    rcases hk with rfl | rfl | rfl | rfl <;> exact ⟨0, rfl⟩
  · exact hkw k hk v he

/-- The ghost `create_ghost` makes: its pointing attributes are those given, or the parent's. -/
theorem ghost_pointing (env : Env K) {h : Heap K} (w : WF h) {r : Ref} (hlt : r < h.size)
    {tag : Option String} {kw : Dict K}
    (hok : (Exec.run (createGhost env r tag kw) h).1 = .ok ()) {k : Key} (hk : k ∈ pointingKeys) :
    (Exec.run (createGhost env r tag kw) h).2.size = h.size + 1 ∧
    ((Exec.run (createGhost env r tag kw) h).2.cell h.size).attr k =
      (Dict.get? kw k).or ((h.cell r).attr k) := by
  have hin' : k ∈ inheritedKeys ∧ k ∈ plainKeys ∧ k ≠ .ghostIdx := by
    simp only [pointingKeys, List.mem_cons, List.not_mem_nil, or_false] at hk
    rcases hk with rfl | rfl | rfl | rfl <;> simp [inheritedKeys, plainKeys]
  rcases hgi : (h.cell r).isGhost with _ | _
  swap
  · rw [createGhost_ghost env hgi] at hok
    cases hok
  obtain ⟨gs, h1, h2, h3, h4⟩ := w.main r hlt hgi
  rw [createGhost_main env hgi h1 h2] at hok ⊢
  rcases hm : makeGhost env (h.cell r) tag kw with e | g <;> rw [hm] at hok
  · cases hok
  obtain ⟨pn, nm, opts, _, _, ho, hin⟩ := makeGhost_init env hm
  dsimp only
  refine ⟨rfl, ?_⟩
  have hcell := alloc_new (h.put r { (h.cell r).put .ghostCount (.int (gs.length + 1)) with
    ghosts := some (gs ++ [h.size]) }) (g.put .ghostIdx (.int gs.length))
  rw [heap_put_size] at hcell
  rw [hcell, put_attr_ne _ _ hin'.2.2, (init_spec env hin).1 k hin'.2.1]
  exact ghost_arg kw ho k hin'.1 (w.keys r hlt k (by simp [beamKeys, hin'.2.1]))

/-- An operation leaves the set of objects or adds one at the end. -/
theorem after_size (env : Env K) {h : Heap K} (w : WF h) (op : Op K) (hp : NoCountAssign op)
    (hr : ∀ x ∈ op.refs, x < h.size) :
    (op.after env h).size = h.size ∨
    ((op.after env h).size = h.size + 1 ∧
      ((∃ kw o, op = .new kw ∧ init env kw = .ok o ∧ (op.after env h).cell h.size = o) ∨
       ∃ r tag kw, op = .createGhost r tag kw ∧
        (Exec.run (createGhost env r tag kw) h).1 = .ok ())) := by
  cases op with
  | new kw =>
    simp only [Op.after, newBeam, Exec.run]
    rcases hi : init env kw with e | o
    · exact .inl rfl
    · exact .inr ⟨rfl, .inl ⟨kw, o, rfl, hi, alloc_new h o⟩⟩
  | createGhost x tag kw =>
    have hx : x < h.size := hr x (by simp [Op.refs])
    simp only [Op.after]
    rcases hgi : (h.cell x).isGhost with _ | _
    swap
    · rw [createGhost_ghost env hgi]; exact .inl rfl
    obtain ⟨gs0, h1, h2, h3, h4⟩ := w.main x hx hgi
    have hm' := createGhost_main env hgi h1 h2 tag kw
    rcases hm : makeGhost env (h.cell x) tag kw with e | gh <;> rw [hm] at hm'
    · rw [hm']; exact .inl rfl
    · refine .inr ⟨by rw [hm']; rfl, .inr ⟨x, tag, kw, rfl, by rw [hm']⟩⟩
  | setattr x k v => exact .inl (setattr_mild env x v hp h).size
  | readBlm x => exact .inl (readBlm_mild env x h).size
  | reuseBlm x p => exact .inl (reuseBlm_mild env x p h).size
  | deleteBlm x d => exact .inl (deleteBlm_mild x d h).size

/-- In every state reached with numbers as pointing, the pointing of every beam is numbers. -/
theorem Reachable.pointing {env : Env K} {h : Heap K} (hr : Reachable env AngleOp h) :
    ∀ r < h.size, ∀ k ∈ pointingKeys, ∃ x, HasNum (h.cell r) k x := by
  induction hr with
  | start => intro r hr; simp [emptyHeap] at hr
  | @step h op hprev hp hrf ih =>
    have w : WF h := hprev.wf fun _ h => h.1
    intro r hlt k hk
    by_cases hold : r < h.size
    · by_cases hs : ∃ v, op = .setattr r k v
      · obtain ⟨v, rfl⟩ := hs
        obtain ⟨x, hx⟩ := hp.2 hk
        simp only [Op.after]
        rw [set_pointing env h r hk v]
        dsimp only
        rw [heap_put, if_pos rfl]
        refine ⟨x, v, ?_, hx⟩
        rw [put_attr, if_pos rfl]
      · obtain ⟨x, v, hv, hx⟩ := ih r hold k hk
        exact ⟨x, v, (after_pointing env w op hrf hold hk fun v e => hs ⟨v, e⟩).trans hv, hx⟩
    · rcases after_size env w op hp.1 hrf with hsz | ⟨hsz, ⟨kw, o, rfl, hi, hc⟩ | ⟨x, tag, kw, rfl, hok⟩⟩
      · omega
      · have e : r = h.size := by omega
        subst e
        rw [hc]
        obtain ⟨x, hx⟩ := arg_pointing hp.2 hk
        refine ⟨x, _, (init_spec env hi).1 k ?_, hx⟩
        simp only [pointingKeys, List.mem_cons, List.not_mem_nil, or_false] at hk
        rcases hk with rfl | rfl | rfl | rfl <;> simp [plainKeys]
      · have e : r = h.size := by omega
        subst e
        have hx : x < h.size := hrf x (by simp [Op.refs])
        have hg := (ghost_pointing env w hx hok hk).2
        simp only [Op.after]
        unfold HasNum
        rw [hg]
        rcases he : Dict.get? kw k with _ | v
        · exact ih x hx k hk
        · obtain ⟨y, hy⟩ := hp.2 k hk v he
          exact ⟨y, v, rfl, hy⟩

/-! ### coefficients -/

omit [Field K] [LinearOrder K] [FloorRing K] in
theorem dropAll_attr (gs : List Ref) (h : Heap K) (x : Ref) (k : Key) :
    (((gs.foldl (fun h g => dropBlm g h) h).cell x).attr k =
      if x ∈ gs ∧ k = .blm then none else (h.cell x).attr k) ∧
    ((gs.foldl (fun h g => dropBlm g h) h).cell x).ghosts = (h.cell x).ghosts ∧
    (gs.foldl (fun h g => dropBlm g h) h).size = h.size := by
  induction gs generalizing h with
  | nil => simp
  | cons g gs ih =>
    obtain ⟨a, b, c⟩ := ih (dropBlm g h)
    rw [List.foldl_cons, a, b, c]
    unfold dropBlm
    rw [heap_put, heap_put_size]
    by_cases hx : x = g
    · subst hx
      by_cases hk : k = .blm
      · simp [hk]
      · simp [hk]
    · simp [hx]

omit [Field K] [LinearOrder K] [FloorRing K] in
theorem deleteBlm_attr {h : Heap K} {r : Ref} {gs : List Ref} (hg : (h.cell r).ghosts = some gs)
    (d : Bool) (x : Ref) (k : Key) :
    (Exec.run (deleteBlm r d) h).1 = .ok () ∧
    ((Exec.run (deleteBlm r d) h).2.cell x).attr k =
      if k = .blm ∧ (x = r ∨ d = true ∧ x ∈ gs) then none else (h.cell x).attr k := by
  have hg' : ((dropBlm r h).cell r).ghosts = some gs := by
    unfold dropBlm
    rw [heap_put, if_pos rfl]
    exact hg
  have h0 : ((dropBlm r h).cell x).attr k =
      if k = .blm ∧ x = r then none else (h.cell x).attr k := by
    unfold dropBlm
    rw [heap_put]
    by_cases hx : x = r
    · subst hx
      by_cases hk : k = .blm
      · simp [hk]
      · simp [hk]
    · simp [hx]
  unfold deleteBlm Exec.run
  dsimp only
  rw [hg']
  refine ⟨rfl, ?_⟩
  dsimp only
  cases d with
  | false => simp [h0]
  | true =>
    rw [if_pos rfl, (dropAll_attr gs (dropBlm r h) x k).1, h0]
    by_cases h1 : k = .blm <;> by_cases h2 : x = r <;> by_cases h3 : x ∈ gs <;> simp [h1, h2, h3]

/-- The coefficients of `r`, if they are there, are the same afterwards. -/
def Kept (r : Ref) (v : Val K) (h h' : Heap K) : Prop :=
  (h.cell r).attr .blm = some v → (h'.cell r).attr .blm = some v

omit [Field K] [LinearOrder K] [FloorRing K] in
theorem Kept.trans {r : Ref} {v : Val K} (a b c : Heap K) (h : Kept r v a b) (h' : Kept r v b c) :
    Kept r v a c := fun x => h' (h x)

omit [FloorRing K] in
theorem loaded_kept (env : Env K) {o : Obj K} {v : Val K} (hv : o.attr .blm = some v) :
    loaded env o = .ok (v, o) := by
  unfold loaded
  rw [hv]

omit [FloorRing K] in
theorem readBlm_kept (env : Env K) (r x : Ref) (v : Val K) : Keeps (Kept r v) (readBlm env x) := by
  intro h hv
  unfold readBlm Exec.run
  dsimp only
  by_cases hx : r = x
  · subst hx
    rw [loaded_kept env hv]
    dsimp only
    rw [heap_put, if_pos rfl]
    exact hv
  · rcases hl : loaded env (h.cell x) with e | ⟨u, o⟩
    · exact hv
    · dsimp only
      rw [heap_put_ne _ _ hx]
      exact hv

theorem setattr_kept (env : Env K) (r x : Ref) (v : Val K) (k : Key) (u : Val K)
    (hx : ¬ (x = r ∧ k = .blm)) : Keeps (Kept r v) (setattr env x k u) := by
  intro h hv
  by_cases hk : k = .blm
  · subst hk
    have hne : r ≠ x := fun e => hx ⟨e.symm, rfl⟩
    have : Exec.run (setattr env x .blm u) h = (.ok (), h.put x ((h.cell x).put .blm u)) := by
      simp [setattr, setPlain, Exec.run, objSet]
    rw [this]
    dsimp only
    rw [heap_put_ne _ _ hne]
    exact hv
  · exact (setattr_same env x u (Ne.symm hk) h r).trans hv

theorem copyAttr_kept (env : Env K) (r x p : Ref) (v : Val K) (k : Key) (hx : x ≠ r) :
    Keeps (Kept r v) (copyAttr env x p k) := by
  refine Keeps.bind (R := Kept r v) Kept.trans ?_ fun u =>
    setattr_kept env r x v k u fun h => hx h.1
  unfold getattr
  split
  · exact readBlm_kept env r p v
  · split
    · exact fun h hv => hv
    · exact fun h hv => hv

theorem reuseBlm_kept (env : Env K) (r x p : Ref) (v : Val K) (hx : x ≠ r) :
    Keeps (Kept r v) (reuseBlm env x p) := by
  have c := fun k => copyAttr_kept env r x p v k hx
  unfold reuseBlm
  refine Keeps.bind (R := Kept r v) Kept.trans ?_ fun _ => ?_
  · intro h
    unfold shareIdx Exec.run
    dsimp only
    split
    · exact c _ h
    · exact fun hv => hv
  refine Keeps.bind Kept.trans (c _) fun _ => ?_
  refine Keeps.bind Kept.trans (c _) fun _ => ?_
  refine Keeps.bind Kept.trans (c _) fun _ => ?_
  refine Keeps.bind Kept.trans (c _) fun _ => ?_
  exact c _

theorem after_kept (env : Env K) {h : Heap K} (w : WF h) (op : Op K)
    (hr : ∀ x ∈ op.refs, x < h.size) {r : Ref} (hlt : r < h.size) (hop : LeavesBlm r h op)
    (v : Val K) : Kept r v h (op.after env h) := by
  intro hv
  cases op with
  | new kw =>
    simp only [Op.after, newBeam, Exec.run]
    rcases hi : init env kw with e | o
    · exact hv
    · dsimp only
      rw [alloc_old _ _ hlt]
      exact hv
  | createGhost x tag kw =>
    have hx : x < h.size := hr x (by simp [Op.refs])
    simp only [Op.after]
    rcases hgi : (h.cell x).isGhost with _ | _
    swap
    · rw [createGhost_ghost env hgi]; exact hv
    obtain ⟨gs0, h1, h2, h3, h4⟩ := w.main x hx hgi
    rw [createGhost_main env hgi h1 h2]
    rcases hm : makeGhost env (h.cell x) tag kw with e | gh
    · exact hv
    dsimp only
    rw [alloc_old _ _ (by rw [heap_put_size]; exact hlt), heap_put]
    split
    · rename_i e
      subst e
      exact (put_attr_ne (h.cell r) (k := .ghostCount) (.int (gs0.length + 1)) (by simp)).trans hv
    · exact hv
  | setattr x k u => exact setattr_kept env r x v k u hop.2 h hv
  | readBlm x => exact readBlm_kept env r x v h hv
  | reuseBlm x p => exact reuseBlm_kept env r x p v hop.2 h hv
  | deleteBlm x d =>
    have hx : x < h.size := hr x (by simp [Op.refs])
    simp only [Op.after]
    rcases hg : (h.cell x).ghosts with _ | gs
    · have hd : ((dropBlm x h).cell x).ghosts = none := by
        unfold dropBlm
        rw [heap_put, if_pos rfl]
        exact hg
      unfold deleteBlm Exec.run
      dsimp only
      rw [hd]
      dsimp only
      unfold dropBlm
      rw [heap_put_ne _ _ (Ne.symm hop.2.1)]
      exact hv
    · rw [(deleteBlm_attr hg d r .blm).2, if_neg]
      · exact hv
      · rintro ⟨-, e | ⟨hd, hm⟩⟩
        · exact hop.2.1 e.symm
        · exact hop.2.2 hd gs hg hm

end Verif.Beam
