import Mathlib.Tactic.NormNum
import Verif.Lemmas.BeamMore

/-!
# C94-C95: true detector angles; the life of beam coefficients
-/

namespace Verif.Beam

variable {K : Type} [Field K] [LinearOrder K] [FloorRing K]

/-! ## C94 -/

/-- After any history of operations in which pointing is given as numbers: every beam or ghost has
an azimuth, an elevation, an angle `p` and an angle error `e`; `polang_truth` is `p + e`, reading it
changes nothing, and `get_offsets` returns azimuth, elevation and `p + e`, in this order. -/
theorem C94_truth (env : Env K) (h : Heap K) (hr : Reachable env AngleOp h) (r : Ref)
    (hlt : r < h.size) :
    ∃ (a e p : Val K) (x y z d : K),
      (h.cell r).attr .az = some a ∧ IsNum a x ∧
      (h.cell r).attr .el = some e ∧ IsNum e y ∧
      HasNum (h.cell r) .polang z ∧ HasNum (h.cell r) .polangError d ∧
      IsNum p (z + d) ∧ Exec.run (getattr env r .polangTruth) h = (.ok p, h) ∧
      getOffsets (h.cell r) = .ok (a, e, p) := by
  have hp := hr.pointing r hlt
  obtain ⟨x, a, ha, hax⟩ := hp .az (by simp [pointingKeys])
  obtain ⟨y, e, he, hey⟩ := hp .el (by simp [pointingKeys])
  obtain ⟨z, hz⟩ := hp .polang (by simp [pointingKeys])
  obtain ⟨d, hd⟩ := hp .polangError (by simp [pointingKeys])
  obtain ⟨p, hpt, hpn⟩ := polangTruth_num hz hd
  refine ⟨a, e, p, x, y, z, d, ha, hax, he, hey, hz, hd, hpn, ?_, ?_⟩
  · simp [getattr, getPolangTruth, Exec.run, hpt]
  · unfold getOffsets
    rw [read_ok ha, read_ok he, hpt]
    rfl

/-- Assigning `polang` replaces the angle and keeps the error, assigning `polang_error` the
converse: `polang_truth` follows. -/
theorem C94_assign (env : Env K) (h : Heap K) (r : Ref) (z d : K)
    (hz : HasNum (h.cell r) .polang z) (hd : HasNum (h.cell r) .polangError d) (v : Val K) (x : K)
    (hv : IsNum v x) :
    (∃ p, (Exec.run (getattr env r .polangTruth)
        (Exec.run (setattr env r .polang v) h).2).1 = .ok p ∧ IsNum p (x + d)) ∧
    (∃ p, (Exec.run (getattr env r .polangTruth)
        (Exec.run (setattr env r .polangError v) h).2).1 = .ok p ∧ IsNum p (z + x)) := by
  constructor
  · rw [set_pointing env h r (by simp [pointingKeys]) v]
    obtain ⟨p, hp, hpn⟩ := polangTruth_num (o := (h.cell r).put .polang v) (p := x) (e := d)
      ⟨v, by rw [put_attr, if_pos rfl], hv⟩
      (by obtain ⟨u, hu, hux⟩ := hd; exact ⟨u, (put_attr_ne _ _ (by simp)).trans hu, hux⟩)
    refine ⟨p, ?_, hpn⟩
    simp [getattr, getPolangTruth, Exec.run, heap_put, hp]
  · rw [set_pointing env h r (by simp [pointingKeys]) v]
    obtain ⟨p, hp, hpn⟩ := polangTruth_num (o := (h.cell r).put .polangError v) (p := z) (e := x)
      (by obtain ⟨u, hu, hux⟩ := hz; exact ⟨u, (put_attr_ne _ _ (by simp)).trans hu, hux⟩)
      ⟨v, by rw [put_attr, if_pos rfl], hv⟩
    refine ⟨p, ?_, hpn⟩
    simp [getattr, getPolangTruth, Exec.run, heap_put, hp]

/-- Nothing but an assignment to `polang` or `polang_error` of a beam changes its `polang_truth`:
not copying or deleting coefficients, making ghosts, or assigning anything to other beams. -/
theorem C94_kept (env : Env K) (h : Heap K) (hr : Reachable env NoCountAssign h) (op : Op K)
    (hrf : ∀ x ∈ op.refs, x < h.size) (r : Ref) (hlt : r < h.size)
    (hop : ∀ v, op ≠ .setattr r .polang v ∧ op ≠ .setattr r .polangError v) :
    (Exec.run (getattr env r .polangTruth) (op.after env h)).1 =
      (Exec.run (getattr env r .polangTruth) h).1 := by
  have w := hr.wf fun _ h => h
  have h1 := after_pointing env w op hrf hlt (k := .polang) (by simp [pointingKeys])
    fun v => (hop v).1
  have h2 := after_pointing env w op hrf hlt (k := .polangError) (by simp [pointingKeys])
    fun v => (hop v).2
  simp only [getattr, getPolangTruth, Exec.run, reduceCtorEq, if_false, if_true]
  unfold polangTruth Obj.read
  rw [h1, h2]

/-- A new beam has the angles it was given (0 if not given); a new ghost those it was given or else
those of its parent, so without options the same `polang_truth`. -/
theorem C94_created (env : Env K) (h : Heap K) (hr : Reachable env NoCountAssign h) :
    (∀ kw r, (Exec.run (newBeam env kw) h).1 = .ok r → ∀ k ∈ pointingKeys,
      ((Exec.run (newBeam env kw) h).2.cell r).attr k =
        some ((Dict.get? kw k).getD (.num 0))) ∧
    (∀ r tag kw, r < h.size → (Exec.run (createGhost env r tag kw) h).1 = .ok () →
      ∀ k ∈ pointingKeys,
      ((Exec.run (createGhost env r tag kw) h).2.cell h.size).attr k =
        (Dict.get? kw k).or ((h.cell r).attr k)) := by
  have w := hr.wf fun _ h => h
  refine ⟨fun kw r hok k hk => ?_, fun r tag kw hlt hok k hk => (ghost_pointing env w hlt hok hk).2⟩
  simp only [newBeam, Exec.run] at hok ⊢
  rcases hi : init env kw with e | o <;> rw [hi] at hok
  · cases hok
  · cases hok
    dsimp only
    rw [alloc_new]
    simp only [pointingKeys, List.mem_cons, List.not_mem_nil, or_false] at hk
    rcases hk with rfl | rfl | rfl | rfl <;>
      rw [(init_spec env hi).1 _ (by simp [plainKeys])] <;> unfold arg <;>
      rcases Dict.get? kw _ with _ | v <;> rfl

/-- A loader for examples: the coefficients are an object numbered by the type of beam. -/
def moreEnv : Env ℚ :=
  { pi := 22 / 7, loadBlm := fun a => .ok (.obj (if a .btype = some (.str "Gaussian") then 1 else 2),
      none) }

/-- A beam at 3 degrees with an error of 1/2, a ghost of it, and a new angle for the beam. -/
def angleOps : List (Op ℚ) :=
  [.new [(.polang, .int 3), (.polangError, .num (1 / 2)), (.az, .num 7)],
   .createGhost 0 (some "g") [(.el, .int 2)],
   .setattr 0 .polang (.num 10)]

example : (Exec.run (getattr moreEnv 0 .polangTruth)
      (angleOps.foldl (fun h op => op.after moreEnv h) emptyHeap)).1 = .ok (.num (21 / 2)) ∧
    getOffsets ((angleOps.foldl (fun h op => op.after moreEnv h) emptyHeap).cell 1) =
      .ok (.num 7, .int 2, .num (7 / 2)) := by decide +kernel

example : ∀ op ∈ angleOps, AngleOp op := by
  intro op hop
  simp only [angleOps, List.mem_cons, List.not_mem_nil, or_false] at hop
  rcases hop with rfl | rfl | rfl
  · refine ⟨trivial, fun k hk v hv => ?_⟩
    simp only [pointingKeys, List.mem_cons, List.not_mem_nil, or_false] at hk
    rcases hk with rfl | rfl | rfl | rfl <;> cases hv <;> exact ⟨_, rfl⟩
  · refine ⟨trivial, fun k hk v hv => ?_⟩
    simp only [pointingKeys, List.mem_cons, List.not_mem_nil, or_false] at hk
    rcases hk with rfl | rfl | rfl | rfl <;> cases hv <;> exact ⟨_, rfl⟩
  · exact ⟨by simp [NoCountAssign], fun _ => ⟨_, rfl⟩⟩

/-! ## C95 -/

/-- Coefficients are made when they are first looked at, from the attributes of that moment, and
then kept: whatever is done afterwards (other widths, other band limits, another type of beam, work
on other beams, failed calls), as long as the coefficients of this beam are not assigned, copied
over or deleted, looking at them again gives the same value and does not call the loader. -/
theorem C95_cached (env env' : Env K) (h h' : Heap K) (hr : Reachable env NoCountAssign h) (r : Ref)
    (hlt : r < h.size) (v : Val K) (hv : (Exec.run (readBlm env r) h).1 = .ok v)
    (hrun : Run env (LeavesBlm r) (Exec.run (readBlm env r) h).2 h') :
    ((h.cell r).attr .blm = none → ∃ m, env.loadBlm (h.cell r).attr = .ok (v, m)) ∧
    (Exec.run (readBlm env' r) h').1 = .ok v := by
  have first : ((h.cell r).attr .blm = none → ∃ m, env.loadBlm (h.cell r).attr = .ok (v, m)) ∧
      ((Exec.run (readBlm env r) h).2.cell r).attr .blm = some v := by
    unfold readBlm Exec.run at hv ⊢
    dsimp only at hv ⊢
    rcases hl : loaded env (h.cell r) with e | ⟨u, o⟩ <;> rw [hl] at hv
    · cases hv
    · cases hv
      dsimp only
      rw [heap_put, if_pos rfl]
      unfold loaded at hl
      split at hl
      · rename_i hb
        cases hl
        refine ⟨fun e => ?_, hb⟩
        rw [hb] at e
        cases e
      · rename_i hb
        rcases he : env.loadBlm (h.cell r).attr with e | ⟨v', m⟩ <;> rw [he] at hl
        · cases hl
        simp only [bind, Except.bind, pure, Except.pure] at hl
        have hp : ∀ o : Obj K, (o.put .blm v').attr .blm = some v' := fun o => by
          rw [put_attr, if_pos rfl]
        split at hl
        · cases hl; exact ⟨fun _ => ⟨_, rfl⟩, hp _⟩
        · rcases hm : (h.cell r).read .mmax with e | mm <;> rw [hm] at hl
          · cases hl
          dsimp only at hl
          split at hl
          · cases hl
          · split at hl
            · split at hl
              · cases hl
              · cases hl; exact ⟨fun _ => ⟨_, rfl⟩, hp _⟩
            · cases hl; exact ⟨fun _ => ⟨_, rfl⟩, hp _⟩
  have hall : Reachable env NoCountAssign h' ∧ r < h'.size ∧ (h'.cell r).attr .blm = some v := by
    generalize hg : (Exec.run (readBlm env r) h).2 = h1 at hrun
    induction hrun with
    | refl =>
      rw [← hg]
      refine ⟨hr.step (.readBlm r) trivial (by simpa [Op.refs] using hlt), ?_, first.2⟩
      rw [(readBlm_mild env r h).size]
      exact hlt
    | @step h2 op hprev hop hrf ih =>
      obtain ⟨a, b, c⟩ := ih
      have w := a.wf fun _ h => h
      refine ⟨a.step op hop.1 hrf, ?_, after_kept env w op hrf b hop v c⟩
      rcases after_size env w op hop.1 hrf with e | ⟨e, -⟩ <;> rw [e]
      · exact b
      · exact Nat.lt_succ_of_lt b
  refine ⟨first.1, ?_⟩
  unfold readBlm Exec.run
  dsimp only
  rw [loaded_kept env' hall.2.2]

/-- `delete_blm()` on a main beam removes its coefficients and those of all its ghosts; with
`del_ghosts_blm=False` only its own.  No other attribute and no other beam is touched.  Missing: ghosts, where it
raises AttributeError (`C95_violation_ghost`). -/
theorem C95_deleted_partial (h : Heap K) (r : Ref) (gs : List Ref) (hg : HasGhosts h r gs) (d : Bool) :
    (Exec.run (deleteBlm r d) h).1 = .ok () ∧
    (∀ x, x = r ∨ d = true ∧ x ∈ gs →
      ((Exec.run (deleteBlm r d) h).2.cell x).attr .blm = none) ∧
    (∀ x, ¬ (x = r ∨ d = true ∧ x ∈ gs) →
      ((Exec.run (deleteBlm r d) h).2.cell x).attr .blm = (h.cell x).attr .blm) ∧
    (∀ x k, k ≠ .blm → ((Exec.run (deleteBlm r d) h).2.cell x).attr k = (h.cell x).attr k) := by
  have key := deleteBlm_attr hg.2.2 d
  refine ⟨(key r .blm).1, fun x hx => ?_, fun x hx => ?_, fun x k hk => ?_⟩
  · rw [(key x .blm).2, if_pos ⟨rfl, hx⟩]
  · rw [(key x .blm).2, if_neg fun h => hx h.2]
  · rw [(key x k).2, if_neg fun h => hk h.1]

/-- After deletion the next look makes the coefficients anew, from the attributes of then. -/
theorem C95_renewed (env : Env K) (h : Heap K) (r : Ref) (hn : (h.cell r).attr .blm = none)
    (v : Val K) (hl : env.loadBlm (h.cell r).attr = .ok (v, none)) :
    (Exec.run (readBlm env r) h).1 = .ok v := by
  unfold readBlm Exec.run loaded
  dsimp only
  rw [hn, hl]
  rfl

/-- `r.reuse_blm(p)`, if it succeeds, leaves `r` with exactly the coefficients of `p`. -/
theorem C95_reused (env : Env K) (h : Heap K) (r p : Ref) (v : Val K)
    (hp : (h.cell p).attr .blm = some v) (hok : (Exec.run (reuseBlm env r p) h).1 = .ok ()) :
    ((Exec.run (reuseBlm env r p) h).2.cell r).attr .blm = some v := by
  -- the first two steps: `ghost_idx`, then the coefficients themselves
  have hidx : Kept p v h (Exec.run (shareIdx env r p) h).2 := by
    unfold shareIdx Exec.run
    dsimp only
    split
    · have := Keeps.bind (R := Kept p v) Kept.trans (x := getattr env p .ghostIdx)
        (f := fun i => setattr env r .ghostIdx i) (fun s hv => by simpa [getattr, getPlain, Exec.run])
        (fun u => setattr_kept env p r v .ghostIdx u (by simp))
      exact this h
    · exact fun hv => hv
  have hcopy : ∀ (k : Key), k ≠ .blm → Keeps (Kept r v) (copyAttr env r p k) := fun k hk =>
    Keeps.bind (R := Kept r v) Kept.trans
      (fun s hv => by
        unfold getattr
        rw [if_neg hk]
        split
        · simpa [getPolangTruth, Exec.run] using hv
        · simpa [getPlain, Exec.run] using hv)
      fun u => setattr_kept env r r v k u fun h => hk h.2
  unfold reuseBlm at hok ⊢
  rcases h1 : Exec.run (shareIdx env r p) h with ⟨e | u, s⟩
  · rw [Exec.run_bind_error h1] at hok
    cases hok
  rw [Exec.run_bind_ok h1] at hok ⊢
  rw [h1] at hidx
  have hps := hidx hp
  dsimp only at hps
  have h2 : Exec.run (copyAttr env r p .blm) s =
      (.ok (), (s.put p (s.cell p)).put r (((s.put p (s.cell p)).cell r).put .blm v)) := by
    have hg : Exec.run (getattr env p .blm) s = (.ok v, s.put p (s.cell p)) := by
      simp only [getattr, if_true, readBlm, Exec.run]
      rw [loaded_kept env hps]
    unfold copyAttr
    rw [Exec.run_bind_ok hg]
    simp [setattr, setPlain, Exec.run, objSet]
  rw [Exec.run_bind_ok h2] at hok ⊢
  refine (Keeps.bind (R := Kept r v) Kept.trans (hcopy _ (by simp)) fun _ =>
    Keeps.bind (R := Kept r v) Kept.trans (hcopy _ (by simp)) fun _ =>
    Keeps.bind (R := Kept r v) Kept.trans (hcopy _ (by simp)) fun _ =>
    hcopy _ (by simp)) _ ?_
  rw [heap_put, if_pos rfl, put_attr, if_pos rfl]

/-- On a ghost `delete_blm` always raises AttributeError (a ghost has no list of ghosts), after
its coefficients have been removed. -/
theorem C95_violation_ghost (env : Env K) (h : Heap K) (hr : Reachable env NoCountAssign h)
    (r : Ref) (hlt : r < h.size) (hg : (h.cell r).isGhost = true) (d : Bool) :
    (Exec.run (deleteBlm r d) h).1 = .error .attributeError ∧
    ((Exec.run (deleteBlm r d) h).2.cell r).attr .blm = none := by
  have w := hr.wf fun _ h => h
  have hn := (w.ghost r hlt hg).1
  have hd : ((dropBlm r h).cell r).ghosts = none := by
    unfold dropBlm
    rw [heap_put, if_pos rfl]
    exact hn
  unfold deleteBlm Exec.run
  dsimp only
  rw [hd]
  refine ⟨rfl, ?_⟩
  dsimp only
  unfold dropBlm
  rw [heap_put, if_pos rfl]
  simp

/-- Coefficients are looked at, the type of beam is changed: the coefficients are still the old
ones; after `delete_blm` they are new, for the beam and its ghost. -/
def blmOps : List (Op ℚ) :=
  [.new [], .createGhost 0 none [], .readBlm 0, .readBlm 1, .setattr 0 .btype (.str "EG"),
   .setattr 1 .btype (.str "EG")]

/-- State after a list of operations, for examples. -/
def more (ops : List (Op ℚ)) : Heap ℚ := ops.foldl (fun h op => op.after moreEnv h) emptyHeap

example : (Exec.run (readBlm moreEnv 0) (more blmOps)).1 = .ok (.obj 1) ∧
    (Exec.run (readBlm moreEnv 1) (more blmOps)).1 = .ok (.obj 1) ∧
    (Exec.run (readBlm moreEnv 0) (more (blmOps ++ [.deleteBlm 0 true]))).1 = .ok (.obj 2) ∧
    (Exec.run (readBlm moreEnv 1) (more (blmOps ++ [.deleteBlm 0 true]))).1 = .ok (.obj 2) ∧
    (Exec.run (readBlm moreEnv 1) (more (blmOps ++ [.deleteBlm 0 false]))).1 = .ok (.obj 1) ∧
    (Exec.run (deleteBlm 1 true) (more blmOps)).1 = .error .attributeError ∧
    (Exec.run (reuseBlm moreEnv 1 0) (more (blmOps ++ [.deleteBlm 1 true]))).1 = .ok () := by
  decide +kernel

example : HasGhosts (more blmOps) 0 [1] := by
  refine ⟨?_, ?_, ?_⟩ <;> decide +kernel

end Verif.Beam
