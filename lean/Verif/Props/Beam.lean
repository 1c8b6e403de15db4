import Mathlib.Tactic.NormNum
import Verif.Lemmas.Beam

/-!
# C38-C41: beams, ghosts and their attributes
-/

namespace Verif.Beam

variable {K : Type} [Field K] [LinearOrder K] [FloorRing K]

/-! ## C38 -/

/-- In every reachable state (whatever sequence of operations, including failing ones, as long as
nobody assigns `ghost_count` by hand): a main beam counts exactly its ghosts, which are different
existing ghost objects; a ghost has neither ghosts nor a count; no ghost belongs to two beams. -/
theorem C38_bookkeeping (env : Env K) (h : Heap K) (hr : Reachable env NoCountAssign h)
    (r : Ref) (hlt : r < h.size) :
    ((h.cell r).isGhost = true →
      (h.cell r).ghosts = none ∧ (h.cell r).attr .ghostCount = none) ∧
    ((h.cell r).isGhost = false → ∃ gs, (h.cell r).ghosts = some gs ∧
      (h.cell r).attr .ghostCount = some (.int gs.length) ∧ gs.Nodup ∧
      (∀ g ∈ gs, g < h.size ∧ (h.cell g).isGhost = true) ∧
      ∀ r' gs', HasGhosts h r' gs' → r' ≠ r → ∀ g ∈ gs, g ∉ gs') := by
  have w := hr.wf fun _ h => h
  refine ⟨w.ghost r hlt, fun hi => ?_⟩
  obtain ⟨gs, h1, h2, h3, h4⟩ := w.main r hlt hi
  exact ⟨gs, h1, h2, h3, h4, fun r' gs' hg hne g hm hm' =>
    hne (w.disj r' r gs' gs hg.1 hlt hg.2.2 h1 g hm' hm)⟩

/-- As long as indices are not copied or assigned, the ghosts of a beam are numbered in the order
of their creation. -/
theorem C38_creation_order_partial (env : Env K) (h : Heap K)
    (hr : Reachable env NoIdxChange h) (r : Ref) (gs : List Ref) (hg : HasGhosts h r gs) (i : Nat)
    (g : Ref) (hi : gs[i]? = some g) : (h.cell g).attr .ghostIdx = some (.int i) := by
  have hP : ∀ op : Op K, NoIdxChange op → NoCountAssign op := by
    intro op ho
    cases op <;> simp_all [NoIdxChange, NoCountAssign]
  induction hr generalizing r gs i g with
  | start => simp [HasGhosts, emptyHeap] at hg
  | @step h op hprev hp hrf ih =>
    have w := hprev.wf hP
    -- operations that keep lists and indices
    have keep : ∀ h' : Heap K, Mild h h' → Same .ghostIdx h h' → HasGhosts h' r gs →
        (h'.cell g).attr .ghostIdx = some (.int i) := by
      intro h' m sm ⟨a, b, c⟩
      rw [sm g]
      exact ih r gs ⟨m.size ▸ a, (isGhost_congr (m.ghost r)).symm.trans b,
        (m.ghosts r).symm.trans c⟩ i g hi
    cases op with
    | new kw =>
      simp only [Op.after, newBeam, Exec.run] at hg ⊢
      rcases hin : init env kw with e | o <;> rw [hin] at hg
      · exact ih r gs hg i g hi
      · obtain ⟨_, _, _, h4, h5, _⟩ := init_spec env hin
        obtain ⟨a, b, c⟩ := hg
        dsimp only at a b c ⊢
        rw [alloc_size] at a
        rcases Nat.lt_succ_iff_lt_or_eq.1 a with a | rfl
        · rw [alloc_old _ _ a] at b c
          have hlt := ((w.ghosts_lt a c).2.2.2 g (List.mem_of_getElem? hi)).1
          rw [alloc_old _ _ hlt]
          exact ih r gs ⟨a, b, c⟩ i g hi
        · rw [alloc_new] at b c
          rw [(h5 b).1] at c
          cases c
          simp at hi
    | createGhost r0 tag kw =>
      have hr0 : r0 < h.size := hrf r0 (by simp [Op.refs])
      simp only [Op.after] at hg ⊢
      rcases hgi : (h.cell r0).isGhost with _ | _
      swap
      · rw [createGhost_ghost env hgi] at hg ⊢
        exact ih r gs hg i g hi
      obtain ⟨gs0, h1, h2, h3, h4⟩ := w.main r0 hr0 hgi
      rw [createGhost_main env hgi h1 h2] at hg ⊢
      rcases hm : makeGhost env (h.cell r0) tag kw with e | gh <;> rw [hm] at hg
      · exact ih r gs hg i g hi
      have hghi := makeGhost_isGhost env hm
      dsimp only at hg ⊢
      obtain ⟨a, b, c⟩ := hg
      rw [alloc_size, heap_put_size] at a
      rcases Nat.lt_succ_iff_lt_or_eq.1 a with a | rfl
      swap
      · have := alloc_new (h.put r0 { (h.cell r0).put .ghostCount (.int (gs0.length + 1)) with
          ghosts := some (gs0 ++ [h.size]) }) (gh.put .ghostIdx (.int gs0.length))
        rw [heap_put_size] at this
        rw [this, put_isGhost _ _ (by simp), hghi] at b
        cases b
      rw [alloc_old _ _ (by exact a)] at b c
      -- attribute of an old object
      have hold : ∀ x, x < h.size → (((h.put r0 { (h.cell r0).put .ghostCount
          (.int (gs0.length + 1)) with ghosts := some (gs0 ++ [h.size]) }).alloc
          (gh.put .ghostIdx (.int gs0.length))).cell x).attr .ghostIdx =
          (h.cell x).attr .ghostIdx := by
        intro x hx
        rw [alloc_old _ _ (by exact hx), heap_put]
        split
        · rename_i e; subst e
          exact put_attr_ne (h.cell x) (k := .ghostCount) (k' := .ghostIdx)
            (.int (gs0.length + 1)) (by simp)
        · rfl
      by_cases hrr : r = r0
      · subst hrr
        rw [heap_put_same] at c
        have hc : gs0 ++ [h.size] = gs := Option.some.inj c
        rw [← hc] at hi
        rcases Nat.lt_or_ge i gs0.length with hil | hil
        · rw [List.getElem?_append_left hil] at hi
          rw [hold g (h4 g (List.mem_of_getElem? hi)).1]
          exact ih r gs0 ⟨a, hgi, h1⟩ i g hi
        · rw [List.getElem?_append_right hil] at hi
          have hi0 : i - gs0.length = 0 := by
            have := (List.getElem?_eq_some_iff.1 hi).1
            simp at this; omega
          rw [hi0] at hi
          simp at hi
          subst hi
          have := alloc_new (h.put r { (h.cell r).put .ghostCount (.int (gs0.length + 1)) with
            ghosts := some (gs0 ++ [h.size]) }) (gh.put .ghostIdx (.int gs0.length))
          rw [heap_put_size] at this
          rw [this, put_attr_same]
          have : i = gs0.length := by omega
          rw [this]
      · rw [heap_put_ne _ _ hrr] at b c
        have hlt := ((w.ghosts_lt a c).2.2.2 g (List.mem_of_getElem? hi)).1
        rw [hold g hlt]
        exact ih r gs ⟨a, b, c⟩ i g hi
    | setattr r' k v =>
      exact keep _ (setattr_mild env r' v hp.1 h) (setattr_same env r' v (Ne.symm hp.2) h) hg
    | readBlm r' =>
      exact keep _ (readBlm_mild env r' h) (readBlm_same env r' (by simp) (by simp) h) hg
    | reuseBlm r' p => exact absurd hp (by simp [NoIdxChange])
    | deleteBlm r' d =>
      exact keep _ (deleteBlm_mild r' d h) (deleteBlm_same (by simp) r' d h) hg

/-- `create_ghost` on a ghost raises RuntimeError, and a failing `create_ghost` or constructor
leaves every object as it was. -/
theorem C38_failure (env : Env K) (h : Heap K) (r : Ref) (tag : Option String) (kw : Dict K) :
    ((h.cell r).isGhost = true →
      (Exec.run (createGhost env r tag kw) h).1 = .error .runtimeError) ∧
    (∀ e, (Exec.run (createGhost env r tag kw) h).1 = .error e →
      (Exec.run (createGhost env r tag kw) h).2 = h) ∧
    (∀ e, (Exec.run (newBeam env kw) h).1 = .error e →
      (Exec.run (newBeam env kw) h).2 = h) := by
  refine ⟨fun hg => by rw [createGhost_ghost env hg], ?_, ?_⟩
  · intro e he
    unfold createGhost Exec.run at he ⊢
    dsimp only at he ⊢
    split at he
    · rename_i hg; rw [if_pos hg]
    · rename_i hg
      rw [if_neg hg]
      split at he
      · rfl
      · split at he
        · rfl
        · split at he
          · rfl
          · cases he
  · intro e he
    unfold newBeam Exec.run at he ⊢
    dsimp only at he ⊢
    split at he
    · cases he
    · rfl

/-- A successful `create_ghost` appends one new ghost object to the list of the beam, numbered by
the previous count, and changes no other object and nothing else of the beam. -/
theorem C38_append (env : Env K) (h : Heap K) (hr : Reachable env NoCountAssign h) (r : Ref)
    (gs : List Ref) (hg : HasGhosts h r gs) (tag : Option String) (kw : Dict K)
    (hok : (Exec.run (createGhost env r tag kw) h).1 = .ok ()) :
    let h' := (Exec.run (createGhost env r tag kw) h).2
    h'.size = h.size + 1 ∧ HasGhosts h' r (gs ++ [h.size]) ∧
    (h'.cell h.size).isGhost = true ∧
    (h'.cell h.size).attr .ghostIdx = some (.int gs.length) ∧
    (∀ x < h.size, x ≠ r → h'.cell x = h.cell x) ∧
    (∀ k, k ≠ .ghostCount → (h'.cell r).attr k = (h.cell r).attr k) := by
  have w := hr.wf fun _ h => h
  obtain ⟨a, b, c⟩ := hg
  obtain ⟨_, hc, _, _⟩ := w.ghosts_lt a c
  rw [createGhost_main env b c hc] at hok ⊢
  rcases hm : makeGhost env (h.cell r) tag kw with e | g <;> rw [hm] at hok
  · cases hok
  have hgi := makeGhost_isGhost env hm
  dsimp only
  have hnew := alloc_new (h.put r { (h.cell r).put .ghostCount (.int (gs.length + 1)) with
    ghosts := some (gs ++ [h.size]) }) (g.put .ghostIdx (.int gs.length))
  rw [heap_put_size] at hnew
  have hrr : ((h.put r { (h.cell r).put .ghostCount (.int (gs.length + 1)) with
    ghosts := some (gs ++ [h.size]) }).alloc (g.put .ghostIdx (.int gs.length))).cell r =
      { (h.cell r).put .ghostCount (.int (gs.length + 1)) with
        ghosts := some (gs ++ [h.size]) } := by
    rw [alloc_old _ _ (by exact a), heap_put_same]
  refine ⟨rfl, ⟨Nat.lt_succ_of_lt a, ?_, ?_⟩, ?_, ?_, ?_, ?_⟩
  · rw [hrr, ← b]
    exact isGhost_congr (put_attr_ne (h.cell r) (k := .ghostCount) (k' := .ghost)
      (.int (gs.length + 1)) (by simp))
  · rw [hrr]
  · rw [hnew, put_isGhost _ _ (by simp)]; exact hgi
  · rw [hnew]; simp
  · intro x hx hne
    rw [alloc_old _ _ (by exact hx), heap_put_ne _ _ hne]
  · intro k hk
    rw [hrr]
    exact put_attr_ne (h.cell r) (.int (gs.length + 1)) hk

/-! ### demonstration -/

/-- An environment for examples: `pi` and a loader that always succeeds. -/
def demoEnv : Env Rat := { pi := 22 / 7, loadBlm := fun _ => .ok (.obj 7, none) }

/-- Two beams, two ghosts for the first, one for the second. -/
def demoOps : List (Op Rat) :=
  [.new [(.name, .str "a"), (.symmetric, .bool true)], .new [], .createGhost 0 (some "ghost") [],
   .createGhost 1 none [(.amplitude, .num (1 / 2))], .createGhost 0 (some "g2") [(.az, .num 3)]]

def runOps (ops : List (Op Rat)) : Heap Rat :=
  ops.foldl (fun h op => op.after demoEnv h) (emptyHeap : Heap Rat)

/-- Every operation acts on existing objects. -/
def refsOk : List (Op Rat) → Heap Rat → Bool
  | [], _ => true
  | op :: ops, h => op.refs.all (fun r => decide (r < h.size)) && refsOk ops (op.after demoEnv h)

theorem runOps_reachable {P : Op Rat → Prop} : ∀ (ops : List (Op Rat)) (h : Heap Rat),
    Reachable demoEnv P h → (∀ op ∈ ops, P op) → refsOk ops h = true →
    Reachable demoEnv P (ops.foldl (fun h op => op.after demoEnv h) h)
  | [], h, hr, _, _ => hr
  | op :: ops, h, hr, hP, ho => by
    simp only [refsOk, Bool.and_eq_true, List.all_eq_true, decide_eq_true_eq] at ho
    exact runOps_reachable ops _ (.step op hr (hP op (by simp)) ho.1)
      (fun o h => hP o (by simp [h])) ho.2

/-- The three ghosts exist and are numbered per beam. -/
example : (runOps demoOps).size = 5 ∧ ((runOps demoOps).cell 0).ghosts = some [2, 4] ∧
    ((runOps demoOps).cell 1).ghosts = some [3] ∧
    ((runOps demoOps).cell 4).attr .ghostIdx = some (.int 1) ∧
    ((runOps demoOps).cell 4).attr .name = some (.str "a_g2") ∧
    ((runOps demoOps).cell 3).attr .ghostIdx = some (.int 0) := by decide +kernel

/-- The demonstration history is reachable in the sense of the theorems. -/
theorem demo_reachable : Reachable demoEnv NoIdxChange (runOps demoOps) :=
  runOps_reachable demoOps _ .start (by simp [demoOps, NoIdxChange]) (by decide +kernel)

/-- `reuse_blm` breaks the numbering: the ghost of the second beam takes index 1 although that
beam has a single ghost. -/
theorem C38_violation_reuse : ∃ h : Heap Rat, Reachable demoEnv NoCountAssign h ∧
    HasGhosts h 1 [3] ∧ (h.cell 1).attr .ghostCount = some (.int 1) ∧
    (h.cell 3).attr .ghostIdx = some (.int 1) := by
  refine ⟨runOps (demoOps ++ [.reuseBlm 3 4]), ?_, ?_⟩
  · exact runOps_reachable _ _ .start (by simp [demoOps, NoCountAssign]) (by decide +kernel)
  · unfold HasGhosts
    decide +kernel

/-! ## C39 -/

/-- Assigning `dead` to a main beam gives the value to the beam and all its ghosts, changes no
other attribute and no other object. -/
theorem C39_cascade (env : Env K) (h : Heap K) (hr : Reachable env NoCountAssign h) (r : Ref)
    (gs : List Ref) (hg : HasGhosts h r gs) (v : Val K) :
    let h' := (Exec.run (setattr env r .dead v) h).2
    (Exec.run (setattr env r .dead v) h).1 = .ok () ∧ h'.size = h.size ∧
    (∀ x, x = r ∨ x ∈ gs → (h'.cell x).attr .dead = some v) ∧
    (∀ x, ¬ (x = r ∨ x ∈ gs) → h'.cell x = h.cell x) ∧
    (∀ x, (h'.cell x).ghosts = (h.cell x).ghosts) ∧
    (∀ x k, k ≠ .dead → (h'.cell x).attr k = (h.cell x).attr k) := by
  have w := hr.wf fun _ h => h
  obtain ⟨a, b, c⟩ := hg
  have hs : Exec.run (setattr env r .dead v) h = (.ok (), markAll v (r :: gs) h) := by
    unfold setattr Exec.run
    exact setDead_spec v r gs h c fun g hg => ((w.ghosts_lt a c).2.2.2 g hg).2.2
  rw [hs]
  dsimp only
  refine ⟨rfl, rfl, ?_, ?_, ?_, ?_⟩
  · intro x hx
    have : x ∈ r :: gs := by simpa using hx
    simp only [markAll, if_pos this, put_attr_same]
  · intro x hx
    have : x ∉ r :: gs := by simpa using hx
    simp only [markAll, if_neg this]
  · intro x
    simp only [markAll]; split <;> rfl
  · intro x k hk
    simp only [markAll]; split
    · exact put_attr_ne _ _ hk
    · rfl

/-- Assigning `dead` to a ghost affects that ghost only. -/
theorem C39_ghost_alone (env : Env K) (h : Heap K) (hr : Reachable env NoCountAssign h) (g : Ref)
    (hg : g < h.size) (hgi : (h.cell g).isGhost = true) (v : Val K) :
    let h' := (Exec.run (setattr env g .dead v) h).2
    (Exec.run (setattr env g .dead v) h).1 = .ok () ∧
    (h'.cell g).attr .dead = some v ∧ (∀ k, k ≠ .dead → (h'.cell g).attr k = (h.cell g).attr k) ∧
    (∀ x, x ≠ g → h'.cell x = h.cell x) := by
  have w := hr.wf fun _ h => h
  have hs : Exec.run (setattr env g .dead v) h = (.ok (), h.put g ((h.cell g).put .dead v)) := by
    unfold setattr Exec.run
    exact setDead_ghost v g h (w.ghost g hg hgi).1
  rw [hs]
  dsimp only
  refine ⟨rfl, by simp, ?_, ?_⟩
  · intro k hk
    rw [heap_put_same, put_attr_ne _ _ hk]
  · intro x hx
    rw [heap_put_ne _ _ hx]

/-- Non-vacuity: killing the first beam of the demonstration kills ghosts 2 and 4 only. -/
example : let h := (Exec.run (setattr demoEnv 0 .dead (.bool true)) (runOps demoOps)).2
    (h.cell 2).attr .dead = some (.bool true) ∧ (h.cell 4).attr .dead = some (.bool true) ∧
    (h.cell 3).attr .dead = some (.bool false) ∧ (h.cell 1).attr .dead = some (.bool false) := by
  decide +kernel

/-! ## C40 -/

variable [IsStrictOrderedRing K]

/-- In every state reached with sensible values (integers or None for `lmax`/`mmax`, numbers or
None for `fwhm`), every beam has an integer `lmax >= 0`, an integer `mmax` and `fwhm >= 0`. -/
theorem C40_limits (env : Env K) (hpi : 0 < env.pi) (h : Heap K)
    (hr : Reachable env (fun op => NoCountAssign op ∧ LimOp False False op) h) (r : Ref)
    (hlt : r < h.size) : ∃ L M F, Limits (h.cell r) L M F ∧ 0 ≤ L ∧ 0 ≤ F := by
  obtain ⟨L, M, F, a, b, c, _⟩ := Reachable.limits hpi (b2 := False) (b3 := False) (by simp)
    (fun op h => h) hr r hlt
  exact ⟨L, M, F, a, b, c⟩

/-- If moreover `lmax` is never reassigned, `mmax <= lmax` holds in every reachable state, also
after copying or loading coefficients; and if no negative `mmax` is ever given or read from a
file, `0 <= mmax`.  What is missing: the two hypotheses, see the violations below. -/
theorem C40_mmax_partial (env : Env K) (hpi : 0 < env.pi)
    (henv : ∀ a v m, env.loadBlm a = .ok (v, some m) → 0 ≤ m) (h : Heap K)
    (hr : Reachable env (fun op => NoCountAssign op ∧ LimOp True True op) h) (r : Ref)
    (hlt : r < h.size) : ∃ L M F, Limits (h.cell r) L M F ∧ 0 ≤ M ∧ M ≤ L ∧ 0 ≤ F := by
  obtain ⟨L, M, F, a, _, c, d, e⟩ := Reachable.limits hpi (b2 := True) (b3 := True)
    (fun _ => henv) (fun op h => h) hr r hlt
  exact ⟨L, M, F, a, e trivial, d trivial, c⟩

/-- Non-vacuity: creating beams and ghosts, assigning `mmax` and `fwhm`. -/
example : Reachable demoEnv (fun op => NoCountAssign op ∧ LimOp True True op)
      (runOps [.new [(.lmax, .int 50)], .createGhost 0 none [(.mmax, .int 80)],
        .setattr 1 .fwhm (.num (-5)), .setattr 0 .mmax (.int 3)]) ∧
    Limits ((runOps [.new [(.lmax, .int 50)], .createGhost 0 none [(.mmax, .int 80)],
        .setattr 1 .fwhm (.num (-5)), .setattr 0 .mmax (.int 3)]).cell 1) 50 50 5 := by
  constructor
  · refine runOps_reachable _ _ .start ?_ (by decide +kernel)
    intro op h
    simp only [List.mem_cons, List.not_mem_nil, or_false] at h
    rcases h with rfl | rfl | rfl | rfl <;>
      refine ⟨by simp [NoCountAssign], ?_⟩ <;> simp [LimOp, LimVal, Dict.get?] <;> grind
  · unfold Limits
    decide +kernel

/-- Defaults: with `lmax = L > 0` and neither `mmax` nor `fwhm` given, `mmax = lmax` and the width
in radians is `1.4 * 2 pi / lmax`. -/
theorem C40_defaults (env : Env K) (hpi : 0 < env.pi) (kw : Dict K) (o : Obj K)
    (ho : init env kw = .ok o) (L : Int) (hL : Dict.get? kw .lmax = some (.int L)) (hpos : 0 < L)
    (hm : Dict.get? kw .mmax = none) (hf : Dict.get? kw .fwhm = none) :
    ∃ F, Limits o L L F ∧ F / 60 * env.pi / 180 = 14 / 10 * (2 * env.pi) / L := by
  have e1 : arg kw .lmax = .int L := by unfold arg; rw [hL]
  have e2 : arg kw .mmax = .none := by unfold arg; rw [hm]; rfl
  have e3 : arg kw .fwhm = .none := by unfold arg; rw [hf]; rfl
  obtain ⟨i, L', M, F, h1, h2, h3, h4, h5, _, _⟩ := init_limits hpi ho
    (by rw [e1]; exact ⟨fun _ => .inr ⟨_, rfl⟩, by simp⟩)
    (by rw [e2]; exact ⟨fun _ => .inl rfl, by simp⟩)
    (by rw [e3]; exact ⟨by simp, fun _ => .inl rfl⟩)
  rw [e1] at h1
  have h1 : L = i := by injection h1
  subst h1
  rw [max_eq_left (by omega)] at h2
  rw [h2] at h3 h4 h5
  rw [e2] at h3
  rw [e3] at h4
  dsimp only at h3 h4
  rw [h3] at h5
  refine ⟨F, h5, ?_⟩
  have hp : env.pi ≠ 0 := ne_of_gt hpi
  have hl : ((L : Int) : K) ≠ 0 := by exact_mod_cast ne_of_gt hpos
  rw [h4]
  unfold degrees
  field_simp

/-- Assigning `lmax = None` later gives the documented `1.4 * 2 pi / fwhm` (rounded down), for
every beam with a positive width. -/
theorem C40_lmax_from_fwhm (env : Env K) (hpi : 0 < env.pi) (h : Heap K) (r : Ref) (F : K)
    (hF : (h.cell r).attr .fwhm = some (.num F)) (hpos : 0 < F) :
    let x := Exec.run (setattr env r .lmax .none) h
    x.1 = .ok () ∧
    (x.2.cell r).attr .lmax = some (.int ⌊14 / 10 * (2 * env.pi) / (F / 60 * env.pi / 180)⌋) := by
  have e1 := setLmax_none env hF
  rw [if_neg (ne_of_gt hpos)] at e1
  have hs : Exec.run (setattr env r .lmax .none) h = (.ok (), h.put r ((h.cell r).put .lmax
      (.int (trunc (2 * env.pi / radians env (F / 60) * (14 / 10)))))) := by
    unfold setattr
    rw [if_neg (by simp)]
    unfold setPlain Exec.run
    dsimp only
    rw [show objSet env (h.cell r) .lmax .none = setLmax env (h.cell r) .none from rfl, e1]
  rw [hs]
  dsimp only
  refine ⟨rfl, ?_⟩
  rw [heap_put_same, put_attr_same]
  unfold trunc
  rw [if_pos (lmaxFormula_nonneg hpi hpos.le)]
  have : 2 * env.pi / radians env (F / 60) * (14 / 10) =
      14 / 10 * (2 * env.pi) / (F / 60 * env.pi / 180) := by
    unfold radians; ring
  rw [this]

omit [IsStrictOrderedRing K] in
/-- The documented `lmax=None` of the constructor ("If None, use 1.4*2*pi/fwhm") never works: the
setter of `lmax` runs before the width is known and raises AttributeError, whatever the width. -/
theorem C40_violation_lmax_none (env : Env K) (kw : Dict K)
    (hkw : ∀ e ∈ kw, (Dict.get? (defaults (K := K)) e.1).isSome)
    (hl : Dict.get? kw .lmax = some .none) : init env kw = .error .attributeError := by
  unfold init
  rw [if_pos (by simpa using hkw)]
  have e1 : arg kw .lmax = .none := by unfold arg; rw [hl]
  have hh : (initHead kw).attr .fwhm = none := by
    rw [initHead, foldl_put_attr]; simp [blank]
  have : setLmax env (initHead kw) .none = .error .attributeError := by
    unfold setLmax Obj.read; rw [hh]; rfl
  rw [e1, this]
  rfl

/-- Lowering `lmax` of an existing beam leaves `mmax` above it. -/
theorem C40_violation_reassign : ∃ h : Heap Rat,
    Reachable demoEnv (fun op => NoCountAssign op ∧ LimOp False True op) h ∧
    ∃ F, Limits (h.cell 0) 10 700 F := by
  refine ⟨(Op.setattr 0 .lmax (.int 10)).after demoEnv ((Op.new []).after demoEnv emptyHeap), ?_, ?_⟩
  · refine .step _ (.step _ .start ⟨trivial, ?_, by simp, ?_⟩ (by simp [Op.refs]))
      ⟨by simp [NoCountAssign], ⟨fun _ => .inr ⟨_, rfl⟩, by simp⟩, by simp, by simp⟩ ?_
    · intro k v h; simp [Dict.get?] at h
    · intro _ i h; simp [Dict.get?] at h
    · intro r hr; revert r; decide +kernel
  · refine ⟨((432 : Rat) / 10), ?_⟩
    unfold Limits
    decide +kernel

/-- A negative `mmax` is accepted. -/
theorem C40_violation_negative_mmax :
    (init demoEnv [(.mmax, .int (-3))]).toOption.map (fun o => o.attr .mmax) =
      some (some (.int (-3))) := by decide +kernel

/-- `Beam(lmax=0)` without a width raises TypeError although 0 is a valid band limit. -/
theorem C40_violation_lmax_zero :
    (init demoEnv [(.lmax, .int 0)]).toOption.isNone = true ∧
    (init demoEnv [(.lmax, .int 0), (.fwhm, .num 30)]).toOption.isSome = true := by decide +kernel

/-! ## C41 -/

omit [IsStrictOrderedRing K] in
/-- The options of a new ghost: what was given, or else the parent's value.  What is missing: the
attributes of `C41_violation_not_inherited` below, and `lmax`, `mmax`, `fwhm`, for which see
`C41_limits_partial`. -/
theorem C41_inherit_partial (env : Env K) (h : Heap K) (hr : Reachable env NoCountAssign h)
    (r : Ref) (gs : List Ref) (hg : HasGhosts h r gs) (tag : Option String) (kw : Dict K)
    (hok : (Exec.run (createGhost env r tag kw) h).1 = .ok ()) :
    let h' := (Exec.run (createGhost env r tag kw) h).2
    ∀ k ∈ [Key.az, .el, .polang, .pol, .btype, .dead, .amplitude, .poFile, .egFile, .crossPol,
        .deconvQ, .normalize, .polangError],
      (h'.cell h.size).attr k = (Dict.get? kw k).or ((h.cell r).attr k) := by
  have w := hr.wf fun _ h => h
  obtain ⟨a, b, c⟩ := hg
  obtain ⟨_, hc, _, _⟩ := w.ghosts_lt a c
  rw [createGhost_main env b c hc] at hok ⊢
  rcases hm : makeGhost env (h.cell r) tag kw with e | g <;> rw [hm] at hok
  · cases hok
  obtain ⟨pn, nm, opts, _, _, ho, hin⟩ := makeGhost_init env hm
  intro h' k hk
  have hcell : h'.cell h.size = g.put .ghostIdx (.int gs.length) := alloc_new (h.put r _) _
  have hne : k ≠ .ghostIdx := by rintro rfl; simp at hk
  have hpl : k ∈ plainKeys := by
    simp only [List.mem_cons, List.not_mem_nil, or_false] at hk
    rcases hk with rfl | rfl | rfl | rfl | rfl | rfl | rfl | rfl | rfl | rfl | rfl | rfl | rfl <;>
      simp [plainKeys]
  have hin' : k ∈ inheritedKeys := by
    simp only [List.mem_cons, List.not_mem_nil, or_false] at hk
    rcases hk with rfl | rfl | rfl | rfl | rfl | rfl | rfl | rfl | rfl | rfl | rfl | rfl | rfl <;>
      simp [inheritedKeys]
  have hs : ((h.cell r).attr k).isSome := w.keys r a k (by simp [beamKeys, hpl])
  rw [hcell, put_attr_ne _ _ hne, (init_spec env hin).1 k hpl]
  exact ghost_arg kw ho k hin' hs

/-- If none of the limits is given, the ghost has those of the parent (for a parent with
consistent limits, see C40). -/
theorem C41_limits_partial (env : Env K) (hpi : 0 < env.pi) (h : Heap K)
    (hr : Reachable env NoCountAssign h) (r : Ref) (gs : List Ref) (hg : HasGhosts h r gs)
    (L M : Int) (F : K) (hl : Limits (h.cell r) L M F) (hL : 0 ≤ L) (hM : M ≤ L) (hF : 0 ≤ F)
    (tag : Option String) (kw : Dict K) (h1 : Dict.get? kw .lmax = none)
    (h2 : Dict.get? kw .mmax = none) (h3 : Dict.get? kw .fwhm = none)
    (hok : (Exec.run (createGhost env r tag kw) h).1 = .ok ()) :
    Limits ((Exec.run (createGhost env r tag kw) h).2.cell h.size) L M F := by
  have w := hr.wf fun _ h => h
  obtain ⟨a, b, c⟩ := hg
  obtain ⟨_, hc, _, _⟩ := w.ghosts_lt a c
  rw [createGhost_main env b c hc] at hok ⊢
  rcases hm : makeGhost env (h.cell r) tag kw with e | g <;> rw [hm] at hok
  · cases hok
  obtain ⟨pn, nm, opts, _, _, ho, hin⟩ := makeGhost_init env hm
  obtain ⟨la, lb, lc⟩ := hl
  have ha := ghost_arg kw ho .lmax (by simp [inheritedKeys]) (by rw [la]; rfl)
  have hb := ghost_arg kw ho .mmax (by simp [inheritedKeys]) (by rw [lb]; rfl)
  have hcc := ghost_arg kw ho .fwhm (by simp [inheritedKeys]) (by rw [lc]; rfl)
  rw [h1, la] at ha
  rw [h2, lb] at hb
  rw [h3, lc] at hcc
  simp only [Option.or, Option.some.injEq] at ha hb hcc
  obtain ⟨i, L', M', F', e1, e2, e3, e4, ⟨l1, l2, l3⟩, _, _⟩ := init_limits hpi hin
    (by rw [ha]; exact ⟨fun _ => .inr ⟨_, rfl⟩, by simp⟩)
    (by rw [hb]; exact ⟨fun _ => .inr ⟨_, rfl⟩, by simp⟩)
    (by rw [hcc]; exact ⟨by simp, fun _ => .inr ⟨_, rfl⟩⟩)
  rw [ha] at e1
  cases e1
  rw [max_eq_left hL] at e2
  subst e2
  rw [hb] at e3
  rw [hcc] at e4
  dsimp only at e3 e4
  rw [min_eq_left hM] at e3
  rw [abs_of_nonneg hF] at e4
  subst e3 e4
  dsimp only
  have hcell := alloc_new (h.put r { (h.cell r).put .ghostCount (.int (gs.length + 1)) with
    ghosts := some (gs ++ [h.size]) }) (g.put .ghostIdx (.int gs.length))
  rw [heap_put_size] at hcell
  rw [hcell]
  exact ⟨(put_attr_ne g _ (by simp)).trans l1, (put_attr_ne g _ (by simp)).trans l2,
    (put_attr_ne g _ (by simp)).trans l3⟩

omit [IsStrictOrderedRing K] in
/-- The name of a ghost is made from the parent's name and the tag; a `name` option is ignored. -/
theorem C41_name (env : Env K) (h : Heap K) (hr : Reachable env NoCountAssign h)
    (r : Ref) (gs : List Ref) (hg : HasGhosts h r gs) (p t : String) (hp : p ≠ "") (ht : t ≠ "")
    (hn : (h.cell r).attr .name = some (.str p)) (kw : Dict K)
    (hok : (Exec.run (createGhost env r (some t) kw) h).1 = .ok ()) :
    ((Exec.run (createGhost env r (some t) kw) h).2.cell h.size).attr .name =
      some (.str (p ++ "_" ++ t)) := by
  have w := hr.wf fun _ h => h
  obtain ⟨a, b, c⟩ := hg
  obtain ⟨_, hc, _, _⟩ := w.ghosts_lt a c
  rw [createGhost_main env b c hc] at hok ⊢
  rcases hm : makeGhost env (h.cell r) (some t) kw with e | g <;> rw [hm] at hok
  · cases hok
  obtain ⟨pn, nm, opts, hpn, hnm, ho, hin⟩ := makeGhost_init env hm
  rw [read_ok hn] at hpn
  cases hpn
  have hnm' : nm = .str (p ++ "_" ++ t) := by
    simp [ghostName, ht, Val.truthy, hp] at hnm
    exact hnm.symm
  dsimp only
  have hcell := alloc_new (h.put r { (h.cell r).put .ghostCount (.int (gs.length + 1)) with
    ghosts := some (gs ++ [h.size]) }) (g.put .ghostIdx (.int gs.length))
  rw [heap_put_size] at hcell
  rw [hcell, put_attr_ne _ _ (by simp), (init_spec env hin).1 .name (by simp [plainKeys]),
    ghost_arg_name kw ho, hnm']

omit [IsStrictOrderedRing K] in
/-- The documentation says that unspecified options are copied from the parent, but
`sensitive_freq`, `symmetric`, `hwp`, `hwp_mueller` (and `idx`) of a ghost always have the default
of the constructor, whatever the parent's value. -/
theorem C41_violation_not_inherited (env : Env K) (h : Heap K)
    (hr : Reachable env NoCountAssign h) (r : Ref) (gs : List Ref) (hg : HasGhosts h r gs)
    (tag : Option String) (kw : Dict K)
    (hok : (Exec.run (createGhost env r tag kw) h).1 = .ok ()) :
    let g := (Exec.run (createGhost env r tag kw) h).2.cell h.size
    (Dict.get? kw .sensitiveFreq = none → g.attr .sensitiveFreq = some (.int 150)) ∧
    (Dict.get? kw .symmetric = none → g.attr .symmetric = some (.bool false)) ∧
    (Dict.get? kw .hwp = none → g.attr .hwp = some .none) ∧
    (Dict.get? kw .hwpMueller = none → g.attr .hwpMueller = some .none) ∧
    (Dict.get? kw .idx = none → g.attr .idx = some .none) := by
  have w := hr.wf fun _ h => h
  obtain ⟨a, b, c⟩ := hg
  obtain ⟨_, hc, _, _⟩ := w.ghosts_lt a c
  rw [createGhost_main env b c hc] at hok ⊢
  rcases hm : makeGhost env (h.cell r) tag kw with e | g <;> rw [hm] at hok
  · cases hok
  obtain ⟨pn, nm, opts, _, _, ho, hin⟩ := makeGhost_init env hm
  dsimp only
  have hcell := alloc_new (h.put r { (h.cell r).put .ghostCount (.int (gs.length + 1)) with
    ghosts := some (gs ++ [h.size]) }) (g.put .ghostIdx (.int gs.length))
  rw [heap_put_size] at hcell
  rw [hcell]
  have key : ∀ k ∈ plainKeys, k ≠ .ghostIdx → k ∉ inheritedKeys → k ≠ .name → k ≠ .ghost →
      Dict.get? kw k = none →
      (g.put .ghostIdx (.int gs.length)).attr k = some (arg ([] : Dict K) k) := by
    intro k h1 h2 h3 h4 h5 h6
    rw [put_attr_ne _ _ h2, (init_spec env hin).1 k h1, ghost_arg_other kw ho k h3 h4 h5 h6]
  refine ⟨?_, ?_, ?_, ?_, ?_⟩ <;> intro hk
  all_goals
    rw [key _ (by simp [plainKeys]) (by simp) (by simp [inheritedKeys]) (by simp) (by simp) hk]
    rfl

/-- Concretely: the first beam of the demonstration is symmetric, its ghosts are not. -/
example : ((runOps demoOps).cell 0).attr .symmetric = some (.bool true) ∧
    ((runOps demoOps).cell 2).attr .symmetric = some (.bool false) ∧
    ((runOps demoOps).cell 3).attr .amplitude = some (.num (1 / 2)) ∧
    ((runOps demoOps).cell 4).attr .az = some (.num 3) := by decide +kernel

end Verif.Beam
