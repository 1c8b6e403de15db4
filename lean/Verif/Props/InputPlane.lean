import Verif.Props.FocalPlane

/-!
# C124: focal planes from tables
-/

namespace Verif.FocalPlane

open Verif.Beam

variable {K : Type} [Field K] [LinearOrder K] [FloorRing K]

/-- The options that `input_focal_plane` sets itself. -/
def tableKeys : List Key := [.az, .el, .name, .polang, .dead, .pol, .idx]

theorem inputOpts_get (kw : Dict K) (as es qs ds : List (Row K)) :
    ∀ (i n : Nat) (a e q d : Row K), as[n]? = some a → es[n]? = some e → qs[n]? = some q →
      ds[n]? = some d → (inputOpts kw i as es qs ds)[n]? = some (inputPair kw (i + n) a e q d) := by
  induction as generalizing es qs ds with
  | nil => intro i n a e q d h; simp at h
  | cons a0 as ih =>
    intro i n a e q d h1 h2 h3 h4
    cases es with
    | nil => simp at h2
    | cons e0 es =>
      cases qs with
      | nil => simp at h3
      | cons q0 qs =>
        cases ds with
        | nil => simp at h4
        | cons d0 ds =>
          cases n with
          | zero =>
            simp only [List.getElem?_cons_zero, Option.some.injEq] at h1 h2 h3 h4
            subst h1 h2 h3 h4
            rfl
          | succ n =>
            simp only [List.getElem?_cons_succ] at h1 h2 h3 h4
            have := ih es qs ds (i + 1) n a e q d h1 h2 h3 h4
            simp only [inputOpts, List.getElem?_cons_succ, this]
            rw [show i + 1 + n = i + (n + 1) by omega]

/-- **C124 (partial).** A successful `input_focal_plane` appends one pair for every row of the tables to
the focal plane, touching no existing detector, and counts two detectors for each.  The detectors of
row `n` are an "A" and a "B" detector with the positions, the angles and the dead flags in columns 0
and 1 of that row (alive, if no table says otherwise); all other options are handed on.  Missing:
replacing the focal plane, numbers of their own, ignoring options of the rows; see the violations. -/
theorem C124_table_partial (env : Env K) (rng : Nat → K) (p : Plane K)
    (hr : PReachable env rng (fun _ op => NoCount op) p) (azs els polangs : List (Row K))
    (deads : Option (List (Row K))) (combine : Bool) (kw : Dict K)
    (he : els.length = azs.length) (hq : polangs.length = azs.length)
    (hd : ∀ d, deads = some d → d.length = azs.length)
    (hok : ((inputFocalPlane env azs els polangs deads combine kw).run p).1 = .ok ()) :
    let p' := ((inputFocalPlane env azs els polangs deads combine kw).run p).2
    let A := fun n : Nat => p.heap.size + 2 * n
    let B := fun n : Nat => p.heap.size + 2 * n + 1
    p'.beams = p.beams ++ (List.range azs.length).map (fun n => (some (A n), some (B n))) ∧
    p'.ndet = p.ndet + 2 * azs.length ∧
    (∀ x < p.heap.size, p'.heap.cell x = p.heap.cell x) ∧
    ∀ (n : Nat) (az el polang : Row K), azs[n]? = some az → els[n]? = some el →
      polangs[n]? = some polang →
      ∃ dead : Row K, (deads = none → dead = (.bool false, .bool false)) ∧
      (∀ d, deads = some d → d[n]? = some dead) ∧
      (∀ k ∈ commonKeys, (p'.heap.cell (A n)).attr k = some (arg kw k) ∧
        (p'.heap.cell (B n)).attr k = some (arg kw k)) ∧
      (p'.heap.cell (A n)).attr .az = some az.1 ∧ (p'.heap.cell (B n)).attr .az = some az.2 ∧
      (p'.heap.cell (A n)).attr .el = some el.1 ∧ (p'.heap.cell (B n)).attr .el = some el.2 ∧
      (p'.heap.cell (A n)).attr .polang = some polang.1 ∧
      (p'.heap.cell (B n)).attr .polang = some polang.2 ∧
      (p'.heap.cell (A n)).attr .pol = some (.str "A") ∧
      (p'.heap.cell (B n)).attr .pol = some (.str "B") ∧
      (p'.heap.cell (A n)).attr .dead = some dead.1 ∧
      (p'.heap.cell (B n)).attr .dead = some dead.2 ∧
      (p'.heap.cell (A n)).attr .name = some (.str ("det" ++ toString n)) ∧
      (p'.heap.cell (B n)).attr .name = some (.str ("det" ++ toString n)) ∧
      (p'.heap.cell (A n)).attr .idx = some (.int n) ∧
      (p'.heap.cell (B n)).attr .idx = some (.int n) := by
  have hb : BInv p := hr.binv fun _ _ h => h
  unfold inputFocalPlane Exec.run at hok ⊢
  dsimp only at hok ⊢
  cases combine with
  | false => cases hok
  | true =>
  rw [if_pos rfl] at hok ⊢
  rcases hi : startIdx p true with e | i <;> rw [hi] at hok
  · cases hok
  dsimp only at hok ⊢
  rw [show (presetNdet p (2 * azs.length) true).heap = p.heap from rfl] at hok ⊢
  set ds := deads.getD (azs.map fun _ => (.bool false, .bool false)) with hds
  have hdl : ds.length = azs.length := by
    cases h : deads with
    | none => rw [hds, h]; simp
    | some d => rw [hds, h]; exact hd d h
  obtain ⟨g, hsame, hspec⟩ := buildPairs_spec env (inputOpts kw 0 azs els polangs ds) p.heap hb.wf
  rcases hbp : buildPairs env (inputOpts kw 0 azs els polangs ds) p.heap
    with ⟨e | qs, h'⟩ <;> rw [hbp] at hok hspec hsame <;> dsimp only at hok hspec hsame ⊢
  · cases hok
  obtain ⟨q1, q2, q3⟩ := hspec qs rfl
  rw [inputOpts_length kw 0 azs els polangs ds he hq hdl] at q1 q2
  refine ⟨?_, rfl, hsame, ?_⟩
  · show p.beams ++ qs = _
    rw [q2]
  · intro n az el polang h1 h2 h3
    obtain ⟨dead, h4⟩ : ∃ dead, ds[n]? = some dead := by
      have : n < ds.length := by
        rw [hdl]
        exact (List.getElem?_eq_some_iff.1 h1).1
      exact ⟨_, List.getElem?_eq_getElem this⟩
    obtain ⟨da, db, x, y, z⟩ := q3 n _ (inputOpts_get kw azs els polangs ds 0 n az el polang dead h1 h2 h3 h4)
    rw [Nat.zero_add] at x
    unfold inputPair at x
    dsimp only at x
    split at x
    · simp at x
    rename_i hany
    simp only [Prod.mk.injEq, Except.ok.injEq] at x
    obtain ⟨x1, x2⟩ := x
    have at1 : ∀ k ∈ plainKeys, (h'.cell (p.heap.size + 2 * n)).attr k = some (arg da k) :=
      fun k hk => (init_spec env y).1 k hk
    have at2 : ∀ k ∈ plainKeys, (h'.cell (p.heap.size + 2 * n + 1)).attr k = some (arg db k) :=
      fun k hk => (init_spec env z).1 k hk
    have hcommon : ∀ k ∈ commonKeys, k ∉ tableKeys ∧ k ∈ plainKeys := by
      intro k hk
      simp only [commonKeys, List.mem_cons, List.not_mem_nil, or_false] at hk
      rcases hk with rfl | rfl | rfl | rfl | rfl | rfl | rfl | rfl | rfl | rfl | rfl | rfl <;>
        simp [tableKeys, plainKeys]
    have harg : ∀ (l : Dict K) (k : Key), (∀ x ∈ l, x.1 ∈ tableKeys) → k ∉ tableKeys →
        arg (l ++ kw) k = arg kw k := by
      intro l k hl hk
      unfold arg
      rw [get?_append, get?_none_of l hl hk]
      rfl
    refine ⟨dead, ?_, ?_, ?_, ?_⟩
    · intro h
      rw [hds, h] at h4
      simp only [Option.getD_none, List.getElem?_map, h1, Option.map_some, Option.some.injEq] at h4
      exact h4.symm
    · intro d h
      rw [hds, h] at h4
      exact h4
    · intro k hk
      obtain ⟨k1, k2⟩ := hcommon k hk
      constructor
      · refine (at1 k k2).trans ?_
        rw [← x1]
        congr 1
        exact harg _ k (by simp [tableKeys]) k1
      · refine (at2 k k2).trans ?_
        rw [← x2]
        congr 1
        exact harg _ k (by simp [tableKeys]) k1
    · rw [← x1] at at1
      rw [← x2] at at2
      refine ⟨?_, ?_, ?_, ?_, ?_, ?_, ?_, ?_, ?_, ?_, ?_, ?_, ?_, ?_⟩
      · exact at1 .az (by simp [plainKeys])
      · exact at2 .az (by simp [plainKeys])
      · exact at1 .el (by simp [plainKeys])
      · exact at2 .el (by simp [plainKeys])
      · exact at1 .polang (by simp [plainKeys])
      · exact at2 .polang (by simp [plainKeys])
      · exact at1 .pol (by simp [plainKeys])
      · exact at2 .pol (by simp [plainKeys])
      · exact at1 .dead (by simp [plainKeys])
      · exact at2 .dead (by simp [plainKeys])
      · exact at1 .name (by simp [plainKeys])
      · exact at2 .name (by simp [plainKeys])
      · exact at1 .idx (by simp [plainKeys])
      · exact at2 .idx (by simp [plainKeys])

/-- **C124, success.** With options `Beam` accepts, none of them set by `input_focal_plane` itself, the
call returns normally on a focal plane that is empty. -/
theorem C124_succeeds [IsStrictOrderedRing K] (env : Env K) (p : Plane K) (hp : p.beams = [])
    (azs els polangs : List (Row K)) (deads : Option (List (Row K))) (kw : Dict K)
    (hkw : GoodOptions kw) (hown : ∀ x ∈ kw, x.1 ∉ tableKeys) :
    ((inputFocalPlane env azs els polangs deads true kw).run p).1 = .ok () := by
  have hi : startIdx p true = .ok 0 := by
    unfold startIdx nextIdx beamsIdxs
    rw [hp]
    rfl
  have hany : (kw.any fun x => x.1 ∈ [Key.az, .el, .name, .polang, .dead, .pol, .idx]) = false := by
    rw [List.any_eq_false]
    intro x hx
    simpa [tableKeys] using hown x hx
  have hgood : ∀ l : Dict K, (∀ x ∈ l, x.1 ∈ tableKeys) → GoodOptions (l ++ kw) := by
    intro l hl
    have hk : ∀ k ∈ [Key.lmax, .mmax, .fwhm], arg (l ++ kw) k = arg kw k := by
      intro k hk
      have hk' : k ∉ tableKeys := by
        simp only [List.mem_cons, List.not_mem_nil, or_false] at hk
        rcases hk with rfl | rfl | rfl <;> simp [tableKeys]
      unfold arg
      rw [get?_append, get?_none_of l hl hk']
      rfl
    refine ⟨?_, ?_, ?_, ?_⟩
    · intro x hx
      rcases List.mem_append.1 hx with hx | hx
      · have := hl x hx
        simp only [tableKeys, List.mem_cons, List.not_mem_nil, or_false] at this
        rcases this with e | e | e | e | e | e | e <;> rw [e] <;> rfl
      · exact hkw.known x hx
    · rw [hk .lmax (by simp), hk .fwhm (by simp)]
      exact hkw.lmax
    · rw [hk .mmax (by simp)]
      exact hkw.mmax
    · rw [hk .fwhm (by simp)]
      exact hkw.fwhm
  have hall : ∀ (as es qs ds : List (Row K)) (i : Nat), ∀ x ∈ inputOpts kw i as es qs ds,
      ∃ a b oa ob, x = (.ok a, .ok b) ∧ init env a = .ok oa ∧ init env b = .ok ob := by
    intro as
    induction as with
    | nil => intro es qs ds i x hx; simp [inputOpts] at hx
    | cons a as ih =>
      intro es qs ds i x hx
      rcases es with _ | ⟨e, es⟩
      · simp [inputOpts] at hx
      rcases qs with _ | ⟨q, qs⟩
      · simp [inputOpts] at hx
      rcases ds with _ | ⟨d, ds⟩
      · simp [inputOpts] at hx
      simp only [inputOpts, List.mem_cons] at hx
      rcases hx with rfl | hx
      · obtain ⟨oa, ha⟩ := init_good env _ (hgood [(.az, a.1), (.el, e.1),
          (.name, .str ("det" ++ toString i)), (.polang, q.1), (.dead, d.1), (.pol, .str "A"),
          (.idx, .int i)] (by simp [tableKeys]))
        obtain ⟨ob, hb⟩ := init_good env _ (hgood [(.az, a.2), (.el, e.2),
          (.name, .str ("det" ++ toString i)), (.polang, q.2), (.dead, d.2), (.pol, .str "B"),
          (.idx, .int i)] (by simp [tableKeys]))
        refine ⟨_, _, oa, ob, ?_, ha, hb⟩
        unfold inputPair
        rw [hany]
        rfl
      · exact ih es qs ds (i + 1) x hx
  obtain ⟨qs, h', hb⟩ := buildPairs_good env (inputOpts kw 0 azs els polangs
    (deads.getD (azs.map fun _ => (.bool false, .bool false)))) (hall _ _ _ _ 0) p.heap
  unfold inputFocalPlane Exec.run
  dsimp only
  rw [if_pos rfl, hi]
  dsimp only
  rw [show (presetNdet p (2 * azs.length) true).heap = p.heap from rfl, hb]

/-- **C124 (violation).** The focal plane cannot be replaced: `combine=False` always ends with a
NameError, and nothing has happened. -/
theorem C124_violation_replace (env : Env K) (p : Plane K) (azs els polangs : List (Row K))
    (deads : Option (List (Row K))) (kw : Dict K) :
    (inputFocalPlane env azs els polangs deads false kw).run p = (.error .nameError, p) := rfl

/-- **C124 (violation).** Options that are documented as ignored end the call with a TypeError, after the
detectors that are not made have been counted. -/
theorem C124_violation_ignored (env : Env K) (p : Plane K) (hp : p.beams = [])
    (az el polang : Row K) (azs els polangs : List (Row K)) (kw : Dict K) (v : Val K)
    (hkw : (Key.az, v) ∈ kw ∨ (Key.el, v) ∈ kw ∨ (Key.pol, v) ∈ kw ∨ (Key.name, v) ∈ kw) :
    (inputFocalPlane env (az :: azs) (el :: els) (polang :: polangs) none true kw).run p =
      (.error .typeError, { p with ndet := p.ndet + 2 * (azs.length + 1) }) := by
  have hi : startIdx p true = .ok 0 := by
    unfold startIdx nextIdx beamsIdxs
    rw [hp]
    rfl
  have hany : (kw.any fun x => x.1 ∈ [Key.az, .el, .name, .polang, .dead, .pol, .idx]) = true := by
    rw [List.any_eq_true]
    rcases hkw with h | h | h | h <;> exact ⟨_, h, by simp⟩
  unfold inputFocalPlane Exec.run
  dsimp only
  rw [if_pos rfl, hi]
  simp only [List.map_cons, Option.getD_none, inputOpts, inputPair, hany, if_true, buildPairs]
  simp [presetNdet]

/-- **C124 (violation).** The second call of the same kind makes detectors with the numbers and the names
of the first ones. -/
theorem C124_violation_again (env : Env K) (rng : Nat → K) (p : Plane K)
    (hr : PReachable env rng (fun _ op => NoCount op) p) (azs els polangs : List (Row K))
    (kw : Dict K) (he : els.length = azs.length) (hq : polangs.length = azs.length)
    (hn : azs ≠ [])
    (ok1 : ((inputFocalPlane env azs els polangs none true kw).run p).1 = .ok ())
    (ok2 : ((inputFocalPlane env azs els polangs none true kw).run
      ((inputFocalPlane env azs els polangs none true kw).run p).2).1 = .ok ()) :
    let p' := ((inputFocalPlane env azs els polangs none true kw).run
      ((inputFocalPlane env azs els polangs none true kw).run p).2).2
    ∃ r s, Collision p' r s ∧ (p'.heap.cell r).attr .name = (p'.heap.cell s).attr .name ∧
      (p'.heap.cell r).attr .pol = (p'.heap.cell s).attr .pol := by
  obtain ⟨a0, as, rfl⟩ := List.exists_cons_of_ne_nil hn
  obtain ⟨e0, es, rfl⟩ : ∃ e0 es, els = e0 :: es := by
    cases els with
    | nil => simp at he
    | cons e es => exact ⟨e, es, rfl⟩
  obtain ⟨q0, qs, rfl⟩ : ∃ q0 qs, polangs = q0 :: qs := by
    cases polangs with
    | nil => simp at hq
    | cons e es => exact ⟨e, es, rfl⟩
  obtain ⟨b1, -, -, t1⟩ := C124_table_partial env rng p hr _ _ _ none true kw he hq (by simp) ok1
  have hr1 : PReachable env rng (fun _ op => NoCount op)
      ((inputFocalPlane env (a0 :: as) (e0 :: es) (q0 :: qs) none true kw).run p).2 :=
    .step (.input (a0 :: as) (e0 :: es) (q0 :: qs) none true kw) hr trivial (by simp [FOp.refs])
  obtain ⟨b2, -, same, t2⟩ := C124_table_partial env rng _ hr1 _ _ _ none true kw he hq (by simp) ok2
  generalize ((inputFocalPlane env (a0 :: as) (e0 :: es) (q0 :: qs) none true kw).run p).2 = p1 at *
  generalize ((inputFocalPlane env (a0 :: as) (e0 :: es) (q0 :: qs) none true kw).run p1).2 = p' at *
  obtain ⟨-, -, -, -, -, -, -, -, -, -, x1, -, -, -, x2, -, x3, -⟩ := t1 0 a0 e0 q0 rfl rfl rfl
  obtain ⟨-, -, -, -, -, -, -, -, -, -, y1, -, -, -, y2, -, y3, -⟩ := t2 0 a0 e0 q0 rfl rfl rfl
  have hb1 : BInv p1 := hr1.binv fun _ _ h => h
  have m1 : p.heap.size ∈ slots p1.beams := by
    rw [b1]
    simp only [slots, List.flatMap_append, List.mem_append, List.mem_flatMap, List.mem_map]
    exact .inr ⟨_, ⟨0, by simp, rfl⟩, by simp⟩
  have lt : p.heap.size < p1.heap.size := hb1.lt _ m1
  have m1' : p.heap.size ∈ slots p'.beams := by
    rw [b2]
    simp only [slots, List.flatMap_append, List.mem_append]
    exact .inl m1
  have m2 : p1.heap.size ∈ slots p'.beams := by
    rw [b2]
    simp only [slots, List.flatMap_append, List.mem_append, List.mem_flatMap, List.mem_map]
    exact .inr ⟨_, ⟨0, by simp, rfl⟩, by simp⟩
  have s0 := same _ lt
  simp only [Nat.mul_zero, Nat.add_zero] at x1 x2 x3 y1 y2 y3
  refine ⟨p.heap.size, p1.heap.size, ⟨m1', m2, Nat.ne_of_lt lt, ?_⟩, ?_, ?_⟩
  · rw [s0, x3, y3]
  · rw [s0, x2, y2]
  · rw [s0, x1, y1]

/-- The hypotheses are met: two calls with two rows, after a grid. -/
example : let kw : Dict Rat := [(.lmax, .int 50)]
    let azs : List (Row Rat) := [(.num 1, .num 1), (.num 2, .num 3)]
    let els : List (Row Rat) := [(.num 0, .num 0), (.num 4, .num 4)]
    let angs : List (Row Rat) := [(.num 0, .num 90), (.num 45, .num 130)]
    let f := inputFocalPlane demoEnv azs els angs (some [(.bool false, .bool true), (.bool false, .bool false)]) true kw
    let p := (f.run (runF demoF)).2
    (f.run (runF demoF)).1 = .ok () ∧ (f.run p).1 = .ok () ∧
    (p.heap.cell ((runF demoF).heap.size + 3)).attr .az = some (.num 3) ∧
    (p.heap.cell ((runF demoF).heap.size + 3)).attr .polang = some (.num 130) ∧
    (p.heap.cell ((runF demoF).heap.size + 1)).attr .dead = some (.bool true) := by decide +kernel

example : GoodOptions ([(.lmax, .int 50)] : Dict Rat) ∧
    ∀ x ∈ ([(.lmax, .int 50)] : Dict Rat), x.1 ∉ tableKeys :=
  ⟨⟨by decide, ⟨50, by decide, by decide⟩, .inl (by decide), .inl (by decide)⟩, by decide⟩

end Verif.FocalPlane
