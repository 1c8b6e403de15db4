import Verif.Spec.LoadPlane
import Verif.Props.FocalPlane
import Verif.Lemmas.MapMaking

/-!
# C125: focal planes from directories
-/

namespace Verif.Props

open Verif.Beam Verif.FocalPlane Verif.LoadPlane Verif.Spec.LoadPlane

namespace Loading

theorem infix_iff (t n : String) : t.toList <:+: n.toList ↔ ∃ x y, n = x ++ t ++ y := by
  constructor
  · rintro ⟨x, y, h⟩
    refine ⟨String.ofList x, String.ofList y, ?_⟩
    apply String.toList_inj.1
    simp [h]
  · rintro ⟨x, y, rfl⟩
    exact ⟨x.toList, y.toList, by simp⟩

theorem glob_iff (t n : String) : globMatch t n = true ↔ n.toList.head? ≠ some '.' ∧
    '/' ∉ n.toList ∧ ∃ x y, n = x ++ t ++ y ++ ".pkl" := by
  simp only [globMatch, decide_eq_true_eq]
  refine and_congr_right fun _ => and_congr_right fun _ => ?_
  constructor
  · rintro ⟨⟨z, hz⟩, h⟩
    have hl : z = n.toList.take (n.toList.length - 4) := by
      rw [← hz]
      simp
    rw [← hl] at h
    have : z = (String.ofList z).toList := by simp
    rw [this, infix_iff] at h
    obtain ⟨x, y, h⟩ := h
    refine ⟨x, y, ?_⟩
    apply String.toList_inj.1
    rw [← hz, String.toList_append, ← h]
    simp
  · rintro ⟨x, y, rfl⟩
    refine ⟨⟨(x ++ t ++ y).toList, by simp⟩, ?_⟩
    have : (x ++ t ++ y ++ ".pkl").toList.take ((x ++ t ++ y ++ ".pkl").toList.length - 4) =
        (x ++ t ++ y).toList := by
      simp only [String.toList_append, List.length_append]
      rw [show ".pkl".toList.length = 4 from rfl, Nat.add_sub_cancel, ← List.length_append,
        ← List.length_append]
      exact List.take_left
    rw [this]
    exact ⟨x.toList, y.toList, by simp⟩

theorem sorted (l : List String) : (sortNames l).Pairwise (· ≤ ·) := by
  haveI : Std.Total (fun a b : String => a ≤ b) := ⟨String.le_total⟩
  haveI : IsTrans String (fun a b : String => a ≤ b) := ⟨fun _ _ _ h1 h2 => String.le_trans h1 h2⟩
  exact List.pairwise_insertionSort _ l

theorem perm (l : List String) : (sortNames l).Perm l := List.perm_insertionSort _ l

theorem append_pkl {a b : String} : a ++ ".pkl" = b ++ ".pkl" ↔ a = b := by
  constructor
  · intro h
    have := congrArg String.toList h
    rw [String.toList_append, String.toList_append] at this
    exact String.toList_inj.1 (List.append_cancel_right this)
  · rintro rfl; rfl

variable {K : Type}

theorem named_ok (dir : Dir K) (tag : String) : ∀ (names l : List String),
    named dir tag names = .ok l →
      (∀ m ∈ l, ∃ f, (m, f) ∈ dir) ∧ (∀ m ∈ l, ∃ m', m = m' ++ ".pkl") ∧
      ∀ m, ((∃ x y, m = x ++ tag ++ y) → l.count (m ++ ".pkl") = names.count m) ∧
        ((¬ ∃ x y, m = x ++ tag ++ y) → l.count (m ++ ".pkl") = 0)
  | [], l, h => by
    cases h
    simp
  | n :: ns, l, h => by
    unfold named at h
    split at h
    · rename_i hc
      obtain ⟨h1, h2, h3⟩ := named_ok dir tag ns l h
      have hn : ¬ ∃ x y, n = x ++ tag ++ y := by
        rw [← infix_iff]
        simpa [contains] using hc
      refine ⟨h1, h2, fun m => ⟨fun hm => ?_, (h3 m).2⟩⟩
      rw [(h3 m).1 hm, List.count_cons_of_ne]
      rintro rfl
      exact hn hm
    · rename_i hc
      have hn : ∃ x y, n = x ++ tag ++ y := by
        rw [← infix_iff]
        simpa [contains] using hc
      split at h
      · rename_i hd
        obtain ⟨l', hl', h⟩ := MapMaking.bind_ok h
        cases h
        obtain ⟨h1, h2, h3⟩ := named_ok dir tag ns l' hl'
        refine ⟨?_, ?_, fun m => ⟨fun hm => ?_, fun hm => ?_⟩⟩
        · intro m hm
          rcases List.mem_cons.1 hm with rfl | hm
          · obtain ⟨f, hf, e⟩ := List.any_eq_true.1 hd
            refine ⟨f.2, ?_⟩
            have : f.1 = n ++ ".pkl" := by simpa using e
            rw [← this]
            exact hf
          · exact h1 m hm
        · intro m hm
          rcases List.mem_cons.1 hm with rfl | hm
          · exact ⟨n, rfl⟩
          · exact h2 m hm
        · rw [List.count_cons, List.count_cons, (h3 m).1 hm]
          by_cases e : n = m
          · simp [e]
          · have : ¬ (n ++ ".pkl" = m ++ ".pkl") := fun h => e (append_pkl.1 h)
            simp [e, this]
        · rw [List.count_cons, (h3 m).2 hm]
          have : ¬ (n ++ ".pkl" = m ++ ".pkl") := by
            intro h
            rw [append_pkl.1 h] at hn
            exact hm hn
          simp [this]
      · cases h

end Loading

open Loading

section
variable {K : Type}

/-- **C125, files.** The files that are loaded are those that were asked for, in the order of their
names: the given ones that contain the tag, or all that match it. -/
theorem C125_files (dir : Dir K) (hd : (dir.map Prod.fst).Nodup) (tag : Option String)
    (names : Option (List String)) (l : List String) (h : select dir tag names = .ok l) :
    Chosen dir tag names l := by
  have hall : ∀ l', (if ((dir.map Prod.fst).filter (globMatch (tag.getD ""))).isEmpty then
        (.error .runtimeError : PyM (List String))
      else .ok ((dir.map Prod.fst).filter (globMatch (tag.getD "")))) = .ok l' → sortNames l' = l →
      l ≠ [] ∧ l.Nodup ∧ ∀ m, m ∈ l ↔ Matching dir (tag.getD "") m := by
    intro l' h1 h2
    split at h1
    · cases h1
    rename_i hne
    cases h1
    subst h2
    refine ⟨?_, ?_, ?_⟩
    · intro e
      have := (perm ((dir.map Prod.fst).filter (globMatch (tag.getD "")))).length_eq
      rw [e] at this
      simp only [List.isEmpty_iff] at hne
      exact hne (List.length_eq_zero_iff.1 this.symm)
    · exact (perm _).nodup_iff.2 (hd.filter _)
    · intro m
      rw [(perm _).mem_iff, List.mem_filter, glob_iff, Matching, List.mem_map]
      constructor
      · rintro ⟨⟨f, hf, rfl⟩, h⟩
        exact ⟨⟨f.2, hf⟩, h⟩
      · rintro ⟨⟨f, hf⟩, h⟩
        exact ⟨⟨_, hf, rfl⟩, h⟩
  unfold select at h
  dsimp only at h
  match names, h with
  | none, h =>
    cases hr : (if ((dir.map Prod.fst).filter (globMatch (tag.getD ""))).isEmpty then
        (.error .runtimeError : PyM (List String))
      else .ok ((dir.map Prod.fst).filter (globMatch (tag.getD "")))) with
    | error e => rw [hr] at h; cases h
    | ok l' =>
      rw [hr] at h
      have h' : sortNames l' = l := Except.ok.inj h
      exact ⟨h' ▸ sorted l', hall l' hr h'⟩
  | some [], h =>
    cases hr : (if ((dir.map Prod.fst).filter (globMatch (tag.getD ""))).isEmpty then
        (.error .runtimeError : PyM (List String))
      else .ok ((dir.map Prod.fst).filter (globMatch (tag.getD "")))) with
    | error e => rw [hr] at h; cases h
    | ok l' =>
      rw [hr] at h
      have h' : sortNames l' = l := Except.ok.inj h
      exact ⟨h' ▸ sorted l', hall l' hr h'⟩
  | some (n :: ns), h =>
    dsimp only at h
    cases hr : named dir (tag.getD "") (n :: ns) with
    | error e => rw [hr] at h; cases h
    | ok l' =>
      rw [hr] at h
      have h' : sortNames l' = l := Except.ok.inj h
      subst h'
      obtain ⟨h1, h2, h3⟩ := named_ok dir _ _ _ hr
      refine ⟨sorted l', ?_, ?_, ?_⟩
      · intro m hm
        exact h1 m ((perm l').mem_iff.1 hm)
      · intro m hm
        exact h2 m ((perm l').mem_iff.1 hm)
      · intro m
        rw [(perm l').count_eq]
        exact h3 m

/-- **C125, failure.** Without names the call fails exactly if no file matches the tag, with a RuntimeError. -/
theorem C125_no_files (dir : Dir K) (tag : Option String) :
    (select dir tag none = .error .runtimeError ↔ ∀ m, ¬ Matching dir (tag.getD "") m) ∧
    ((∃ m, Matching dir (tag.getD "") m) → ∃ l, select dir tag none = .ok l) := by
  have key : ((dir.map Prod.fst).filter (globMatch (tag.getD ""))) = [] ↔
      ∀ m, ¬ Matching dir (tag.getD "") m := by
    rw [List.filter_eq_nil_iff]
    constructor
    · rintro h m ⟨⟨f, hf⟩, h'⟩
      exact h m (List.mem_map.2 ⟨_, hf, rfl⟩) ((glob_iff _ _).2 h')
    · intro h m hm h'
      obtain ⟨f, hf, rfl⟩ := List.mem_map.1 hm
      exact h _ ⟨⟨f.2, hf⟩, (glob_iff _ _).1 h'⟩
  unfold select
  dsimp only
  by_cases h : ((dir.map Prod.fst).filter (globMatch (tag.getD ""))) = []
  · rw [if_pos (by simpa using h)]
    refine ⟨⟨fun _ => key.1 h, fun _ => rfl⟩, ?_⟩
    rintro ⟨m, hm⟩
    exact absurd hm (key.1 h m)
  · rw [if_neg (by simpa using h)]
    refine ⟨⟨fun h' => ?_, fun h' => absurd (key.2 h') h⟩, fun _ => ⟨_, rfl⟩⟩
    cases h'

/-- **C125, failure.** With names the call fails exactly if one that contains the tag has no file, with an
OSError. -/
theorem C125_missing (dir : Dir K) (tag : Option String) (n : String) (ns : List String) :
    (select dir tag (some (n :: ns)) = .error .osError ↔
      ∃ m ∈ n :: ns, (∃ x y, m = x ++ tag.getD "" ++ y) ∧ ¬ ∃ f, (m ++ ".pkl", f) ∈ dir) ∧
    ((∃ l, select dir tag (some (n :: ns)) = .ok l) ∨
      select dir tag (some (n :: ns)) = .error .osError) := by
  have key : ∀ l : List String,
      (named dir (tag.getD "") l = .error .osError ↔
        ∃ m ∈ l, (∃ x y, m = x ++ tag.getD "" ++ y) ∧ ¬ ∃ f, (m ++ ".pkl", f) ∈ dir) ∧
      ((∃ l', named dir (tag.getD "") l = .ok l') ∨ named dir (tag.getD "") l = .error .osError) := by
    intro l
    induction l with
    | nil => exact ⟨by simp [named], .inl ⟨[], rfl⟩⟩
    | cons m l ih =>
      unfold named
      have hc : contains (tag.getD "") m = true ↔ ∃ x y, m = x ++ tag.getD "" ++ y := by
        rw [← infix_iff]; simp [contains]
      have ha : dir.any (fun f => f.1 = m ++ ".pkl") = true ↔ ∃ f, (m ++ ".pkl", f) ∈ dir := by
        simp only [List.any_eq_true, decide_eq_true_eq]
        constructor
        · rintro ⟨⟨a, f⟩, h1, rfl⟩
          exact ⟨f, h1⟩
        · rintro ⟨f, h⟩
          exact ⟨_, h, rfl⟩
      cases h1 : contains (tag.getD "") m with
      | false =>
        simp only [Bool.not_false, if_true]
        have : ¬ ∃ x y, m = x ++ tag.getD "" ++ y := by rw [← hc, h1]; simp
        refine ⟨?_, ih.2⟩
        rw [ih.1]
        simp only [List.mem_cons, exists_eq_or_imp, this, false_and, false_or]
      | true =>
        simp only [Bool.not_true, Bool.false_eq_true, if_false]
        cases h2 : dir.any (fun f => f.1 = m ++ ".pkl") with
        | false =>
          simp only [Bool.false_eq_true, if_false]
          refine ⟨⟨fun _ => ⟨m, List.mem_cons_self, hc.1 h1, ?_⟩, fun _ => trivial⟩, .inr trivial⟩
          rw [← ha, h2]; simp
        | true =>
          simp only [if_true]
          have hm : ¬ ¬ ∃ f, (m ++ ".pkl", f) ∈ dir := not_not.2 (ha.1 h2)
          simp only [List.mem_cons, exists_eq_or_imp, hm, and_false, false_or]
          rw [← ih.1]
          rcases ih.2 with ⟨l', h⟩ | h <;> rw [h]
          · exact ⟨by simp [bind, Except.bind], .inl ⟨_, rfl⟩⟩
          · exact ⟨by simp [bind, Except.bind], .inr rfl⟩
  unfold select
  dsimp only
  obtain ⟨k1, k2⟩ := key (n :: ns)
  rw [← k1]
  rcases k2 with ⟨l', h⟩ | h <;> rw [h]
  · exact ⟨by simp [Except.map], .inl ⟨_, rfl⟩⟩
  · exact ⟨by simp [Except.map], .inr rfl⟩

end

variable {K : Type} [Field K] [LinearOrder K] [FloorRing K]

namespace Loading

/-- What a plain file is unpacked to. -/
theorem unpack_plain (prev : Option (Held K)) {f : Pickle K} {a b : Dict K} (h : Plain f a b) :
    unpack prev f = (do
      let a' ← (match f with | .dict _ => suffixName a "A" | _ => .ok a)
      let b' ← (match f with | .dict _ => suffixName b "B" | _ => .ok b)
      return .two a' b') := by
  cases h with
  | one d => rfl
  | two a b => rfl

/-- If no step fails, every file has its own step. -/
theorem steps_get (kw : Dict K) (np : Bool) (qa qb : Val K) :
    ∀ (fs : List (Pickle K)) (prev : Option (Held K)) (i : Int),
      (∀ x ∈ steps kw np qa qb prev i fs, ∃ a b, x = (.ok a, .ok b)) →
      (∀ f ∈ fs, ∃ a b, Plain f a b) →
      (steps kw np qa qb prev i fs).length = fs.length ∧
      ∀ (n : Nat) (f : Pickle K), fs[n]? = some f → ∃ (a b : Dict K) (h : Held K), (steps kw np qa qb prev i fs)[n]? = some (.ok a, .ok b) ∧
        (unpack none f).bind (complete kw np qa qb (i + 2 * n)) = .ok (a, b, h)
  | [], prev, i, _, _ => by simp [steps]
  | f :: fs, prev, i, hok, hp => by
    obtain ⟨a0, b0, hf⟩ := hp f List.mem_cons_self
    have hun : unpack prev f = unpack none f := by
      rw [unpack_plain prev hf, unpack_plain none hf]
    unfold steps at hok ⊢
    cases hc : (unpack prev f).bind (complete kw np qa qb i) with
    | error e =>
      rw [hc] at hok
      obtain ⟨a, b, h⟩ := hok (.error e, .error e) (by simp)
      simp at h
    | ok r =>
      obtain ⟨a, b, h⟩ := r
      rw [hc] at hok
      dsimp only at hok ⊢
      obtain ⟨g1, g2⟩ := steps_get kw np qa qb fs (some h) (i + 2)
        (fun x hx => hok x (List.mem_cons_of_mem _ hx)) (fun f hf => hp f (List.mem_cons_of_mem _ hf))
      refine ⟨by simp [g1], ?_⟩
      intro n f' hf'
      cases n with
      | zero =>
        simp only [List.getElem?_cons_zero, Option.some.injEq] at hf'
        subst hf'
        rw [hun] at hc
        exact ⟨a, b, h, rfl, by simpa using hc⟩
      | succ n =>
        obtain ⟨a', b', h', e1, e2⟩ := g2 n f' (by simpa using hf')
        refine ⟨a', b', h', by simpa using e1, ?_⟩
        rw [show i + 2 * ((n + 1 : Nat) : Int) = i + 2 + 2 * (n : Int) by push_cast; ring]
        exact e2

theorem finish_arg {d kw : Dict K} {i : Int} {s : Val K} {pol : String} {dead : Bool} {d' : Dict K}
    (h : finishOpts d kw i s pol dead = .ok d') :
    ∃ q, ((given kw d .polang).getD (.int 0)).add s = .ok q ∧ arg d' .polang = q ∧
      arg d' .pol = .str pol ∧ arg d' .idx = .int i ∧
      (arg d' .dead = if dead then .bool true else (given kw d .dead).getD (arg [] .dead)) ∧
      ∀ k, k ∉ [Key.pol, .idx, .polang, .dead, .ghost] → arg d' k = (given kw d k).getD (arg [] k) := by
  unfold finishOpts at h
  dsimp only at h
  have hg : ∀ k, k ∉ [Key.pol, .idx, .ghost] → Dict.get? ((Key.idx, Val.int i) ::
      (kw.filter (·.1 ∉ [Key.pol, .ghost, .idx]) ++ d)) k = given kw d k := by
    intro k hk
    have hk' : k ∉ [Key.pol, .ghost, .idx] := by simp_all
    have hne : (Key.idx == k) = false := by
      rw [beq_eq_false_iff_ne]
      rintro rfl
      simp at hk
    rw [show ((Key.idx, Val.int i) :: (kw.filter (·.1 ∉ [Key.pol, .ghost, .idx]) ++ d)) =
      [(Key.idx, Val.int i)] ++ (kw.filter (·.1 ∉ [Key.pol, .ghost, .idx]) ++ d) from rfl,
      get?_append, get?_append, get?_filter_mem kw hk', given]
    rw [get?_none_of [(Key.idx, Val.int i)] (r := [Key.idx]) (by simp) (by
      intro h; simp at h; subst h; simp at hk)]
    rfl
  have hpop : popArg ((Key.idx, Val.int i) :: (kw.filter (·.1 ∉ [Key.pol, .ghost, .idx]) ++ d))
      .polang (.int 0) = (given kw d .polang).getD (.int 0) := by
    unfold popArg
    rw [hg .polang (by decide)]
    cases given kw d .polang <;> rfl
  obtain ⟨q, hq, h⟩ := MapMaking.bind_ok h
  rw [hpop] at hq
  have h := Except.ok.inj h
  subst h
  have hk : ∀ (l : Dict K) (ks : List Key) k, (∀ x ∈ l, x.1 ∈ ks) → k ∉ ks → k ∉ [Key.pol, .idx, .ghost] →
      arg (l ++ (Key.idx, Val.int i) :: (kw.filter (·.1 ∉ [Key.pol, .ghost, .idx]) ++ d)) k =
        (given kw d k).getD (arg [] k) := by
    intro l ks k hl hks hk
    unfold arg
    rw [get?_append, get?_none_of l hl hks, hg k hk]
    cases given kw d k <;> rfl
  refine ⟨q, hq, ?_, rfl, ?_, ?_, ?_⟩
  · cases dead <;> rfl
  · cases dead <;> rfl
  · cases dead
    · exact hk [(.pol, .str pol), (.polang, q)] [.pol, .polang] .dead (by simp) (by decide) (by decide)
    · rfl
  · intro k hk'
    cases dead
    · exact hk [(.pol, .str pol), (.polang, q)] [.pol, .polang] k (by simp) (by simp_all) (by simp_all)
    · exact hk [(.pol, .str pol), (.dead, .bool true), (.polang, q)] [.pol, .dead, .polang] k (by simp)
        (by simp_all) (by simp_all)

theorem suffix_other {d d' : Dict K} {s : String} (h : suffixName d s = .ok d') :
    (∀ k, k ≠ .name → Dict.get? d' k = Dict.get? d k) ∧
    (∀ n, Dict.get? d .name = some (.str n) → n ≠ "" → Dict.get? d' .name = some (.str (n ++ s))) := by
  unfold suffixName at h
  split at h
  · rename_i hn
    cases h
    exact ⟨fun _ _ => rfl, fun n h => by rw [hn] at h; cases h⟩
  · rename_i v hv
    split at h
    · obtain ⟨w, hw, h⟩ := MapMaking.bind_ok h
      cases h
      refine ⟨?_, ?_⟩
      · intro k hk
        rw [show ((Key.name, w) :: d) = [(Key.name, w)] ++ d from rfl, get?_append,
          get?_none_of [(Key.name, w)] (r := [Key.name]) (by simp) (by simpa using hk)]
        rfl
      · intro n hn _
        rw [hv] at hn
        cases hn
        have : w = .str (n ++ s) := by
          simpa [Val.add] using hw.symm
        rw [this]
        rfl
    · rename_i hf
      cases h
      refine ⟨fun _ _ => rfl, ?_⟩
      intro n hn hne
      rw [hv] at hn
      cases hn
      simp [Val.truthy] at hf
      exact absurd hf hne

end Loading

/-- **C125 (partial).** If every chosen file has options for one detector or separate options for two,
a successful `load_focal_plane` appends one pair for every file (or replaces the focal plane by
them), in the order of the files, touching no existing detector.  Every option is the one of the call
if given there, else the one of the file, else the default; the angles are shifted by `polang_A` and
`polang_B`, B is dead with `no_pairs`, names from a file with options for one detector end with the
letter of the detector, and the numbers count on from the existing ones.  Missing: files that hold
the same dictionary twice, or neither dictionaries nor sequences; see the violations. -/
theorem C125_pairs_partial (env : Env K) (rng : Nat → K) (p : Plane K)
    (hr : PReachable env rng (fun _ op => NoCount op) p) (dir : Dir K) (tag : Option String)
    (names : Option (List String)) (noPairs combine : Bool) (polangA polangB : Val K) (kw : Dict K)
    (l : List String) (hl : select dir tag names = .ok l)
    (plain : ∀ n ∈ l, ∃ f a b, dir.lookup n = some f ∧ Plain f a b)
    (hok : ((load env dir tag names noPairs combine polangA polangB kw).run p).1 = .ok ()) :
    let p' := ((load env dir tag names noPairs combine polangA polangB kw).run p).2
    let A := fun n : Nat => p.heap.size + 2 * n
    let B := fun n : Nat => p.heap.size + 2 * n + 1
    p'.beams = (if combine then p.beams else []) ++
      (List.range l.length).map (fun n => (some (A n), some (B n))) ∧
    p'.ndet = (if combine then p.ndet else 0) + 2 * l.length ∧
    (∀ x < p.heap.size, p'.heap.cell x = p.heap.cell x) ∧
    ∃ i0 : Int, (combine = false ∨ p.beams = [] → i0 = 0) ∧
      (combine = true → ∀ r ∈ slots p.beams, ∃ j, (p.heap.cell r).attr .idx = some (.int j) ∧ j < i0) ∧
      ∀ (n : Nat) (m : String) (f : Pickle K) (a b : Dict K), l[n]? = some m →
        dir.lookup m = some f → Plain f a b →
        (∀ k ∈ [Key.az, .el] ++ commonKeys,
          (p'.heap.cell (A n)).attr k = some ((given kw a k).getD (arg [] k)) ∧
          (p'.heap.cell (B n)).attr k = some ((given kw b k).getD (arg [] k))) ∧
        (∃ q, ((given kw a .polang).getD (.int 0)).add polangA = .ok q ∧
          (p'.heap.cell (A n)).attr .polang = some q) ∧
        (∃ q, ((given kw b .polang).getD (.int 0)).add polangB = .ok q ∧
          (p'.heap.cell (B n)).attr .polang = some q) ∧
        (p'.heap.cell (A n)).attr .pol = some (.str "A") ∧
        (p'.heap.cell (B n)).attr .pol = some (.str "B") ∧
        (p'.heap.cell (A n)).attr .idx = some (.int (i0 + 2 * n)) ∧
        (p'.heap.cell (B n)).attr .idx = some (.int (i0 + 2 * n + 1)) ∧
        (p'.heap.cell (A n)).attr .dead = some ((given kw a .dead).getD (.bool false)) ∧
        (p'.heap.cell (B n)).attr .dead =
          some (if noPairs then .bool true else (given kw b .dead).getD (.bool false)) ∧
        ∀ s, s ≠ "" → f = .dict a → Dict.get? kw .name = none →
          Dict.get? a .name = some (.str s) →
          (p'.heap.cell (A n)).attr .name = some (.str (s ++ "A")) ∧
          (p'.heap.cell (B n)).attr .name = some (.str (s ++ "B")) := by
  have hb : BInv p := hr.binv fun _ _ h => h
  unfold load Exec.run at hok ⊢
  dsimp only at hok ⊢
  rcases hi : startIdx p combine with e | i <;> rw [hi] at hok
  · cases hok
  dsimp only at hok ⊢
  rw [hl] at hok ⊢
  dsimp only at hok ⊢
  set fs := l.filterMap fun n => dir.lookup n with hfs
  have hlook : ∀ (l : List String), (∀ n ∈ l, ∃ f a b, dir.lookup n = some f ∧ Plain f a b) →
      (l.filterMap fun n => dir.lookup n).length = l.length ∧
      (∀ f ∈ l.filterMap (fun n => dir.lookup n), ∃ a b, Plain f a b) ∧
      ∀ (n : Nat) (m : String), l[n]? = some m →
        (l.filterMap fun n => dir.lookup n)[n]? = dir.lookup m := by
    intro l
    induction l with
    | nil => intro _; simp
    | cons m l ih =>
      intro h
      obtain ⟨f, a, b, h1, h2⟩ := h m List.mem_cons_self
      obtain ⟨g1, g2, g3⟩ := ih fun n hn => h n (List.mem_cons_of_mem _ hn)
      rw [List.filterMap_cons_some (f := fun n => dir.lookup n) h1]
      refine ⟨by simp [g1], ?_, ?_⟩
      · intro f' hf'
        rcases List.mem_cons.1 hf' with rfl | hf'
        · exact ⟨a, b, h2⟩
        · exact g2 f' hf'
      · intro n m' hm'
        cases n with
        | zero =>
          simp only [List.getElem?_cons_zero, Option.some.injEq] at hm' ⊢
          subst hm'
          exact h1.symm
        | succ n => simpa using g3 n m' (by simpa using hm')
  obtain ⟨lk1, lk2, lk3⟩ := hlook l plain
  rw [← hfs] at lk1 lk2 lk3
  obtain ⟨g, hsame, hspec⟩ := buildPairs_spec env (steps kw noPairs polangA polangB none i fs) p.heap hb.wf
  rcases hbp : buildPairs env (steps kw noPairs polangA polangB none i fs) p.heap
    with ⟨e | qs, h'⟩ <;> rw [hbp] at hok hspec hsame <;> dsimp only at hok hspec hsame ⊢
  · cases hok
  obtain ⟨q1, q2, q3⟩ := hspec qs rfl
  have hall : ∀ x ∈ steps kw noPairs polangA polangB none i fs, ∃ a b, x = (.ok a, .ok b) := by
    intro x hx
    obtain ⟨n, hn, rfl⟩ := List.getElem_of_mem hx
    obtain ⟨a, b, h, -⟩ := q3 n _ (List.getElem?_eq_getElem hn)
    exact ⟨a, b, h⟩
  obtain ⟨s1, s2⟩ := steps_get kw noPairs polangA polangB fs none i hall lk2
  rw [s1, lk1] at q1 q2
  have hbm : (extend { p with heap := h' } qs (2 * qs.length) combine).beams =
      (if combine then p.beams else []) ++ qs := by unfold extend; split <;> simp
  have hnd : (extend { p with heap := h' } qs (2 * qs.length) combine).ndet =
      (if combine then p.ndet else 0) + 2 * qs.length := by unfold extend; split <;> simp
  have hhp : (extend { p with heap := h' } qs (2 * qs.length) combine).heap = h' := by
    unfold extend; split <;> rfl
  rw [hbm, hnd, hhp]
  refine ⟨by rw [q2], by rw [q2]; simp, hsame, i, ?_, ?_, ?_⟩
  · intro h
    have : startIdx p combine = .ok 0 := by
      rcases h with rfl | h
      · rfl
      · unfold startIdx nextIdx beamsIdxs
        rw [h]
        cases combine <;> rfl
    rw [this] at hi
    exact (Except.ok.inj hi).symm
  · intro hc r hr'
    subst hc
    exact startIdx_lt hi r hr'
  · intro n m f a b hm hf hp
    have hfn : fs[n]? = some f := by rw [lk3 n m hm, hf]
    obtain ⟨da, db, hh, e1, e2⟩ := s2 n f hfn
    obtain ⟨da', db', e3, y, z⟩ := q3 n _ e1
    simp only [Prod.mk.injEq, Except.ok.injEq] at e3
    obtain ⟨rfl, rfl⟩ := e3
    obtain ⟨held, u1, u2⟩ := MapMaking.bind_ok e2
    have key : ∃ a' b', held = .two a' b' ∧
        (∀ k, k ≠ .name → Dict.get? a' k = Dict.get? a k) ∧
        (∀ k, k ≠ .name → Dict.get? b' k = Dict.get? b k) ∧
        ∀ s, s ≠ "" → f = .dict a → Dict.get? a .name = some (.str s) →
          Dict.get? a' .name = some (.str (s ++ "A")) ∧ Dict.get? b' .name = some (.str (s ++ "B")) := by
      cases hp with
      | one d =>
        rw [unpack] at u1
        obtain ⟨a', h1, u1⟩ := MapMaking.bind_ok u1
        obtain ⟨b', h2, u1⟩ := MapMaking.bind_ok u1
        obtain ⟨t1, t2⟩ := suffix_other h1
        obtain ⟨t3, t4⟩ := suffix_other h2
        exact ⟨a', b', (Except.ok.inj u1).symm, t1, t3, fun s hs _ hn => ⟨t2 s hn hs, t4 s hn hs⟩⟩
      | two a b =>
        exact ⟨a, b, (Except.ok.inj u1).symm, fun _ _ => rfl, fun _ _ => rfl,
          fun s _ h => by cases h⟩
    obtain ⟨a', b', rfl, k1, k2, k3⟩ := key
    rw [complete] at u2
    obtain ⟨xa, f1, u2⟩ := MapMaking.bind_ok u2
    obtain ⟨xb, f2, u2⟩ := MapMaking.bind_ok u2
    have u2 := Except.ok.inj u2
    simp only [Prod.mk.injEq] at u2
    obtain ⟨rfl, rfl, -⟩ := u2
    have at1 : ∀ k ∈ plainKeys, (h'.cell (p.heap.size + 2 * n)).attr k = some (arg xa k) :=
      fun k hk => (init_spec env y).1 k hk
    have at2 : ∀ k ∈ plainKeys, (h'.cell (p.heap.size + 2 * n + 1)).attr k = some (arg xb k) :=
      fun k hk => (init_spec env z).1 k hk
    obtain ⟨qa, a1, a2, a3, a4, a5, a6⟩ := finish_arg f1
    obtain ⟨qb, b1, b2, b3, b4, b5, b6⟩ := finish_arg f2
    have ga : ∀ k, k ≠ .name → given kw a' k = given kw a k := by
      intro k hk; unfold given; rw [k1 k hk]
    have gb : ∀ k, k ≠ .name → given kw b' k = given kw b k := by
      intro k hk; unfold given; rw [k2 k hk]
    rw [ga _ (by decide)] at a1 a5
    rw [gb _ (by decide)] at b1 b5
    refine ⟨?_, ⟨qa, a1, ?_⟩, ⟨qb, b1, ?_⟩, ?_, ?_, ?_, ?_, ?_, ?_, ?_⟩
    · intro k hk
      have hk' : k ∈ plainKeys ∧ k ∉ [Key.pol, .idx, .polang, .dead, .ghost] ∧ k ≠ .name := by
        simp only [commonKeys, List.mem_append, List.mem_cons, List.not_mem_nil, or_false] at hk
        rcases hk with (rfl | rfl) | rfl | rfl | rfl | rfl | rfl | rfl | rfl | rfl | rfl | rfl | rfl | rfl <;>
          simp [plainKeys]
      rw [at1 k hk'.1, at2 k hk'.1, a6 k hk'.2.1, b6 k hk'.2.1, ga k hk'.2.2, gb k hk'.2.2]
      exact ⟨rfl, rfl⟩
    · rw [at1 _ (by simp [plainKeys]), a2]
    · rw [at2 _ (by simp [plainKeys]), b2]
    · rw [at1 _ (by simp [plainKeys]), a3]
    · rw [at2 _ (by simp [plainKeys]), b3]
    · rw [at1 _ (by simp [plainKeys]), a4]
    · rw [at2 _ (by simp [plainKeys]), b4]
    · rw [at1 _ (by simp [plainKeys]), a5]
      rfl
    · rw [at2 _ (by simp [plainKeys]), b5]
      rfl
    · intro s hs hfa hkw hn
      obtain ⟨n1, n2⟩ := k3 s hs hfa hn
      rw [at1 _ (by simp [plainKeys]), at2 _ (by simp [plainKeys]), a6 _ (by decide), b6 _ (by decide)]
      unfold given
      rw [hkw, n1, n2]
      exact ⟨rfl, rfl⟩

/-- **C125, histories.** With such files the call is one of the calls in the histories of C17 and C43 to
C45. -/
theorem C125_history (env : Env K) (dir : Dir K) (tag : Option String) (names : Option (List String))
    (noPairs combine : Bool) (polangA polangB : Val K) (kw : Dict K) (l : List String)
    (hl : select dir tag names = .ok l)
    (plain : ∀ n ∈ l, ∃ f a b, dir.lookup n = some f ∧ Plain f a b) (p : Plane K) :
    ∃ files : List (BeamFile K), files.length = l.length ∧
      (∀ (k : Nat) n d, l[k]? = some n → dir.lookup n = some (.dict d) → files[k]? = some (.one d)) ∧
      (∀ (k : Nat) n a b, l[k]? = some n → dir.lookup n = some (.list [a, b]) →
        files[k]? = some (.two a b)) ∧
      (load env dir tag names noPairs combine polangA polangB kw).run p =
        (loadFocalPlane env files noPairs combine polangA polangB kw).run p := by
  let file : Pickle K → BeamFile K := fun f => match f with
    | .dict d => .one d
    | .list [a, b] => .two a b
    | _ => .wrongLength
  have hlook : ∀ (l : List String), (∀ n ∈ l, ∃ f a b, dir.lookup n = some f ∧ Plain f a b) →
      (l.filterMap fun n => dir.lookup n).length = l.length ∧
      (∀ f ∈ l.filterMap (fun n => dir.lookup n), ∃ a b, Plain f a b) ∧
      ∀ (k : Nat) n, l[k]? = some n → (l.filterMap fun n => dir.lookup n)[k]? = dir.lookup n := by
    intro l
    induction l with
    | nil => intro _; simp
    | cons m l ih =>
      intro h
      obtain ⟨f, a, b, h1, h2⟩ := h m List.mem_cons_self
      obtain ⟨g1, g2, g3⟩ := ih fun n hn => h n (List.mem_cons_of_mem _ hn)
      rw [List.filterMap_cons_some (f := fun n => dir.lookup n) h1]
      refine ⟨by simp [g1], ?_, ?_⟩
      swap
      · intro k n hk
        cases k with
        | zero => simp only [List.getElem?_cons_zero, Option.some.injEq] at hk ⊢; rw [← hk, h1]
        | succ k => simp only [List.getElem?_cons_succ] at hk ⊢; exact g3 k n hk
      intro f' hf'
      rcases List.mem_cons.1 hf' with rfl | hf'
      · exact ⟨a, b, h2⟩
      · exact g2 f' hf'
  obtain ⟨lk1, lk2, lk3⟩ := hlook l plain
  have hfile : ∀ (f : Pickle K) (a b : Dict K) (prev : Option (Held K)) (i : Int), Plain f a b →
      filePair kw noPairs polangA polangB i (file f) =
        ((unpack prev f).bind (complete kw noPairs polangA polangB i)).map fun r => (r.1, r.2.1) := by
    intro f a b prev i hp
    cases hp with
    | one =>
      simp only [file, filePair, fileOpts, unpack]
      cases suffixName a "A" with
      | error e => rfl
      | ok a' =>
        cases suffixName a "B" with
        | error e => rfl
        | ok b' =>
          simp only [bind, Except.bind, pure, Except.pure, complete]
          cases finishOpts a' kw i polangA "A" false with
          | error e => rfl
          | ok x =>
            dsimp only
            cases finishOpts b' kw (i + 1) polangB "B" noPairs <;> rfl
    | two =>
      simp only [file, filePair, fileOpts, unpack]
      simp only [bind, Except.bind, pure, Except.pure, complete]
      cases finishOpts a kw i polangA "A" false with
      | error e => rfl
      | ok x =>
        dsimp only
        cases finishOpts b kw (i + 1) polangB "B" noPairs <;> rfl
  have hbuild : ∀ (fs : List (Pickle K)) (prev : Option (Held K)) (i : Int) (h : Heap K),
      (∀ f ∈ fs, ∃ a b, Plain f a b) →
      buildPairs env (steps kw noPairs polangA polangB prev i fs) h =
        buildPairs env (loadOpts kw noPairs polangA polangB i (fs.map file)) h := by
    intro fs
    induction fs with
    | nil => intro prev i h _; rfl
    | cons f fs ih =>
      intro prev i h hp
      obtain ⟨a, b, hf⟩ := hp f List.mem_cons_self
      have ih' := fun prev i h => ih prev i h fun f hf => hp f (List.mem_cons_of_mem _ hf)
      simp only [steps, loadOpts, List.map_cons]
      rw [hfile f a b prev i hf]
      cases (unpack prev f).bind (complete kw noPairs polangA polangB i) with
      | error e => rfl
      | ok r =>
        obtain ⟨x, y, z⟩ := r
        simp only [Except.map, buildPairs, ih']
  refine ⟨(l.filterMap fun n => dir.lookup n).map file, by simpa using lk1, ?_, ?_, ?_⟩
  · intro k n d hk hd
    rw [List.getElem?_map, lk3 k n hk, hd]
    rfl
  · intro k n a b hk hd
    rw [List.getElem?_map, lk3 k n hk, hd]
    rfl
  unfold load loadFocalPlane Exec.run
  dsimp only
  rcases startIdx p combine with e | i
  · rfl
  dsimp only
  rw [hl]
  dsimp only
  rw [hbuild _ none i p.heap lk2]
  rcases buildPairs env _ p.heap with ⟨e | q, h⟩ <;> rfl

/-- **C125 (violation).** If none of the given names contains the tag, nothing is loaded and no error is
raised; without `combine` the focal plane is empty afterwards. -/
theorem C125_violation_silent (env : Env K) (p : Plane K) (dir : Dir K) (tag : String) (n : String)
    (ns : List String) (noPairs : Bool) (polangA polangB : Val K) (kw : Dict K)
    (h : ∀ m ∈ n :: ns, ¬ ∃ x y, m = x ++ tag ++ y) :
    (load env dir (some tag) (some (n :: ns)) noPairs false polangA polangB kw).run p =
      (.ok (), { p with beams := [], ndet := 0 }) := by
  have hn : ∀ l : List String, (∀ m ∈ l, ¬ ∃ x y, m = x ++ tag ++ y) → named dir tag l = .ok [] := by
    intro l
    induction l with
    | nil => intro _; rfl
    | cons m l ih =>
      intro h
      have hc : contains tag m = false := by
        have := h m List.mem_cons_self
        rw [← infix_iff] at this
        simpa [contains] using this
      unfold named
      rw [hc]
      simp only [Bool.not_false, if_true]
      exact ih fun m hm => h m (List.mem_cons_of_mem _ hm)
  have hs : select dir (some tag) (some (n :: ns)) = .ok [] := by
    unfold select
    dsimp only [Option.getD_some]
    rw [hn (n :: ns) h]
    simp [Except.map, sortNames]
  unfold load Exec.run
  dsimp only
  rw [hs]
  simp [startIdx, steps, buildPairs, extend]

/-- **C125 (violation).** An empty list of names loads all files of the directory. -/
theorem C125_violation_empty (env : Env K) (p : Plane K) (dir : Dir K) (tag : Option String)
    (noPairs combine : Bool) (polangA polangB : Val K) (kw : Dict K) :
    (load env dir tag (some []) noPairs combine polangA polangB kw).run p =
      (load env dir tag none noPairs combine polangA polangB kw).run p := rfl

/-- **C125 (violation).** A file that holds the same dictionary twice makes two detectors with the same
number and the angle of B, and both are dead if only B should be. -/
theorem C125_violation_twice (env : Env K) (rng : Nat → K) (p : Plane K)
    (hr : PReachable env rng (fun _ op => NoCount op) p) (name : String) (d : Dict K)
    (hname : globMatch "" name = true)
    (polangA polangB : Val K) (kw : Dict K)
    (hok : ((load env [(name, .twice d)] none none true false polangA polangB kw).run p).1 = .ok ()) :
    let p' := ((load env [(name, .twice d)] none none true false polangA polangB kw).run p).2
    ∃ r s, p'.beams = [(some r, some s)] ∧ Collision p' r s ∧
      (p'.heap.cell r).attr .dead = some (.bool true) ∧
      ∃ q, ((given kw d .polang).getD (.int 0)).add polangB = .ok q ∧
        (p'.heap.cell r).attr .polang = some q := by
  have hb : BInv p := hr.binv fun _ _ h => h
  have hs : select [(name, Pickle.twice d)] none none = .ok [name] := by
    unfold select
    simp [hname, sortNames, Except.map]
  unfold load Exec.run at hok ⊢
  dsimp only at hok ⊢
  rw [hs] at hok ⊢
  simp only [startIdx, Bool.false_eq_true, if_false] at hok ⊢
  have hfm : [name].filterMap (fun n => List.lookup n [(name, Pickle.twice d)]) = [.twice d] := by
    simp [List.lookup]
  rw [hfm] at hok ⊢
  obtain ⟨g, hsame, hspec⟩ := buildPairs_spec env
    (steps kw true polangA polangB none 0 [.twice d]) p.heap hb.wf
  rcases hbp : buildPairs env (steps kw true polangA polangB none 0 [.twice d]) p.heap
    with ⟨e | qs, h'⟩ <;> rw [hbp] at hok hspec <;> dsimp only at hok hspec ⊢
  · cases hok
  obtain ⟨q1, q2, q3⟩ := hspec qs rfl
  cases hc : (unpack none (Pickle.twice d)).bind (complete kw true polangA polangB 0) with
  | error e =>
    exfalso
    simp only [steps, hc] at q3
    obtain ⟨a, b, h, -⟩ := q3 0 _ rfl
    simp at h
  | ok r =>
    obtain ⟨da, db, hh⟩ := r
    simp only [steps, hc] at q1 q2 q3
    obtain ⟨a', b', h, y, z⟩ := q3 0 _ rfl
    simp only [Prod.mk.injEq, Except.ok.injEq] at h
    obtain ⟨rfl, rfl⟩ := h
    obtain ⟨held, u1, u2⟩ := MapMaking.bind_ok hc
    have u1 := Except.ok.inj u1
    subst u1
    rw [complete] at u2
    obtain ⟨x1, f1, u2⟩ := MapMaking.bind_ok u2
    obtain ⟨x2, f2, u2⟩ := MapMaking.bind_ok u2
    have u2 := Except.ok.inj u2
    simp only [Prod.mk.injEq] at u2
    obtain ⟨rfl, rfl, -⟩ := u2
    obtain ⟨q, b1, b2, b3, b4, b5, -⟩ := finish_arg f2
    have at1 : ∀ k ∈ plainKeys, (h'.cell p.heap.size).attr k = some (arg ((.pol, .str "A") :: x2) k) :=
      fun k hk => (init_spec env y).1 k hk
    have at2 : ∀ k ∈ plainKeys, (h'.cell (p.heap.size + 1)).attr k = some (arg x2 k) :=
      fun k hk => (init_spec env z).1 k hk
    have hA : ∀ k, k ≠ .pol → arg ((.pol, .str "A") :: x2) k = arg x2 k := by
      intro k hk
      unfold arg
      rw [show ((Key.pol, Val.str "A") :: x2) = [(Key.pol, Val.str "A")] ++ x2 from rfl, get?_append,
        get?_none_of [(Key.pol, Val.str "A")] (r := [Key.pol]) (by simp) (by simpa using hk)]
      rfl
    have hbm : (extend { p with heap := h' } qs (2 * qs.length) false).beams =
        [(some p.heap.size, some (p.heap.size + 1))] := by
      simp [extend, q2]
    have hhp : (extend { p with heap := h' } qs (2 * qs.length) false).heap = h' := rfl
    refine ⟨p.heap.size, p.heap.size + 1, hbm, ⟨?_, ?_, by simp, ?_⟩, ?_, q, b1, ?_⟩
    · rw [hbm]; simp [slots]
    · rw [hbm]; simp [slots]
    · rw [hhp, at1 _ (by simp [plainKeys]), at2 _ (by simp [plainKeys]), hA _ (by decide)]
    · rw [hhp, at1 _ (by simp [plainKeys]), hA _ (by decide), b5]
      rfl
    · rw [hhp, at1 _ (by simp [plainKeys]), hA _ (by decide), b2]

/-! ### Examples -/

/-- Three files in two directories, one of them hidden. -/
def demoDir : Dir Rat :=
  [("det_b.pkl", .list [[(.az, .num 1), (.polang, .num 10)], [(.az, .num 2), (.polang, .num 100)]]),
   ("det_a.pkl", .dict [(.name, .str "x"), (.az, .num 3), (.lmax, .int 40)]),
   (".det_c.pkl", .other), ("notes.txt", .other)]

/-- The two visible files are loaded, in the order of their names, with the options of the call. -/
example : select demoDir (some "det") none = .ok ["det_a.pkl", "det_b.pkl"] ∧
    (∀ n ∈ ["det_a.pkl", "det_b.pkl"], ∃ f a b, demoDir.lookup n = some f ∧ Plain f a b) ∧
    ((load demoEnv demoDir (some "det") none true true (.num 1) (.num 2) [(.el, .num 7)]).run
      (runF demoF)).1 = .ok () := by
  refine ⟨by decide +kernel, ?_, by decide +kernel⟩
  intro n hn
  simp only [List.mem_cons, List.not_mem_nil, or_false] at hn
  rcases hn with rfl | rfl
  · exact ⟨_, _, _, rfl, .one _⟩
  · exact ⟨_, _, _, rfl, .two _ _⟩

/-- The same by name. -/
example : select demoDir none (some ["det_b", "det_a", "det_b"]) =
    .ok ["det_a.pkl", "det_b.pkl", "det_b.pkl"] := by decide +kernel

/-- **C125 (violation).** A file that holds neither a dictionary nor a sequence repeats the detectors of
the file before, with angles shifted once more. -/
theorem C125_violation_other : ∃ dir : Dir Rat,
    let p := ((load demoEnv dir none none false false (.num 5) (.num 0) []).run emptyPlane).2
    ((load demoEnv dir none none false false (.num 5) (.num 0) []).run emptyPlane).1 = .ok () ∧
    dir.length = 2 ∧ dir.lookup "b.pkl" = some .other ∧ p.beams = [(some 0, some 1), (some 2, some 3)] ∧
    (p.heap.cell 0).attr .polang = some (.num 15) ∧ (p.heap.cell 2).attr .polang = some (.num 20) :=
  ⟨[("a.pkl", .dict [(.polang, .num 10)]), ("b.pkl", .other)], by decide +kernel, by decide +kernel, rfl,
    by decide +kernel, by decide +kernel, by decide +kernel⟩

/-- The hypotheses of `C125_violation_twice` are met. -/
example : globMatch "" "d.pkl" = true ∧
    ((load demoEnv [("d.pkl", .twice [(.polang, .num (1 : Rat))])] none none true false (.num 0) (.num 90)
      []).run emptyPlane).1 = .ok () := by decide +kernel

end Verif.Props
