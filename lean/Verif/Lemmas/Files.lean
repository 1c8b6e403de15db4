import Verif.Spec.Files
import Verif.Lemmas.FocalScan
import Verif.Props.LoadPlane

/-!
# Lemmas: focal planes from files
-/

noncomputable section

namespace Verif.Files

open Verif.Beam Verif.Timeline Verif.Spinmaps Verif.MapMaking Verif.ScanInstrument Verif.Spec
open Verif.FocalPlane (PReachable NoCount Plane finishOpts suffixName GoodOptions buildPairs startIdx extend)
open Verif.FocalScan (SharesBeam Lone GaussianOf parameters det arg_eq det_of degrees_width)
open Verif.ScanObjects (ObjPair ObjWorld Coefs PairOf OneOf)
open Verif.Spec.LoadPlane (given Plain)
open Verif.LoadPlane (Pickle Dir Held unpack complete steps load select)
open Verif.Tables (TableRow tabled)

variable {E : Type} {kw d : Dict ℝ} {az el pol : ℝ} {dead : Bool} {bt file : Val ℝ} {F A err : ℝ} {L : Nat}
  {mm : Int} {sym : Bool} {mu : Option Nat}

/-- The name of the detector does not matter. -/
theorem FileOptions.suffix (h : FileOptions kw d az el pol dead bt file F A err L mm sym mu) {d' : Dict ℝ}
    {s : String} (hs : suffixName d s = .ok d') :
    FileOptions kw d' az el pol dead bt file F A err L mm sym mu := by
  have hk : ∀ k, k ≠ .name → Dict.get? d' k = Dict.get? d k := (Props.Loading.suffix_other hs).1
  have hg : ∀ k, k ≠ .name → given kw d' k = given kw d k := by
    intro k h
    unfold given
    rw [hk k h]
  have hkn : ∀ x ∈ kw ++ d', x.1 ∈ parameters := by
    intro x hx
    unfold suffixName at hs
    split at hs
    · cases hs
      exact h.known x hx
    · split at hs
      · obtain ⟨w, -, hs⟩ := MapMaking.bind_ok hs
        cases hs
        rcases List.mem_append.1 hx with hx | hx
        · exact h.known x (List.mem_append_left _ hx)
        · rcases List.mem_cons.1 hx with rfl | hx
          · simp [parameters]
          · exact h.known x (List.mem_append_right _ hx)
      · cases hs
        exact h.known x hx
  exact ⟨hkn, by rw [hk _ (by simp)]; exact h.main, by rw [hg _ (by simp)]; exact h.az,
    by rw [hg _ (by simp)]; exact h.el, by rw [hg _ (by simp)]; exact h.polang,
    by rw [hg _ (by simp)]; exact h.dead, by rw [hg _ (by simp)]; exact h.btype,
    by rw [hg _ (by simp)]; exact h.file, by rw [hg _ (by simp)]; exact h.lmax,
    by rw [hg _ (by simp)]; exact h.mmax, by rw [hg _ (by simp)]; exact h.fwhm,
    by rw [hg _ (by simp)]; exact h.amplitude, by rw [hg _ (by simp)]; exact h.error,
    by rw [hg _ (by simp)]; exact h.symmetric, by rw [hg _ (by simp)]; exact h.plate⟩

theorem suffix_ok {d : Dict ℝ} (s : String) (h : ∀ v, Dict.get? d .name = some v → ∃ t, v = .str t) :
    ∃ d', suffixName d s = .ok d' := by
  unfold suffixName
  split
  · exact ⟨_, rfl⟩
  · rename_i v hv
    obtain ⟨t, rfl⟩ := h v hv
    split
    · exact ⟨_, rfl⟩
    · exact ⟨_, rfl⟩

theorem given_arg (kw d : Dict ℝ) (k : Key) (v : Val ℝ) (hv : Dict.get? defaults k = some v) :
    (given kw d k).getD (arg [] k) = (given kw d k).getD v := by
  unfold arg
  rw [hv]
  rfl

/-- What `Beam` is called with. -/
theorem finish_good (h : FileOptions kw d az el pol dead bt file F A err L mm sym mu) (hL : 0 < L) (i : Int)
    {sh : Val ℝ} {x : ℝ} (hsh : sh.toNum = some x) (letter : String) (np : Bool) :
    ∃ d', finishOpts d kw i sh letter np = .ok d' ∧ GoodOptions d' ∧
      (arg d' .ghost).truthy = false ∧
      (arg d' .dead).truthy = (np || dead) ∧ (arg d' .polang).toNum = some (pol + x) ∧
      ∀ k, k ∉ [Key.pol, .idx, .polang, .dead, .ghost] → arg d' k = (given kw d k).getD (arg [] k) := by
  obtain ⟨q, q1, q2⟩ := ScanObjects.add_toNum h.polang hsh
  have hex : ∃ d', finishOpts d kw i sh letter np = .ok d' := by
    unfold finishOpts
    dsimp only
    have hpop : FocalPlane.popArg ((Key.idx, Val.int i) :: (kw.filter (·.1 ∉ [Key.pol, .ghost, .idx]) ++ d))
        .polang (.int 0) = (given kw d .polang).getD (.int 0) := by
      unfold FocalPlane.popArg given
      rw [show ((Key.idx, Val.int i) :: (kw.filter (·.1 ∉ [Key.pol, .ghost, .idx]) ++ d)) =
        [(Key.idx, Val.int i)] ++ (kw.filter (·.1 ∉ [Key.pol, .ghost, .idx]) ++ d) from rfl,
        get?_append, get?_append, FocalPlane.get?_filter_mem kw (by decide : Key.polang ∉ [Key.pol, .ghost, .idx]),
        FocalPlane.get?_none_of [(Key.idx, Val.int i)] (r := [Key.idx]) (by simp) (by decide)]
      cases Dict.get? kw .polang <;> cases Dict.get? d .polang <;> rfl
    rw [hpop, q1]
    exact ⟨_, rfl⟩
  obtain ⟨d', hd'⟩ := hex
  obtain ⟨q', e1, e2, -, -, e5, e6⟩ := Props.Loading.finish_arg hd'
  rw [q1] at e1
  cases e1
  have hgh : arg d' .ghost = (Dict.get? d .ghost).getD (.bool false) := by
    have hd2 := hd'
    unfold finishOpts at hd2
    dsimp only at hd2
    obtain ⟨w, -, hd2⟩ := MapMaking.bind_ok hd2
    cases Except.ok.inj hd2
    have hf : Dict.get? (kw.filter (·.1 ∉ [Key.pol, .ghost, .idx])) .ghost = none :=
      FocalPlane.get?_none_of _ (r := (kw.filter (·.1 ∉ [Key.pol, .ghost, .idx])).map Prod.fst)
        (fun x hx => List.mem_map_of_mem hx) (by
          intro hm
          obtain ⟨y, hy, e⟩ := List.mem_map.1 hm
          have := (List.mem_filter.1 hy).2
          rw [e] at this
          simp at this)
    have hl : ∀ (l : Dict ℝ) (ks : List Key), (∀ x ∈ l, x.1 ∈ ks) → Key.ghost ∉ ks →
        arg (l ++ (kw.filter (·.1 ∉ [Key.pol, .ghost, .idx]) ++ d)) .ghost =
          (Dict.get? d .ghost).getD (.bool false) := by
      intro l ks h1 h2
      rw [arg_eq _ _ (.bool false) rfl, get?_append, FocalPlane.get?_none_of l h1 h2, get?_append, hf]
      rfl
    cases np
    · exact hl [(.pol, .str letter), (.polang, w), (.idx, .int i)] [.pol, .polang, .idx] (by simp) (by decide)
    · exact hl [(.pol, .str letter), (.dead, .bool true), (.polang, w), (.idx, .int i)]
        [.pol, .dead, .polang, .idx] (by simp) (by decide)
  have hkn : ∀ x ∈ d', x.1 ∈ parameters := by
    have hd2 := hd'
    unfold finishOpts at hd2
    dsimp only at hd2
    obtain ⟨w, -, hd2⟩ := MapMaking.bind_ok hd2
    cases Except.ok.inj hd2
    have hin : ∀ x ∈ kw.filter (·.1 ∉ [Key.pol, .ghost, .idx]) ++ d, x.1 ∈ parameters := by
      intro x hx
      rcases List.mem_append.1 hx with hx | hx
      · exact h.known x (List.mem_append_left _ (List.mem_filter.1 hx).1)
      · exact h.known x (List.mem_append_right _ hx)
    intro x hx
    generalize kw.filter (·.1 ∉ [Key.pol, .ghost, .idx]) ++ d = rest at hx hin
    cases np
    · simp only [Bool.false_eq_true, if_false, List.mem_cons] at hx
      rcases hx with rfl | rfl | rfl | hx
      · simp [parameters]
      · simp [parameters]
      · simp [parameters]
      · exact hin x hx
    · simp only [if_true, List.mem_cons] at hx
      rcases hx with rfl | rfl | rfl | rfl | hx
      · simp [parameters]
      · simp [parameters]
      · simp [parameters]
      · simp [parameters]
      · exact hin x hx
  have a1 : arg d' .lmax = .int L := by
    rw [e6 _ (by decide), given_arg _ _ _ (.int 700) rfl]
    exact h.lmax
  have a2 : arg d' .mmax = (given kw d .mmax).getD .none := by
    rw [e6 _ (by decide), given_arg _ _ _ .none rfl]
  have a3 : arg d' .fwhm = (given kw d .fwhm).getD .none := by
    rw [e6 _ (by decide), given_arg _ _ _ .none rfl]
  refine ⟨d', hd', ⟨?_, ⟨L, a1, fun _ => by exact_mod_cast hL⟩, ?_, ?_⟩, ?_, ?_, ?_, e6⟩
  · intro x hx
    have := hkn x hx
    simp only [parameters, List.mem_cons, List.not_mem_nil, or_false] at this
    rcases this with e | e | e | e | e | e | e | e | e | e | e | e | e | e | e | e | e | e | e | e | e |
      e | e <;> rw [e] <;> rfl
  · rw [a2]
    rcases h.mmax with ⟨e, -⟩ | ⟨m, e, -⟩
    · exact .inl e
    · exact .inr ⟨m, by rw [e]; rfl⟩
  · rw [a3]
    rcases h.fwhm with ⟨e, -⟩ | ⟨y, e, -⟩
    · exact .inl e
    · exact .inr ⟨y, by rw [e]; rfl⟩
  · rw [hgh]
    exact h.main
  · rw [e5]
    cases np
    · rw [given_arg _ _ _ (.bool false) rfl]
      simpa using h.dead
    · rfl
  · rw [e2]
    exact q2

/-- What the detector is then. -/
theorem detector_of (env : Env ℝ) (hpi : env.pi = Real.pi)
    (h : FileOptions kw d az el pol dead bt file F A err L mm sym mu) {dead' : Bool} {pol' : ℝ} {d' : Dict ℝ}
    (hg : (arg d' .ghost).truthy = false) (hd : (arg d' .dead).truthy = dead')
    (hp : (arg d' .polang).toNum = some pol')
    (ha : ∀ k, k ∉ [Key.pol, .idx, .polang, .dead, .ghost] → arg d' k = (given kw d k).getD (arg [] k))
    (hh : Heap ℝ) (r : Ref) (ho : init env d' = .ok (hh.cell r)) :
    Lone (hh.cell r) ∧ (hh.cell r).attr .blm = none ∧ BeamOf (hh.cell r).attr bt file F A L ∧
      (hh.cell r).attr .mmax = some (.int mm) ∧
      (∃ v, (hh.cell r).attr .symmetric = some v ∧ v.truthy = sym) ∧
      (hh.cell r).attr .hwpMueller = some (mu.elim .none .obj) ∧
      OneOf hh (some r) (some (det dead' az el pol' err)) := by
  obtain ⟨hat, -, i3, -, i5, -, i7⟩ := init_spec env ho
  rw [hg] at i3
  have hlone : Lone (hh.cell r) := ⟨i3, (i5 i3).1, (i5 i3).2⟩
  have hlim : Limits (hh.cell r) L mm F := by
    have k1 : arg d' .lmax = .int L := by
      rw [ha _ (by decide), given_arg _ _ _ (.int 700) rfl]
      exact h.lmax
    have k2 : arg d' .mmax = (given kw d .mmax).getD .none := by
      rw [ha _ (by decide), given_arg _ _ _ .none rfl]
    have k3 : arg d' .fwhm = (given kw d .fwhm).getD .none := by
      rw [ha _ (by decide), given_arg _ _ _ .none rfl]
    obtain ⟨i, L', M', F', b1, b2, b3, b4, b5, -⟩ := init_limits (by rw [hpi]; exact Real.pi_pos) ho
      (by rw [k1]; exact ⟨fun _ => .inr ⟨L, rfl⟩, by simp⟩)
      (by
        rw [k2]
        refine ⟨fun _ => ?_, by simp⟩
        rcases h.mmax with ⟨e, -⟩ | ⟨m, e, -⟩
        · exact .inl e
        · exact .inr ⟨m, by rw [e]; rfl⟩)
      (by
        rw [k3]
        refine ⟨by simp, fun _ => ?_⟩
        rcases h.fwhm with ⟨e, -⟩ | ⟨x, e, -⟩
        · exact .inl e
        · exact .inr ⟨x, by rw [e]; rfl⟩)
    rw [k1] at b1
    cases b1
    have eL : L' = L := by rw [b2]; simp
    subst eL
    have eM : M' = mm := by
      rw [b3, k2]
      rcases h.mmax with ⟨e, e'⟩ | ⟨m, e, e'⟩
      · rw [e, e']
      · rw [e, e']
        rfl
    have eF : F' = F := by
      rw [b4, k3]
      rcases h.fwhm with ⟨e, e'⟩ | ⟨x, e, e'⟩
      · rw [e, e']
        dsimp only
        rw [degrees_width hpi]
        simp
      · rw [e, e']
        rfl
    rw [← eM, ← eF]
    exact b5
  have hk : ∀ k (v : Val ℝ), k ∈ plainKeys → k ∉ [Key.pol, .idx, .polang, .dead, .ghost] →
      Dict.get? defaults k = some v → (hh.cell r).attr k = some ((given kw d k).getD v) := by
    intro k v h1 h2 h3
    rw [hat k h1, ha k h2, given_arg _ _ _ v h3]
  refine ⟨hlone, i7, ⟨?_, ?_, hlim.2.2, hlim.1, ?_⟩, hlim.2.1, ?_, ?_, ?_⟩
  · rw [hk .btype (.str "Gaussian") (by simp [plainKeys]) (by decide) rfl, h.btype]
  · rw [hk .poFile .none (by simp [plainKeys]) (by decide) rfl, h.file]
  · exact ⟨_, hk .amplitude (.num 1) (by simp [plainKeys]) (by decide) rfl, h.amplitude⟩
  · exact ⟨_, hk .symmetric (.bool false) (by simp [plainKeys]) (by decide) rfl, h.symmetric⟩
  · rw [hk .hwpMueller .none (by simp [plainKeys]) (by decide) rfl, h.plate]
  · have := det_of hlone (hat .dead (by simp [plainKeys])) (hk .az (.num 0) (by simp [plainKeys]) (by decide) rfl)
      (hk .el (.num 0) (by simp [plainKeys]) (by decide) rfl) (hat .polang (by simp [plainKeys]))
      (hk .polangError (.num 0) (by simp [plainKeys]) (by decide) rfl) h.az h.el hp h.error
    rw [hd] at this
    exact this

/-- `d'` are the options for a detector with the given direction, angle and dead flag. -/
def Called (kw : Dict ℝ) (az el pol : ℝ) (dead : Bool) (bt file : Val ℝ) (F A err : ℝ) (L : Nat) (mm : Int)
    (sym : Bool) (mu : Option Nat) (d' : Dict ℝ) : Prop :=
  ∃ d pol0 dead0, FileOptions kw d az el pol0 dead0 bt file F A err L mm sym mu ∧ GoodOptions d' ∧
    (arg d' .ghost).truthy = false ∧ (arg d' .dead).truthy = dead ∧ (arg d' .polang).toNum = some pol ∧
    ∀ k, k ∉ [Key.pol, .idx, .polang, .dead, .ghost] → arg d' k = (given kw d k).getD (arg [] k)

/-- The options of all detectors. -/
theorem steps_good {dir : Dir ℝ} {l : List String} {rows : List TableRow}
    (h : List.Forall₂ (Describes dir kw bt file F A err L mm sym mu) l rows) (hL : 0 < L) (np : Bool)
    {sa sb : Val ℝ} {x y : ℝ} (ha : sa.toNum = some x) (hb : sb.toNum = some y) (prev : Option (Held ℝ)) (i : Int) :
    (steps kw np sa sb prev i (l.filterMap fun n => dir.lookup n)).length = rows.length ∧
    ∀ (n : Nat) (row : TableRow), rows[n]? = some row → ∃ da db : Dict ℝ,
      (steps kw np sa sb prev i (l.filterMap fun n => dir.lookup n))[n]? = some (.ok da, .ok db) ∧
      Called kw row.az.1 row.el.1 (row.polang.1 + x) row.dead.1 bt file F A err L mm sym mu da ∧
      Called kw row.az.2 row.el.2 (row.polang.2 + y) (np || row.dead.2) bt file F A err L mm sym mu db := by
  induction h generalizing prev i with
  | nil => simp [steps]
  | @cons m row l rows hm _ ih =>
    obtain ⟨f, a, b, h1, h2, h3, h4, h5⟩ := hm
    rw [List.filterMap_cons_some (f := fun n => dir.lookup n) h1]
    have hu : ∃ a' b', unpack prev f = .ok (.two a' b') ∧
        FileOptions kw a' row.az.1 row.el.1 row.polang.1 row.dead.1 bt file F A err L mm sym mu ∧
        FileOptions kw b' row.az.2 row.el.2 row.polang.2 row.dead.2 bt file F A err L mm sym mu := by
      cases h2 with
      | one d =>
        obtain ⟨a', e1⟩ := suffix_ok "A" (h3 rfl)
        obtain ⟨b', e2⟩ := suffix_ok "B" (h3 rfl)
        refine ⟨a', b', ?_, h4.suffix e1, h5.suffix e2⟩
        show (suffixName a "A").bind (fun a' => (suffixName a "B").bind fun b' => .ok (Held.two a' b')) = _
        rw [e1, e2]
        rfl
      | two a b => exact ⟨a, b, rfl, h4, h5⟩
    obtain ⟨a', b', u1, u2, u3⟩ := hu
    obtain ⟨da, c1, c2⟩ := finish_good u2 hL i ha "A" false
    obtain ⟨db, c3, c4⟩ := finish_good u3 hL (i + 1) hb "B" np
    have hc : (unpack prev f).bind (complete kw np sa sb i) = .ok (da, db, .two da db) := by
      rw [u1]
      show complete kw np sa sb i (.two a' b') = _
      show (finishOpts a' kw i sa "A" false).bind (fun a => (finishOpts b' kw (i + 1) sb "B" np).bind fun b =>
        .ok (a, b, Held.two a b)) = _
      rw [c1, c3]
      rfl
    unfold steps
    rw [hc]
    dsimp only
    obtain ⟨k1, k2⟩ := ih (some (.two da db)) (i + 2)
    refine ⟨by simp [k1], ?_⟩
    intro n row' hr
    cases n with
    | zero =>
      simp only [List.getElem?_cons_zero, Option.some.injEq] at hr
      subst hr
      rw [Bool.false_or] at c2
      exact ⟨da, db, rfl, ⟨a', _, _, u2, c2⟩, ⟨b', _, _, u3, c4⟩⟩
    | succ n => simpa using k2 n row' (by simpa using hr)

/-- The pairs of a new focal plane from files share a beam. -/
theorem file_shares (s : ObjWorld E) (hpi : s.env.pi = Real.pi) (rng : Nat → ℝ) (p : Plane ℝ)
    (hr : PReachable s.env rng (fun _ op => NoCount op) p) (combine : Bool)
    (hnew : combine = false ∨ p.beams = []) (dir : Dir ℝ) (tag : Option String) (names : Option (List String))
    (l : List String) (hl : select dir tag names = .ok l) (rows : List TableRow)
    (hd : List.Forall₂ (Describes dir kw bt file F A err L mm sym mu) l rows) (np : Bool)
    {sa sb : Val ℝ} {x y : ℝ} (ha : sa.toNum = some x) (hb : sb.toNum = some y)
    (hL : 0 < L) (hrot : ∀ az el, IsRot (s.w.x.detOffset az el 0)) (c : Coefs) (hcL : c.L = L)
    (hload : ∀ a, BeamOf a bt file F A L → s.env.loadBlm a = .ok (.obj c.n, none)) (Ls : Nat)
    (h0 : 0 ≤ min mm s.maxSpin) (h1 : min mm s.maxSpin ≤ (min Ls L : Nat))
    (h2 : if sym then 2 ≤ min Ls L else 2 ≤ min mm s.maxSpin) :
    let r := (load s.env dir tag names np combine sa sb kw).run p
    r.1 = .ok () ∧
      List.Forall₂ (SharesBeam s r.2.heap Ls c mu err) r.2.beams (tabled (rows.map (shifted np x y)) err) := by
  intro r
  have hbi : FocalPlane.BInv p := hr.binv fun _ _ h => h
  have hi : startIdx p combine = .ok 0 := by
    rcases hnew with rfl | h
    · rfl
    · unfold startIdx FocalPlane.nextIdx FocalPlane.beamsIdxs
      rw [h]
      cases combine <;> rfl
  obtain ⟨s1, s2⟩ := steps_good hd hL np ha hb none 0
  set st := steps kw np sa sb none 0 (l.filterMap fun n => dir.lookup n) with hst
  obtain ⟨qs, h', hbp⟩ := FocalPlane.buildPairs_good s.env st (by
    intro z hz
    obtain ⟨n, hn, rfl⟩ := List.getElem_of_mem hz
    obtain ⟨da, db, e, ⟨_, _, _, _, g1, _⟩, ⟨_, _, _, _, g2, _⟩⟩ := s2 n _ (List.getElem?_eq_getElem (s1 ▸ hn))
    rw [List.getElem?_eq_getElem hn] at e
    obtain ⟨oa, h1⟩ := FocalPlane.init_good s.env _ g1
    obtain ⟨ob, h2⟩ := FocalPlane.init_good s.env _ g2
    exact ⟨da, db, oa, ob, Option.some.inj e, h1, h2⟩) p.heap
  have hrun : r = (.ok (), extend { p with heap := h' } qs (2 * qs.length) combine) := by
    show (load s.env dir tag names np combine sa sb kw).run p = _
    unfold load Exec.run
    dsimp only
    rw [hi]
    dsimp only
    rw [hl]
    dsimp only
    rw [← hst, hbp]
  obtain ⟨-, -, hspec⟩ := FocalPlane.buildPairs_spec s.env st p.heap hbi.wf
  rw [hbp] at hspec
  dsimp only at hspec
  obtain ⟨q1, q2, q3⟩ := hspec qs rfl
  have hbm : (extend { p with heap := h' } qs (2 * qs.length) combine).beams = qs := by
    unfold extend
    rcases hnew with rfl | h
    · simp
    · split <;> simp [h]
  have hhp : (extend { p with heap := h' } qs (2 * qs.length) combine).heap = h' := by
    unfold extend
    split <;> rfl
  rw [hrun]
  refine ⟨rfl, ?_⟩
  dsimp only
  rw [hbm, hhp, q2]
  refine List.forall₂_iff_get.2 ⟨by simp [tabled, s1], fun i hi hi' => ?_⟩
  have hi0 : i < rows.length := by simpa [s1] using hi
  obtain ⟨da, db, e, ⟨a, _, _, A1, -, A2, A3, A4, A5⟩, ⟨b, _, _, B1, -, B2, B3, B4, B5⟩⟩ :=
    s2 i _ (List.getElem?_eq_getElem hi0)
  obtain ⟨da', db', e', ia, ib⟩ := q3 i _ e
  simp only [Prod.mk.injEq, Except.ok.injEq] at e'
  obtain ⟨rfl, rfl⟩ := e'
  obtain ⟨r1, r2, r3, r4, r5, r6, r7⟩ := detector_of s.env hpi A1 A2 A3 A4 A5 h' _ ia
  obtain ⟨t1, t2, t3, t4, t5, t6, t7⟩ := detector_of s.env hpi B1 B2 B3 B4 B5 h' _ ib
  have hge : ((List.range st.length).map fun n => (some (p.heap.size + 2 * n),
      some (p.heap.size + 2 * n + 1))).get ⟨i, hi⟩ =
      (some (p.heap.size + 2 * i), some (p.heap.size + 2 * i + 1)) := by
    simp
  have hgg : (tabled (rows.map (shifted np x y)) err).get ⟨i, hi'⟩ =
      (some (det rows[i].dead.1 rows[i].az.1 rows[i].el.1 (rows[i].polang.1 + x) err),
       some (det (np || rows[i].dead.2) rows[i].az.2 rows[i].el.2 (rows[i].polang.2 + y) err)) := by
    simp [tabled, shifted]
  rw [hgg]
  refine (congrArg (fun q => SharesBeam s h' Ls c mu err q _) hge).mpr ?_
  have hsz : p.heap.size + 2 * i + 1 < h'.size := by
    rw [q1, s1]
    omega
  refine .inr ⟨p.heap.size + 2 * i, mm, sym, rfl, Nat.lt_of_succ_lt hsz, ⟨r1, r2, hload _ r3, r4, r5, r6⟩, h0,
    by rw [hcL]; exact h1, by rw [hcL]; exact h2, ?_, ⟨r7, t7⟩, ?_⟩
  · intro b hb
    cases hb
    exact ⟨hsz, t1⟩
  · intro e he
    rcases he with he | he
    · cases ScanObjects.live_some he
      exact ⟨rfl, hrot _ _⟩
    · cases ScanObjects.live_some he
      exact ⟨rfl, hrot _ _⟩

end Verif.Files
