import Verif.Spec.Losses
import Verif.Lemmas.FocalScan

/-!
# Lemmas: focal planes that lost detectors
-/

noncomputable section

namespace Verif.Losses

open Verif.Beam Verif.Timeline Verif.Spinmaps Verif.MapMaking Verif.ScanInstrument Verif.Spec
open Verif.FocalScan (SharesBeam Lone Plain)
open Verif.ScanObjects (ObjPair ObjWorld Coefs PairOf OneOf DetectorOf PointOf)

variable {E : Type}

/-- Exactly the objects of `D` die. -/
structure Died (D : List Ref) (h h' : Heap ℝ) : Prop where
  size : h'.size = h.size
  cell : ∀ x, h'.cell x = if x ∈ D then (h.cell x).put .dead (.bool true) else h.cell x

variable {D : List Ref} {h h' : Heap ℝ}

theorem Died.attr (hd : Died D h h') (x : Ref) {k : Key} (hk : k ≠ .dead) :
    (h'.cell x).attr k = (h.cell x).attr k := by
  rw [hd.cell x]
  split
  · exact put_attr_ne _ _ hk
  · rfl

theorem Died.ghosts (hd : Died D h h') (x : Ref) : (h'.cell x).ghosts = (h.cell x).ghosts := by
  rw [hd.cell x]
  split <;> rfl

theorem Died.isGhost (hd : Died D h h') (x : Ref) : (h'.cell x).isGhost = (h.cell x).isGhost := by
  rw [hd.cell x]
  split
  · exact put_isGhost _ _ (by simp)
  · rfl

theorem Died.lone (hd : Died D h h') {x : Ref} (hl : Lone (h.cell x)) : Lone (h'.cell x) :=
  ⟨by rw [hd.isGhost]; exact hl.main, by rw [hd.ghosts]; exact hl.ghosts,
    by rw [hd.attr x (by simp)]; exact hl.count⟩

theorem Died.plain (hd : Died D h h') {env : Env ℝ} (hf : DeadFree env) {x : Ref} {n : Nat} {mm : Int} {sym : Bool}
    {mu : Option Nat} (hl : Plain env (h.cell x) n mm sym mu) : Plain env (h'.cell x) n mm sym mu := by
  refine ⟨hd.lone hl.toLone, ?_, ?_, ?_, ?_, ?_⟩
  · rw [hd.attr x (by simp)]; exact hl.fresh
  · rw [← hl.load]
    exact hf _ _ fun k hk => hd.attr x hk
  · rw [hd.attr x (by simp)]; exact hl.mmax
  · rw [hd.attr x (by simp)]; exact hl.symmetric
  · rw [hd.attr x (by simp)]; exact hl.plate

/-- A detector without ghosts, after the objects of `D` died. -/
theorem Died.one (hd : Died D h h') {r : Option Ref} {q : Option BinBeam}
    (hl : ∀ x, r = some x → Lone (h.cell x)) (ho : OneOf h r q) : OneOf h' r (deadIn D r q) := by
  cases ho with
  | none =>
    have : deadIn D none none = none := by simp [deadIn]
    rw [this]
    exact .none
  | some r b hb =>
    have hlr := hl r rfl
    obtain ⟨⟨p1, p2, p3, p4, p5, p6⟩, hg, hq⟩ := hb
    rw [hlr.ghosts] at hg
    have hgn : b.ghosts = [] := by
      cases hg' : b.ghosts with
      | nil => rfl
      | cons y ys =>
        rw [hg'] at hg
        cases hg
    by_cases hr : r ∈ D
    · have : deadIn D (some r) (some b) = some (ScanInstrument.dead b) := by
        unfold deadIn
        rw [if_pos ⟨r, hr, rfl⟩]
        rfl
      rw [this]
      refine .some _ _ ⟨⟨⟨.bool true, ?_, rfl⟩, ?_, ?_, ?_, ?_, ?_⟩, ?_, ?_⟩
      · rw [hd.cell r, if_pos hr]
        exact put_attr_same _ _ _
      · rw [hd.isGhost]; exact p2
      · rw [hd.isGhost, hd.attr r (by simp)]; exact p3
      · rw [hd.attr r (by simp)]; exact p4
      · rw [hd.attr r (by simp)]; exact p5
      · rw [hd.attr r (by simp), hd.attr r (by simp)]; exact p6
      · rw [hd.ghosts, hlr.ghosts]
        show List.Forall₂ _ _ b.ghosts
        rw [hgn]
        exact .nil
      · rw [hd.attr r (by simp)]; exact hq
    · have : deadIn D (some r) (some b) = some b := by
        unfold deadIn
        rw [if_neg]
        rintro ⟨x, hx, e⟩
        cases e
        exact hr hx
      rw [this]
      refine .some _ _ ⟨?_, ?_, ?_⟩
      · rw [hd.cell r, if_neg hr]
        exact ⟨p1, p2, p3, p4, p5, p6⟩
      · rw [hd.ghosts, hlr.ghosts, hgn]
        exact .nil
      · rw [hd.attr r (by simp)]; exact hq

theorem live_deadIn {D : List Ref} {r : Option Ref} {q : Option BinBeam} {e : BinBeam}
    (h : live (deadIn D r q) = some e) : live q = some e := by
  unfold deadIn at h
  split at h
  · cases q with
    | none => exact h
    | some b => simp [live, ScanInstrument.dead] at h
  · exact h

/-- After detectors died, the pairs still share the beam. -/
theorem Died.shares (hd : Died D h h') (s : ObjWorld E) (hf : DeadFree s.env) {Ls : Nat} {c : Coefs}
    {mu : Option Nat} {err : ℝ} {p : ObjPair} {q : Pair} (hs : SharesBeam s h Ls c mu err p q) :
    SharesBeam s h' Ls c mu err p (lose D p q) := by
  rcases hs with ⟨rfl, rfl⟩ | ⟨a, mm, sym, e, hlt, hpl, h0, h1, h2, hb, ho, hlv⟩
  · exact .inl ⟨rfl, by simp [lose, deadIn]⟩
  · refine .inr ⟨a, mm, sym, e, by rw [hd.size]; exact hlt, hd.plain hf hpl, h0, h1, h2, ?_, ⟨?_, ?_⟩, ?_⟩
    · intro b e'
      exact ⟨by rw [hd.size]; exact (hb b e').1, hd.lone (hb b e').2⟩
    · refine hd.one ?_ ho.1
      intro x hx
      rw [e] at hx
      cases hx
      exact hpl.toLone
    · exact hd.one (fun x hx => (hb x hx).2) ho.2
    · intro e he
      rcases he with he | he
      · exact hlv e (.inl (live_deadIn he))
      · exact hlv e (.inr (live_deadIn he))

theorem zip_shares {s : ObjWorld E} {Ls : Nat} {c : Coefs} {mu : Option Nat} {err : ℝ}
    (hd : Died D h h') (hf : DeadFree s.env) {beams : List ObjPair} {qs : List Pair}
    (hs : List.Forall₂ (SharesBeam s h Ls c mu err) beams qs) :
    List.Forall₂ (SharesBeam s h' Ls c mu err) beams (List.zipWith (lose D) beams qs) := by
  induction hs with
  | nil => exact .nil
  | cons hx _ ih => exact .cons (hd.shares s hf hx) ih

/-- Detectors of pairs that share a beam have no ghosts. -/
theorem shares_lone {s : ObjWorld E} {Ls : Nat} {c : Coefs} {mu : Option Nat} {err : ℝ}
    {beams : List ObjPair} {qs : List Pair}
    (hs : List.Forall₂ (SharesBeam s h Ls c mu err) beams qs) {r : Ref} (hr : r ∈ FocalPlane.slots beams) :
    Lone (h.cell r) := by
  induction hs with
  | nil => simp [FocalPlane.slots] at hr
  | @cons p q ps qs hx _ ih =>
    unfold FocalPlane.slots at hr ih
    rw [List.flatMap_cons, List.mem_append] at hr
    rcases hr with hr | hr
    · rcases hx with ⟨rfl, -⟩ | ⟨a, mm, sym, e, -, hpl, -, -, -, hb, -, -⟩
      · simp at hr
      · rcases List.mem_append.1 hr with hr | hr
        · rw [e] at hr
          simp only [Option.toList_some, List.mem_singleton] at hr
          subst hr
          exact hpl.toLone
        · exact (hb r (Option.mem_toList.1 hr)).2
    · exact ih hr

/-- The pairs that are left after detectors were taken away, none of them an A with its B left. -/
theorem without_shares {s : ObjWorld E} {Ls : Nat} {c : Coefs} {mu : Option Nat} {err : ℝ} (M : Motion) (N : Nat)
    (D : List Ref) {beams : List ObjPair} {qs : List Pair}
    (hs : List.Forall₂ (SharesBeam s h Ls c mu err) beams qs)
    (hD : ∀ p ∈ beams, ∀ a b, p = (some a, some b) → a ∈ D → b ∈ D) :
    ∃ qs', List.Forall₂ (SharesBeam s h Ls c mu err) (beams.filterMap fun q =>
        let q' := (q.1.filter (· ∉ D), q.2.filter (· ∉ D))
        if q' = (none, none) then none else some q') qs' ∧
      seenBy M s.w N qs' = seenBy M s.w N (List.zipWith (without D) beams qs) := by
  induction hs with
  | nil => exact ⟨[], .nil, rfl⟩
  | @cons p q ps qs hx _ ih =>
    obtain ⟨qs', i1, i2⟩ := ih fun p' hp' => hD p' (List.mem_cons_of_mem _ hp')
    have empty : ∀ (t : Nat), pairObs M s.w.x s.w.q s.w.varphi s.w.nsideOut 0 (fun _ _ => 0) (none, none) t = [] :=
      fun t => by simp [pairObs, live]
    have hseen : ∀ q0 l, seenBy M s.w N (q0 :: l) = (List.range N).flatMap
        (pairObs M s.w.x s.w.q s.w.varphi s.w.nsideOut 0 (fun _ _ => 0) q0) ++ seenBy M s.w N l :=
      fun _ _ => rfl
    have hnone : ∀ l, seenBy M s.w N ((none, none) :: l) = seenBy M s.w N l := by
      intro l
      rw [hseen]
      have : (List.range N).flatMap (pairObs M s.w.x s.w.q s.w.varphi s.w.nsideOut 0 (fun _ _ => 0)
          (none, none)) = [] := by
        rw [List.flatMap_eq_nil_iff]
        intro t _
        exact empty t
      rw [this, List.nil_append]
    rw [List.zipWith_cons_cons, List.filterMap_cons]
    dsimp only
    rcases hx with ⟨rfl, rfl⟩ | ⟨a, mm, sym, e, hlt, hpl, h0, h1, h2, hb, ho, hlv⟩
    · refine ⟨qs', ?_, ?_⟩
      · rw [if_pos (by simp)]
        exact i1
      · have : without D (none, none) (none, none) = (none, none) := by simp [without]
        rw [this, hnone, i2]
    · obtain ⟨p1, p2⟩ := p
      cases e
      by_cases ha : a ∈ D
      · have hb2 : Option.filter (fun x => decide (x ∉ D)) p2 = none ∧
            (if ∃ x ∈ D, p2 = some x then none else q.2) = none := by
          cases p2 with
          | none =>
            refine ⟨rfl, ?_⟩
            rw [if_neg (by simp)]
            have := ho.2
            generalize q.2 = q2 at this
            cases this
            rfl
          | some b =>
            have hbD := hD _ (List.mem_cons_self ..) a b rfl ha
            exact ⟨by simp [Option.filter, hbD], if_pos ⟨b, hbD, rfl⟩⟩
        refine ⟨qs', ?_, ?_⟩
        · rw [if_pos (by rw [hb2.1]; simp [Option.filter, ha])]
          exact i1
        · have : without D (some a, p2) q = (none, none) := by
            unfold without
            rw [hb2.2, if_pos ⟨a, ha, rfl⟩]
          rw [this, hnone, i2]
      · have hA : Option.filter (fun x => decide (x ∉ D)) (some a) = some a := by simp [Option.filter, ha]
        rw [if_neg (by rw [hA]; simp), hA]
        have hw : without D (some a, p2) q = (q.1, if ∃ x ∈ D, p2 = some x then none else q.2) := by
          unfold without
          rw [if_neg (by rintro ⟨x, hx, e⟩; cases e; exact ha hx)]
        refine ⟨without D (some a, p2) q :: qs', .cons (.inr ⟨a, mm, sym, rfl, hlt, hpl, h0, h1, h2, ?_, ?_, ?_⟩)
          i1, ?_⟩
        · intro b hb'
          have : p2 = some b := by
            cases p2 with
            | none => cases hb'
            | some y =>
              simp only [Option.filter] at hb'
              split at hb'
              · exact hb'
              · cases hb'
          exact hb b this
        · rw [hw]
          refine ⟨ho.1, ?_⟩
          cases p2 with
          | none =>
            rw [if_neg (by simp)]
            exact ho.2
          | some y =>
            by_cases hy : y ∈ D
            · rw [if_pos ⟨y, hy, rfl⟩]
              have : Option.filter (fun x => decide (x ∉ D)) (some y) = none := by simp [Option.filter, hy]
              dsimp only
              rw [this]
              exact .none
            · rw [if_neg (by rintro ⟨x, hx, e⟩; cases e; exact hy hx)]
              have : Option.filter (fun x => decide (x ∉ D)) (some y) = some y := by simp [Option.filter, hy]
              dsimp only
              rw [this]
              exact ho.2
        · intro e he
          rw [hw] at he
          refine hlv e ?_
          rcases he with he | he
          · exact .inl he
          · right
            dsimp only at he
            split at he
            · cases he
            · exact he
        · rw [hseen, hseen, i2]

end Verif.Losses
