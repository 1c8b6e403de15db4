import Verif.Lemmas.SpmdScan

/-! # Lemmas: the loops of a scan by ranks that run together -/

noncomputable section

namespace Verif.Spmd

open Verif.Chunks Verif.Timeline Verif.Spinmaps Verif.MapMaking
open Verif.ScanInstrument (World Inst Pair Pointing)

variable {A B E : Type} {size : Nat}

/-- The attributes of rank `r` when the rank alone would have `i`. -/
def rankInst (r : Nat) (i : Inst (Scan.State ℝ Quat.Q)) : Inst RState :=
  { rot := i.rot, hwp := i.hwp, el := toRank r i.el, st := i.st, flag := i.flag, hasMaps := i.hasMaps,
    chunks := i.chunks, maps := i.maps }

/-! ### what all ranks have in common -/

/-- Rotation, `implement_scan`'s attributes and chunks are the same. -/
structure Alike (i j : Inst E) : Prop where
  rot : i.rot = j.rot
  el : i.el = j.el
  chunks : i.chunks = j.chunks

theorem stepSub_alike {w : World E} {o : ScanInstrument.Opts} {p p' : Pair} {g g' : Bool} {s : Chunk}
    {i j i' j' : Inst E} (h : Alike i j) (hi : ScanInstrument.stepSub w o p g s i = .ok i')
    (hj : ScanInstrument.stepSub w o p' g' s j = .ok j') : Alike i' j' := by
  obtain ⟨ri, a1, hi⟩ := bind_ok hi
  obtain ⟨_, _, hi⟩ := bind_ok hi
  obtain ⟨_, _, hi⟩ := bind_ok hi
  obtain ⟨_, _, hi⟩ := bind_ok hi
  obtain rfl := Except.ok.inj hi
  obtain ⟨rj, b1, hj⟩ := bind_ok hj
  obtain ⟨_, _, hj⟩ := bind_ok hj
  obtain ⟨_, _, hj⟩ := bind_ok hj
  obtain ⟨_, _, hj⟩ := bind_ok hj
  obtain rfl := Except.ok.inj hj
  rw [h.rot, b1] at a1
  exact ⟨(Except.ok.inj a1).symm, h.el, h.chunks⟩

theorem subs_alike {w : World E} {o : ScanInstrument.Opts} {p p' : Pair} {g g' : Bool} (subs : List Chunk) :
    ∀ {i j i' j' : Inst E}, Alike i j →
      subs.foldlM (fun i s => ScanInstrument.stepSub w o p g s i) i = .ok i' →
      subs.foldlM (fun i s => ScanInstrument.stepSub w o p' g' s i) j = .ok j' → Alike i' j' := by
  induction subs with
  | nil =>
    intro i j i' j' h hi hj
    cases hi
    cases hj
    exact h
  | cons s subs ih =>
    intro i j i' j' h hi hj
    rw [List.foldlM_cons] at hi hj
    obtain ⟨i1, hi1, hi⟩ := bind_ok hi
    obtain ⟨j1, hj1, hj⟩ := bind_ok hj
    exact ih (stepSub_alike h hi1 hj1) hi hj

theorem stepChunk_alike {w : World E} {o : ScanInstrument.Opts} {p p' : Pair} {first : Bool} {k : Nat}
    {i j i' j' : Inst E} (h : Alike i j) (hi : ScanInstrument.stepChunk w o p first i k = .ok i')
    (hj : ScanInstrument.stepChunk w o p' first j k = .ok j') : Alike i' j' := by
  obtain ⟨⟨c, g⟩, a1, hi⟩ := bind_ok hi
  obtain ⟨⟨q, e⟩, a2, hi⟩ := bind_ok hi
  obtain ⟨⟨subs, rot⟩, a3, hi⟩ := bind_ok hi
  obtain ⟨⟨c', g'⟩, b1, hj⟩ := bind_ok hj
  obtain ⟨⟨q', e'⟩, b2, hj⟩ := bind_ok hj
  obtain ⟨⟨subs', rot'⟩, b3, hj⟩ := bind_ok hj
  rw [h.chunks, b1] at a1
  cases a1
  rw [h.el, b2] at a2
  cases a2
  rw [h.rot, b3] at a3
  cases a3
  refine subs_alike subs ?_ hi hj
  exact ⟨rfl, rfl, by rw [h.chunks, h.rot]⟩

theorem scanPass_eq (w : World E) (o : ScanInstrument.Opts) (first : Bool) (pair : Pair) (i : Inst E) :
    ScanInstrument.scanPass w o first pair i = (begin w o first pair i >>= fun i =>
      (List.range i.chunks.length).foldlM (ScanInstrument.stepChunk w o pair first) i) := by
  unfold ScanInstrument.scanPass begin resetIf
  have aux : ∀ i1, (ScanInstrument.initPair w o pair i1 >>= fun i =>
      if i.chunks.all fun c => c.1.cidx.isSome then
        (List.range i.chunks.length).foldlM (ScanInstrument.stepChunk w o pair first) i
      else .error .keyError) = ((ScanInstrument.initPair w o pair i1 >>= fun i =>
      if i.chunks.all fun c => c.1.cidx.isSome then .ok i else .error .keyError) >>= fun i =>
      (List.range i.chunks.length).foldlM (ScanInstrument.stepChunk w o pair first) i) := by
    intro i1
    cases ScanInstrument.initPair w o pair i1 with
    | error e => rfl
    | ok i2 =>
      simp only [bind, Except.bind]
      split <;> rfl
  cases first with
  | true => exact aux i
  | false =>
    simp only [Bool.false_eq_true, if_false]
    cases ScanInstrument.resetAll w i with
    | error e => rfl
    | ok i1 => exact aux i1

theorem initPair_alike {w : World E} {o : ScanInstrument.Opts} {p : Pair} {i i' : Inst E}
    (hi : ScanInstrument.initPair w o p i = .ok i') : Alike i' i := by
  unfold ScanInstrument.initPair at hi
  split at hi
  · cases hi
    exact ⟨rfl, rfl, rfl⟩
  · split at hi
    · cases hi
      exact ⟨rfl, rfl, rfl⟩
    · split at hi
      · cases hi
        exact ⟨rfl, rfl, rfl⟩
      · split at hi
        · cases hi
        · obtain ⟨_, _, hi⟩ := bind_ok hi
          cases hi
          exact ⟨rfl, rfl, rfl⟩

theorem Alike.symm {i j : Inst E} (h : Alike i j) : Alike j i := ⟨h.rot.symm, h.el.symm, h.chunks.symm⟩

theorem Alike.trans {i j k : Inst E} (h : Alike i j) (h' : Alike j k) : Alike i k :=
  ⟨h.rot.trans h'.rot, h.el.trans h'.el, h.chunks.trans h'.chunks⟩

theorem begin_inv {w : World E} {o : ScanInstrument.Opts} {first : Bool} {p : Pair} {i i' : Inst E}
    (h : begin w o first p i = .ok i') :
    ∃ i1, resetIf w first i = .ok i1
      ∧ ScanInstrument.initPair w o p i1 = .ok i' ∧ (i'.chunks.all fun c => c.1.cidx.isSome) = true := by
  obtain ⟨i1, h1, h⟩ := bind_ok h
  obtain ⟨i2, h2, h⟩ := bind_ok h
  split at h
  · rename_i hc
    cases h
    exact ⟨i1, h1, h2, hc⟩
  · cases h

theorem begin_alike {w : World E} {o : ScanInstrument.Opts} {first : Bool} {p p' : Pair}
    {i j i' j' : Inst E} (h : Alike i j) (hi : begin w o first p i = .ok i')
    (hj : begin w o first p' j = .ok j') : Alike i' j' := by
  obtain ⟨i1, a1, a2, _⟩ := begin_inv hi
  obtain ⟨j1, b1, b2, _⟩ := begin_inv hj
  refine (initPair_alike a2).trans (Alike.trans ?_ (initPair_alike b2).symm)
  cases first with
  | true =>
    cases a1
    cases b1
    exact h
  | false =>
    simp only [resetIf, Bool.false_eq_true, if_false] at a1 b1
    obtain ⟨e, a3, a1⟩ := bind_ok a1
    obtain ⟨e', b3, b1⟩ := bind_ok b1
    cases a1
    cases b1
    rw [h.el, b3] at a3
    cases a3
    exact ⟨by rw [h.rot], rfl, h.chunks⟩

/-! ### a rank does locally what it would do alone -/

theorem stepSub_rank {s : Setup} {p : Pointing × RState} {pair : Pair} {g : Bool} {c : Chunk} (r : Nat)
    {i i' : Inst (Scan.State ℝ Quat.Q)} (h : ScanInstrument.stepSub s.w s.o pair g c i = .ok i') :
    ScanInstrument.stepSub (s.world p) s.o pair g c (rankInst r i) = .ok (rankInst r i') := by
  obtain ⟨rot, h1, h⟩ := bind_ok h
  obtain ⟨⟨ang, hwp⟩, h2, h⟩ := bind_ok h
  obtain ⟨cidx, h3, h⟩ := bind_ok h
  obtain ⟨⟨st, maps⟩, h4, h⟩ := bind_ok h
  obtain rfl := Except.ok.inj h
  unfold ScanInstrument.stepSub
  have e1 : ScanInstrument.rotStep (rankInst r i).rot c = .ok rot := h1
  have e2 : Hwp.rotateHwp Real.pi (s.world p).fsamp (rankInst r i).hwp
      (c.hwpang.map fun (a : ℚ) => (a : ℝ)) c.start c.stop = .ok (ang, hwp) := h2
  have e3 : ∀ st0, ScanInstrument.scanPair (s.world p) ((rankInst r i).chunks.map (·.1)) s.o
      (rankInst r i).flag pair ⟨c.start, c.stop, cidx⟩ g st0 (rankInst r i).maps
      = ScanInstrument.scanPair s.w (i.chunks.map (·.1)) s.o i.flag pair ⟨c.start, c.stop, cidx⟩ g st0
        i.maps := fun _ => rfl
  rw [e1, e2]
  simp only [bind, Except.bind, h3, e3]
  have e4 : (rankInst r i).st = i.st := rfl
  rw [e4]
  rw [h4]
  rfl

theorem subs_rank {s : Setup} {p : Pointing × RState} {pair : Pair} {g : Bool} (r : Nat)
    (subs : List Chunk) : ∀ {i i' : Inst (Scan.State ℝ Quat.Q)},
      subs.foldlM (fun i c => ScanInstrument.stepSub s.w s.o pair g c i) i = .ok i' →
      subs.foldlM (fun i c => ScanInstrument.stepSub (s.world p) s.o pair g c i) (rankInst r i)
        = .ok (rankInst r i') := by
  induction subs with
  | nil =>
    intro i i' h
    cases h
    rfl
  | cons c subs ih =>
    intro i i' h
    rw [List.foldlM_cons] at h ⊢
    obtain ⟨i1, h1, h⟩ := bind_ok h
    rw [stepSub_rank r h1]
    exact ih h

theorem stepChunk_rank {s : Setup} (hg : s.Generic) {pair : Pair} {first : Bool} {k : Nat}
    {i i' : Inst (Scan.State ℝ Quat.Q)} (h : ScanInstrument.stepChunk s.w s.o pair first i k = .ok i') :
    ∃ c g e, pyGet i.chunks k = .ok (c, g)
      ∧ Scan.implementScan s.site { s.so with ground := g || s.o.ground } (!first) c.start c.stop i.el
        = .ok e
      ∧ ∀ r, ScanInstrument.stepChunk (s.world (leave (toRank r e))) s.o pair first (rankInst r i) k
        = .ok (rankInst r i') := by
  obtain ⟨⟨c, g⟩, h1, h⟩ := bind_ok h
  obtain ⟨⟨q, e⟩, h2, h⟩ := bind_ok h
  obtain ⟨⟨subs, rot⟩, h3, h⟩ := bind_ok h
  simp only [hg.1] at h2
  obtain ⟨e', h4, h5⟩ := bind_ok h2
  obtain ⟨rfl, rfl⟩ := Prod.mk.inj (Except.ok.inj h5)
  refine ⟨c, g, _, h1, h4, fun r => ?_⟩
  unfold ScanInstrument.stepChunk
  have e1 : pyGet (rankInst r i).chunks k = .ok (c, g) := h1
  have e3 : subpartChunk (rankInst r i).rot c = .ok (subs, rot) := h3
  rw [e1]
  simp only [bind, Except.bind, Setup.world, leave, e3]
  exact subs_rank r subs h

theorem begin_rank {s : Setup} (hg : s.Generic) {pair : Pair} {first : Bool} (r : Nat)
    {i i' : Inst (Scan.State ℝ Quat.Q)} (h : begin s.w s.o first pair i = .ok i') :
    begin (s.world (leave (rankInst r i).el)) s.o first pair (rankInst r i) = .ok (rankInst r i') := by
  obtain ⟨i1, h1, h2, h3⟩ := begin_inv h
  have e1 : resetIf (s.world (leave (rankInst r i).el)) first (rankInst r i) = .ok (rankInst r i1) := by
    cases first with
    | true =>
      cases h1
      rfl
    | false =>
      simp only [resetIf, Bool.false_eq_true, if_false] at h1 ⊢
      obtain ⟨e, h4, h1⟩ := bind_ok h1
      cases h1
      rw [hg.2] at h4
      obtain ⟨el, h5, h4⟩ := bind_ok h4
      cases h4
      have h5' : Scan.resetEl (toRank r i.el).st.el = .ok el := h5
      simp only [ScanInstrument.resetAll, Setup.world, ScanInstrument.genericReset, rankInst, bind,
        Except.bind, h5']
      rfl
  have e2 : ScanInstrument.initPair (s.world (leave (rankInst r i).el)) s.o pair (rankInst r i1)
      = .ok (rankInst r i') := by
    have key : ∀ a b, (a, b) ≠ ((none, none) : Pair) →
        ScanInstrument.initPair (s.world (leave (rankInst r i).el)) s.o (a, b) (rankInst r i1)
          = (ScanInstrument.initPair s.w s.o (a, b) i1).map (rankInst r) := by
      intro a b hab
      have e1 : ((rankInst r i1).hasMaps && s.o.reuseSpinmaps) = (i1.hasMaps && s.o.reuseSpinmaps) := rfl
      have e2 : ∀ a, (s.world (leave (rankInst r i).el)).spinmaps a = s.w.spinmaps a := fun _ => rfl
      rcases a with _ | a <;> rcases b with _ | b
      · exact absurd rfl hab
      all_goals
        simp only [ScanInstrument.initPair, e1, e2]
        split
        · rfl
        · split
          · rfl
          · first
              | rfl
              | (cases s.w.spinmaps a <;> rfl)
    obtain ⟨a, b⟩ := pair
    by_cases hab : (a, b) = ((none, none) : Pair)
    · cases hab
      cases h2
      rfl
    · rw [key a b hab, h2]
      rfl
  unfold begin
  rw [e1]
  simp only [bind, Except.bind]
  rw [e2]
  exact if_pos h3

/-! ### the loops -/

theorem runsTo_stepChunk (hs : 0 < size) (junk : Junk) (hj : ∀ r n, (junk r n).length = n) {s : Setup}
    (hg : s.Generic) {pair : Nat → Pair} {first : Bool} {k : Nat}
    {i i' : Nat → Inst (Scan.State ℝ Quat.Q)} (ha : ∀ r, r < size → Alike (i r) (i 0))
    (h : ∀ r, r < size → ScanInstrument.stepChunk s.w s.o (pair r) first (i r) k = .ok (i' r)) :
    RunsTo size (fun r => stepChunk junk size r s (pair r) first (rankInst r (i r)) k)
      fun r => .ok (rankInst r (i' r)) := by
  obtain ⟨c, g, e, h1, h2, _⟩ := stepChunk_rank hg (h 0 hs)
  unfold stepChunk
  refine RunsTo.andThen (a := fun _ => (c, g)) (RunsTo.run' fun r hr => ?_) ?_
  · have : (rankInst r (i r)).chunks = (i 0).chunks := (ha r hr).chunks
    rw [this]
    exact h1
  refine RunsTo.andThen (a := fun r => leave (toRank r e)) ?_ ?_
  · refine (runsTo_implementScan hs junk hj s.site _ _ _ _ _ e h2).congr (fun r hr => ?_) fun _ _ => rfl
    have : (rankInst r (i r)).el = toRank r (i 0).el := by
      simp only [rankInst, (ha r hr).el]
    simp only [this]
  · refine RunsTo.run' fun r hr => ?_
    obtain ⟨c', g', e', h1', h2', h3'⟩ := stepChunk_rank hg (h r hr)
    rw [(ha r hr).chunks, h1] at h1'
    cases h1'
    rw [(ha r hr).el, h2] at h2'
    cases h2'
    exact h3' r

theorem runsTo_chunkLoop (hs : 0 < size) (junk : Junk) (hj : ∀ r n, (junk r n).length = n) {s : Setup}
    (hg : s.Generic) {pair : Nat → Pair} {first : Bool} (ks : List Nat) :
    ∀ {i i' : Nat → Inst (Scan.State ℝ Quat.Q)}, (∀ r, r < size → Alike (i r) (i 0)) →
      (∀ r, r < size → ks.foldlM (ScanInstrument.stepChunk s.w s.o (pair r) first) (i r) = .ok (i' r)) →
      RunsTo size (fun r => chunkLoop junk size r s (pair r) first ks (rankInst r (i r)))
        (fun r => .ok (rankInst r (i' r))) ∧ ∀ r, r < size → Alike (i' r) (i' 0) := by
  induction ks with
  | nil =>
    intro i i' ha h
    have e : ∀ r, r < size → i r = i' r := fun r hr => Except.ok.inj (h r hr)
    refine ⟨RunsTo.ret.congr (fun _ _ => rfl) fun r hr => by rw [e r hr], fun r hr => ?_⟩
    rw [← e r hr, ← e 0 hs]
    exact ha r hr
  | cons k ks ih =>
    intro i i' ha h
    have h1 : ∀ r, ∃ j, r < size → ScanInstrument.stepChunk s.w s.o (pair r) first (i r) k = .ok j
        ∧ ks.foldlM (ScanInstrument.stepChunk s.w s.o (pair r) first) j = .ok (i' r) := by
      intro r
      by_cases hr : r < size
      · have := h r hr
        rw [List.foldlM_cons] at this
        obtain ⟨j, h1, h2⟩ := bind_ok this
        exact ⟨j, fun _ => ⟨h1, h2⟩⟩
      · exact ⟨i r, fun x => absurd x hr⟩
    choose j hj1 using h1
    have haj : ∀ r, r < size → Alike (j r) (j 0) := fun r hr =>
      stepChunk_alike (ha r hr) (hj1 r hr).1 (hj1 0 hs).1
    have := ih haj fun r hr => (hj1 r hr).2
    refine ⟨?_, this.2⟩
    unfold chunkLoop
    exact RunsTo.andThen (runsTo_stepChunk hs junk hj hg ha fun r hr => (hj1 r hr).1) this.1

theorem runsTo_passLoop (hs : 0 < size) (junk : Junk) (hj : ∀ r n, (junk r n).length = n) {s : Setup}
    (hg : s.Generic) (n : Nat) :
    ∀ (first : Bool) (ps : Nat → List (Option Pair)) {i i' : Nat → Inst (Scan.State ℝ Quat.Q)},
      (∀ r, r < size → (ps r).length = n) → (∀ r, r < size → Alike (i r) (i 0)) →
      (∀ r, r < size → ScanInstrument.scanLoop s.w s.o first (ps r) (i r) = .ok (i' r)) →
      RunsTo size (fun r => passLoop junk size r s first (ps r) (rankInst r (i r)))
        fun r => .ok (rankInst r (i' r)) := by
  induction n with
  | zero =>
    intro first ps i i' hl ha h
    refine (RunsTo.ret (a := fun r => rankInst r (i r))).congr (fun r hr => ?_) fun r hr => ?_
    · rw [List.eq_nil_of_length_eq_zero (hl r hr)]
      rfl
    · have := h r hr
      rw [List.eq_nil_of_length_eq_zero (hl r hr)] at this
      simp only [Except.ok.inj this]
  | succ n ih =>
    intro first ps i i' hl ha h
    have h1 : ∀ r, ∃ p ps' j k, r < size → ps r = p :: ps'
        ∧ begin s.w s.o first (p.getD (none, none)) (i r) = .ok j
        ∧ (List.range j.chunks.length).foldlM
          (ScanInstrument.stepChunk s.w s.o (p.getD (none, none)) first) j = .ok k
        ∧ ScanInstrument.scanLoop s.w s.o false ps' k = .ok (i' r) := by
      intro r
      by_cases hr : r < size
      · have h2 := hl r hr
        have h3 := h r hr
        cases hp : ps r with
        | nil =>
          rw [hp] at h2
          simp at h2
        | cons p ps' =>
          rw [hp] at h3
          obtain ⟨k, h4, h5⟩ := bind_ok h3
          rw [scanPass_eq] at h4
          obtain ⟨j, h6, h7⟩ := bind_ok h4
          exact ⟨p, ps', j, k, fun _ => ⟨rfl, h6, h7, h5⟩⟩
      · exact ⟨none, [], i r, i r, fun x => absurd x hr⟩
    choose p ps' j k hk using h1
    have haj : ∀ r, r < size → Alike (j r) (j 0) := fun r hr =>
      begin_alike (ha r hr) (hk r hr).2.1 (hk 0 hs).2.1
    obtain ⟨hc1, hc2⟩ := runsTo_chunkLoop hs junk hj hg (pair := fun r => (p r).getD (none, none))
      (first := first) (List.range (j 0).chunks.length) haj (i' := k) fun r hr => by
        rw [← (haj r hr).chunks]
        exact (hk r hr).2.2.1
    have h3 := ih false ps' (fun r hr => by
      have := hl r hr
      rw [(hk r hr).1] at this
      simpa using this) hc2 fun r hr => (hk r hr).2.2.2
    have h4 : RunsTo size (fun r => (run (begin (s.world (leave (rankInst r (i r)).el)) s.o first
        ((p r).getD (none, none)) (rankInst r (i r)))).andThen fun i =>
        (chunkLoop junk size r s ((p r).getD (none, none)) first (List.range i.chunks.length) i).andThen
          (passLoop junk size r s false (ps' r))) fun r => .ok (rankInst r (i' r)) := by
      refine RunsTo.andThen (a := fun r => rankInst r (j r))
        (RunsTo.run' fun r hr => begin_rank hg r (hk r hr).2.1) ?_
      refine RunsTo.andThen (hc1.congr (fun r hr => ?_) fun _ _ => rfl) h3
      have : (rankInst r (j r)).chunks = (j 0).chunks := (haj r hr).chunks
      rw [this]
    refine h4.congr (fun r hr => ?_) fun _ _ => rfl
    rw [(hk r hr).1]
    rfl

theorem initMmap_rank (r : Nat) (s : Setup) (i : Inst (Scan.State ℝ Quat.Q)) :
    { rankInst r i with el := initMmap r s (rankInst r i).el } = rankInst r (withMmap s i) := by
  unfold initMmap withMmap
  split <;> rfl

theorem length_passes {α : Type} (l : List α) (n : Nat) : (Mpi.passes l n).length = n := by
  simp [Mpi.passes]

theorem runsTo_scanInstrument (hs : 0 < size) (junk : Junk) (hj : ∀ r n, (junk r n).length = n) {s : Setup}
    (hg : s.Generic) (beams : List Pair) (i : Inst (Scan.State ℝ Quat.Q))
    (i' : Nat → Inst (Scan.State ℝ Quat.Q))
    (h : ∀ r, r < size → ScanInstrument.scanInstrument s.w s.o beams true size r (withMmap s i)
      = .ok (i' r)) :
    RunsTo size (fun r => scanInstrument junk size r s beams (rankInst r i))
      fun r => .ok (rankInst r (i' r)) := by
  have h1 : ∀ r, ∃ l, r < size → Mpi.scatterList beams size r = .ok l
      ∧ ScanInstrument.scanLoop s.w s.o true (Mpi.passes l (Mpi.nmax beams.length size)) (withMmap s i)
        = .ok (i' r) := by
    intro r
    by_cases hr : r < size
    · obtain ⟨ps, h1, h2⟩ := bind_ok (h r hr)
      obtain ⟨l, h3, h4⟩ := bind_ok h1
      cases h4
      exact ⟨l, fun _ => ⟨h3, h2⟩⟩
    · exact ⟨[], fun x => absurd x hr⟩
  choose l hl using h1
  unfold scanInstrument
  refine RunsTo.andThen runsTo_barrier ?_
  refine RunsTo.andThen (runsTo_scatterList hs beams l fun r hr => (hl r hr).1) ?_
  have := runsTo_passLoop hs junk hj hg (Mpi.nmax beams.length size) true
    (fun r => Mpi.passes (l r) (Mpi.nmax beams.length size)) (i := fun _ => withMmap s i) (i' := i')
    (fun r _ => length_passes _ _) (fun _ _ => ⟨rfl, rfl, rfl⟩) fun r hr => (hl r hr).2
  refine this.congr (fun r _ => ?_) fun _ _ => rfl
  rw [initMmap_rank]

/-! ### reduction -/

theorem iadd_length {a b c : Maps} (h : iadd a b = .ok c) : c.length = a.length := by
  unfold iadd at h
  split at h
  · rename_i e
    cases h
    simp [e]
  · split at h
    · cases h
      simp
    · cases h

theorem binOne_length {w : World E} {mission : List Chunk} {o : ScanInstrument.Opts}
    {flag : Option (List Bool)} {b : BinBeam} {s : Sub} {st : State} {tod : List ℝ} {m m' : Maps}
    (h : ScanInstrument.binOne w mission o flag b s st tod m = .ok m') : m'.length = m.length := by
  unfold ScanInstrument.binOne at h
  split at h
  · obtain ⟨_, _, h⟩ := bind_ok h
    exact iadd_length h
  · cases h
    rfl

theorem scanBinOne_length {w : World E} {mission : List Chunk} {o : ScanInstrument.Opts}
    {flag : Option (List Bool)} {s : Sub} {g : Bool} {b : BinBeam} {st : State} {m : Maps} {x : State × Maps}
    (h : ScanInstrument.scanBinOne w mission o flag s g b st m = .ok x) : x.2.length = m.length := by
  obtain ⟨_, _, h⟩ := bind_ok h
  obtain ⟨_, _, h⟩ := bind_ok h
  obtain ⟨_, h1, h⟩ := bind_ok h
  cases h
  exact binOne_length h1

theorem scanPair_length {w : World E} {mission : List Chunk} {o : ScanInstrument.Opts}
    {flag : Option (List Bool)} {p : Pair} {s : Sub} {g : Bool} {st : State} {m : Maps} {x : State × Maps}
    (h : ScanInstrument.scanPair w mission o flag p s g st m = .ok x) : x.2.length = m.length := by
  unfold ScanInstrument.scanPair at h
  split at h
  · split at h
    · obtain ⟨_, _, h⟩ := bind_ok h
      obtain ⟨_, _, h⟩ := bind_ok h
      obtain ⟨_, _, h⟩ := bind_ok h
      obtain ⟨_, _, h⟩ := bind_ok h
      obtain ⟨⟨_, _⟩, _, h⟩ := bind_ok h
      obtain ⟨_, h1, h⟩ := bind_ok h
      obtain ⟨_, h2, h⟩ := bind_ok h
      cases h
      exact (binOne_length h2).trans (binOne_length h1)
    · obtain ⟨⟨_, _⟩, h1, h⟩ := bind_ok h
      exact (scanBinOne_length h).trans (scanBinOne_length h1)
  · exact scanBinOne_length h
  · exact scanBinOne_length h
  · cases h
    rfl

theorem foldlM_keeps {α β : Type} (f : β → α → PyM β) (g : β → Nat)
    (hf : ∀ b a b', f b a = .ok b' → g b' = g b) (l : List α) :
    ∀ b b', l.foldlM f b = .ok b' → g b' = g b := by
  induction l with
  | nil =>
    intro b b' h
    cases h
    rfl
  | cons a l ih =>
    intro b b' h
    rw [List.foldlM_cons] at h
    obtain ⟨b1, h1, h⟩ := bind_ok h
    rw [ih _ _ h, hf _ _ _ h1]

theorem stepSub_length {w : World E} {o : ScanInstrument.Opts} {p : Pair} {g : Bool} {s : Chunk}
    {i i' : Inst E} (h : ScanInstrument.stepSub w o p g s i = .ok i') : i'.maps.length = i.maps.length := by
  obtain ⟨_, _, h⟩ := bind_ok h
  obtain ⟨_, _, h⟩ := bind_ok h
  obtain ⟨_, _, h⟩ := bind_ok h
  obtain ⟨⟨_, _⟩, h1, h⟩ := bind_ok h
  cases h
  exact scanPair_length h1

theorem stepChunk_length {w : World E} {o : ScanInstrument.Opts} {p : Pair} {first : Bool} {k : Nat}
    {i i' : Inst E} (h : ScanInstrument.stepChunk w o p first i k = .ok i') :
    i'.maps.length = i.maps.length := by
  obtain ⟨⟨_, _⟩, _, h⟩ := bind_ok h
  obtain ⟨⟨_, _⟩, _, h⟩ := bind_ok h
  obtain ⟨⟨subs, _⟩, _, h⟩ := bind_ok h
  have := foldlM_keeps _ (fun i : Inst E => i.maps.length) (fun _ _ _ h => stepSub_length h) subs _ _ h
  exact this

theorem begin_length {w : World E} {o : ScanInstrument.Opts} {p : Pair} {first : Bool}
    {i i' : Inst E} (h : begin w o first p i = .ok i') : i'.maps = i.maps := by
  obtain ⟨i1, h1, h2, _⟩ := begin_inv h
  have e1 : i1.maps = i.maps := by
    cases first with
    | true =>
      cases h1
      rfl
    | false =>
      simp only [resetIf, Bool.false_eq_true, if_false] at h1
      obtain ⟨_, _, h1⟩ := bind_ok h1
      cases h1
      rfl
  rw [← e1]
  unfold ScanInstrument.initPair at h2
  split at h2
  · cases h2
    rfl
  · split at h2
    · cases h2
      rfl
    · split at h2
      · cases h2
        rfl
      · split at h2
        · cases h2
        · obtain ⟨_, _, h2⟩ := bind_ok h2
          cases h2
          rfl

theorem scanLoop_length {w : World E} {o : ScanInstrument.Opts} (ps : List (Option Pair)) :
    ∀ (first : Bool) {i i' : Inst E}, ScanInstrument.scanLoop w o first ps i = .ok i' →
      i'.maps.length = i.maps.length := by
  induction ps with
  | nil =>
    intro first i i' h
    cases h
    rfl
  | cons p ps ih =>
    intro first i i' h
    obtain ⟨i1, h1, h⟩ := bind_ok h
    rw [ih _ h]
    rw [scanPass_eq] at h1
    obtain ⟨i2, h2, h1⟩ := bind_ok h1
    rw [foldlM_keeps _ (fun i : Inst E => i.maps.length) (fun _ _ _ h => stepChunk_length h) _ _ _ h1,
      begin_length h2]

theorem scan_length {w : World E} {o : ScanInstrument.Opts} {beams : List Pair} {sc : Bool} {r : Nat}
    {i i' : Inst E} (h : ScanInstrument.scanInstrument w o beams sc size r i = .ok i') :
    i'.maps.length = i.maps.length := by
  obtain ⟨_, _, h⟩ := bind_ok h
  exact scanLoop_length _ _ h

theorem runsTo_solveForMap (hs : 0 < size) (q : QExt) (fill : ℝ) (n : Nat)
    (i : Nat → Inst RState) (h : ∀ r, r < size → (i r).maps.length = n) :
    RunsTo size (fun r => solveForMap q fill (i r))
      (firstOnly (MapMaking.solveForMap q
        (ScanInstrument.reduceMaps n ((List.range size).map fun r => (i r).maps)) fill)) := by
  refine .call (fun r => .reduce (i r).maps) (fun _ => Reply.toSolved q fill)
    (fun r => .maps (if r = 0 then
        some (ScanInstrument.reduceMaps n ((List.range size).map fun s => (i s).maps)) else none))
    (fun _ _ => rfl) ?_ ?_
  · simp only [exchange, Call.loc, h 0 hs]
    exact if_pos fun r hr => ⟨_, rfl, (h r hr).trans (h 0 hs).symm⟩
  · refine RunsTo.ret.congr (fun _ _ => rfl) fun r _ => ?_
    unfold firstOnly
    split <;> rfl

theorem mapM_all {α β : Type} (f : α → PyM β) (l : List α) {bs : List β} (h : l.mapM f = .ok bs) :
    List.Forall₂ (fun a b => f a = .ok b) l bs := by
  induction l generalizing bs with
  | nil =>
    cases h
    exact .nil
  | cons a l ih =>
    rw [List.mapM_cons] at h
    obtain ⟨b, h1, h⟩ := bind_ok h
    obtain ⟨bs', h2, h⟩ := bind_ok h
    cases h
    exact .cons h1 (ih h2)

theorem scanAll_inv {w : World E} {o : ScanInstrument.Opts} {beams : List Pair} {sc : Bool} {i : Inst E}
    {m : Maps} (h : ScanInstrument.scanAll w o beams sc size i = .ok m) :
    ∃ i' : Nat → Inst E, (∀ r, r < size → ScanInstrument.scanInstrument w o beams sc size r i = .ok (i' r))
      ∧ m = ScanInstrument.reduceMaps i.maps.length ((List.range size).map fun r => (i' r).maps) := by
  obtain ⟨is, h1, h⟩ := bind_ok h
  cases h
  have h2 := mapM_all _ _ h1
  have hl : is.length = size := by simpa using h2.length_eq.symm
  refine ⟨fun r => is[r]?.getD i, fun r hr => ?_, ?_⟩
  · have h3 := (List.forall₂_iff_get.1 h2).2 r (by simpa using hr) (by omega)
    have hr' : r < is.length := by omega
    simp only [List.getElem?_eq_getElem hr', Option.getD_some]
    simpa using h3
  · congr 1
    apply List.ext_getElem (by simp [hl])
    intro r h1 h2
    have : r < is.length := by simpa using h1
    simp [List.getElem?_eq_getElem this]

/-! ### ranks that wait forever -/

/-- After some calls, rank `r` is in a call and some rank has ended. -/
inductive Blocks (size : Nat) (r : Nat) : Nat → (Nat → Prog A) → Prop
  | now {P : Nat → Prog A} (c : Call) (k : Reply → Prog A) (h : P r = .call c k) (r' : Nat) (hr' : r' < size)
      (R : PyM A) (h' : P r' = .done R) : Blocks size r 0 P
  | call {n : Nat} {P : Nat → Prog A} (c : Nat → Call) (k : Nat → Reply → Prog A)
      (rep : Nat → Reply) (h : ∀ r, r < size → P r = .call (c r) (k r))
      (he : exchange size c = some rep) (hr : Blocks size r n (fun r => k r (rep r))) :
      Blocks size r (n + 1) P

theorem Blocks.congr {r n : Nat} {P P' : Nat → Prog A} (h : Blocks size r n P) (hr : r < size)
    (hp : ∀ r, r < size → P r = P' r) : Blocks size r n P' := by
  cases h with
  | now c k h r' hr' R h' => exact .now c k (by rw [← hp r hr, h]) r' hr' R (by rw [← hp r' hr', h'])
  | call c k rep h he h' =>
    exact .call c k rep (fun r h'' => by rw [← hp r h'', h r h'']) he h'

theorem Runs.blocks {r n m : Nat} (hr : r < size) {P : Nat → Prog A} {a : Nat → A} {Q : Nat → A → Prog B}
    (h : Runs size n P fun r => .ok (a r)) (h' : Blocks size r m (fun r => Q r (a r))) :
    ∃ m', Blocks size r m' (fun r => (P r).andThen (Q r)) := by
  generalize hR : (fun r => (Except.ok (a r) : PyM A)) = R0 at h
  induction h with
  | done h =>
    subst hR
    refine ⟨m, h'.congr hr fun r hr => ?_⟩
    rw [h r hr]
    rfl
  | call c k rep h he _ ih =>
    obtain ⟨m, hm⟩ := ih hR
    exact ⟨m + 1, .call c (fun r x => (k r x).andThen (Q r)) rep (fun r hr => by rw [h r hr]; rfl) he hm⟩

theorem Blocks.steps {r : Nat} (hr : r < size) {n : Nat} {P : Nat → Prog A} (h : Blocks size r n P)
    {m : Nat} {x : Nat → Rank A} (hx : Steps size m (start P) x) :
    ∃ n' P', Blocks size r n' P' ∧ (∀ r, r < size → (x r).prog = P' r)
      ∧ m + (n' * (size + 1) + away size x) = n * (size + 1) + size := by
  have hs : 0 < size := by omega
  generalize hy : start P = y at hx
  induction hx with
  | refl x =>
    subst hy
    exact ⟨n, P, h, fun _ _ => rfl, by rw [away_start]; omega⟩
  | @step m _ x _ _ s ih =>
    obtain ⟨n', P', h', hp, hm⟩ := ih hy
    cases s with
    | arrive r hr ha =>
      refine ⟨n', P', h', fun s hs => ?_, ?_⟩
      · by_cases e : s = r
        · subst e
          simp [hp s hs]
        · simp [e, hp s hs]
      · have := away_arrive x r hr ha
        omega
    | comm c k rep hc he =>
      have hall : away size x = 0 := by
        unfold away
        rw [List.length_eq_zero_iff, List.filter_eq_nil_iff]
        intro r hr
        rw [hc r (List.mem_range.mp hr)]
        simp
      cases h' with
      | now _ _ _ r' hr' _ hd =>
        have := hp r' hr'
        rw [hc r' hr', hd] at this
        cases this
      | @call n'' _ c' k' rep' h'' he' hr' =>
        have hck : ∀ r, r < size → c r = c' r ∧ k r = k' r := by
          intro r hr
          have := hp r hr
          rw [hc r hr, h'' r hr] at this
          injection this with e1 e2
          exact ⟨e1, e2⟩
        obtain ⟨rep2, he2, hrep⟩ := exchange_congr hs (fun r hr => (hck r hr).1) he
        rw [he'] at he2
        cases he2
        refine ⟨n'', _, hr', fun r hr => ?_, ?_⟩
        · simp only [if_pos hr]
          rw [(hck r hr).2, hrep r hr]
        · have e : away size (fun r => if r < size then (⟨k r (rep r), false⟩ : Rank A) else x r) = size := by
            refine Eq.trans (away_congr fun r hr => ?_)
              (away_start (size := size) fun _ => (Prog.done (.error .typeError) : Prog A))
            simp [hr, start]
          rw [e]
          rw [hall] at hm
          have : (n'' + 1) * (size + 1) = n'' * (size + 1) + (size + 1) := by ring
          omega

theorem Blocks.alwaysHangs {r : Nat} (hr : r < size) {n : Nat} {P : Nat → Prog A} (h : Blocks size r n P) :
    AlwaysHangs size P r := by
  refine ⟨n * (size + 1) + size, fun m x hx => ?_⟩
  obtain ⟨n', P', h', hp, hm⟩ := h.steps hr hx
  refine ⟨by omega, ?_⟩
  by_cases ha : 0 < away size x
  · obtain ⟨r, hr, h0⟩ := away_pos x ha
    exact .inl ⟨_, .arrive x r hr h0⟩
  · have ha := away_zero (size := size) x (by omega)
    have hx' : ∀ r, r < size → x r = ⟨P' r, true⟩ := by
      intro r hr
      have h1 := hp r hr
      have h2 := ha r hr
      cases hxr : x r with
      | mk p a =>
        rw [hxr] at h1 h2
        simp only at h1 h2
        rw [h1, h2]
    cases h' with
    | now c k h _ _ _ _ => exact .inr ⟨c, k, by rw [hx' r hr, h]⟩
    | call c k rep hc he _ =>
      exact .inl ⟨_, .comm x c k rep (fun r hr => by rw [hx' r hr, hc r hr]) he⟩

end Verif.Spmd
