import Verif.Props.ScanObjects
import Verif.Props.Reuse

/-!
# C118: previews and reused spin maps with beam objects
-/

noncomputable section

namespace Verif.Props

open Verif.Chunks Verif.Timeline Verif.Spinmaps Verif.MapMaking Verif.ScanInstrument Verif.Spec
open Verif.Beam (Heap Ref Val Obj Env Key LimitFree PairOk)
open Verif.ScanObjects (ObjPair ObjWorld Prepared Apart Settled Coarse Coefs usedBy PairOf PointOf OneOf skyMaker beamSees plateSees)

variable {E : Type}

theorem pairOf_empty {h : Heap ℝ} {p : ObjPair} {q : Pair} (hp : PairOf h p q) :
    p = (none, none) ↔ q = (none, none) := by
  obtain ⟨p1, p2⟩ := p
  obtain ⟨q1, q2⟩ := q
  obtain ⟨h1, h2⟩ := hp
  dsimp only at h1 h2
  cases h1 <;> cases h2 <;> simp

/-- Nothing is made for a pair. -/
def NoMaps (o : Opts) (i : Inst E) : Prop := o.preview = true ∨ (o.reuseSpinmaps = true ∧ i.hasMaps = true)

theorem NoMaps.same {o : Opts} {i i' : Inst E} (h : NoMaps o i) (hs : SameMaps i i') : NoMaps o i' := by
  unfold NoMaps
  rw [hs.1]
  exact h

theorem init_kept (s : ObjWorld E) {o : Opts} {i : Inst E} (hn : NoMaps o i) (p : ObjPair) (h : Heap ℝ) :
    ScanObjects.initPair s o p i h = .ok (i, h) := by
  unfold ScanObjects.initPair
  split
  · rfl
  · rcases hn with hn | ⟨h1, h2⟩
    · rw [if_pos hn]
    · split
      · rfl
      · rw [h1, h2]
        rfl

theorem init_kept' (w : World E) {o : Opts} {i : Inst E} (hn : NoMaps o i) (q : Pair) :
    ScanInstrument.initPair w o q i = .ok i := by
  unfold ScanInstrument.initPair
  split
  · rfl
  · rcases hn with hn | ⟨h1, h2⟩
    · rw [if_pos hn]
    · split
      · rfl
      · rw [h1, h2]
        rfl

theorem pass_kept (s : ObjWorld E) {o : Opts} {i : Inst E} (hn : NoMaps o i) (first : Bool) {p : ObjPair}
    {q : Pair} {h : Heap ℝ} (hp : PairOf h p q) :
    ScanObjects.scanPass s o first p (i, h) = (ScanInstrument.scanPass s.w o first q i).map (·, h) := by
  rw [scanPass_eq]
  unfold ScanObjects.scanPass
  cases e : before s.w first i with
  | error x =>
    cases first with
    | true => cases e
    | false =>
      have e : resetAll s.w i = .error x := e
      simp only [bind, Except.bind, Bool.false_eq_true, if_false, e]
      rfl
  | ok i1 =>
    have hn1 := hn.same (before_spin e)
    have key : (ScanObjects.initPair s o p i1 h >>= fun r => ScanObjects.readPair r.2 p >>= fun pair =>
        ScanObjects.scanChunks s o first pair r.1 >>= fun i' => pure (i', r.2)) =
        (ScanInstrument.initPair s.w o q i1 >>= chunksOf s.w o first q).map (·, h) := by
      rw [init_kept s hn1, init_kept' s.w hn1]
      simp only [bind, Except.bind]
      rw [ScanObjects.readPair_of hp]
      show (ScanObjects.scanChunks s o first q i1).bind _ = _
      have : ScanObjects.scanChunks s o first q i1 = chunksOf s.w o first q i1 := rfl
      rw [this]
      cases chunksOf s.w o first q i1 <;> rfl
    cases first with
    | true =>
      obtain rfl := Except.ok.inj e
      exact key
    | false =>
      have e : resetAll s.w i = .ok i1 := e
      simp only [Bool.false_eq_true, if_false, e]
      exact key

theorem loop_kept' (s : ObjWorld E) (o : Opts) (q : ObjPair → Pair) (h : Heap ℝ)
    (ps : List (Option ObjPair)) (hp : ∀ p, some p ∈ ps → PairOf h p (q p)) :
    ∀ (first : Bool) (i : Inst E), NoMaps o i →
      ScanObjects.scanLoop s o first ps (i, h) =
        (ScanInstrument.scanLoop s.w o first (ps.map (Option.map q)) i).map (·, h) := by
  induction ps with
  | nil =>
    intro first i _
    rfl
  | cons p ps ih =>
    intro first i hn
    have hp1 : PairOf h (p.getD (none, none)) ((p.map q).getD (none, none)) := by
      cases p with
      | none => exact ⟨.none, .none⟩
      | some p => exact hp p (by simp)
    unfold ScanObjects.scanLoop
    rw [List.map_cons]
    unfold ScanInstrument.scanLoop
    rw [pass_kept s hn first hp1]
    cases e : ScanInstrument.scanPass s.w o first ((p.map q).getD (none, none)) i with
    | error x => rfl
    | ok i1 =>
      refine ih (fun p hp' => hp p (List.mem_cons_of_mem _ hp')) false i1 (hn.same ?_)
      rw [scanPass_eq] at e
      obtain ⟨i2, h2, e⟩ := bind_ok e
      obtain ⟨i3, h3, e⟩ := bind_ok e
      have e2 := before_spin h2
      rw [init_kept' s.w (hn.same e2)] at h3
      obtain rfl := Except.ok.inj h3
      have e1 := chunksOf_spin e
      exact ⟨e1.1.trans e2.1, e1.2.trans e2.2⟩

/-! Passes of a list of pictures -/

theorem split_map {α β : Type} (f : α → β) : ∀ (ks : List Nat) (xs : List α),
    Mpi.arraySplit.go (xs.map f) ks = (Mpi.arraySplit.go xs ks).map (List.map f)
  | [], xs => by simp [Mpi.arraySplit.go]
  | k :: ks, xs => by
    rw [Mpi.arraySplit.go, Mpi.arraySplit.go, ← List.map_take, ← List.map_drop, split_map f ks]
    rfl

theorem passes_map {α β : Type} (f : α → β) (l : List α) (scatter : Bool) (size rank : Nat) :
    Mpi.scanPasses (l.map f) scatter size rank =
      (Mpi.scanPasses l scatter size rank).map (List.map (Option.map f)) := by
  have hloc : Mpi.localBeams (l.map f) scatter size rank =
      (Mpi.localBeams l scatter size rank).map (List.map f) := by
    cases scatter with
    | false => rfl
    | true =>
      unfold Mpi.localBeams Mpi.scatterList Mpi.arraySplit
      simp only [if_true, List.length_map, split_map, List.getElem?_map]
      cases (Mpi.arraySplit.go l (List.replicate (l.length % size) (l.length / size + 1) ++
        List.replicate (size - l.length % size) (l.length / size)))[rank]? <;> rfl
  unfold Mpi.scanPasses
  rw [hloc, List.length_map]
  cases Mpi.localBeams l scatter size rank with
  | error x => rfl
  | ok loc =>
    simp only [Except.map, bind, Except.bind, pure, Except.pure, Mpi.passes, List.map_map]
    congr 1
    apply List.map_congr_left
    intro k _
    simp

theorem instrument_kept (s : ObjWorld E) (o : Opts) (q : ObjPair → Pair) (h : Heap ℝ) (i : Inst E)
    (hn : NoMaps o i) (beams : List ObjPair) (hp : ∀ p ∈ beams, PairOf h p (q p)) (mpi scatter : Bool)
    (size rank : Nat) :
    ScanObjects.scanInstrument s o beams mpi scatter size rank (i, h) =
      (ScanInstrument.scanInstrument s.w o (beams.map q) scatter size rank i).map (·, h) := by
  unfold ScanObjects.scanInstrument ScanInstrument.scanInstrument
  rw [passes_map]
  cases e : Mpi.scanPasses beams scatter size rank with
  | error x => rfl
  | ok ps =>
    simp only [Except.map, bind, Except.bind]
    rw [loop_kept' s o q h ps (fun p hp' => hp p ((passes_mem e).1 p hp')) true i hn]
    cases ScanInstrument.scanLoop s.w o true (ps.map (Option.map q)) i with
    | error x => rfl
    | ok i' =>
      simp only [Except.map, pure, Except.pure]
      split <;> rfl

theorem mapM_kept {α β γ : Type} {f : α → PyM β} {g : α → PyM (β × γ)} {c : γ}
    (hfg : ∀ a, g a = (f a).map (·, c)) : ∀ l : List α, l.mapM g = (l.mapM f).map (List.map (·, c))
  | [] => rfl
  | a :: l => by
    rw [List.mapM_cons, List.mapM_cons, hfg a, mapM_kept hfg l]
    cases f a with
    | error x => rfl
    | ok b =>
      cases l.mapM f <;> rfl

theorem mapM_length {α β : Type} {f : α → PyM β} : ∀ {l : List α} {ys : List β},
    l.mapM f = .ok ys → ys.length = l.length
  | [], ys, h => by
    obtain rfl := Except.ok.inj h
    rfl
  | a :: l, ys, h => by
    rw [List.mapM_cons] at h
    obtain ⟨b, _, h⟩ := bind_ok h
    obtain ⟨bs, h2, h⟩ := bind_ok h
    obtain rfl := Except.ok.inj h
    simp [mapM_length h2]

/-- **C118.** In a preview, and in a scan that reuses existing spin maps, beam objects are only read: the
scan is that of their pointing, angles and dead flags (also if it fails), whether or not their
coefficients can be loaded, and the objects are afterwards as before. -/
theorem C118_kept (s : ObjWorld E) (o : Opts) (q : ObjPair → Pair) (h : Heap ℝ) (i : Inst E)
    (hn : o.preview = true ∨ (o.reuseSpinmaps = true ∧ i.hasMaps = true)) (beams : List ObjPair)
    (hp : ∀ p ∈ beams, PairOf h p (q p)) (mpi scatter : Bool) (size : Nat) (hsize : 0 < size) :
    ScanObjects.scanAll s o beams mpi scatter size (i, h) =
      (ScanInstrument.scanAll s.w o (beams.map q) scatter size i).map (·, h) := by
  unfold ScanObjects.scanAll ScanInstrument.scanAll
  rw [mapM_kept (fun r => instrument_kept s o q h i hn beams hp mpi scatter size r)]
  cases e : (List.range size).mapM fun r =>
      ScanInstrument.scanInstrument s.w o (beams.map q) scatter size r i with
  | error x => rfl
  | ok is =>
    have hl := mapM_length e
    rw [List.length_range] at hl
    cases is with
    | nil => simp at hl; omega
    | cons y is =>
      simp only [Except.map, bind, Except.bind, List.map_cons, pure, Except.pure]
      have : pyGet ((y, h) :: is.map (·, h)) 0 = .ok (y, h) := by
        simp [pyGet]
      rw [this]
      simp [List.map_map, Function.comp_def]

/-- **C118, previews.** `preview_pointing` with beam objects ends, without MPI or with any number of ranks,
whatever their coefficients and even if these cannot be loaded.  The maps contain the observations
of the real scan with signal zero, and the objects are as before. -/
theorem C118_preview (s : ObjWorld E) (hq : PixOk s.w.q)
    (hns : 0 < s.w.nsideOut) (M : Motion) (o : Opts) (hbin : o.binning = true)
    (hpre : o.preview = true) (hgr : o.ground = false) (N : Nat)
    (chunks : List Chunk) (hmi : Mission N chunks) (hang : ∀ c ∈ chunks, c.hwpang = none) (i : Inst E)
    (hi : Ready s.w chunks i) (hrot : Rotates N chunks i.rot M.rot)
    (hhwp : Plate s.w.fsamp N i.hwp M.alpha) (hst : Steady s.w M chunks i.el)
    (q : ObjPair → Pair) (h : Heap ℝ) (beams : List ObjPair) (hp : ∀ p ∈ beams, PairOf h p (q p))
    (hmain : ∀ p ∈ beams, ∀ r, p.1 = some r ∨ p.2 = some r → (h.cell r).isGhost = false)
    (mpi : Bool) (size : Nat) (hsize : 0 < size) :
    ∃ m, ScanObjects.scanAll s o beams mpi true size (i, h) = .ok (m, h) ∧
      Holds s.w.nsideOut m (beams.flatMap fun p => (List.range N).flatMap (pairObs M s.w.x s.w.q
        s.w.varphi s.w.nsideOut o.ctalk (fun _ _ => 0) (q p))) ∧ ∀ c ∈ m, c.vec = 0 := by
  have hone : ∀ {r : Option Ref} {b : Option BinBeam} {x : BinBeam}, OneOf h r b →
      (∀ r', r = some r' → (h.cell r').isGhost = false) → live b = some x → x.beam.ghost = false := by
    intro r b x hr hg hl
    cases hr with
    | none => cases hl
    | some r b hd =>
      obtain rfl : b = x := by
        simp only [live] at hl
        split at hl
        · cases hl
        · exact Option.some.inj hl
      rw [hd.main.ghost]
      exact hg r rfl
  have h2 := all_spec s.w hq hns M o hbin hgr (fun _ _ _ => 0) N chunks
    hmi i hi (moves_spec s.w.fsamp M N chunks hmi hang i.rot i.hwp hrot hhwp) hst (beams.map q) size hsize
    fun p' hp' => pairGood_preview s.w M chunks o hpre p' fun b hb => by
      obtain ⟨p, hpm, rfl⟩ := List.mem_map.1 hp'
      rcases hb with hb | hb
      · exact hone (hp p hpm).1 (fun r hr => hmain p hpm r (.inl hr)) hb
      · exact hone (hp p hpm).2 (fun r hr => hmain p hpm r (.inr hr)) hb
  refine ⟨_, by rw [C118_kept s o q h i (.inl hpre) beams hp mpi true size hsize, h2]; rfl, ?_, ?_⟩
  · rw [List.flatMap_map]
    exact holds_mapsOf _ _
  · intro c hc
    unfold mapsOf at hc
    obtain ⟨p, _, rfl⟩ := List.mem_map.1 hc
    rw [cellAt_vec, vec_zero]
    intro ob hob
    obtain ⟨p, _, hob⟩ := List.mem_flatMap.1 hob
    obtain ⟨t, _, hob⟩ := List.mem_flatMap.1 hob
    exact pairObs_zero hob

/-- **C118, reused spin maps.** With `reuse_spinmaps` and existing spin maps all pairs are scanned with
these, on every rank; nothing is loaded, and the objects are as before. -/
theorem C118_reuse (s : ObjWorld E) (hx : ExtOk s.w.x) (hq : PixOk s.w.q)
    (hns : 0 < s.w.nsideOut) (M : Motion) (o : Opts) (hbin : o.binning = true)
    (hpre : o.preview = false) (hgr : o.ground = false) (hre : o.reuseSpinmaps = true) (N : Nat)
    (chunks : List Chunk) (hmi : Mission N chunks) (hang : ∀ c ∈ chunks, c.hwpang = none) (i : Inst E)
    (hi : Ready s.w chunks i) (hrot : Rotates N chunks i.rot M.rot)
    (hhwp : Plate s.w.fsamp N i.hwp M.alpha) (hst : Steady s.w M chunks i.el)
    (hmaps : i.hasMaps = true) (nside : Nat)
    (q : ObjPair → Pair) (h : Heap ℝ) (beams : List ObjPair) (hp : ∀ p ∈ beams, PairOf h p (q p))
    (hm : ∀ p ∈ beams, MapsOk (s.w.always (.ok i.st.maps)) nside i.st.maps (q p))
    (mpi : Bool) (size : Nat) (hsize : 0 < size) :
    ∃ m, ScanObjects.scanAll s o beams mpi true size (i, h) = .ok (m, h) ∧
      Holds s.w.nsideOut m (beams.flatMap fun p => (List.range N).flatMap (pairObs M s.w.x s.w.q
        s.w.varphi s.w.nsideOut o.ctalk (detects M s.w.x o.interp nside i.st.maps) (q p))) := by
  have hpa : Paired (beams.map q) := by
    intro p' hp'
    obtain ⟨p, hpm, rfl⟩ := List.mem_map.1 hp'
    rcases hm p hpm with hm | ⟨a, ha, -⟩
    · rw [hm]; exact id
    · intro _
      rw [ha]
      rfl
  have eo : { o with reuseSpinmaps := true } = o := by rw [← hre]
  have e1 : ScanInstrument.scanAll s.w o (beams.map q) true size i =
      ScanInstrument.scanAll (s.w.always (.ok i.st.maps)) { o with reuseSpinmaps := false } (beams.map q)
        true size i := by
    unfold ScanInstrument.scanAll
    have := fun r => C109_existing s.w o (beams.map q) hpa true size r i hmaps
    rw [eo] at this
    simp only [this]
  have h2 := all_spec (s.w.always (.ok i.st.maps)) hq hns M { o with reuseSpinmaps := false } hbin hgr
    (fun _ => detects M s.w.x o.interp nside i.st.maps) N chunks
    hmi i ⟨hi.chunks, hi.maps, hi.rot, hi.period, hi.hwp⟩
    (moves_spec s.w.fsamp M N chunks hmi hang i.rot i.hwp hrot hhwp) (steady_always hst) (beams.map q) size
    hsize fun p' hp' => by
      obtain ⟨p, hpm, rfl⟩ := List.mem_map.1 hp'
      exact pairGood_scan (s.w.always (.ok i.st.maps)) hx M chunks { o with reuseSpinmaps := false } hpre
        rfl nside i.st.maps (q p) (hm p hpm)
  refine ⟨_, by rw [C118_kept s o q h i (.inr ⟨hre, hmaps⟩) beams hp mpi true size hsize, e1, h2]; rfl, ?_⟩
  rw [List.flatMap_map]
  exact holds_mapsOf _ _

theorem prepared_read {s : ObjWorld E} {nside : Nat} {h : Heap ℝ} {p : ObjPair} {q : Pair}
    {sm sm' : Spinmaps SpinDict} (hp : Prepared s nside h p q sm sm') : PairOf h p q := by
  cases hp with
  | empty => exact ⟨.none, .none⟩
  | pair a gs B v M sy mu M0 q da da' d ok fresh mmax fewer read => exact read

namespace Objects

open Rec Whole Sieved

/-- The same without any file of coefficients. -/
def lost : ObjWorld Unit := { s with env := { env with loadBlm := fun _ => .error .valueError } }

/-- The hypotheses of `C118_kept` and `C118_preview` are met by three pairs on two ranks whose
coefficients cannot be loaded. -/
example : ∃ m, ScanObjects.scanAll lost { o with preview := true } three true true 2 (i, heap) =
    .ok (m, heap) := by
  obtain ⟨m, h1, -⟩ := C118_preview lost pix_ok one_pos M { o with preview := true } rfl rfl rfl 3 chunks
    mission_ok (by decide) i Sieved.ready rotates plate (steady _) q heap three
    (fun p hp => prepared_read (three_ok p hp)) (by
      intro p hp r hr
      simp only [three, List.mem_cons, List.not_mem_nil, or_false] at hp
      rcases hp with rfl | rfl | rfl <;> simp at hr
      · subst hr; simp [heap, Obj.isGhost, attrs, Val.truthy]
      · rcases hr with rfl | rfl <;> simp [heap, Obj.isGhost, attrs, Val.truthy]) true 2 two_pos
  exact ⟨m, h1⟩

/-- A strategy with spin maps from an earlier scan. -/
def used : Inst Unit := { i with hasMaps := true, st := { i.st with maps := sm2 } }

/-- Those of `C118_reuse`: three pairs on two ranks, scanned with the maps of the second. -/
example : ∃ m, ScanObjects.scanAll lost { o with reuseSpinmaps := true } three true true 2 (used, heap) =
    .ok (m, heap) := by
  obtain ⟨m, h1, -⟩ := C118_reuse lost ext_ok pix_ok one_pos M { o with reuseSpinmaps := true } rfl rfl rfl rfl
    3 chunks mission_ok (by decide) used
    ⟨Sieved.ready.1, Sieved.ready.2, Sieved.ready.3, Sieved.ready.4, Sieved.ready.5⟩ rotates plate
    (steady _) rfl 1 q heap three
    (fun p hp => prepared_read (three_ok p hp)) (by
      intro p hp
      simp only [three, List.mem_cons, List.not_mem_nil, or_false] at hp
      rcases hp with rfl | rfl | rfl
      · refine .inr ⟨Sieved.b, rfl, rfl, one_pos, ?_⟩
        rintro b (hb | hb)
        · obtain rfl := Option.some.inj hb
          exact ⟨rfl, Sieved.sm_ok, by intro g hg; cases hg⟩
        · cases hb
      · refine .inr ⟨ghosted, rfl, rfl, one_pos, ?_⟩
        intro b hb
        obtain rfl : ghosted = b := by rcases hb with hb | hb <;> exact Option.some.inj hb
        refine ⟨rfl, Sieved.sm_ok, fun g hg _ => ?_⟩
        obtain rfl := List.mem_singleton.1 hg
        exact ⟨rfl, _, rfl, Sieved.sm_ok⟩
      · exact .inl rfl) true 2 two_pos
  exact ⟨m, h1⟩

end Objects

end Verif.Props
