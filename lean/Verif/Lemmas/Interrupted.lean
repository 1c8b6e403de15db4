import Verif.Spec.Interrupted
import Verif.Lemmas.ScanInstrument
import Verif.Lemmas.GenericMemmap
import Verif.Lemmas.Strategies

noncomputable section

namespace Verif.Interrupted

open Verif.Chunks Verif.Timeline Verif.Spinmaps Verif.MapMaking Verif.ScanInstrument Verif.Props

variable {E : Type}

/-! ### results are those of the model without interruptions -/

theorem sub_result (w : World E) (o : Opts) (pair : Pair) (ground : Bool) (s : Chunk) (i : Inst E) :
    (subRun w o pair ground s i).result = stepSub w o pair ground s i := by
  unfold subRun Run.andThen rotRun hwpRun obsRun stepSub
  simp only [bind, Except.bind, pure, Except.pure]
  cases rotStep i.rot s with
  | error x => rfl
  | ok r =>
    dsimp only
    cases Hwp.rotateHwp Real.pi w.fsamp i.hwp (s.hwpang.map fun (a : ℚ) => (a : ℝ)) s.start s.stop with
    | error x => rfl
    | ok a => rfl

theorem each_result {A S : Type} (f : A → S → Run S) (l : List A) (s : S) :
    (Run.each f l s).result = l.foldlM (fun s a => (f a s).result) s := by
  induction l generalizing s with
  | nil => rfl
  | cons a l ih =>
    rw [List.foldlM_cons]
    show ((f a s).result >>= fun s => (Run.each f l s).result) = _
    congr 1
    funext s
    exact ih s

theorem chunk_result (w : World E) (H : Halfway E) (o : Opts) (pair : Pair) (first : Bool) (k : Nat)
    (i : Inst E) :
    (chunkRun w H o pair first k i).result = stepChunk w o pair first i k := by
  unfold chunkRun stepChunk
  simp only [bind, Except.bind, pure, Except.pure]
  cases pyGet i.chunks k with
  | error x => rfl
  | ok cg =>
    obtain ⟨c, g⟩ := cg
    unfold Run.andThen pointRun cutRun
    simp only [bind, Except.bind, pure, Except.pure]
    cases w.implement i.el c (g || o.ground) (!first) with
    | error x => rfl
    | ok a =>
      dsimp only
      cases subpartChunk i.rot c with
      | error x => rfl
      | ok b =>
        dsimp only
        rw [each_result]
        congr 1
        funext j s
        exact sub_result _ _ _ _ _ _

theorem pass_result (w : World E) (H : Halfway E) (o : Opts) (first : Bool) (pair : Pair) (i : Inst E) :
    (passRun w H o first pair i).result = scanPass w o first pair i := by
  have h : ∀ j, (chunksRun w H o pair first j).result =
      if j.chunks.all fun c => c.1.cidx.isSome then
        (List.range j.chunks.length).foldlM (stepChunk w o pair first) j
      else .error .keyError := by
    intro j
    unfold chunksRun
    split
    · rw [each_result]
      congr 1
      funext a b
      exact chunk_result _ _ _ _ _ _ _
    · rfl
  unfold passRun scanPass
  simp only [Run.andThen, h]
  cases first with
  | true =>
    simp only [if_true, Run.skip, initRun, bind, Except.bind]
  | false =>
    simp only [Bool.false_eq_true, if_false, resetRun, initRun, bind, Except.bind]
    cases resetAll w i with
    | error x => rfl
    | ok j => rfl

theorem loop_result (w : World E) (H : Halfway E) (o : Opts) (ps : List (Option Pair)) :
    ∀ (first : Bool) (i : Inst E), (loopRun w H o first ps i).result = scanLoop w o first ps i := by
  induction ps with
  | nil => exact fun _ _ => rfl
  | cons p ps ih =>
    intro first i
    unfold loopRun scanLoop
    simp only [Run.andThen, pass_result, bind, Except.bind]
    cases scanPass w o first (p.getD (none, none)) i with
    | error x => rfl
    | ok j => exact ih false j

theorem scan_result (w : World E) (H : Halfway E) (o : Opts) (beams : List Pair) (scatter : Bool)
    (size rank : Nat) (i : Inst E) :
    (scanRun w H o beams scatter size rank i).result = scanInstrument w o beams scatter size rank i := by
  unfold scanRun scanInstrument
  cases Mpi.scanPasses beams scatter size rank with
  | error x => rfl
  | ok ps => exact loop_result w H o ps true i

/-! ### invariants of calls -/

/-- `P` holds during the call and at its end. -/
def Safe {S : Type} (P : S → Prop) (r : Run S) : Prop :=
  (∀ s, r.during s → P s) ∧ ∀ s, r.result = .ok s → P s

theorem Safe.andThen {S : Type} {P : S → Prop} {r : Run S} {f : S → Run S} (h : Safe P r)
    (hf : ∀ s, P s → Safe P (f s)) : Safe P (r.andThen f) := by
  refine ⟨?_, ?_⟩
  · rintro s (hs | ⟨s', h1, h2⟩)
    · exact h.1 s hs
    · exact (hf s' (h.2 s' h1)).1 s h2
  · intro s hs
    obtain ⟨s', h1, h2⟩ := bind_ok hs
    exact (hf s' (h.2 s' h1)).2 s h2

theorem Safe.skip {S : Type} {P : S → Prop} {s : S} (h : P s) : Safe P (Run.skip s) := by
  refine ⟨?_, ?_⟩
  · rintro s' rfl
    exact h
  · intro s' hs
    cases hs
    exact h

theorem Safe.each {A S : Type} {P : S → Prop} {f : A → S → Run S} (l : List A)
    (hf : ∀ a ∈ l, ∀ s, P s → Safe P (f a s)) : ∀ s, P s → Safe P (Run.each f l s) := by
  induction l with
  | nil => exact fun s h => Safe.skip h
  | cons a l ih =>
    intro s h
    exact (hf a List.mem_cons_self s h).andThen
      (ih fun b hb => hf b (List.mem_cons_of_mem _ hb))

theorem RotMoved.refl (r : Rot ℝ) : RotMoved r r := ⟨r.angle, r.remainder, r.gen, rfl⟩

theorem RotMoved.trans {r r' r'' : Rot ℝ} (h : RotMoved r r') (h' : RotMoved r' r'') : RotMoved r r'' := by
  obtain ⟨a, b, c, rfl⟩ := h
  obtain ⟨a', b', c', rfl⟩ := h'
  exact ⟨a', b', c', rfl⟩

theorem RotMoved.reset {r r' : Rot ℝ} (h : RotMoved r r') : r'.reset = r.reset := by
  obtain ⟨a, b, c, rfl⟩ := h
  rfl

theorem HwpMoved.refl (r : Hwp.State ℝ) : HwpMoved r r := ⟨r.dict.angle, r.dict.remainder, r.gen, rfl⟩

theorem HwpMoved.trans {r r' r'' : Hwp.State ℝ} (h : HwpMoved r r') (h' : HwpMoved r' r'') :
    HwpMoved r r'' := by
  obtain ⟨a, b, c, rfl⟩ := h
  obtain ⟨a', b', c', rfl⟩ := h'
  exact ⟨a', b', c', rfl⟩

theorem HwpMoved.reset {r r' : Hwp.State ℝ} (h : HwpMoved r r') : r'.reset = r.reset := by
  obtain ⟨a, b, c, rfl⟩ := h
  rfl

theorem rot_moved {r r' : Rot ℝ} {s : Chunk} (h : rotStep r s = .ok r') : RotMoved r r' := by
  unfold rotStep at h
  split at h
  · cases h
    exact .refl r
  · unfold Rot.rotate at h
    split at h
    · obtain ⟨⟨a, g⟩, _, h2⟩ := bind_ok h
      cases h2
      exact ⟨a, r.remainder, g, rfl⟩
    · cases h
      exact .refl r

theorem sub_moved {r r' : Rot ℝ} {c : Chunk} {subs : List Chunk}
    (h : subpartChunk r c = .ok (subs, r')) : RotMoved r r' := by
  unfold subpartChunk at h
  split at h
  · obtain ⟨⟨a, g⟩, _, h2⟩ := bind_ok h
    cases h2
    exact ⟨r.angle, g, r.gen, rfl⟩
  · cases h
    exact .refl r

theorem stepArray_size {arr : List ℝ} {d d' : Step.StepDict ℝ} {g g' : Gen ℝ} {out : List ℝ}
    (h : Step.stepArray arr d g = .ok (out, d', g')) : d'.stepSize = d.stepSize := by
  unfold Step.stepArray at h
  simp only [bind, Except.bind, pure, Except.pure] at h
  repeat' split at h
  all_goals first
    | cases h; rfl
    | cases h

theorem hwp_moved {π fsamp : ℝ} {h h' : Hwp.State ℝ} {x : Option ℝ} {a b : Int}
    {ang : Option (Hwp.Ang ℝ)} (hh : Hwp.rotateHwp π fsamp h x a b = .ok (ang, h')) : HwpMoved h h' := by
  unfold Hwp.rotateHwp at hh
  dsimp only at hh
  split at hh
  · split at hh
    · split at hh <;> cases hh <;> exact .refl _
    · cases hh
      exact .refl _
  · split at hh
    · split at hh
      · cases hh
      · split at hh
        · cases hh
        · obtain ⟨l, _, h2⟩ := bind_ok hh
          cases h2
          exact ⟨_, h.dict.remainder, h.gen, rfl⟩
    · split at hh
      · cases hh
      · obtain ⟨⟨l, d, g⟩, h1, h2⟩ := bind_ok hh
        obtain ⟨y, _, h2⟩ := bind_ok h2
        cases h2
        have := stepArray_size h1
        refine ⟨Hwp.degrees π (Hwp.npMod y (2 * π)), d.remainder, g, ?_⟩
        dsimp only
        rw [this]
    · cases hh
      exact .refl _

/-- What scans without ground keep: settings, chunks, and an invariant `I` of the scan strategy. -/
structure Keeps (I : E → Prop) (chunks : List Chunk) (r0 : Rot ℝ) (h0 : Hwp.State ℝ) (i : Inst E) :
    Prop where
  el : I i.el
  chunks : i.chunks = chunks.map fun c => (c, false)
  rot : RotMoved r0 i.rot
  hwp : HwpMoved h0 i.hwp

theorem safe_sub (I : E → Prop) (chunks : List Chunk) (r0 : Rot ℝ) (h0 : Hwp.State ℝ) (w : World E)
    (o : Opts) (pair : Pair) (ground : Bool) (s : Chunk) (i : Inst E) (hi : Keeps I chunks r0 h0 i) :
    Safe (Keeps I chunks r0 h0) (subRun w o pair ground s i) := by
  refine Safe.andThen (Safe.andThen ⟨?_, ?_⟩ ?_) ?_
  · rintro j ⟨r', h1, rfl⟩
    exact ⟨hi.el, hi.chunks, hi.rot.trans h1, hi.hwp⟩
  · intro j hj
    obtain ⟨r, h1, h2⟩ := bind_ok hj
    cases h2
    exact ⟨hi.el, hi.chunks, hi.rot.trans (rot_moved h1), hi.hwp⟩
  · intro i hi
    refine ⟨?_, ?_⟩
    · rintro j ⟨h', st', h1, rfl⟩
      exact ⟨hi.el, hi.chunks, hi.rot, hi.hwp.trans h1⟩
    · intro j hj
      obtain ⟨⟨a, h⟩, h1, h2⟩ := bind_ok hj
      cases h2
      exact ⟨hi.el, hi.chunks, hi.rot, hi.hwp.trans (hwp_moved h1)⟩
  · intro i hi
    refine ⟨?_, ?_⟩
    · rintro j ⟨st', maps', rfl⟩
      exact ⟨hi.el, hi.chunks, hi.rot, hi.hwp⟩
    · intro j hj
      obtain ⟨x, _, hj⟩ := bind_ok hj
      obtain ⟨⟨st, maps⟩, h1, h2⟩ := bind_ok hj
      cases h2
      exact ⟨hi.el, hi.chunks, hi.rot, hi.hwp⟩

theorem pyGet_mem {α : Type} {l : List α} {k : Int} {a : α} (h : pyGet l k = .ok a) : a ∈ l := by
  unfold pyGet at h
  dsimp only at h
  generalize (if k < 0 then k + (l.length : Int) else k) = j at h
  split at h
  · cases h
  · split at h
    · cases h
      exact List.mem_of_getElem? (by assumption)
    · cases h

theorem safe_chunk (I : E → Prop) (chunks : List Chunk) (r0 : Rot ℝ) (h0 : Hwp.State ℝ) (w : World E)
    (H : Halfway E)
    (hI : ∀ e c pre p e', I e → c ∈ chunks → w.implement e c false pre = .ok (p, e') → I e')
    (hH : ∀ e e', I e → H.implement e e' ∨ H.reset e e' → I e')
    (o : Opts) (hgr : o.ground = false) (pair : Pair) (first : Bool) (k : Nat) (i : Inst E)
    (hi : Keeps I chunks r0 h0 i) :
    Safe (Keeps I chunks r0 h0) (chunkRun w H o pair first k i) := by
  unfold chunkRun
  split
  · refine ⟨?_, fun j hj => by cases hj⟩
    rintro j rfl
    exact hi
  · rename_i c g hk
    have hm := pyGet_mem hk
    rw [hi.chunks] at hm
    obtain ⟨c', hc', he⟩ := List.mem_map.1 hm
    obtain ⟨rfl, rfl⟩ := Prod.mk.inj he
    simp only [hgr, Bool.or_false]
    refine Safe.andThen ⟨?_, ?_⟩ ?_
    · rintro j ⟨el', st', flag', h1, rfl⟩
      exact ⟨hH _ _ hi.el (.inl h1), hi.chunks, hi.rot, hi.hwp⟩
    · intro j hj
      obtain ⟨⟨p, el⟩, h1, h2⟩ := bind_ok hj
      cases h2
      exact ⟨hI _ _ _ _ _ hi.el hc' h1, hi.chunks, hi.rot, hi.hwp⟩
    · intro i hi
      have hsafe : ∀ subs rot, subpartChunk i.rot c' = .ok (subs, rot) → Safe (Keeps I chunks r0 h0)
          (Run.each (subRun w o pair (if i.rot.period then o.ground else false || o.ground)) subs
            { i with rot := rot, chunks := if o.ground ∧ i.rot.period = false then
              i.chunks.set k (c', true) else i.chunks }) := by
        intro subs rot h1
        refine Safe.each subs (fun s _ j hj => safe_sub I chunks r0 h0 w o pair _ s j hj) _ ?_
        rw [if_neg (by simp [hgr])]
        exact ⟨hi.el, hi.chunks, hi.rot.trans (sub_moved h1), hi.hwp⟩
      refine ⟨?_, ?_⟩
      · rintro j (⟨r', ch, h1, h2, rfl⟩ | ⟨subs, rot, h1, h2⟩)
        · refine ⟨hi.el, ?_, hi.rot.trans h1, hi.hwp⟩
          rcases h2 with rfl | ⟨h2, _⟩
          · exact hi.chunks
          · rw [hgr] at h2
            cases h2
        · exact (hsafe subs rot h1).1 j h2
      · intro j hj
        obtain ⟨⟨subs, rot⟩, h1, h2⟩ := bind_ok hj
        exact (hsafe subs rot h1).2 j h2

section
variable (I : E → Prop) (chunks : List Chunk) (r0 : Rot ℝ) (h0 : Hwp.State ℝ) (w : World E)
    (H : Halfway E)
    (hI : ∀ e c pre p e', I e → c ∈ chunks → w.implement e c false pre = .ok (p, e') → I e')
    (hR : ∀ e e', I e → w.resetEl e = .ok e' → I e')
    (hH : ∀ e e', I e → H.implement e e' ∨ H.reset e e' → I e')

include hR in
theorem keeps_reset {i j : Inst E} (hi : Keeps I chunks r0 h0 i) (h : resetAll w i = .ok j) :
    Keeps I chunks r0 h0 j := by
  obtain ⟨e, h1, h2⟩ := bind_ok h
  cases h2
  exact ⟨hR _ _ hi.el h1, hi.chunks, hi.rot.trans ⟨_, _, _, rfl⟩, hi.hwp.trans ⟨_, _, _, rfl⟩⟩

include hR hH in
theorem safe_reset (i : Inst E) (hi : Keeps I chunks r0 h0 i) :
    Safe (Keeps I chunks r0 h0) (resetRun w H i) := by
  refine ⟨?_, fun j hj => keeps_reset I chunks r0 h0 w hR hi hj⟩
  rintro j ⟨r', h', el', h1, h2, h3, rfl⟩
  refine ⟨?_, hi.chunks, hi.rot.trans h1, hi.hwp.trans h2⟩
  rcases h3 with rfl | h3
  · exact hi.el
  · exact hH _ _ hi.el (.inr h3)

theorem keeps_init {i j : Inst E} {o : Opts} {pair : Pair} (hi : Keeps I chunks r0 h0 i)
    (h : initPair w o pair i = .ok j) : Keeps I chunks r0 h0 j := by
  unfold initPair at h
  split at h
  · cases h
    exact hi
  · split at h
    · cases h
      exact hi
    · split at h
      · cases h
        exact hi
      · split at h
        · cases h
        · obtain ⟨sm, _, h2⟩ := bind_ok h
          cases h2
          exact ⟨hi.el, hi.chunks, hi.rot, hi.hwp⟩

include hI hR hH in
theorem safe_pass (o : Opts) (hgr : o.ground = false) (first : Bool) (pair : Pair) (i : Inst E)
    (hi : Keeps I chunks r0 h0 i) : Safe (Keeps I chunks r0 h0) (passRun w H o first pair i) := by
  refine Safe.andThen (Safe.andThen ?_ ?_) ?_
  · cases first with
    | true => exact Safe.skip hi
    | false => exact safe_reset I chunks r0 h0 w H hR hH i hi
  · intro i hi
    refine ⟨?_, fun j hj => keeps_init I chunks r0 h0 w hi hj⟩
    rintro j ⟨m, b, rfl⟩
    exact ⟨hi.el, hi.chunks, hi.rot, hi.hwp⟩
  · intro i hi
    unfold chunksRun
    split
    · exact Safe.each _ (fun k _ j hj => safe_chunk I chunks r0 h0 w H hI hH o hgr pair first k j hj) i hi
    · refine ⟨?_, fun j hj => by cases hj⟩
      rintro j rfl
      exact hi

include hI hR hH in
theorem safe_loop (o : Opts) (hgr : o.ground = false) (ps : List (Option Pair)) :
    ∀ (first : Bool) (i : Inst E), Keeps I chunks r0 h0 i →
      Safe (Keeps I chunks r0 h0) (loopRun w H o first ps i) := by
  induction ps with
  | nil => exact fun _ i hi => Safe.skip hi
  | cons p ps ih =>
    intro first i hi
    exact (safe_pass I chunks r0 h0 w H hI hR hH o hgr first _ i hi).andThen fun j hj => ih false j hj

include hI hR hH in
theorem keeps_stopped (o : Opts) (hgr : o.ground = false) (beams : List Pair) (scatter : Bool)
    (size rank : Nat) (i j : Inst E) (hi : Keeps I chunks r0 h0 i)
    (h : Stopped w H o beams scatter size rank i j) : Keeps I chunks r0 h0 j := by
  have hsafe : Safe (Keeps I chunks r0 h0) (scanRun w H o beams scatter size rank i) := by
    unfold scanRun
    split
    · refine ⟨?_, fun j hj => by cases hj⟩
      rintro j rfl
      exact hi
    · exact safe_loop I chunks r0 h0 w H hI hR hH o hgr _ true i hi
  rcases h with h | h
  · exact hsafe.1 j h
  · exact hsafe.2 j ((scan_result _ _ _ _ _ _ _ _).trans h)

include hI hR hH in
theorem keeps_after {i j : Inst E} (hi : Keeps I chunks r0 h0 i) (h : After w H i j) :
    Keeps I chunks r0 h0 j := by
  induction h with
  | start => exact hi
  | scan o beams scatter size rank _ hgr h2 ih =>
    exact keeps_stopped I chunks r0 h0 w H hI hR hH o hgr beams scatter size rank _ _ ih h2
  | resetting _ h2 ih => exact (safe_reset I chunks r0 h0 w H hR hH _ ih).1 _ h2
  | restart _ h2 ih =>
    obtain ⟨k, h3, h4⟩ := bind_ok h2
    cases h4
    have := keeps_reset I chunks r0 h0 w hR ih h3
    exact ⟨this.el, this.chunks, this.rot, this.hwp⟩

end

/-! ### scans that start in different states on different ranks -/

theorem each_spec (w : World E) (hq : PixOk w.q) (hns : 0 < w.nsideOut) (M : Motion)
    (o : Opts) (hbin : o.binning = true) (hgr : o.ground = false)
    (val : Pair → BinBeam → Nat → ℝ) (N : Nat) (mission : List Chunk) (hmi : Mission N mission)
    (r0 : Rot ℝ) (h0 : Hwp.State ℝ) (hrot : Data.RotOk r0 0) (hr0 : r0.reset = r0)
    (hh0 : h0.reset = h0) (hmv : Moves w.fsamp M r0 h0 mission) (beams : List Pair) (size : Nat)
    (hsize : 0 < size) (is : Nat → Inst E) (left : Nat → List Obs)
    (his : ∀ r, r < size → (is r).rot = r0 ∧ (is r).hwp = h0 ∧ Steady w M mission (is r).el ∧
      ((is r).chunks = mission.map fun c => (c, false)) ∧
      (is r).maps = mapsOf (12 * w.nsideOut ^ 2) (left r))
    (hgood : ∀ p ∈ beams, PairGood w M mission o p (val p)) :
    scanEach w o beams true size is = .ok (mapsOf (12 * w.nsideOut ^ 2)
      ((List.range size).flatMap left ++ beams.flatMap fun p => missionObs w M o N (val p) p)) := by
  obtain ⟨work, w1, w2, w3, -⟩ := C03_every_pair_scanned_once beams size hsize
  have hmem : ∀ l ∈ work, ∀ p ∈ l.filterMap id, p ∈ beams := by
    intro l hl p hp
    rw [← w3]
    exact List.mem_flatten.2 ⟨_, List.mem_map_of_mem hl, hp⟩
  let part : Nat → List Obs := fun r =>
    ((work[r]?).getD []).filterMap id |>.flatMap fun p => missionObs w M o N (val p) p
  have hone : ∀ r, r < size → ∃ i', scanInstrument w o beams true size r (is r) = .ok i' ∧
      i'.maps = mapsOf (12 * w.nsideOut ^ 2) (left r ++ part r) := by
    intro r hr
    have hlt : r < work.length := by omega
    have hwr := w2 r hr
    rw [List.getElem?_eq_getElem hlt] at hwr
    obtain ⟨e1, e2, ⟨P, p1, p2⟩, e4, e5⟩ := his r hr
    obtain ⟨i', g1, g2, -⟩ := loop_spec w hq hns M o hbin hgr val N mission hmi r0 h0 hrot hr0
      hh0 hmv P p2 work[r] true (is r) (left r)
      (fun p hp => hgood p (hmem _ (List.getElem_mem hlt) p hp)) ⟨e1, e2, p1⟩ e4 e5
    refine ⟨i', ?_, ?_⟩
    · unfold scanInstrument
      rw [← Option.some.inj hwr]
      exact g1
    · rw [g2]
      simp only [part, List.getElem?_eq_getElem hlt, Option.getD_some]
  have hlist : ∀ rs : List Nat, (∀ r ∈ rs, r < size) → ∃ is',
      rs.mapM (fun r => scanInstrument w o beams true size r (is r)) = Except.ok (ε := PyErr) is' ∧
      is'.map (·.maps) = (rs.map fun r => left r ++ part r).map (mapsOf (12 * w.nsideOut ^ 2)) := by
    intro rs
    induction rs with
    | nil => exact fun _ => ⟨[], rfl, rfl⟩
    | cons r rs ih =>
      intro hrs
      obtain ⟨is', e1, e2⟩ := ih fun r hr => hrs r (List.mem_cons_of_mem _ hr)
      obtain ⟨i', g1, g2⟩ := hone r (hrs r List.mem_cons_self)
      refine ⟨i' :: is', ?_, ?_⟩
      · rw [List.mapM_cons, g1, e1]
        rfl
      · simp only [List.map_cons]
        rw [e2, g2]
  obtain ⟨is', e1, e2⟩ := hlist (List.range size) fun r hr => List.mem_range.1 hr
  have hpart : ((List.range size).map part).flatten =
      beams.flatMap fun p => missionObs w M o N (val p) p := by
    have hw : work = (List.range size).map fun r => (work[r]?).getD [] := by
      apply List.ext_getElem (by simp [w1])
      intro k h1 h2
      simp [h1]
    rw [← w3]
    conv_rhs => rw [hw]
    simp only [List.flatMap_def, List.map_flatten, List.flatten_flatten, List.map_map]
    rfl
  unfold scanEach
  rw [e1]
  simp only [bind, Except.bind, pure, Except.pure]
  rw [e2, reduce_mapsOf]
  congr 1
  apply mapsOf_perm
  rw [← hpart, ← List.flatMap_def, ← List.flatMap_def]
  exact (List.flatMap_append_perm _ _ _).symm

/-! ### recovery -/

theorem restart_of {w : World E} {H : Halfway E} {M : Motion} {chunks : List Chunk} {i j : Inst E}
    (hst : Restores w H M chunks i.el) (hi : Ready w chunks i) (h : After w H i j) :
    ∃ k, restart w j = .ok k ∧ k.rot = i.rot ∧ k.hwp = i.hwp ∧ Steady w M chunks k.el ∧
      (k.chunks = chunks.map fun c => (c, false)) ∧ k.maps = allocateMaps w.nsideOut := by
  obtain ⟨I, h1, h2, h3, h4, h5⟩ := hst
  have hk := keeps_after I chunks i.rot i.hwp w H h2 h3 h4 ⟨h1, hi.chunks, .refl _, .refl _⟩ h
  obtain ⟨e', g1, g2⟩ := h5 _ hk.el
  refine ⟨{ j with rot := j.rot.reset, hwp := j.hwp.reset, el := e', maps := allocateMaps w.nsideOut },
    ?_, ?_, ?_, g2, hk.chunks, rfl⟩
  · unfold restart resetAll
    rw [g1]
    rfl
  · exact hk.rot.reset.trans hi.rot
  · exact hk.hwp.reset.trans hi.hwp

theorem each_start (w : World E) (H : Halfway E) (hH : ∀ e, H.implement e e) (o : Opts) (pair : Pair)
    (first : Bool) (l : List Nat) (i : Inst E) :
    (Run.each (chunkRun w H o pair first) l i).during i := by
  cases l with
  | nil => rfl
  | cons k l =>
    left
    unfold chunkRun
    split
    · rfl
    · exact .inl ⟨i.el, i.st, i.flag, hH _, rfl⟩

theorem flatMap_single {α : Type} (n r : Nat) (l : List α) (hr : r < n) :
    ((List.range n).flatMap fun s => if s = r then l else []) = l := by
  induction n with
  | zero => omega
  | succ n ih =>
    rw [List.range_succ, List.flatMap_append]
    by_cases h : n = r
    · subst h
      have : ((List.range n).flatMap fun s => if s = n then l else []) = [] := by
        rw [List.flatMap_eq_nil_iff]
        intro s hs
        have := List.mem_range.1 hs
        rw [if_neg (by omega)]
      rw [this]
      simp
    · rw [ih (by omega)]
      simp [h]

/-- A strategy whose pointing does not depend on what it has done before. -/
theorem restores_of {w : World E} {H : Halfway E} {M : Motion} {chunks : List Chunk} {I : E → Prop}
    {e0 : E} (h0 : I e0)
    (h : ∀ c ∈ chunks, ∀ e pre, I e → ∃ p e', w.implement e c false pre = .ok (p, e') ∧
      PointsAt M c p ∧ I e') (hr : ∀ e, I e → w.resetEl e = .ok e)
    (hH : ∀ e e', I e → H.implement e e' ∨ H.reset e e' → I e') :
    Restores w H M chunks e0 := by
  refine ⟨I, h0, ?_, ?_, hH, ?_⟩
  · intro e c pre p e' he hc hi
    obtain ⟨p', e'', h1, _, h3⟩ := h c hc e pre he
    rw [hi] at h1
    obtain ⟨_, rfl⟩ := Prod.mk.inj (Except.ok.inj h1)
    exact h3
  · intro e e' he hi
    rw [hr e he] at hi
    obtain rfl := Except.ok.inj hi
    exact he
  · intro e he
    exact ⟨e, hr e he, (Strategies.repeats_of he h fun e he => ⟨e, hr e he, he⟩).steady⟩

/-! ### the generic scan -/

theorem ElMoved.refl (e : Option (Step.ElSteps ℝ)) : ElMoved e e := by
  cases e with
  | none => trivial
  | some s => exact ⟨s.dict.angle, s.dict.remainder, s.gen, rfl⟩

theorem ElMoved.trans {a b c : Option (Step.ElSteps ℝ)} (h : ElMoved a b) (h' : ElMoved b c) :
    ElMoved a c := by
  cases a <;> cases b <;> cases c <;> try trivial
  obtain ⟨x, y, z, rfl⟩ := h
  obtain ⟨x', y', z', rfl⟩ := h'
  exact ⟨x', y', z', rfl⟩

theorem moved_reset {cfg : Scan.ElCfg ℝ} (hv : cfg.Valid) {a b : Option (Step.ElSteps ℝ)}
    (ha : Scan.Fresh cfg a) (h : ElMoved a b) : ∃ c, Scan.resetEl b = .ok c ∧ Scan.Fresh cfg c := by
  cases cfg with
  | none =>
    cases a with
    | some _ => exact ha.elim
    | none =>
      cases b with
      | some _ => exact h.elim
      | none => exact ⟨none, rfl, trivial⟩
  | some p =>
    obtain ⟨n, A⟩ := p
    cases a with
    | none => exact ha.elim
    | some s =>
      cases b with
      | none => exact h.elim
      | some s' =>
        obtain ⟨x, y, z, rfl⟩ := h
        obtain ⟨a1, a2, a3, a4⟩ := ha
        obtain ⟨hn, hA⟩ := hv
        refine ⟨some ⟨s.steps, ⟨s.dict.stepSize, 0, x⟩, angleGen s.steps⟩, ?_, a1, a2, rfl, ?_⟩
        · unfold Scan.resetEl Step.ElSteps.reset
          have : ∃ a, pyGet s.steps 0 = .ok a := by
            rw [a1]
            cases A with
            | nil => exact (hA rfl).elim
            | cons a A => exact ⟨a, rfl⟩
          obtain ⟨a, ha⟩ := this
          simp only [bind, Except.bind, pure, Except.pure]
          rw [ha]
        · rw [a1]

theorem reset_moved {a b : Option (Step.ElSteps ℝ)} (h : Scan.resetEl a = .ok b) : ElMoved a b := by
  cases a with
  | none =>
    cases h
    trivial
  | some s =>
    obtain ⟨s', h1, h2⟩ := bind_ok h
    cases h2
    obtain ⟨x, _, h4⟩ := bind_ok h1
    cases h4
    exact ⟨_, _, _, rfl⟩

theorem stepEl_moved {el el' : List ℝ} {a b : Option (Step.ElSteps ℝ)}
    (h : Scan.stepEl el a = .ok (el', b)) : ElMoved a b := by
  cases a with
  | none =>
    cases h
    trivial
  | some s =>
    obtain ⟨⟨l, d, g⟩, h1, h2⟩ := bind_ok h
    cases h2
    have := stepArray_size h1
    refine ⟨d.angle, d.remainder, g, ?_⟩
    dsimp only
    rw [← this]

theorem store_length {a b : Int} {q : List Quat.Q} {m m' : Option (List Quat.Q)}
    (h : Scan.storeMmap a b q m = .ok m') : m'.map List.length = m.map List.length := by
  cases m with
  | none =>
    cases h
    rfl
  | some m =>
    obtain ⟨m1, h1, h2⟩ := bind_ok h
    cases h2
    simp only [Option.map_some, Option.some.injEq]
    have hclip : ∀ k, pyClip m.length k ≤ m.length := by
      intro k
      unfold pyClip
      split <;> omega
    have hset : ∀ v : List Quat.Q, v.length = pyClip m.length b - pyClip m.length a →
        (setRange m (pyClip m.length a) v).length = m.length := by
      intro v hv
      have h1 := hclip a
      have h2 := hclip b
      unfold setRange
      simp only [List.length_append, List.length_take, List.length_drop]
      omega
    unfold pyAssign at h1
    dsimp only at h1
    split at h1
    · cases h1
      exact hset _ (by assumption)
    · split at h1
      · cases h1
        exact hset _ (by simp)
      · cases h1

theorem generic_moved {site : Scan.Site ℝ Quat.Q} {o : Scan.Opts ℝ} {e e' : Scan.State ℝ Quat.Q}
    {c : Chunk} {g pre : Bool} {p : Pointing} (h : genericImplement site o e c g pre = .ok (p, e')) :
    genericHalf.implement e e' := by
  obtain ⟨e1, h1, h2⟩ := bind_ok h
  cases h2
  obtain ⟨ct, _, h1⟩ := bind_ok h1
  have hcomp : ∀ {x}, Scan.compute site { o with ground := g } ct c.start c.stop e = .ok x →
      genericHalf.implement e x := by
    intro x hx
    obtain ⟨⟨az, el⟩, _, hx⟩ := bind_ok hx
    obtain ⟨⟨el', st⟩, h3, hx⟩ := bind_ok hx
    obtain ⟨mm, h4, hx⟩ := bind_ok hx
    cases hx
    exact ⟨rfl, store_length h4, stepEl_moved h3⟩
  split at h1
  · cases h1
    exact ⟨rfl, rfl, .refl _⟩
  · exact hcomp h1

theorem generic_restores (w : World (Scan.State ℝ Quat.Q)) (site : Scan.Site ℝ Quat.Q)
    (o : Scan.Opts ℝ) (hgr : o.ground = false) (prf : Nat → ℝ) (hprf : Scan.IsProfile site o prf)
    (hfs : o.fsamp ≠ 0) (hcl : 0 < o.checkLen) (hd : o.dec0 ≠ [])
    (hr : o.ra0.length = o.dec0.length) (cfg : Scan.ElCfg ℝ) (hv : cfg.Valid)
    (hw : w.implement = genericImplement site o) (hw' : w.resetEl = genericReset) (N : Nat)
    (chunks : List Chunk) (hmi : Mission N chunks)
    (hdiv : o.azThrow ≠ 0 ∨ ∀ c ∈ chunks, o.checkLen.toNat ∣ (c.stop - c.start).toNat)
    (e0 : Scan.State ℝ Quat.Q) (hfr : Scan.Fresh cfg e0.el) (hm : ∀ m, e0.mmap = some m → N ≤ m.length)
    (hf : e0.flag = none) :
    ∃ bore : Nat → Quat.Q,
      (∀ c ∈ chunks, ∀ i : Nat, i < (c.stop - c.start).toNat → ∃ (p : ℝ × ℝ) (y : ℝ),
        Spec.Selected o.elMin (Scan.patches site o (((c.start +
            (i / o.checkLen.toNat * o.checkLen.toNat : Nat) : Int) : ℝ) / o.fsamp + o.ctime0)) p ∧
          cfg.At (c.start.toNat + i) p.2 y ∧
          bore (c.start.toNat + i) =
            site.azel2bore (prf i + p.1) y (((c.start + i : Int) : ℝ) / o.fsamp + o.ctime0)) ∧
      ∀ M : Motion, M.bore = bore → (∀ t : Nat, M.time t = t / o.fsamp + o.ctime0) →
        (∀ t, M.flag t = false) → Restores w genericHalf M chunks e0 := by
  obtain ⟨bore, h1, h2⟩ := generic_steady_every w site o hgr prf hprf hfs hcl hd hr cfg hv hw hw' N chunks
    hmi hdiv { e0 with mmap := none } hfr rfl
  refine ⟨bore, h1, fun M a b c => ?_⟩
  refine ⟨genericHalf.implement e0, ⟨rfl, rfl, .refl _⟩, ?_, ?_, ?_, ?_⟩
  · rintro e ch pre p e' ⟨g1, g2, g3⟩ _ hi
    rw [hw] at hi
    obtain ⟨k1, k2, k3⟩ := generic_moved hi
    exact ⟨k1.trans g1, k2.trans g2, g3.trans k3⟩
  · rintro e e' ⟨g1, g2, g3⟩ hi
    rw [hw'] at hi
    obtain ⟨el, k1, k2⟩ := bind_ok hi
    cases k2
    exact ⟨g1, g2, g3.trans (reset_moved k1)⟩
  · rintro e e' ⟨g1, g2, g3⟩ (⟨k1, k2, k3⟩ | ⟨el', k1, rfl⟩)
    · exact ⟨k1.trans g1, k2.trans g2, g3.trans k3⟩
    · exact ⟨g1, g2, g3.trans k1⟩
  · rintro e ⟨g1, g2, g3⟩
    obtain ⟨el, k1, k2⟩ := moved_reset hv hfr g3
    refine ⟨{ e with el := el }, ?_, ?_⟩
    · rw [hw']
      unfold genericReset
      rw [k1]
      rfl
    · have hrep := h2 M a b c { e with mmap := none, el := el } k2 rfl (g1.trans hf)
      cases hmm : e.mmap with
      | none =>
        exact hrep.steady
      | some m =>
        have hlen : N ≤ m.length := by
          rw [hmm] at g2
          cases h0 : e0.mmap with
          | none =>
            rw [h0] at g2
            cases g2
          | some m0 =>
            rw [h0] at g2
            have h3 := hm m0 h0
            have h4 : m.length = m0.length := Option.some.inj g2
            omega
        exact generic_steady_memmap w site o hgr prf hprf hfs hcl hd hr cfg hv hw hw' N chunks hmi
          hdiv { e with el := el } k2 m hlen (g1.trans hf) M b c hrep

end Verif.Interrupted
