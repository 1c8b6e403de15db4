import Verif.Spec.InterruptedGround
import Verif.Lemmas.Interrupted
import Verif.Lemmas.GroundGeneric

/-! # Lemmas: interrupted scans with a ground template -/

noncomputable section

namespace Verif.Interrupted.Ground

open Verif.Chunks Verif.Timeline Verif.Spinmaps Verif.MapMaking Verif.ScanInstrument Verif.Props

variable {E : Type}

/-- What scans with or without ground keep: settings, chunks, and an invariant `I` of the scan strategy. -/
structure Keeps (I : E → Prop) (chunks : List Chunk) (r0 : Rot ℝ) (h0 : Hwp.State ℝ) (i : Inst E) :
    Prop where
  el : I i.el
  chunks : i.chunks.map (·.1) = chunks
  rot : RotMoved r0 i.rot
  hwp : HwpMoved h0 i.hwp

theorem safe_sub (I : E → Prop) (chunks : List Chunk) (r0 : Rot ℝ) (h0 : Hwp.State ℝ) (w : World E)
    (o : Opts) (pair : Pair) (ground : Bool) (s : Chunk) (i : Inst E) (hi : Keeps I chunks r0 h0 i) :
    Safe (Keeps I chunks r0 h0) (subRun w o pair ground s i) := by
  refine Safe.andThen (Safe.andThen ⟨?_, ?_⟩ ?_) ?_
  · rintro j ⟨r', h1, rfl⟩
    exact ⟨hi.el, hi.chunks, hi.rot.trans h1, hi.hwp⟩
  · intro j hj
    obtain ⟨r, h1, h2⟩ := bind_ok hj
    cases h2
    exact ⟨hi.el, hi.chunks, hi.rot.trans (rot_moved h1), hi.hwp⟩
  · intro i hi
    refine ⟨?_, ?_⟩
    · rintro j ⟨h', st', h1, rfl⟩
      exact ⟨hi.el, hi.chunks, hi.rot, hi.hwp.trans h1⟩
    · intro j hj
      obtain ⟨⟨a, h⟩, h1, h2⟩ := bind_ok hj
      cases h2
      exact ⟨hi.el, hi.chunks, hi.rot, hi.hwp.trans (hwp_moved h1)⟩
  · intro i hi
    refine ⟨?_, ?_⟩
    · rintro j ⟨st', maps', rfl⟩
      exact ⟨hi.el, hi.chunks, hi.rot, hi.hwp⟩
    · intro j hj
      obtain ⟨x, _, hj⟩ := bind_ok hj
      obtain ⟨⟨st, maps⟩, h1, h2⟩ := bind_ok hj
      cases h2
      exact ⟨hi.el, hi.chunks, hi.rot, hi.hwp⟩

theorem pyGet_at {α : Type} {l : List α} {k : Nat} {a : α} (h : pyGet l k = .ok a) :
    l[k]? = some a := by
  unfold pyGet at h
  dsimp only at h
  have hk : (if (k : Int) < 0 then (k : Int) + (l.length : Int) else k) = k := if_neg (by omega)
  rw [hk] at h
  split at h
  · cases h
  · split at h
    · cases h
      assumption
    · cases h

theorem set_self {α : Type} {l : List α} {k : Nat} {a : α} (h : l[k]? = some a) : l.set k a = l := by
  apply List.ext_getElem?
  intro n
  rw [List.getElem?_set]
  split
  · rename_i hn
    subst hn
    rw [h]
    simp [(List.getElem?_eq_some_iff.1 h).1]
  · rfl

theorem safe_chunk (I : E → Prop) (chunks : List Chunk) (r0 : Rot ℝ) (h0 : Hwp.State ℝ) (w : World E)
    (H : Halfway E)
    (hI : ∀ e c g pre p e', I e → c ∈ chunks → w.implement e c g pre = .ok (p, e') → I e')
    (hH : ∀ e e', I e → H.implement e e' ∨ H.reset e e' → I e')
    (o : Opts) (pair : Pair) (first : Bool) (k : Nat) (i : Inst E)
    (hi : Keeps I chunks r0 h0 i) :
    Safe (Keeps I chunks r0 h0) (chunkRun w H o pair first k i) := by
  unfold chunkRun
  split
  · refine ⟨?_, fun j hj => by cases hj⟩
    rintro j rfl
    exact hi
  · rename_i c g hk
    have hc' : c ∈ chunks := by
      rw [← hi.chunks]
      exact List.mem_map_of_mem (f := Prod.fst) (pyGet_mem hk)
    have hck : chunks[k]? = some c := by
      rw [← hi.chunks, List.getElem?_map, pyGet_at hk]
      rfl
    refine Safe.andThen ⟨?_, ?_⟩ ?_
    · rintro j ⟨el', st', flag', h1, rfl⟩
      exact ⟨hH _ _ hi.el (.inl h1), hi.chunks, hi.rot, hi.hwp⟩
    · intro j hj
      obtain ⟨⟨p, el⟩, h1, h2⟩ := bind_ok hj
      cases h2
      exact ⟨hI _ _ _ _ _ _ hi.el hc' h1, hi.chunks, hi.rot, hi.hwp⟩
    · intro i hi
      have hset : (i.chunks.set k (c, true)).map (·.1) = chunks := by
        rw [List.map_set, hi.chunks]
        exact set_self hck
      have hsafe : ∀ subs rot, subpartChunk i.rot c = .ok (subs, rot) → Safe (Keeps I chunks r0 h0)
          (Run.each (subRun w o pair (if i.rot.period then o.ground else g || o.ground)) subs
            { i with rot := rot, chunks := if o.ground ∧ i.rot.period = false then
              i.chunks.set k (c, true) else i.chunks }) := by
        intro subs rot h1
        refine Safe.each subs (fun s _ j hj => safe_sub I chunks r0 h0 w o pair _ s j hj) _ ?_
        refine ⟨hi.el, ?_, hi.rot.trans (sub_moved h1), hi.hwp⟩
        dsimp only
        split
        · exact hset
        · exact hi.chunks
      refine ⟨?_, ?_⟩
      · rintro j (⟨r', ch, h1, h2, rfl⟩ | ⟨subs, rot, h1, h2⟩)
        · refine ⟨hi.el, ?_, hi.rot.trans h1, hi.hwp⟩
          rcases h2 with rfl | ⟨_, rfl⟩
          · exact hi.chunks
          · exact hset
        · exact (hsafe subs rot h1).1 j h2
      · intro j hj
        obtain ⟨⟨subs, rot⟩, h1, h2⟩ := bind_ok hj
        exact (hsafe subs rot h1).2 j h2

section
variable (I : E → Prop) (chunks : List Chunk) (r0 : Rot ℝ) (h0 : Hwp.State ℝ) (w : World E)
    (H : Halfway E)
    (hI : ∀ e c g pre p e', I e → c ∈ chunks → w.implement e c g pre = .ok (p, e') → I e')
    (hR : ∀ e e', I e → w.resetEl e = .ok e' → I e')
    (hH : ∀ e e', I e → H.implement e e' ∨ H.reset e e' → I e')

include hR in
theorem keeps_reset {i j : Inst E} (hi : Keeps I chunks r0 h0 i) (h : resetAll w i = .ok j) :
    Keeps I chunks r0 h0 j := by
  obtain ⟨e, h1, h2⟩ := bind_ok h
  cases h2
  exact ⟨hR _ _ hi.el h1, hi.chunks, hi.rot.trans ⟨_, _, _, rfl⟩, hi.hwp.trans ⟨_, _, _, rfl⟩⟩

include hR hH in
theorem safe_reset (i : Inst E) (hi : Keeps I chunks r0 h0 i) :
    Safe (Keeps I chunks r0 h0) (resetRun w H i) := by
  refine ⟨?_, fun j hj => keeps_reset I chunks r0 h0 w hR hi hj⟩
  rintro j ⟨r', h', el', h1, h2, h3, rfl⟩
  refine ⟨?_, hi.chunks, hi.rot.trans h1, hi.hwp.trans h2⟩
  rcases h3 with rfl | h3
  · exact hi.el
  · exact hH _ _ hi.el (.inr h3)

theorem keeps_init {i j : Inst E} {o : Opts} {pair : Pair} (hi : Keeps I chunks r0 h0 i)
    (h : initPair w o pair i = .ok j) : Keeps I chunks r0 h0 j := by
  unfold initPair at h
  split at h
  · cases h
    exact hi
  · split at h
    · cases h
      exact hi
    · split at h
      · cases h
        exact hi
      · split at h
        · cases h
        · obtain ⟨sm, _, h2⟩ := bind_ok h
          cases h2
          exact ⟨hi.el, hi.chunks, hi.rot, hi.hwp⟩

include hI hR hH in
theorem safe_pass (o : Opts) (first : Bool) (pair : Pair) (i : Inst E)
    (hi : Keeps I chunks r0 h0 i) : Safe (Keeps I chunks r0 h0) (passRun w H o first pair i) := by
  refine Safe.andThen (Safe.andThen ?_ ?_) ?_
  · cases first with
    | true => exact Safe.skip hi
    | false => exact safe_reset I chunks r0 h0 w H hR hH i hi
  · intro i hi
    refine ⟨?_, fun j hj => keeps_init I chunks r0 h0 w hi hj⟩
    rintro j ⟨m, b, rfl⟩
    exact ⟨hi.el, hi.chunks, hi.rot, hi.hwp⟩
  · intro i hi
    unfold chunksRun
    split
    · exact Safe.each _ (fun k _ j hj => safe_chunk I chunks r0 h0 w H hI hH o pair first k j hj) i hi
    · refine ⟨?_, fun j hj => by cases hj⟩
      rintro j rfl
      exact hi

include hI hR hH in
theorem safe_loop (o : Opts) (ps : List (Option Pair)) :
    ∀ (first : Bool) (i : Inst E), Keeps I chunks r0 h0 i →
      Safe (Keeps I chunks r0 h0) (loopRun w H o first ps i) := by
  induction ps with
  | nil => exact fun _ i hi => Safe.skip hi
  | cons p ps ih =>
    intro first i hi
    exact (safe_pass I chunks r0 h0 w H hI hR hH o first _ i hi).andThen fun j hj => ih false j hj

include hI hR hH in
theorem keeps_stopped (o : Opts) (beams : List Pair) (scatter : Bool)
    (size rank : Nat) (i j : Inst E) (hi : Keeps I chunks r0 h0 i)
    (h : Stopped w H o beams scatter size rank i j) : Keeps I chunks r0 h0 j := by
  have hsafe : Safe (Keeps I chunks r0 h0) (scanRun w H o beams scatter size rank i) := by
    unfold scanRun
    split
    · refine ⟨?_, fun j hj => by cases hj⟩
      rintro j rfl
      exact hi
    · exact safe_loop I chunks r0 h0 w H hI hR hH o _ true i hi
  rcases h with h | h
  · exact hsafe.1 j h
  · exact hsafe.2 j ((scan_result _ _ _ _ _ _ _ _).trans h)

include hI hR hH in
theorem keeps_after {i j : Inst E} (hi : Keeps I chunks r0 h0 i) (h : AnyScans w H i j) :
    Keeps I chunks r0 h0 j := by
  induction h with
  | start => exact hi
  | scan o beams scatter size rank _ h2 ih =>
    exact keeps_stopped I chunks r0 h0 w H hI hR hH o beams scatter size rank _ _ ih h2
  | resetting _ h2 ih => exact (safe_reset I chunks r0 h0 w H hR hH _ ih).1 _ h2
  | restart _ h2 ih =>
    obtain ⟨k, h3, h4⟩ := bind_ok h2
    cases h4
    have := keeps_reset I chunks r0 h0 w hR ih h3
    exact ⟨this.el, this.chunks, this.rot, this.hwp⟩

end

theorem each_spec (w : World E) (hq : PixOk w.q) (hns : 0 < w.nsideOut) (M : Motion)
    (G : Nat → Quat.Q) (o : Opts) (hbin : o.binning = true) (hgr : o.ground = true)
    (val : Pair → BinBeam → Nat → ℝ) (N : Nat) (mission : List Chunk) (hmi : Mission N mission)
    (r0 : Rot ℝ) (h0 : Hwp.State ℝ) (hrot : Data.RotOk r0 0) (hr0 : r0.reset = r0)
    (hh0 : h0.reset = h0) (hmv : Moves w.fsamp M r0 h0 mission) (beams : List Pair) (size : Nat)
    (hsize : 0 < size) (is : Nat → Inst E) (left : Nat → List Obs)
    (his : ∀ r, r < size → (is r).rot = r0 ∧ (is r).hwp = h0 ∧ Ground.Steady w M G mission (is r).el ∧
      (is r).chunks.map (·.1) = mission ∧
      (is r).maps = mapsOf (12 * w.nsideOut ^ 2) (left r))
    (hgood : ∀ p ∈ beams, Ground.PairGood w M G mission o (fun _ => True) p (val p)) :
    scanEach w o beams true size is = .ok (mapsOf (12 * w.nsideOut ^ 2)
      ((List.range size).flatMap left ++ beams.flatMap fun p => missionObs w M o N (val p) p)) := by
  obtain ⟨work, w1, w2, w3, -⟩ := C03_every_pair_scanned_once beams size hsize
  have hmem : ∀ l ∈ work, ∀ p ∈ l.filterMap id, p ∈ beams := by
    intro l hl p hp
    rw [← w3]
    exact List.mem_flatten.2 ⟨_, List.mem_map_of_mem hl, hp⟩
  let part : Nat → List Obs := fun r =>
    ((work[r]?).getD []).filterMap id |>.flatMap fun p => missionObs w M o N (val p) p
  have hone : ∀ r, r < size → ∃ i', scanInstrument w o beams true size r (is r) = .ok i' ∧
      i'.maps = mapsOf (12 * w.nsideOut ^ 2) (left r ++ part r) := by
    intro r hr
    have hlt : r < work.length := by omega
    have hwr := w2 r hr
    rw [List.getElem?_eq_getElem hlt] at hwr
    obtain ⟨e1, e2, ⟨P, p1, p2⟩, e4, e5⟩ := his r hr
    obtain ⟨i', g1, g2, -⟩ := Ground.loop_spec w hq hns M G o hbin hgr (fun _ => True) val N mission hmi r0 h0 hrot hr0
      hh0 hmv P p2 work[r] true (is r) (left r)
      (fun p hp => hgood p (hmem _ (List.getElem_mem hlt) p hp)) ⟨e1, e2, p1⟩ e4 trivial e5
    refine ⟨i', ?_, ?_⟩
    · unfold scanInstrument
      rw [← Option.some.inj hwr]
      exact g1
    · rw [g2]
      simp only [part, List.getElem?_eq_getElem hlt, Option.getD_some]
  have hlist : ∀ rs : List Nat, (∀ r ∈ rs, r < size) → ∃ is',
      rs.mapM (fun r => scanInstrument w o beams true size r (is r)) = Except.ok (ε := PyErr) is' ∧
      is'.map (·.maps) = (rs.map fun r => left r ++ part r).map (mapsOf (12 * w.nsideOut ^ 2)) := by
    intro rs
    induction rs with
    | nil => exact fun _ => ⟨[], rfl, rfl⟩
    | cons r rs ih =>
      intro hrs
      obtain ⟨is', e1, e2⟩ := ih fun r hr => hrs r (List.mem_cons_of_mem _ hr)
      obtain ⟨i', g1, g2⟩ := hone r (hrs r List.mem_cons_self)
      refine ⟨i' :: is', ?_, ?_⟩
      · rw [List.mapM_cons, g1, e1]
        rfl
      · simp only [List.map_cons]
        rw [e2, g2]
  obtain ⟨is', e1, e2⟩ := hlist (List.range size) fun r hr => List.mem_range.1 hr
  have hpart : ((List.range size).map part).flatten =
      beams.flatMap fun p => missionObs w M o N (val p) p := by
    have hw : work = (List.range size).map fun r => (work[r]?).getD [] := by
      apply List.ext_getElem (by simp [w1])
      intro k h1 h2
      simp [h1]
    rw [← w3]
    conv_rhs => rw [hw]
    simp only [List.flatMap_def, List.map_flatten, List.flatten_flatten, List.map_map]
    rfl
  unfold scanEach
  rw [e1]
  simp only [bind, Except.bind, pure, Except.pure]
  rw [e2, reduce_mapsOf]
  congr 1
  apply mapsOf_perm
  rw [← hpart, ← List.flatMap_def, ← List.flatMap_def]
  exact (List.flatMap_append_perm _ _ _).symm

/-! ### recovery -/

theorem restart_of {w : World E} {H : Halfway E} {S : E → Prop} {chunks : List Chunk}
    {i j : Inst E} (hst : Restores w H S chunks i.el) (hi : Ground.Ready w chunks i)
    (h : AnyScans w H i j) :
    ∃ k, restart w j = .ok k ∧ k.rot = i.rot ∧ k.hwp = i.hwp ∧ S k.el ∧
      k.chunks.map (·.1) = chunks ∧ k.maps = allocateMaps w.nsideOut := by
  obtain ⟨I, h1, h2, h3, h4, h5⟩ := hst
  have hk := keeps_after I chunks i.rot i.hwp w H h2 h3 h4 ⟨h1, hi.chunks, .refl _, .refl _⟩ h
  obtain ⟨e', g1, g2⟩ := h5 _ hk.el
  refine ⟨{ j with rot := j.rot.reset, hwp := j.hwp.reset, el := e', maps := allocateMaps w.nsideOut },
    ?_, ?_, ?_, g2, hk.chunks, rfl⟩
  · unfold restart resetAll
    rw [g1]
    rfl
  · exact hk.rot.reset.trans hi.rot
  · exact hk.hwp.reset.trans hi.hwp

/-- The generic scan. -/
theorem generic_restores (w : World (Scan.State ℝ Quat.Q)) (site : Scan.Site ℝ Quat.Q)
    (o : Scan.Opts ℝ) (prf : Nat → ℝ) (hprf : Scan.IsProfile site o prf)
    (hfs : o.fsamp ≠ 0) (hcl : 0 < o.checkLen) (hd : o.dec0 ≠ [])
    (hr : o.ra0.length = o.dec0.length) (cfg : Scan.ElCfg ℝ) (hv : cfg.Valid)
    (hw : w.implement = genericImplement site o) (hw' : w.resetEl = genericReset) (N : Nat)
    (chunks : List Chunk) (hmi : Mission N chunks)
    (hdiv : o.azThrow ≠ 0 ∨ ∀ c ∈ chunks, o.checkLen.toNat ∣ (c.stop - c.start).toNat)
    (e0 : Scan.State ℝ Quat.Q) (hfr : Scan.Fresh cfg e0.el) (hm : e0.mmap = none)
    (hf : e0.flag = none) :
    ∃ bore G : Nat → Quat.Q,
      (∀ c ∈ chunks, ∀ i : Nat, i < (c.stop - c.start).toNat → ∃ (p : ℝ × ℝ) (y : ℝ),
        Spec.Selected o.elMin (Scan.patches site o (((c.start +
            (i / o.checkLen.toNat * o.checkLen.toNat : Nat) : Int) : ℝ) / o.fsamp + o.ctime0)) p ∧
          cfg.At (c.start.toNat + i) p.2 y ∧
          bore (c.start.toNat + i) =
            site.azel2bore (prf i + p.1) y (((c.start + i : Int) : ℝ) / o.fsamp + o.ctime0) ∧
          G (c.start.toNat + i) = site.ground (prf i + p.1) y) ∧
      ∀ M : Motion, M.bore = bore → (∀ t : Nat, M.time t = t / o.fsamp + o.ctime0) →
        (∀ t, M.flag t = false) →
        (Steady w M chunks e0 ∧ ScanInstrument.Ground.Steady w M G chunks e0) ∧
        Restores w genericHalf
          (fun e => Steady w M chunks e ∧ ScanInstrument.Ground.Steady w M G chunks e) chunks e0 := by
  obtain ⟨bore, G, h1, h2⟩ := ScanInstrument.Ground.generic_steady_every w site o prf hprf hfs hcl hd hr
    cfg hv hw hw' N chunks hmi hdiv e0.el hfr
  refine ⟨bore, G, h1, fun M a b c => ⟨h2 M a b c e0 hfr hm hf, ?_⟩⟩
  refine ⟨genericHalf.implement e0, ⟨rfl, rfl, .refl _⟩, ?_, ?_, ?_, ?_⟩
  · rintro e ch g pre p e' ⟨g1, g2, g3⟩ _ hi
    rw [hw] at hi
    obtain ⟨k1, k2, k3⟩ := generic_moved hi
    exact ⟨k1.trans g1, k2.trans g2, g3.trans k3⟩
  · rintro e e' ⟨g1, g2, g3⟩ hi
    rw [hw'] at hi
    obtain ⟨el, k1, k2⟩ := bind_ok hi
    cases k2
    exact ⟨g1, g2, g3.trans (reset_moved k1)⟩
  · rintro e e' ⟨g1, g2, g3⟩ (⟨k1, k2, k3⟩ | ⟨el', k1, rfl⟩)
    · exact ⟨k1.trans g1, k2.trans g2, g3.trans k3⟩
    · exact ⟨g1, g2, g3.trans k1⟩
  · rintro e ⟨g1, g2, g3⟩
    obtain ⟨el, k1, k2⟩ := moved_reset hv hfr g3
    refine ⟨{ e with el := el }, ?_, ?_⟩
    · rw [hw']
      unfold genericReset
      rw [k1]
      rfl
    · refine h2 M a b c { e with el := el } k2 ?_ (g1.trans hf)
      rw [hm] at g2
      show e.mmap = none
      cases hmm : e.mmap with
      | none => rfl
      | some m =>
        rw [hmm] at g2
        cases g2

end Verif.Interrupted.Ground
