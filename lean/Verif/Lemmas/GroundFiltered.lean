import Verif.Lemmas.ScanFiltered
import Verif.Lemmas.GroundScan

/-! # Lemmas: a whole scan with filters and a ground template -/

noncomputable section

namespace Verif.ScanFiltered.Ground

open Verif.Chunks Verif.Timeline Verif.Spinmaps Verif.MapMaking Verif.Filters Verif.Spec Verif.Props

open Verif.ScanInstrument hiding ScansAs Gives Same PairGood pairGood_none PointsAt Points Steady
  Ready ready_rot

open Verif.ScanInstrument.Ground (ScansAs Gives Same ground_sub GroundAt PairGood pairGood_none
  PointsAt Points Steady Ready ready_rot)

variable {E : Type}

theorem scanBinOne_spec (w : World E) (hq : PixOk w.q) (hns : 0 < w.nsideOut) (M : Motion)
    (mission : List Chunk) (o : Opts) (hbin : o.binning = true) (f : FilterOpts)
    (flag : Option (List Bool))
    (p : Pair) (s : Sub) (st : State) (t0 i n : Nat) (h : At M mission s st flag t0 i n)
    (bad : Bool) (hg : Works f n bad) (win : Nat → Nat × Nat) (hw : Covers win t0 n)
    (val : BinBeam → Nat → ℝ) (hval : ScansAs w mission o p s st t0 n val) (b : BinBeam)
    (hb : live p.1 = some b ∨ live p.2 = some b) (t : Option (List ℝ)) (os : List Obs)
    (nan : Bool) :
    ∃ t', scanBinOne w mission o f flag s true b { st with tod := t }
        ⟨mapsOf (12 * w.nsideOut ^ 2) os, nan⟩ =
      .ok ({ st with tod := t' }, ⟨mapsOf (12 * w.nsideOut ^ 2) (os ++
        ((List.range n).filter fun k => !M.flag (t0 + k)).map fun k =>
          obsAt M w.x w.q w.varphi w.nsideOut b (t0 + k) (after f win (val b) (t0 + k))), nan || bad⟩) := by
  unfold scanBinOne
  rw [hval b hb t]
  simp only [bind, Except.bind, todOfState]
  rw [binOne_spec w hq hns M mission o hbin f flag b s _ t0 i n (h.tod _) bad hg _ (by simp) os]
  refine ⟨some (filt f ((List.range n).map fun k => val b (t0 + k))), ?_⟩
  simp only [pure, Except.pure]
  congr 5
  apply List.map_congr_left
  intro k hk
  have hk := List.mem_range.1 (List.mem_filter.1 hk).1
  rw [after_eq hw _ hk]

theorem scanMix_spec (w : World E) (hq : PixOk w.q) (hns : 0 < w.nsideOut) (M : Motion)
    (mission : List Chunk) (o : Opts) (hbin : o.binning = true) (f : FilterOpts)
    (flag : Option (List Bool))
    (p : Pair) (s : Sub) (st : State) (t0 i n : Nat) (h : At M mission s st flag t0 i n)
    (bad : Bool) (hg : Works f n bad) (win : Nat → Nat × Nat) (hw : Covers win t0 n)
    (val : BinBeam → Nat → ℝ) (hval : ScansAs w mission o p s st t0 n val) (a b : BinBeam)
    (ha : live p.1 = some a) (hb : live p.2 = some b) (t : Option (List ℝ)) (os : List Obs)
    (nan : Bool) :
    ∃ t', scanMix w mission o f flag s true a b { st with tod := t }
        ⟨mapsOf (12 * w.nsideOut ^ 2) os, nan⟩ =
      .ok ({ st with tod := t' }, ⟨mapsOf (12 * w.nsideOut ^ 2) (os ++
        (((List.range n).filter fun k => !M.flag (t0 + k)).map fun k =>
          obsAt M w.x w.q w.varphi w.nsideOut a (t0 + k)
            (after f win (val a) (t0 + k) + o.ctalk * after f win (val b) (t0 + k))) ++
        ((List.range n).filter fun k => !M.flag (t0 + k)).map fun k =>
          obsAt M w.x w.q w.varphi w.nsideOut b (t0 + k)
            (after f win (val b) (t0 + k) + o.ctalk * after f win (val a) (t0 + k))), nan || bad⟩) := by
  unfold scanMix
  rw [hval a (.inl ha) t]
  simp only [bind, Except.bind, todOfState]
  rw [hval b (.inr hb) _]
  dsimp only
  rw [crossTalk_lists _ _ (by simp)]
  dsimp only
  rw [binOne_spec w hq hns M mission o hbin f flag a s _ t0 i n (h.tod _) bad hg _ (by simp) os]
  dsimp only
  rw [binOne_spec w hq hns M mission o hbin f flag b s _ t0 i n (h.tod _) bad hg _ (by simp) _]
  rw [Bool.or_assoc, Bool.or_self]
  refine ⟨some (filt f (List.zipWith (fun u v => u + o.ctalk * v)
    ((List.range n).map fun k => val b (t0 + k)) ((List.range n).map fun k => val a (t0 + k)))), ?_⟩
  simp only [pure, Except.pure]
  congr 5
  · congr 1
    apply List.map_congr_left
    intro k hk
    have hk := List.mem_range.1 (List.mem_filter.1 hk).1
    rw [mix_at hg hw _ _ _ hk]
  · apply List.map_congr_left
    intro k hk
    have hk := List.mem_range.1 (List.mem_filter.1 hk).1
    rw [mix_at hg hw _ _ _ hk]

theorem scanPair_spec (w : World E) (hq : PixOk w.q) (hns : 0 < w.nsideOut) (M : Motion)
    (mission : List Chunk) (o : Opts) (hbin : o.binning = true) (f : FilterOpts)
    (flag : Option (List Bool))
    (p : Pair) (s : Sub) (st : State) (t0 i n : Nat) (h : At M mission s st flag t0 i n)
    (bad : Bool) (hg : Works f n bad) (win : Nat → Nat × Nat) (hw : Covers win t0 n)
    (val : BinBeam → Nat → ℝ) (hval : ScansAs w mission o p s st t0 n val) (os : List Obs)
    (nan : Bool) :
    ∃ t', scanPair w mission o f flag p s true st ⟨mapsOf (12 * w.nsideOut ^ 2) os, nan⟩ =
      .ok ({ st with tod := t' }, ⟨mapsOf (12 * w.nsideOut ^ 2) (os ++
        (List.range n).flatMap fun k => pairObs M w.x w.q w.varphi w.nsideOut o.ctalk
          (fun b => after f win (val b)) p (t0 + k)), nan || (bad && alive p)⟩) := by
  have hst : st = { st with tod := st.tod } := rfl
  unfold scanPair
  rcases ha : live p.1 with _ | a <;> rcases hb : live p.2 with _ | b <;> dsimp only
  · refine ⟨st.tod, ?_⟩
    have : (List.range n).flatMap (fun k => pairObs M w.x w.q w.varphi w.nsideOut o.ctalk
        (fun b => after f win (val b)) p (t0 + k)) = [] := by
      rw [List.flatMap_eq_nil_iff]
      intro k _
      unfold pairObs
      rw [ha, hb]
      simp
    rw [this, List.append_nil]
    simp [alive, ha, hb]
  · obtain ⟨t', e⟩ := scanBinOne_spec w hq hns M mission o hbin f flag p s st t0 i n h bad hg win hw val
      hval b (.inr hb) st.tod os nan
    refine ⟨t', ?_⟩
    rw [hst, e, one_list]
    unfold pairObs
    rw [ha, hb]
    simp [alive, ha, hb]
  · obtain ⟨t', e⟩ := scanBinOne_spec w hq hns M mission o hbin f flag p s st t0 i n h bad hg win hw val
      hval a (.inl ha) st.tod os nan
    refine ⟨t', ?_⟩
    rw [hst, e, one_list]
    unfold pairObs
    rw [ha, hb]
    simp [alive, ha, hb]
  · by_cases hc : o.ctalk = 0
    · rw [if_neg (by simp [hc])]
      obtain ⟨t', e⟩ := scanBinOne_spec w hq hns M mission o hbin f flag p s st t0 i n h bad hg win hw
        val hval a (.inl ha) st.tod os nan
      obtain ⟨t'', e'⟩ := scanBinOne_spec w hq hns M mission o hbin f flag p s st t0 i n h bad hg win hw
        val hval b (.inr hb) t' (os ++ ((List.range n).filter fun k => !M.flag (t0 + k)).map fun k =>
          obsAt M w.x w.q w.varphi w.nsideOut a (t0 + k) (after f win (val a) (t0 + k))) (nan || bad)
      refine ⟨t'', ?_⟩
      rw [hst, e]
      simp only [bind, Except.bind]
      rw [e', Bool.or_assoc, Bool.or_self, show alive p = true by simp [alive, ha], Bool.and_true]
      congr 3
      apply mapsOf_perm
      rw [List.append_assoc]
      apply List.Perm.append_left
      refine (two_lists _ _ _ _).trans (List.Perm.of_eq ?_)
      unfold pairObs
      rw [ha, hb, hc]
      simp
    · rw [if_pos hc]
      obtain ⟨t', e⟩ := scanMix_spec w hq hns M mission o hbin f flag p s st t0 i n h bad hg win hw val
        hval a b ha hb st.tod os nan
      refine ⟨t', ?_⟩
      rw [hst, e, show alive p = true by simp [alive, ha], Bool.and_true]
      congr 3
      apply mapsOf_perm
      rw [List.append_assoc]
      apply List.Perm.append_left
      refine (two_lists _ _ _ _).trans (List.Perm.of_eq ?_)
      unfold pairObs
      rw [ha, hb]
      simp

theorem stepSub_spec (w : World E) (hq : PixOk w.q) (hns : 0 < w.nsideOut) (M : Motion)
    (G : Nat → Quat.Q)
    (o : Opts) (hbin : o.binning = true) (p : Pair) (Q : Spinmaps SpinDict → Prop)
    (val : BinBeam → Nat → ℝ) (f : Wanted) (fo : FilterOpts) (win : Nat → Nat × Nat)
    (c : Chunk) (cidx : Int) (i : FInst E)
    (hc : pyGet (i.inst.chunks.map (·.1)) cidx = .ok c) (h0 : 0 ≤ c.start) (pt : Pointing)
    (hpt : PointsAt M G c pt) (hval : Gives w M G (i.inst.chunks.map (·.1)) o p Q val) (s : Chunk)
    (hcx : s.cidx = some cidx) (r1 : Rot ℝ) (h1 : Hwp.State ℝ) (ang : Hwp.Ang ℝ)
    (e1 : rotStep i.inst.rot s = .ok r1)
    (e2 : Hwp.rotateHwp Real.pi w.fsamp i.inst.hwp (s.hwpang.map fun (a : ℚ) => (a : ℝ)) s.start s.stop =
        .ok (some ang, h1))
    (e3 : ∀ t : Nat, s.start ≤ t → (t : Int) < s.stop →
        M.rot t = r1.angle ∧ M.alpha t = angAt ang (t - s.start.toNat))
    (ha : c.start ≤ s.start) (hlt : s.start < s.stop) (hb : s.stop ≤ c.stop)
    (hfl : i.inst.flag = pt.flag) (hct : i.inst.st.ctime = pt.ctime) (hqb : i.inst.st.qBore = pt.bore)
    (hqg : i.inst.st.qGround = pt.ground)
    (hw : Covers win s.start.toNat (s.stop - s.start).toNat)
    (bad : Bool) (hg : Works fo (s.stop - s.start).toNat bad) (hfo : optsOf w f i.inst.hwp = fo)
    (hQ : Q i.inst.st.maps) (os : List Obs) (hm : i.inst.maps = mapsOf (12 * w.nsideOut ^ 2) os) :
    ∃ i', stepSub w o f p true s i = .ok i' ∧ i'.inst.rot = r1 ∧ i'.inst.hwp = h1 ∧ Same i.inst i'.inst ∧ i'.nan = (i.nan || (bad && alive p)) ∧
      i'.inst.maps = mapsOf (12 * w.nsideOut ^ 2) (os ++
          (List.range' s.start.toNat (s.stop - s.start).toNat).flatMap
            (pairObs M w.x w.q w.varphi w.nsideOut o.ctalk (fun b => after fo win (val b)) p)) := by
  have hA := at_sub M _ c cidx hc h0 pt hpt.sky w.fsamp s i.inst.hwp h1 _ ang r1.angle e2 e3 ha hlt hb
    { i.inst.st with rotAngle := r1.angle, hwpAng := newAng (some ang) i.inst.st.hwpAng } hct hqb rfl rfl
  have hG := ground_sub M G _ c cidx hc h0 pt hpt w.fsamp s i.inst.hwp h1 _ ang e2 ha hlt hb
    { i.inst.st with rotAngle := r1.angle, hwpAng := newAng (some ang) i.inst.st.hwpAng } hct hqg rfl
  obtain ⟨t', hs⟩ := scanPair_spec w hq hns M _ o hbin fo pt.flag p
    ⟨s.start, s.stop, cidx⟩ _ s.start.toNat _ _ hA bad hg win hw val (hval _ _ _ _ _ _ hA hG hQ) os i.nan
  unfold stepSub
  rw [e1]
  simp only [bind, Except.bind]
  rw [e2]
  dsimp only
  unfold cidxOf
  rw [hcx]
  dsimp only
  rw [hm, hfl, ← optsOf_reset w f (rotate_reset _ _ _ _ _ _ _ _ e2).symm, hfo, hs]
  dsimp only
  rw [range'_flatMap]
  exact ⟨_, rfl, rfl, rfl, ⟨rfl, hfl.symm, rfl, rfl, rfl, rfl, rfl, rfl⟩, rfl, rfl⟩

theorem subs_fold (w : World E) (hq : PixOk w.q) (hns : 0 < w.nsideOut) (M : Motion)
    (G : Nat → Quat.Q)
    (o : Opts) (hbin : o.binning = true) (p : Pair) (Q : Spinmaps SpinDict → Prop)
    (val : BinBeam → Nat → ℝ) (f : Wanted) (fo : FilterOpts) (win : Nat → Nat × Nat) (bad : Bool)
    (chunks : List (Chunk × Bool)) (c : Chunk) (cidx : Int)
    (hc : pyGet (chunks.map (·.1)) cidx = .ok c) (h0 : 0 ≤ c.start) (pt : Pointing)
    (hpt : PointsAt M G c pt) (hval : Gives w M G (chunks.map (·.1)) o p Q val) (subs : List Chunk) :
    ∀ (a : Int) (i : FInst E) (r' : Rot ℝ) (h' : Hwp.State ℝ) (os : List Obs),
      c.start ≤ a → Tiles a c.stop (subs.map Chunk.ivl) → (∀ s ∈ subs, s.cidx = some cidx) →
      (∀ s ∈ subs, Covers win s.start.toNat (s.stop - s.start).toNat ∧
        Works fo (s.stop - s.start).toNat bad) → optsOf w f i.inst.hwp = fo →
      Turns w.fsamp M i.inst.rot i.inst.hwp subs r' h' → i.inst.chunks = chunks → i.inst.flag = pt.flag →
      i.inst.st.ctime = pt.ctime → i.inst.st.qBore = pt.bore → i.inst.st.qGround = pt.ground → Q i.inst.st.maps →
      i.inst.maps = mapsOf (12 * w.nsideOut ^ 2) os →
      ∃ i', subs.foldlM (fun i s => stepSub w o f p true s i) i = .ok i' ∧ i'.inst.rot = r' ∧
        i'.inst.hwp = h' ∧ Same i.inst i'.inst ∧ i'.nan = (i.nan || (bad && alive p && !subs.isEmpty)) ∧
        i'.inst.maps = mapsOf (12 * w.nsideOut ^ 2) (os ++
          (List.range' a.toNat (c.stop - a).toNat).flatMap
            (pairObs M w.x w.q w.varphi w.nsideOut o.ctalk (fun b => after fo win (val b)) p)) := by
  induction subs with
  | nil =>
    intro a i r' h' os ha ht _ _ _ htu hch hfl hct hqb hqg hQ hm
    obtain ⟨rfl, rfl⟩ := htu
    simp only [List.map_nil] at ht
    cases ht
    refine ⟨i, rfl, rfl, rfl, ⟨rfl, rfl, rfl, rfl, rfl, rfl, rfl, rfl⟩, by simp, ?_⟩
    simp [hm]
  | cons s subs ih =>
    intro a i r' h' os ha ht hcx hcv hfo htu hch hfl hct hqb hqg hQ hm
    simp only [List.map_cons] at ht
    generalize hiv : Chunk.ivl s = iv at ht
    cases ht with
    | cons hlt ht =>
    simp only [Chunk.ivl, Prod.mk.injEq] at hiv
    obtain ⟨rfl, rfl⟩ := hiv
    obtain ⟨r1, ang, h1, e1, e2, e3, e4⟩ := htu
    have hb : s.stop ≤ c.stop := tiles_le ht
    subst hch
    obtain ⟨i1, g1, g2, g3, g4, g6, g5⟩ := stepSub_spec w hq hns M G o hbin p Q val f fo win c cidx i hc h0 pt hpt
      hval s (hcx s List.mem_cons_self) r1 h1 ang e1 e2 e3 ha hlt hb hfl hct hqb hqg
      (hcv s List.mem_cons_self).1 bad (hcv s List.mem_cons_self).2 hfo hQ os hm
    obtain ⟨i2, k1, k2, k3, k4, k6, k5⟩ := ih s.stop i1 r' h' _ (by omega) ht
      (fun s hs => hcx s (List.mem_cons_of_mem _ hs))
      (fun s hs => hcv s (List.mem_cons_of_mem _ hs))
      (by rw [g3, ← hfo]; exact optsOf_reset w f (rotate_reset _ _ _ _ _ _ _ _ e2)) (by rw [g2, g3]; exact e4) g4.chunks
      (g4.flag.trans hfl) (g4.ctime.trans hct) (g4.qBore.trans hqb) (g4.qGround.trans hqg) (by rw [g4.spin]; exact hQ) g5
    refine ⟨i2, ?_, k2, k3, g4.trans k4, by rw [k6, g6]; exact or_more _ _ _, ?_⟩
    · rw [List.foldlM_cons, g1]
      exact k1
    · rw [k5, List.append_assoc, ← List.flatMap_append]
      congr 3
      have e5 : (c.stop - s.start).toNat = (s.stop - s.start).toNat + (c.stop - s.stop).toNat := by
        omega
      have e6 : s.stop.toNat = s.start.toNat + (s.stop - s.start).toNat := by omega
      rw [e5, e6, List.range'_append_1]

theorem chunk_step (w : World E) (hq : PixOk w.q) (hns : 0 < w.nsideOut) (M : Motion)
    (G : Nat → Quat.Q)
    (o : Opts) (hbin : o.binning = true) (hgr : o.ground = true) (p : Pair)
    (Q : Spinmaps SpinDict → Prop) (val : BinBeam → Nat → ℝ) (N : Nat) (mission : List Chunk)
    (hmi : Mission N mission) (f : Wanted) (fo : FilterOpts) (r0 : Rot ℝ) (bad : Bool)
    (hval : Gives w M G mission o p Q val) (first : Bool) (k : Nat) (c : Chunk)
    (hk : mission[k]? = some c) (hcx : c.cidx = some (k : Int)) (h0 : 0 ≤ c.start)
    (hlt : c.start < c.stop) (i : FInst E) (hch : i.inst.chunks.map (·.1) = mission)
    (hr : Data.RotOk i.inst.rot c.start) (pt : Pointing) (el : E)
    (himp : w.implement i.inst.el c true (!first) = .ok (pt, el)) (hpt : PointsAt M G c pt)
    (subs : List Chunk) (r1 r2 : Rot ℝ) (h2 : Hwp.State ℝ)
    (hsub : subpartChunk i.inst.rot c = .ok (subs, r1)) (htu : Turns w.fsamp M r1 i.inst.hwp subs r2 h2)
    (hr0 : i.inst.rot.reset = r0.reset) (hfo : optsOf w f i.inst.hwp = fo)
    (hG : ∀ t, t < N → Works fo (stretch r0 mission t).2 bad)
    (hQ : Q i.inst.st.maps) (os : List Obs) (hm : i.inst.maps = mapsOf (12 * w.nsideOut ^ 2) os) :
    ∃ i', stepChunk w o f p first i k = .ok i' ∧ i'.inst.rot = r2 ∧ i'.inst.hwp = h2 ∧ i'.inst.el = el ∧
      Data.RotOk i'.inst.rot c.stop ∧ i'.inst.rot.reset = i.inst.rot.reset ∧ i'.inst.hwp.reset = i.inst.hwp.reset ∧
      i'.inst.chunks.map (·.1) = mission ∧ i'.inst.st.maps = i.inst.st.maps ∧ i'.nan = (i.nan || (bad && alive p)) ∧
      i'.inst.maps = mapsOf (12 * w.nsideOut ^ 2) (os ++
        (List.range' c.start.toNat (c.stop - c.start).toNat).flatMap
            (pairObs M w.x w.q w.varphi w.nsideOut o.ctalk (fun b => after fo (stretch r0 mission) (val b)) p)) := by
  obtain ⟨a1, a2, a3, a4⟩ := subpart_full i.inst.rot c hr hlt subs r1 hsub
  obtain ⟨b1, b2⟩ := turns_reset subs htu
  have hget' : pyGet mission (k : Int) = .ok c := by
    unfold pyGet
    rw [if_neg (show ¬ (k : Int) < 0 by omega)]
    simp [hk]
  obtain ⟨g, hget⟩ : ∃ g, pyGet i.inst.chunks (k : Int) = .ok (c, g) := by
    have hk' : (i.inst.chunks.map (·.1))[k]? = some c := by rw [hch]; exact hk
    rw [List.getElem?_map] at hk'
    obtain ⟨⟨c', g⟩, e1, rfl⟩ := Option.map_eq_some_iff.1 hk'
    refine ⟨g, ?_⟩
    unfold pyGet
    rw [if_neg (show ¬ (k : Int) < 0 by omega)]
    simp [e1]
  have hset : ∀ b : Bool, (i.inst.chunks.set k (c, b)).map (·.1) = mission := by
    intro b
    rw [List.map_set, hch]
    apply List.ext_getElem?
    intro j
    rw [List.getElem?_set]
    split
    · rename_i h
      subst h
      have := (List.getElem?_eq_some_iff.1 hk).1
      rw [if_pos this, hk]
    · rfl
  generalize hcs : (if i.inst.rot.period = false then i.inst.chunks.set k (c, true)
    else i.inst.chunks) = cs
  have hcs' : cs.map (·.1) = mission := by
    rw [← hcs]
    split
    · exact hset true
    · exact hch
  have hcm : c ∈ mission := List.mem_of_getElem? hk
  have hcov : ∀ s ∈ subs, Covers (stretch r0 mission) s.start.toNat (s.stop - s.start).toNat ∧
      Works fo (s.stop - s.start).toNat bad := by
    intro s hs
    have hc := stretch_sub hmi hcm h0 hlt hr0 hr hsub hs
    refine ⟨hc, ?_⟩
    have b4 := tiles_mem a3 s.ivl (List.mem_map_of_mem hs)
    have b5 := tiles_mem hmi.tiles c.ivl (List.mem_map_of_mem hcm)
    simp only [Chunk.ivl] at b4 b5
    have b6 := hG s.start.toNat (by omega)
    have b7 := hc 0 (by omega)
    rw [Nat.add_zero] at b7
    rw [b7] at b6
    exact b6
  obtain ⟨i', g1, g2, g3, g4, g6, g5⟩ := subs_fold w hq hns M G o hbin p Q val f fo
    (stretch r0 mission) bad
    cs c k (by rw [hcs']; exact hget') h0 pt hpt (by rw [hcs']; exact hval) subs c.start
    ⟨{ i.inst with rot := r1, el := el,
                   st := { i.inst.st with ctime := pt.ctime, qBore := pt.bore, qGround := pt.ground },
                   flag := pt.flag, chunks := cs }, i.nan⟩ r2 h2 os le_rfl a3 (fun s hs => (a4 s hs).trans hcx)
    hcov hfo htu rfl rfl rfl rfl
    rfl hQ hm
  refine ⟨i', ?_, g2, g3, g4.el, ?_, ?_, ?_, by rw [g4.chunks]; exact hcs', g4.spin, ?_, g5⟩
  · unfold stepChunk
    rw [hget]
    simp only [bind, Except.bind]
    simp only [hgr, Bool.or_true, true_and, ite_self]
    rw [himp]
    dsimp only
    rw [hsub]
    dsimp only
    rw [hcs]
    exact g1
  · rw [g2]
    exact Data.rotOk_congr b1 a1
  · rw [g2, b1.2.2.2, a2]
  · rw [g3, b2]
  · rw [g6]
    cases subs with
    | nil =>
      simp only [List.map_nil] at a3
      have := tiles_nil a3
      omega
    | cons s subs => simp

theorem chunks_fold (w : World E) (hq : PixOk w.q) (hns : 0 < w.nsideOut) (M : Motion)
    (G : Nat → Quat.Q)
    (o : Opts) (hbin : o.binning = true) (hgr : o.ground = true) (p : Pair)
    (Q : Spinmaps SpinDict → Prop) (val : BinBeam → Nat → ℝ) (mission : List Chunk)
    (hval : Gives w M G mission o p Q val) (first : Bool) (N : Nat)
    (hmi : Mission N mission) (f : Wanted) (fo : FilterOpts) (r0 : Rot ℝ) (bad : Bool)
    (hG : ∀ t, t < N → Works fo (stretch r0 mission t).2 bad)
    (cs : List Chunk) : ∀ (k : Nat) (a : Int) (i : FInst E) (e' : E) (os : List Obs),
      mission.drop k = cs → 0 ≤ a → Tiles a N (cs.map Chunk.ivl) → Data.RotOk i.inst.rot a →
      Points w M G (!first) i.inst.el cs e' → Moves w.fsamp M i.inst.rot i.inst.hwp cs →
      i.inst.chunks.map (·.1) = mission → i.inst.rot.reset = r0.reset →
      optsOf w f i.inst.hwp = fo → Q i.inst.st.maps →
      i.inst.maps = mapsOf (12 * w.nsideOut ^ 2) os →
      ∃ i', (List.range' k cs.length).foldlM (stepChunk w o f p first) i = .ok i' ∧ i'.inst.el = e' ∧
        i'.inst.rot.reset = i.inst.rot.reset ∧ i'.inst.hwp.reset = i.inst.hwp.reset ∧
        i'.inst.chunks.map (·.1) = mission ∧ i'.inst.st.maps = i.inst.st.maps ∧ i'.nan = (i.nan || (bad && alive p && !cs.isEmpty)) ∧
        i'.inst.maps = mapsOf (12 * w.nsideOut ^ 2) (os ++
          (List.range' a.toNat (N - a).toNat).flatMap
            (pairObs M w.x w.q w.varphi w.nsideOut o.ctalk (fun b => after fo (stretch r0 mission) (val b)) p)) := by
  induction cs with
  | nil =>
    intro k a i e' os hd h0 ht hr hp hmv hch hr0 hfo hQ hm
    simp only [List.map_nil] at ht
    cases ht
    refine ⟨i, rfl, hp.symm, rfl, rfl, hch, rfl, by simp, ?_⟩
    simp [hm]
  | cons c cs ih =>
    intro k a i e' os hd h0 ht hr hp hmv hch hr0 hfo hQ hm
    simp only [List.map_cons] at ht
    generalize hiv : Chunk.ivl c = iv at ht
    cases ht with
    | cons hlt ht =>
    simp only [Chunk.ivl, Prod.mk.injEq] at hiv
    obtain ⟨rfl, rfl⟩ := hiv
    obtain ⟨pt, e1, q1, q2, q3⟩ := hp
    obtain ⟨subs, r1, r2, h2, m1, m2, m3⟩ := hmv
    have hk : mission[k]? = some c := by
      have := congrArg (·[0]?) hd
      simpa using this
    obtain ⟨i1, g1, g2, g3, g4, g5, g6, g7, g8, g9, g11, g10⟩ := chunk_step w hq hns M G o hbin hgr p Q val
      N mission hmi f fo r0 bad hval first k c hk (hmi.numbered k c hk) h0 hlt i hch hr pt e1 q1 q2 subs r1
      r2 h2 m1 m2 hr0 hfo hG hQ os hm
    have hd' : mission.drop (k + 1) = cs := by
      rw [← List.drop_drop, hd]
      rfl
    have hN : c.stop ≤ N := tiles_le ht
    obtain ⟨i2, k1, k2, k3, k4, k5, k6, k8, k7⟩ := ih (k + 1) c.stop i1 e' _ hd' (by omega) ht g5
      (by rw [g4]; exact q3) (by rw [g2, g3]; exact m3) g8 (g6.trans hr0)
      (by rw [← hfo]; exact optsOf_reset w f g7) (by rw [g9]; exact hQ) g10
    refine ⟨i2, ?_, k2, k3.trans g6, k4.trans g7, k5, k6.trans g9, by rw [k8, g11]; exact or_more _ _ _, ?_⟩
    · rw [List.length_cons, List.range'_succ, List.foldlM_cons, g1]
      exact k1
    · rw [k7, List.append_assoc, ← List.flatMap_append]
      congr 3
      have e5 : ((N : Int) - c.start).toNat = (c.stop - c.start).toNat + ((N : Int) - c.stop).toNat := by
        omega
      have e6 : c.stop.toNat = c.start.toNat + (c.stop - c.start).toNat := by omega
      rw [e5, e6, List.range'_append_1]

theorem pass_spec (w : World E) (hq : PixOk w.q) (hns : 0 < w.nsideOut) (M : Motion)
    (G : Nat → Quat.Q)
    (o : Opts) (hbin : o.binning = true) (hgr : o.ground = true) (p : Pair)
    (R : Spinmaps SpinDict → Prop) (val : BinBeam → Nat → ℝ) (N : Nat) (mission : List Chunk) (hmi : Mission N mission)
    (hgood : PairGood w M G mission o R p val) (first : Bool) (i : FInst E) (r0 : Rot ℝ)
    (h0 : Hwp.State ℝ) (e0 e' : E) (f : Wanted)
    (bad : Bool)
    (hG : ∀ t, t < N → Works (optsOf w f h0) (stretch r0 mission t).2 bad)
    (hstart : if first then i.inst.rot = r0 ∧ i.inst.hwp = h0 ∧ i.inst.el = e0
      else i.inst.rot.reset = r0 ∧ i.inst.hwp.reset = h0 ∧ w.resetEl i.inst.el = .ok e0)
    (hr : Data.RotOk r0 0) (hp : Points w M G (!first) e0 mission e')
    (hmv : Moves w.fsamp M r0 h0 mission)
    (hch : i.inst.chunks.map (·.1) = mission) (hR : R i.inst.st.maps) (os : List Obs)
    (hm : i.inst.maps = mapsOf (12 * w.nsideOut ^ 2) os) :
    ∃ i', scanPass w o f first p i = .ok i' ∧ i'.inst.rot.reset = r0.reset ∧ i'.inst.hwp.reset = h0.reset ∧
      i'.inst.el = e' ∧ i'.inst.chunks.map (·.1) = mission ∧ R i'.inst.st.maps ∧
      i'.inst.maps = mapsOf (12 * w.nsideOut ^ 2) (os ++ missionObs w M o N (fun b => after (optsOf w f h0) (stretch r0 mission) (val b)) p) ∧
      i'.nan = (i.nan || (bad && alive p && !mission.isEmpty)) := by
  obtain ⟨Q, hQ, hinit⟩ := hgood
  have hstart' : ∃ i1, (if first then .ok i.inst else resetAll w i.inst) = Except.ok (ε := PyErr) i1 ∧
      i1.rot = r0 ∧ i1.hwp = h0 ∧ i1.el = e0 ∧ i1.chunks = i.inst.chunks ∧ i1.maps = i.inst.maps ∧
      i1.st.maps = i.inst.st.maps := by
    cases first with
    | true =>
      obtain ⟨a, b, c⟩ := hstart
      exact ⟨i.inst, rfl, a, b, c, rfl, rfl, rfl⟩
    | false =>
      obtain ⟨a, b, c⟩ := hstart
      refine ⟨{ i.inst with rot := i.inst.rot.reset, hwp := i.inst.hwp.reset, el := e0 }, ?_, a, b, rfl, rfl, rfl,
        rfl⟩
      rw [if_neg (by simp)]
      unfold resetAll
      rw [c]
      rfl
  obtain ⟨i1, f1, f2, f3, f4, f5, f6, f9⟩ := hstart'
  obtain ⟨sm, b, f7, f8, f10⟩ := hinit i1 (by rw [f9]; exact hR)
  obtain ⟨i', k1, k2, k3, k4, k5, k6, k8, k7⟩ := chunks_fold w hq hns M G o hbin hgr p Q val mission hQ
    first N hmi f (optsOf w f h0) r0 bad hG mission 0 0 ⟨{ i1 with st := { i1.st with maps := sm }, hasMaps := b }, i.nan⟩ e' os
    rfl le_rfl hmi.tiles (by rw [f2]; exact hr) (by rw [f4]; exact hp)
    (by rw [f2, f3]; exact hmv) (by rw [f5]; exact hch) (by rw [f2]) (by rw [f3]) f8 (f6.trans hm)
  refine ⟨i', ?_, ?_, ?_, k2, k5, by rw [k6]; exact f10, ?_, k8⟩
  · have hb : scanPass w o f first p i = (if first then .ok i.inst else resetAll w i.inst).bind fun j =>
        (initPair w o p j).bind fun j =>
          if j.chunks.all fun c => c.1.cidx.isSome then
            (List.range j.chunks.length).foldlM (stepChunk w o f p first) ⟨j, i.nan⟩
          else .error .keyError := by
      unfold scanPass
      cases first <;> rfl
    rw [hb, f1]
    simp only [Except.bind]
    rw [f7]
    dsimp only
    rw [if_pos]
    · have hl : i1.chunks.length = mission.length := by rw [f5, ← hch, List.length_map]
      rw [hl, List.range_eq_range']
      exact k1
    · rw [f5, List.all_eq_true]
      intro x hx
      have hc : x.1 ∈ mission := by
        rw [← hch]
        exact List.mem_map_of_mem hx
      obtain ⟨j, hj, e⟩ := List.getElem_of_mem hc
      rw [hmi.numbered j _ (by rw [List.getElem?_eq_getElem hj, e])]
      rfl
  · rw [k3, ← f2]
  · rw [k4, ← f3]
  · rw [k7]
    unfold missionObs
    rw [List.range_eq_range']
    rfl

theorem loop_spec (w : World E) (hq : PixOk w.q) (hns : 0 < w.nsideOut) (M : Motion)
    (G : Nat → Quat.Q)
    (o : Opts) (hbin : o.binning = true) (hgr : o.ground = true)
    (R : Spinmaps SpinDict → Prop) (val : Pair → BinBeam → Nat → ℝ) (N : Nat) (mission : List Chunk) (hmi : Mission N mission)
    (r0 : Rot ℝ) (h0 : Hwp.State ℝ) (hr : Data.RotOk r0 0) (hr0 : r0.reset = r0)
    (hh0 : h0.reset = h0) (hmv : Moves w.fsamp M r0 h0 mission) (f : Wanted)
    (bad : Bool)
    (hG : ∀ t, t < N → Works (optsOf w f h0) (stretch r0 mission t).2 bad) (P : Bool → E → Prop)
    (hst : ∀ first e, P first e →
      ∃ e', Points w M G (!first) e mission e' ∧ ∃ e'', w.resetEl e' = .ok e'' ∧ P false e'')
    (ps : List (Option Pair)) : ∀ (first : Bool) (i : FInst E) (os : List Obs),
      (∀ p ∈ ps.filterMap id, PairGood w M G mission o R p (val p)) →
      (if first then i.inst.rot = r0 ∧ i.inst.hwp = h0 ∧ P true i.inst.el
        else i.inst.rot.reset = r0 ∧ i.inst.hwp.reset = h0 ∧ ∃ e, w.resetEl i.inst.el = .ok e ∧ P false e) →
      i.inst.chunks.map (·.1) = mission → R i.inst.st.maps →
      i.inst.maps = mapsOf (12 * w.nsideOut ^ 2) os →
      ∃ i', scanLoop w o f first ps i = .ok i' ∧ i'.inst.maps = mapsOf (12 * w.nsideOut ^ 2) (os ++
        (ps.filterMap id).flatMap fun p => missionObs w M o N
          (fun b => after (optsOf w f h0) (stretch r0 mission) (val p b)) p) ∧
        i'.nan = (i.nan || (bad && (ps.filterMap id).any alive && !mission.isEmpty)) ∧
        i'.inst.chunks.map (·.1) = mission ∧
        (ps ≠ [] ∨ first = false → i'.inst.rot.reset = r0 ∧ i'.inst.hwp.reset = h0 ∧
          ∃ e, w.resetEl i'.inst.el = .ok e ∧ P false e) := by
  induction ps with
  | nil =>
    intro first i os _ hs hch hR hm
    refine ⟨i, rfl, by simpa using hm, by simp, hch, ?_⟩
    rintro (h | rfl)
    · exact (h rfl).elim
    · exact hs
  | cons p ps ih =>
    intro first i os hgood hstart hch hR hm
    have hone : ∃ e0, (if first then i.inst.rot = r0 ∧ i.inst.hwp = h0 ∧ i.inst.el = e0
        else i.inst.rot.reset = r0 ∧ i.inst.hwp.reset = h0 ∧ w.resetEl i.inst.el = .ok e0) ∧ P first e0 := by
      cases first with
      | true =>
        obtain ⟨a, b, c⟩ := hstart
        exact ⟨i.inst.el, ⟨a, b, rfl⟩, c⟩
      | false =>
        obtain ⟨a, b, e, c, d⟩ := hstart
        exact ⟨e, ⟨a, b, c⟩, d⟩
    obtain ⟨e0, hs0, hP⟩ := hone
    obtain ⟨e', q1, e'', q2, q3⟩ := hst first e0 hP
    have hg : PairGood w M G mission o R (p.getD (none, none)) (val (p.getD (none, none))) := by
      cases p with
      | none => exact pairGood_none _ _ _ _ _ _ _
      | some p => exact hgood p (by simp)
    obtain ⟨i1, k1, k2, k3, k4, k5, k9, k6, k7⟩ := pass_spec w hq hns M G o hbin hgr (p.getD (none, none))
      R (val (p.getD (none, none))) N mission hmi hg first i r0 h0 e0 e' f bad hG hs0 hr q1 hmv hch hR os hm
    obtain ⟨i2, g1, g2, g5, g3, g4⟩ := ih false i1 _ (fun p' hp' => hgood p' (by
        cases p with
        | none => simpa using hp'
        | some p => exact List.mem_cons_of_mem _ (by simpa using hp')))
      ⟨k2.trans hr0, k3.trans hh0, e'', by rw [k4]; exact q2, q3⟩ k5 k9 k6
    refine ⟨i2, ?_, ?_, ?_, g3, fun _ => g4 (.inr rfl)⟩
    · unfold scanLoop
      rw [k1]
      exact g1
    · rw [g2, List.append_assoc]
      congr 2
      cases p with
      | none =>
        have : missionObs w M o N (fun b => after (optsOf w f h0) (stretch r0 mission)
            (val (none, none) b)) (none, none) = [] := by
          unfold missionObs
          rw [List.flatMap_eq_nil_iff]
          intro t _
          unfold pairObs
          simp [live]
        simp [this]
      | some p => simp
    · rw [g5, k7]
      cases p with
      | none =>
        have : alive (none, none) = false := rfl
        simp [this]
      | some p =>
        simp only [Option.getD_some, List.filterMap_cons, id, List.any_cons]
        cases i.nan <;> cases bad <;> cases alive p <;> cases mission.isEmpty <;> simp

theorem all_spec (w : World E) (hq : PixOk w.q) (hns : 0 < w.nsideOut) (M : Motion)
    (G : Nat → Quat.Q)
    (o : Opts) (hbin : o.binning = true) (hgr : o.ground = true)
    (R : Spinmaps SpinDict → Prop) (val : Pair → BinBeam → Nat → ℝ) (N : Nat) (mission : List Chunk) (hmi : Mission N mission)
    (i : Inst E) (hi : Ready w mission i) (hmv : Moves w.fsamp M i.rot i.hwp mission)
    (hst : Steady w M G mission i.el) (hR : R i.st.maps) (beams : List Pair) (size : Nat) (hsize : 0 < size) (f : Wanted)
    (bad : Bool)
    (hG : ∀ t, t < N → Works (optsOf w f i.hwp) (stretch i.rot mission t).2 bad)
    (hgood : ∀ p ∈ beams, PairGood w M G mission o R p (val p)) :
    scanAll w o f beams true size i = .ok ⟨mapsOf (12 * w.nsideOut ^ 2)
      (beams.flatMap fun p => missionObs w M o N (fun b => after (optsOf w f i.hwp) (stretch i.rot mission) (val p b)) p), bad && beams.any alive && !mission.isEmpty⟩ := by
  obtain ⟨work, w1, w2, w3, -⟩ := C03_every_pair_scanned_once beams size hsize
  obtain ⟨P, p1, p2⟩ := hst
  have hrot := ready_rot hi
  have hmem : ∀ l ∈ work, ∀ p ∈ l.filterMap id, p ∈ beams := by
    intro l hl p hp
    rw [← w3]
    exact List.mem_flatten.2 ⟨_, List.mem_map_of_mem hl, hp⟩
  have hone : ∀ l ∈ work, ∃ i', scanLoop w o f true l ⟨i, false⟩ = .ok i' ∧ i'.nan = (bad && (l.filterMap id).any alive && !mission.isEmpty) ∧
      i'.inst.maps = mapsOf (12 * w.nsideOut ^ 2)
        ((l.filterMap id).flatMap fun p => missionObs w M o N (fun b => after (optsOf w f i.hwp) (stretch i.rot mission) (val p b)) p) := by
    intro l hl
    obtain ⟨i', g1, g2, g3, -⟩ := loop_spec w hq hns M G o hbin hgr R val N mission hmi i.rot i.hwp hrot hi.rot
      hi.hwp hmv f bad hG P p2 l true ⟨i, false⟩ [] (fun p hp => hgood p (hmem l hl p hp)) ⟨rfl, rfl, p1⟩ hi.chunks hR
      (by rw [hi.maps, mapsOf_nil])
    exact ⟨i', g1, by rw [g3, Bool.false_or], by simpa using g2⟩
  have hmap : ∃ is, (List.range size).mapM (fun r => scanInstrument w o f beams true size r i) =
      Except.ok (ε := PyErr) is ∧
      is.any (·.nan) = (work.any fun l => bad && (l.filterMap id).any alive && !mission.isEmpty) ∧
      is.map (fun i => i.inst.maps) = (work.map fun l => (l.filterMap id).flatMap fun p =>
        missionObs w M o N (fun b => after (optsOf w f i.hwp) (stretch i.rot mission) (val p b)) p).map (mapsOf (12 * w.nsideOut ^ 2)) := by
    have hw : work = (List.range size).map fun r => (work[r]?).getD [] := by
      apply List.ext_getElem (by simp [w1])
      intro k h1 h2
      simp [h1]
    have hlist : ∀ rs : List Nat, (∀ r ∈ rs, r < size) → ∃ is,
        rs.mapM (fun r => scanInstrument w o f beams true size r i) = Except.ok (ε := PyErr) is ∧
        is.any (·.nan) = ((rs.map fun r => (work[r]?).getD []).any fun l =>
          bad && (l.filterMap id).any alive && !mission.isEmpty) ∧
        is.map (fun i => i.inst.maps) = ((rs.map fun r => (work[r]?).getD []).map fun l =>
          (l.filterMap id).flatMap fun p =>
            missionObs w M o N (fun b => after (optsOf w f i.hwp) (stretch i.rot mission) (val p b)) p).map (mapsOf (12 * w.nsideOut ^ 2)) := by
      intro rs
      induction rs with
      | nil => exact fun _ => ⟨[], rfl, rfl, rfl⟩
      | cons r rs ih =>
        intro hrs
        obtain ⟨is, e1, e3, e2⟩ := ih fun r hr => hrs r (List.mem_cons_of_mem _ hr)
        have hr := hrs r List.mem_cons_self
        have hlt : r < work.length := by omega
        have hwr := w2 r hr
        rw [List.getElem?_eq_getElem hlt] at hwr
        obtain ⟨i', g1, g3, g2⟩ := hone work[r] (List.getElem_mem hlt)
        refine ⟨i' :: is, ?_, ?_, ?_⟩
        · rw [List.mapM_cons]
          unfold scanInstrument
          rw [← Option.some.inj hwr]
          simp only [bind, Except.bind]
          rw [g1]
          dsimp only
          have e1' := e1
          unfold scanInstrument at e1'
          simp only [bind, Except.bind] at e1'
          rw [e1']
          rfl
        · rw [List.any_cons, e3, g3, List.map_cons, List.any_cons, List.getElem?_eq_getElem hlt,
            Option.getD_some]
        · simp only [List.map_cons, List.getElem?_eq_getElem hlt, Option.getD_some]
          rw [e2, g2]
    obtain ⟨is, e1, e3, e2⟩ := hlist (List.range size) fun r hr => List.mem_range.1 hr
    refine ⟨is, e1, ?_, ?_⟩
    · rw [e3, ← hw]
    · rw [e2, ← hw]
  obtain ⟨is, e1, e3, e2⟩ := hmap
  unfold scanAll
  rw [e1]
  simp only [bind, Except.bind, pure, Except.pure]
  rw [e2, e3, hi.maps]
  have hlen : (allocateMaps w.nsideOut).length = 12 * w.nsideOut ^ 2 := by simp [allocateMaps]
  rw [hlen, reduce_mapsOf]
  have hany : (work.any fun l => bad && (l.filterMap id).any alive && !mission.isEmpty) =
      (bad && beams.any alive && !mission.isEmpty) := by
    rw [← w3]
    cases bad <;> cases mission.isEmpty <;> simp [List.any_flatten, List.any_map, Function.comp_def]
  rw [hany]
  congr 3
  rw [← w3]
  simp only [List.flatMap_def, List.map_flatten, List.flatten_flatten, List.map_map]
  rfl


end Verif.ScanFiltered.Ground
