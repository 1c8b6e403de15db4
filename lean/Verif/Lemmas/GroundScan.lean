import Verif.Spec.GroundScan
import Verif.Lemmas.ScanInstrument

/-! # Lemmas: a whole scan with a ground template -/

noncomputable section

namespace Verif.ScanInstrument.Ground

open Verif.Chunks Verif.Timeline Verif.Spinmaps Verif.MapMaking Verif.Spec Verif.Props

variable {E : Type}

theorem scan_frame {x : Ext} {mission : List Chunk} {st : State} {b : Timeline.Beam} {s : Sub}
    {ground interp add : Bool} {r : Ret × State}
    (h : scan x mission st b s ground interp add = .ok r) :
    r.2 = { st with tod := some r.1.tod } := by
  unfold scan at h
  split at h
  · cases h
  · obtain ⟨d, _, h⟩ := bind_ok h
    obtain ⟨ns, _, h⟩ := bind_ok h
    obtain ⟨⟨i, j⟩, _, h⟩ := bind_ok h
    have key : ∀ (q : Quat.Q) (n : Nat) (bore : List Quat.Q),
        (match pointing x interp q n (pySlice st.ctime i j) (pySlice bore i j) with
        | (look, pa, pix) => (todOf (s.stop - s.start).toNat look pa d b.polang
            (st.hwpAng.getD (.fixed 0)) >>= fun tod => addTod add st.tod tod >>= fun tod =>
            pure ((⟨tod, pix, pa.map degrees, match st.hwpAng.getD (.fixed 0) with
              | .fixed a => .fixed (degrees a)
              | .array a => .array (a.map degrees)⟩ : Ret), { st with tod := some tod }))) = .ok r →
        r.2 = { st with tod := some r.1.tod } := by
      intro q n bore h
      obtain ⟨t, _, h⟩ := bind_ok h
      obtain ⟨t, _, h⟩ := bind_ok h
      rw [← Except.ok.inj h]
    cases ground
    · cases ns
      · cases interp <;> cases h
      · exact key _ _ _ h
    · cases hg : st.qGround with
      | none => rw [hg] at h; cases h
      | some g =>
        rw [hg] at h
        cases ns
        · cases interp <;> cases h
        · rw [hg] at key
          exact key _ _ _ h

theorem ghostScans_frame {x : Ext} {mission : List Chunk} {s : Sub} {g interp : Bool}
    (gs : List Timeline.Beam) : ∀ (n : Nat) (st : State) r,
    ghostScans x mission s g interp gs n st = .ok r → ∃ t, r.2 = { st with tod := t } := by
  induction gs with
  | nil =>
    intro n st r h
    simp only [ghostScans, Except.ok.injEq] at h
    exact ⟨st.tod, by rw [← h]⟩
  | cons b gs ih =>
    intro n st r h
    unfold ghostScans at h
    split at h
    · exact ih n st r h
    · obtain ⟨y, h1, h2⟩ := bind_ok h
      obtain ⟨t, e⟩ := ih _ _ _ h2
      exact ⟨t, by rw [e, scan_frame h1]⟩

theorem detector_frame {x : Ext} {mission : List Chunk} {st : State} {b : Timeline.Beam}
    {gs : List Timeline.Beam} {s : Sub} {interp : Bool} {r : Ret × State}
    (h : scanDetector x mission b gs s true interp false st = .ok r) :
    r.2 = { st with tod := some r.1.tod } := by
  unfold scanDetector at h
  split at h
  · cases h
  · obtain ⟨⟨n, st'⟩, h1, h⟩ := bind_ok h
    obtain ⟨t, h1'⟩ := ghostScans_frame _ _ _ _ h1
    obtain ⟨y, h2, h⟩ := bind_ok h
    have e1 := scan_frame h
    have e2 := scan_frame h2
    rw [e1, e2]
    dsimp only at h1'
    rw [h1']

/-- The ground pointing during a subchunk is that of `G`. -/
def GroundAt (G : Nat → Quat.Q) (mission : List Chunk) (s : Sub) (st : State) (t0 i n : Nat) : Prop :=
  ∃ l, st.qGround = some l ∧ SubOk mission st l s i n ∧ ∀ k, k < n → l[i + k]? = some (G (t0 + k))

theorem GroundAt.tod {G : Nat → Quat.Q} {mission : List Chunk} {s : Sub} {st : State} {t0 i n : Nat}
    (h : GroundAt G mission s st t0 i n) (t : Option (List ℝ)) :
    GroundAt G mission s { st with tod := t } t0 i n :=
  let ⟨l, h1, h2, h3⟩ := h
  ⟨l, h1, ⟨h2.chunk, h2.times, h2.bore, h2.hwp⟩, h3⟩

theorem measures_ground (x : Ext) (M : Motion) (G : Nat → Quat.Q) (mission : List Chunk) (s : Sub)
    (st : State) (flag : Option (List Bool)) (t0 i n : Nat) (h : At M mission s st flag t0 i n)
    (l : List Quat.Q) (hl : ∀ k, k < n → l[i + k]? = some (G (t0 + k))) (interp : Bool)
    (nside : Nat) (d : SpinDict) (b : Timeline.Beam) (k : Nat) (hk : k < n) :
    measures x st interp nside i l d b k = pickup M G x interp nside d b (t0 + k) := by
  unfold measures pickup Motion.signal
  rw [h.time k hk, hl k hk, h.rot k hk, h.alpha k hk]
  rfl

theorem scanOne_spec (w : World E) (hx : ExtOk w.x) (M : Motion) (G : Nat → Quat.Q)
    (mission : List Chunk) (o : Opts) (hpre : o.preview = false) (flag : Option (List Bool))
    (b : BinBeam) (s : Sub) (st : State) (t0 i n : Nat) (h : At M mission s st flag t0 i n)
    (hG : GroundAt G mission s st t0 i n) (nside : Nat) (hns : 0 < nside)
    (hb : b.beam.dead = false) (hg : b.beam.ghost = false)
    (hmain : DictOk (12 * nside ^ 2) st.maps.main) (d : SpinDict) (hd : st.maps.ground = some d)
    (hground : DictOk (12 * nside ^ 2) d) :
    scanOne w.x mission o b s true st = .ok { st with
      tod := some ((List.range n).map fun k => detects M G w.x o.interp nside st.maps b (t0 + k)) } := by
  obtain ⟨l, l1, l2, l3⟩ := hG
  unfold scanOne
  rw [if_neg (by simp [hpre])]
  obtain ⟨ret, st', h1, h2⟩ := C70_ground_actual w.x hx mission b.beam b.ghosts s o.interp st nside i n
    hns h.sub l l1 l2 hb hg hmain d hd hground
  have h3 : st' = _ := detector_frame h1
  dsimp only at h3
  rw [h1]
  simp only [bind, Except.bind, pure, Except.pure]
  rw [h3, h2]
  congr 3
  apply List.map_congr_left
  intro k hk
  have hk := List.mem_range.1 hk
  unfold detects
  rw [hd, measures_motion w.x M mission s st flag t0 i n h o.interp nside _ _ k hk,
    measures_ground w.x M G mission s st flag t0 i n h l l3 o.interp nside _ _ k hk]
  congr 2
  apply List.map_congr_left
  intro g _
  rw [measures_ground w.x M G mission s st flag t0 i n h l l3 o.interp nside _ _ k hk]
  rfl

theorem ready_rot {w : World E} {mission : List Chunk} {i : Inst E} (hi : Ready w mission i) :
    Data.RotOk i.rot 0 := by
  rcases hi.period with h | h
  · exact .inl h
  · by_cases hp : i.rot.period = true
    · refine .inr ⟨i.rot.rotChunkSize.toNat, by omega, hp, by omega, ?_, ?_, ?_⟩
      all_goals
        have hrem : i.rot.remainder = 0 := by rw [← hi.rot]; rfl
        rw [hrem]
      · omega
      · simp
    · exact .inl (by simpa using hp)

/-- `scanOne` gives the values `val` for the live detectors of a pair. -/
def ScansAs (w : World E) (mission : List Chunk) (o : Opts) (p : Pair) (s : Sub) (st : State)
    (t0 n : Nat) (val : BinBeam → Nat → ℝ) : Prop :=
  ∀ b, (live p.1 = some b ∨ live p.2 = some b) → ∀ t,
    scanOne w.x mission o b s true { st with tod := t } =
      .ok { st with tod := some ((List.range n).map fun k => val b (t0 + k)) }

theorem scanBinOne_spec (w : World E) (hq : PixOk w.q) (hns : 0 < w.nsideOut) (M : Motion)
    (mission : List Chunk) (o : Opts) (hbin : o.binning = true) (flag : Option (List Bool))
    (p : Pair) (s : Sub) (st : State) (t0 i n : Nat) (h : At M mission s st flag t0 i n)
    (val : BinBeam → Nat → ℝ) (hval : ScansAs w mission o p s st t0 n val) (b : BinBeam)
    (hb : live p.1 = some b ∨ live p.2 = some b) (t : Option (List ℝ)) (os : List Obs) :
    ∃ t', scanBinOne w mission o flag s true b { st with tod := t } (mapsOf (12 * w.nsideOut ^ 2) os) =
      .ok ({ st with tod := t' }, mapsOf (12 * w.nsideOut ^ 2) (os ++
        ((List.range n).filter fun k => !M.flag (t0 + k)).map fun k =>
          obsAt M w.x w.q w.varphi w.nsideOut b (t0 + k) (val b (t0 + k)))) := by
  unfold scanBinOne
  rw [hval b hb t]
  simp only [bind, Except.bind, todOfState]
  rw [binOne_spec w hq hns M mission o hbin flag b s _ t0 i n (h.tod _) _ (by simp) os]
  refine ⟨some ((List.range n).map fun k => val b (t0 + k)), ?_⟩
  simp only [pure, Except.pure]
  congr 4
  apply List.map_congr_left
  intro k hk
  have hk := List.mem_range.1 (List.mem_filter.1 hk).1
  congr 1
  simp [hk]

theorem scanMix_spec (w : World E) (hq : PixOk w.q) (hns : 0 < w.nsideOut) (M : Motion)
    (mission : List Chunk) (o : Opts) (hbin : o.binning = true) (flag : Option (List Bool))
    (p : Pair) (s : Sub) (st : State) (t0 i n : Nat) (h : At M mission s st flag t0 i n)
    (val : BinBeam → Nat → ℝ) (hval : ScansAs w mission o p s st t0 n val) (a b : BinBeam)
    (ha : live p.1 = some a) (hb : live p.2 = some b) (t : Option (List ℝ)) (os : List Obs) :
    ∃ t', scanMix w mission o flag s true a b { st with tod := t } (mapsOf (12 * w.nsideOut ^ 2) os) =
      .ok ({ st with tod := t' }, mapsOf (12 * w.nsideOut ^ 2) (os ++
        (((List.range n).filter fun k => !M.flag (t0 + k)).map fun k =>
          obsAt M w.x w.q w.varphi w.nsideOut a (t0 + k)
            (val a (t0 + k) + o.ctalk * val b (t0 + k))) ++
        ((List.range n).filter fun k => !M.flag (t0 + k)).map fun k =>
          obsAt M w.x w.q w.varphi w.nsideOut b (t0 + k)
            (val b (t0 + k) + o.ctalk * val a (t0 + k)))) := by
  unfold scanMix
  rw [hval a (.inl ha) t]
  simp only [bind, Except.bind, todOfState]
  rw [hval b (.inr hb) _]
  dsimp only
  obtain ⟨a', b', h1, h2, h3, h4⟩ := C27_cross_talk ((List.range n).map fun k => val a (t0 + k))
    ((List.range n).map fun k => val b (t0 + k)) o.ctalk (by simp)
  rw [h1]
  dsimp only
  rw [binOne_spec w hq hns M mission o hbin flag a s _ t0 i n (h.tod _) _ (by simpa using h2) os]
  dsimp only
  rw [binOne_spec w hq hns M mission o hbin flag b s _ t0 i n (h.tod _) _ (by simpa using h3) _]
  refine ⟨some b', ?_⟩
  simp only [pure, Except.pure]
  congr 4
  · congr 1
    apply List.map_congr_left
    intro k hk
    have hk := List.mem_range.1 (List.mem_filter.1 hk).1
    rw [(h4 k (val a (t0 + k)) (val b (t0 + k)) (by simp [hk]) (by simp [hk])).1]
    rfl
  · apply List.map_congr_left
    intro k hk
    have hk := List.mem_range.1 (List.mem_filter.1 hk).1
    rw [(h4 k (val a (t0 + k)) (val b (t0 + k)) (by simp [hk]) (by simp [hk])).2]
    rfl

theorem scanPair_spec (w : World E) (hq : PixOk w.q) (hns : 0 < w.nsideOut) (M : Motion)
    (mission : List Chunk) (o : Opts) (hbin : o.binning = true) (flag : Option (List Bool))
    (p : Pair) (s : Sub) (st : State) (t0 i n : Nat) (h : At M mission s st flag t0 i n)
    (val : BinBeam → Nat → ℝ) (hval : ScansAs w mission o p s st t0 n val) (os : List Obs) :
    ∃ t', scanPair w mission o flag p s true st (mapsOf (12 * w.nsideOut ^ 2) os) =
      .ok ({ st with tod := t' }, mapsOf (12 * w.nsideOut ^ 2) (os ++
        (List.range n).flatMap fun k => pairObs M w.x w.q w.varphi w.nsideOut o.ctalk val p
          (t0 + k))) := by
  have hst : st = { st with tod := st.tod } := rfl
  unfold scanPair
  rcases ha : live p.1 with _ | a <;> rcases hb : live p.2 with _ | b <;> dsimp only
  · refine ⟨st.tod, ?_⟩
    have : (List.range n).flatMap (fun k => pairObs M w.x w.q w.varphi w.nsideOut o.ctalk val p
          (t0 + k)) = [] := by
      rw [List.flatMap_eq_nil_iff]
      intro k _
      unfold pairObs
      rw [ha, hb]
      simp
    rw [this, List.append_nil]
  · obtain ⟨t', e⟩ := scanBinOne_spec w hq hns M mission o hbin flag p s st t0 i n h val hval b
      (.inr hb) st.tod os
    refine ⟨t', ?_⟩
    rw [hst, e, one_list]
    unfold pairObs
    rw [ha, hb]
    simp
  · obtain ⟨t', e⟩ := scanBinOne_spec w hq hns M mission o hbin flag p s st t0 i n h val hval a
      (.inl ha) st.tod os
    refine ⟨t', ?_⟩
    rw [hst, e, one_list]
    unfold pairObs
    rw [ha, hb]
    simp
  · by_cases hc : o.ctalk = 0
    · rw [if_neg (by simp [hc])]
      obtain ⟨t', e⟩ := scanBinOne_spec w hq hns M mission o hbin flag p s st t0 i n h val hval a
        (.inl ha) st.tod os
      obtain ⟨t'', e'⟩ := scanBinOne_spec w hq hns M mission o hbin flag p s st t0 i n h val hval b
        (.inr hb) t' (os ++ ((List.range n).filter fun k => !M.flag (t0 + k)).map fun k =>
          obsAt M w.x w.q w.varphi w.nsideOut a (t0 + k) (val a (t0 + k)))
      refine ⟨t'', ?_⟩
      rw [hst, e]
      simp only [bind, Except.bind]
      rw [e']
      congr 2
      apply mapsOf_perm
      rw [List.append_assoc]
      apply List.Perm.append_left
      refine (two_lists _ _ _ _).trans (List.Perm.of_eq ?_)
      unfold pairObs
      rw [ha, hb, hc]
      simp
    · rw [if_pos hc]
      obtain ⟨t', e⟩ := scanMix_spec w hq hns M mission o hbin flag p s st t0 i n h val hval a b
        ha hb st.tod os
      refine ⟨t', ?_⟩
      rw [hst, e]
      congr 2
      apply mapsOf_perm
      rw [List.append_assoc]
      apply List.Perm.append_left
      refine (two_lists _ _ _ _).trans (List.Perm.of_eq ?_)
      unfold pairObs
      rw [ha, hb]
      simp

/-- The detectors of a pair give the values `val`, whenever the spin maps meet `Q`. -/
def Gives (w : World E) (M : Motion) (G : Nat → Quat.Q) (mission : List Chunk) (o : Opts) (p : Pair)
    (Q : Spinmaps SpinDict → Prop) (val : BinBeam → Nat → ℝ) : Prop :=
  ∀ s st flag t0 i n, At M mission s st flag t0 i n → GroundAt G mission s st t0 i n → Q st.maps →
    ScansAs w mission o p s st t0 n val

/-- What the loop over subchunks leaves alone. -/
structure Same (i i' : Inst E) : Prop where
  el : i'.el = i.el
  flag : i'.flag = i.flag
  hasMaps : i'.hasMaps = i.hasMaps
  chunks : i'.chunks = i.chunks
  ctime : i'.st.ctime = i.st.ctime
  qBore : i'.st.qBore = i.st.qBore
  spin : i'.st.maps = i.st.maps
  qGround : i'.st.qGround = i.st.qGround

theorem Same.trans {a b c : Inst E} (h : Same a b) (h' : Same b c) : Same a c :=
  ⟨h'.el.trans h.el, h'.flag.trans h.flag, h'.hasMaps.trans h.hasMaps, h'.chunks.trans h.chunks,
    h'.ctime.trans h.ctime, h'.qBore.trans h.qBore, h'.spin.trans h.spin,
    h'.qGround.trans h.qGround⟩

theorem ground_sub (M : Motion) (G : Nat → Quat.Q) (mission : List Chunk) (c : Chunk) (cidx : Int)
    (hc : pyGet mission cidx = .ok c) (h0 : 0 ≤ c.start) (pt : Pointing) (hpt : PointsAt M G c pt)
    (fsamp : ℝ) (s : Chunk) (h1 h2 : Hwp.State ℝ) (x : Option ℝ) (ang : Hwp.Ang ℝ)
    (e2 : Hwp.rotateHwp Real.pi fsamp h1 x s.start s.stop = .ok (some ang, h2))
    (ha : c.start ≤ s.start) (hlt : s.start < s.stop) (hb : s.stop ≤ c.stop) (st : State)
    (hct : st.ctime = pt.ctime) (hqg : st.qGround = pt.ground)
    (hhwp : st.hwpAng = some (hwpAngOf ang)) :
    GroundAt G mission ⟨s.start, s.stop, cidx⟩ st s.start.toNat (s.start - c.start).toNat
      (s.stop - s.start).toNat := by
  have hlen : (s.start - c.start).toNat + (s.stop - s.start).toNat ≤ (c.stop - c.start).toNat := by
    omega
  refine ⟨_, hqg.trans hpt.ground, ⟨⟨c, hc, ?_, ?_⟩, ?_, ?_, ?_⟩, ?_⟩
  · show s.start = _
    omega
  · show s.stop = s.start + _
    omega
  · rw [hct, hpt.sky.times]
    simpa using hlen
  · simpa using hlen
  · intro l hl
    rw [hhwp] at hl
    cases ang with
    | scalar x => cases hl
    | array x =>
      cases hl
      exact rotateHwp_length _ _ _ _ _ _ _ e2
  · intro k hk
    simp only [List.getElem?_map]
    rw [List.getElem?_range (by omega), Option.map_some]
    congr 2
    omega


theorem stepSub_spec (w : World E) (hq : PixOk w.q) (hns : 0 < w.nsideOut) (M : Motion) (G : Nat → Quat.Q)
    (o : Opts) (hbin : o.binning = true) (p : Pair) (Q : Spinmaps SpinDict → Prop)
    (val : BinBeam → Nat → ℝ) (c : Chunk) (cidx : Int) (i : Inst E)
    (hc : pyGet (i.chunks.map (·.1)) cidx = .ok c) (h0 : 0 ≤ c.start) (pt : Pointing)
    (hpt : PointsAt M G c pt) (hval : Gives w M G (i.chunks.map (·.1)) o p Q val) (s : Chunk)
    (hcx : s.cidx = some cidx) (r1 : Rot ℝ) (h1 : Hwp.State ℝ) (ang : Hwp.Ang ℝ)
    (e1 : rotStep i.rot s = .ok r1)
    (e2 : Hwp.rotateHwp Real.pi w.fsamp i.hwp (s.hwpang.map fun (a : ℚ) => (a : ℝ)) s.start s.stop =
        .ok (some ang, h1))
    (e3 : ∀ t : Nat, s.start ≤ t → (t : Int) < s.stop →
        M.rot t = r1.angle ∧ M.alpha t = angAt ang (t - s.start.toNat))
    (ha : c.start ≤ s.start) (hlt : s.start < s.stop) (hb : s.stop ≤ c.stop)
    (hfl : i.flag = pt.flag) (hct : i.st.ctime = pt.ctime) (hqb : i.st.qBore = pt.bore) (hqg : i.st.qGround = pt.ground)
    (hQ : Q i.st.maps) (os : List Obs) (hm : i.maps = mapsOf (12 * w.nsideOut ^ 2) os) :
    ∃ i', stepSub w o p true s i = .ok i' ∧ i'.rot = r1 ∧ i'.hwp = h1 ∧ Same i i' ∧
      i'.maps = mapsOf (12 * w.nsideOut ^ 2) (os ++
          (List.range' s.start.toNat (s.stop - s.start).toNat).flatMap
            (pairObs M w.x w.q w.varphi w.nsideOut o.ctalk val p)) := by
  have hA := at_sub M _ c cidx hc h0 pt hpt.sky w.fsamp s i.hwp h1 _ ang r1.angle e2 e3 ha hlt hb
    { i.st with rotAngle := r1.angle, hwpAng := newAng (some ang) i.st.hwpAng } hct hqb rfl rfl
  have hG := ground_sub M G _ c cidx hc h0 pt hpt w.fsamp s i.hwp h1 _ ang e2 ha hlt hb
    { i.st with rotAngle := r1.angle, hwpAng := newAng (some ang) i.st.hwpAng } hct hqg rfl
  obtain ⟨t', hs⟩ := scanPair_spec w hq hns M _ o hbin pt.flag p
    ⟨s.start, s.stop, cidx⟩ _ s.start.toNat _ _ hA val (hval _ _ _ _ _ _ hA hG hQ) os
  unfold stepSub
  rw [e1]
  simp only [bind, Except.bind]
  rw [e2]
  dsimp only
  unfold cidxOf
  rw [hcx]
  dsimp only
  rw [hm, hfl, hs]
  dsimp only
  rw [range'_flatMap]
  exact ⟨_, rfl, rfl, rfl, ⟨rfl, hfl.symm, rfl, rfl, rfl, rfl, rfl, rfl⟩, rfl⟩

theorem subs_fold (w : World E) (hq : PixOk w.q) (hns : 0 < w.nsideOut) (M : Motion) (G : Nat → Quat.Q)
    (o : Opts) (hbin : o.binning = true) (p : Pair) (Q : Spinmaps SpinDict → Prop)
    (val : BinBeam → Nat → ℝ) (chunks : List (Chunk × Bool)) (c : Chunk) (cidx : Int)
    (hc : pyGet (chunks.map (·.1)) cidx = .ok c) (h0 : 0 ≤ c.start) (pt : Pointing)
    (hpt : PointsAt M G c pt) (hval : Gives w M G (chunks.map (·.1)) o p Q val) (subs : List Chunk) :
    ∀ (a : Int) (i : Inst E) (r' : Rot ℝ) (h' : Hwp.State ℝ) (os : List Obs),
      c.start ≤ a → Tiles a c.stop (subs.map Chunk.ivl) → (∀ s ∈ subs, s.cidx = some cidx) →
      Turns w.fsamp M i.rot i.hwp subs r' h' → i.chunks = chunks → i.flag = pt.flag →
      i.st.ctime = pt.ctime → i.st.qBore = pt.bore → i.st.qGround = pt.ground → Q i.st.maps →
      i.maps = mapsOf (12 * w.nsideOut ^ 2) os →
      ∃ i', subs.foldlM (fun i s => stepSub w o p true s i) i = .ok i' ∧ i'.rot = r' ∧
        i'.hwp = h' ∧ Same i i' ∧
        i'.maps = mapsOf (12 * w.nsideOut ^ 2) (os ++
          (List.range' a.toNat (c.stop - a).toNat).flatMap
            (pairObs M w.x w.q w.varphi w.nsideOut o.ctalk val p)) := by
  induction subs with
  | nil =>
    intro a i r' h' os ha ht _ htu hch hfl hct hqb hqg hQ hm
    obtain ⟨rfl, rfl⟩ := htu
    simp only [List.map_nil] at ht
    cases ht
    refine ⟨i, rfl, rfl, rfl, ⟨rfl, rfl, rfl, rfl, rfl, rfl, rfl, rfl⟩, ?_⟩
    simp [hm]
  | cons s subs ih =>
    intro a i r' h' os ha ht hcx htu hch hfl hct hqb hqg hQ hm
    simp only [List.map_cons] at ht
    generalize hiv : Chunk.ivl s = iv at ht
    cases ht with
    | cons hlt ht =>
    simp only [Chunk.ivl, Prod.mk.injEq] at hiv
    obtain ⟨rfl, rfl⟩ := hiv
    obtain ⟨r1, ang, h1, e1, e2, e3, e4⟩ := htu
    have hb : s.stop ≤ c.stop := tiles_le ht
    subst hch
    obtain ⟨i1, g1, g2, g3, g4, g5⟩ := stepSub_spec w hq hns M G o hbin p Q val c cidx i hc h0 pt hpt
      hval s (hcx s List.mem_cons_self) r1 h1 ang e1 e2 e3 ha hlt hb hfl hct hqb hqg hQ os hm
    obtain ⟨i2, k1, k2, k3, k4, k5⟩ := ih s.stop i1 r' h' _ (by omega) ht
      (fun s hs => hcx s (List.mem_cons_of_mem _ hs)) (by rw [g2, g3]; exact e4) g4.chunks
      (g4.flag.trans hfl) (g4.ctime.trans hct) (g4.qBore.trans hqb) (g4.qGround.trans hqg) (by rw [g4.spin]; exact hQ) g5
    refine ⟨i2, ?_, k2, k3, g4.trans k4, ?_⟩
    · rw [List.foldlM_cons, g1]
      exact k1
    · rw [k5, List.append_assoc, ← List.flatMap_append]
      congr 3
      have e5 : (c.stop - s.start).toNat = (s.stop - s.start).toNat + (c.stop - s.stop).toNat := by
        omega
      have e6 : s.stop.toNat = s.start.toNat + (s.stop - s.start).toNat := by omega
      rw [e5, e6, List.range'_append_1]

theorem chunk_step (w : World E) (hq : PixOk w.q) (hns : 0 < w.nsideOut) (M : Motion) (G : Nat → Quat.Q)
    (o : Opts) (hbin : o.binning = true) (hgr : o.ground = true) (p : Pair)
    (Q : Spinmaps SpinDict → Prop) (val : BinBeam → Nat → ℝ) (mission : List Chunk)
    (hval : Gives w M G mission o p Q val) (first : Bool) (k : Nat) (c : Chunk)
    (hk : mission[k]? = some c) (hcx : c.cidx = some (k : Int)) (h0 : 0 ≤ c.start)
    (hlt : c.start < c.stop) (i : Inst E) (hch : i.chunks.map (·.1) = mission)
    (hr : Data.RotOk i.rot c.start) (pt : Pointing) (el : E)
    (himp : w.implement i.el c true (!first) = .ok (pt, el)) (hpt : PointsAt M G c pt)
    (subs : List Chunk) (r1 r2 : Rot ℝ) (h2 : Hwp.State ℝ)
    (hsub : subpartChunk i.rot c = .ok (subs, r1)) (htu : Turns w.fsamp M r1 i.hwp subs r2 h2)
    (hQ : Q i.st.maps) (os : List Obs) (hm : i.maps = mapsOf (12 * w.nsideOut ^ 2) os) :
    ∃ i', stepChunk w o p first i k = .ok i' ∧ i'.rot = r2 ∧ i'.hwp = h2 ∧ i'.el = el ∧
      Data.RotOk i'.rot c.stop ∧ i'.rot.reset = i.rot.reset ∧ i'.hwp.reset = i.hwp.reset ∧
      i'.chunks.map (·.1) = mission ∧ i'.st.maps = i.st.maps ∧
      i'.maps = mapsOf (12 * w.nsideOut ^ 2) (os ++
        (List.range' c.start.toNat (c.stop - c.start).toNat).flatMap
            (pairObs M w.x w.q w.varphi w.nsideOut o.ctalk val p)) := by
  obtain ⟨a1, a2, a3, a4⟩ := subpart_full i.rot c hr hlt subs r1 hsub
  obtain ⟨b1, b2⟩ := turns_reset subs htu
  have hget' : pyGet mission (k : Int) = .ok c := by
    unfold pyGet
    rw [if_neg (show ¬ (k : Int) < 0 by omega)]
    simp [hk]
  obtain ⟨g, hget⟩ : ∃ g, pyGet i.chunks (k : Int) = .ok (c, g) := by
    have hk' : (i.chunks.map (·.1))[k]? = some c := by rw [hch]; exact hk
    rw [List.getElem?_map] at hk'
    obtain ⟨⟨c', g⟩, e1, rfl⟩ := Option.map_eq_some_iff.1 hk'
    refine ⟨g, ?_⟩
    unfold pyGet
    rw [if_neg (show ¬ (k : Int) < 0 by omega)]
    simp [e1]
  have hset : ∀ b : Bool, (i.chunks.set k (c, b)).map (·.1) = mission := by
    intro b
    rw [List.map_set, hch]
    apply List.ext_getElem?
    intro j
    rw [List.getElem?_set]
    split
    · rename_i h
      subst h
      have := (List.getElem?_eq_some_iff.1 hk).1
      rw [if_pos this, hk]
    · rfl
  generalize hcs : (if i.rot.period = false then i.chunks.set k (c, true) else i.chunks) = cs
  have hcs' : cs.map (·.1) = mission := by
    rw [← hcs]
    split
    · exact hset true
    · exact hch
  obtain ⟨i', g1, g2, g3, g4, g5⟩ := subs_fold w hq hns M G o hbin p Q val
    cs c k (by rw [hcs']; exact hget') h0 pt hpt (by rw [hcs']; exact hval) subs c.start
    { i with rot := r1, el := el,
             st := { i.st with ctime := pt.ctime, qBore := pt.bore, qGround := pt.ground },
             flag := pt.flag, chunks := cs } r2 h2 os le_rfl a3 (fun s hs => (a4 s hs).trans hcx) htu
    rfl rfl rfl rfl rfl hQ hm
  refine ⟨i', ?_, g2, g3, g4.el, ?_, ?_, ?_, ?_, g4.spin, g5⟩
  · unfold stepChunk
    rw [hget]
    simp only [bind, Except.bind]
    simp only [hgr, Bool.or_true, true_and, ite_self]
    rw [himp]
    dsimp only
    rw [hsub]
    dsimp only
    rw [hcs]
    exact g1
  · rw [g2]
    exact Data.rotOk_congr b1 a1
  · rw [g2, b1.2.2.2, a2]
  · rw [g3, b2]
  · rw [g4.chunks]
    exact hcs'

theorem chunks_fold (w : World E) (hq : PixOk w.q) (hns : 0 < w.nsideOut) (M : Motion) (G : Nat → Quat.Q)
    (o : Opts) (hbin : o.binning = true) (hgr : o.ground = true) (p : Pair)
    (Q : Spinmaps SpinDict → Prop) (val : BinBeam → Nat → ℝ) (mission : List Chunk)
    (hval : Gives w M G mission o p Q val) (first : Bool)
    (hnum : ∀ (i : Nat) c, mission[i]? = some c → c.cidx = some (i : Int)) (N : Nat)
    (cs : List Chunk) : ∀ (k : Nat) (a : Int) (i : Inst E) (e' : E) (os : List Obs),
      mission.drop k = cs → 0 ≤ a → Tiles a N (cs.map Chunk.ivl) → Data.RotOk i.rot a →
      Points w M G (!first) i.el cs e' → Moves w.fsamp M i.rot i.hwp cs →
      i.chunks.map (·.1) = mission → Q i.st.maps →
      i.maps = mapsOf (12 * w.nsideOut ^ 2) os →
      ∃ i', (List.range' k cs.length).foldlM (stepChunk w o p first) i = .ok i' ∧ i'.el = e' ∧
        i'.rot.reset = i.rot.reset ∧ i'.hwp.reset = i.hwp.reset ∧
        i'.chunks.map (·.1) = mission ∧ i'.st.maps = i.st.maps ∧
        i'.maps = mapsOf (12 * w.nsideOut ^ 2) (os ++
          (List.range' a.toNat (N - a).toNat).flatMap
            (pairObs M w.x w.q w.varphi w.nsideOut o.ctalk val p)) := by
  induction cs with
  | nil =>
    intro k a i e' os hd h0 ht hr hp hmv hch hQ hm
    simp only [List.map_nil] at ht
    cases ht
    refine ⟨i, rfl, hp.symm, rfl, rfl, hch, rfl, ?_⟩
    simp [hm]
  | cons c cs ih =>
    intro k a i e' os hd h0 ht hr hp hmv hch hQ hm
    simp only [List.map_cons] at ht
    generalize hiv : Chunk.ivl c = iv at ht
    cases ht with
    | cons hlt ht =>
    simp only [Chunk.ivl, Prod.mk.injEq] at hiv
    obtain ⟨rfl, rfl⟩ := hiv
    obtain ⟨pt, e1, q1, q2, q3⟩ := hp
    obtain ⟨subs, r1, r2, h2, m1, m2, m3⟩ := hmv
    have hk : mission[k]? = some c := by
      have := congrArg (·[0]?) hd
      simpa using this
    obtain ⟨i1, g1, g2, g3, g4, g5, g6, g7, g8, g9, g10⟩ := chunk_step w hq hns M G o hbin hgr p Q val
      mission hval first k c hk (hnum k c hk) h0 hlt i hch hr pt e1 q1 q2 subs r1 r2 h2 m1 m2 hQ os hm
    have hd' : mission.drop (k + 1) = cs := by
      rw [← List.drop_drop, hd]
      rfl
    have hN : c.stop ≤ N := tiles_le ht
    obtain ⟨i2, k1, k2, k3, k4, k5, k6, k7⟩ := ih (k + 1) c.stop i1 e' _ hd' (by omega) ht g5
      (by rw [g4]; exact q3) (by rw [g2, g3]; exact m3) g8 (by rw [g9]; exact hQ) g10
    refine ⟨i2, ?_, k2, k3.trans g6, k4.trans g7, k5, k6.trans g9, ?_⟩
    · rw [List.length_cons, List.range'_succ, List.foldlM_cons, g1]
      exact k1
    · rw [k7, List.append_assoc, ← List.flatMap_append]
      congr 3
      have e5 : ((N : Int) - c.start).toNat = (c.stop - c.start).toNat + ((N : Int) - c.stop).toNat := by
        omega
      have e6 : c.stop.toNat = c.start.toNat + (c.stop - c.start).toNat := by omega
      rw [e5, e6, List.range'_append_1]

/-! ### passes and ranks -/

/-- A pair can be scanned and gives the values `val`, if the maps meet `R` before; they do so after. -/
def PairGood (w : World E) (M : Motion) (G : Nat → Quat.Q) (mission : List Chunk) (o : Opts)
    (R : Spinmaps SpinDict → Prop) (p : Pair) (val : BinBeam → Nat → ℝ) : Prop :=
  ∃ Q, Gives w M G mission o p Q val ∧ ∀ i : Inst E, R i.st.maps → ∃ sm b, initPair w o p i =
    .ok { i with st := { i.st with maps := sm }, hasMaps := b } ∧ Q sm ∧ R sm

theorem pairGood_none (w : World E) (M : Motion) (G : Nat → Quat.Q) (mission : List Chunk) (o : Opts)
    (R : Spinmaps SpinDict → Prop) (val : BinBeam → Nat → ℝ) :
    PairGood w M G mission o R (none, none) val := by
  refine ⟨fun _ => True, ?_, fun i hR => ⟨i.st.maps, i.hasMaps, rfl, trivial, hR⟩⟩
  intro s st flag t0 i n _ _ _ b hb
  rcases hb with hb | hb <;> cases hb

theorem pass_spec (w : World E) (hq : PixOk w.q) (hns : 0 < w.nsideOut) (M : Motion) (G : Nat → Quat.Q)
    (o : Opts) (hbin : o.binning = true) (hgr : o.ground = true) (p : Pair)
    (R : Spinmaps SpinDict → Prop) (val : BinBeam → Nat → ℝ) (N : Nat) (mission : List Chunk) (hmi : Mission N mission)
    (hgood : PairGood w M G mission o R p val) (first : Bool) (i : Inst E) (r0 : Rot ℝ)
    (h0 : Hwp.State ℝ) (e0 e' : E)
    (hstart : if first then i.rot = r0 ∧ i.hwp = h0 ∧ i.el = e0
      else i.rot.reset = r0 ∧ i.hwp.reset = h0 ∧ w.resetEl i.el = .ok e0)
    (hr : Data.RotOk r0 0) (hp : Points w M G (!first) e0 mission e')
    (hmv : Moves w.fsamp M r0 h0 mission)
    (hch : i.chunks.map (·.1) = mission) (hR : R i.st.maps) (os : List Obs)
    (hm : i.maps = mapsOf (12 * w.nsideOut ^ 2) os) :
    ∃ i', scanPass w o first p i = .ok i' ∧ i'.rot.reset = r0.reset ∧ i'.hwp.reset = h0.reset ∧
      i'.el = e' ∧ i'.chunks.map (·.1) = mission ∧ R i'.st.maps ∧
      i'.maps = mapsOf (12 * w.nsideOut ^ 2) (os ++ missionObs w M o N val p) := by
  obtain ⟨Q, hQ, hinit⟩ := hgood
  have hstart' : ∃ i1, (if first then .ok i else resetAll w i) = Except.ok (ε := PyErr) i1 ∧
      i1.rot = r0 ∧ i1.hwp = h0 ∧ i1.el = e0 ∧ i1.chunks = i.chunks ∧ i1.maps = i.maps ∧
      i1.st.maps = i.st.maps := by
    cases first with
    | true =>
      obtain ⟨a, b, c⟩ := hstart
      exact ⟨i, rfl, a, b, c, rfl, rfl, rfl⟩
    | false =>
      obtain ⟨a, b, c⟩ := hstart
      refine ⟨{ i with rot := i.rot.reset, hwp := i.hwp.reset, el := e0 }, ?_, a, b, rfl, rfl, rfl,
        rfl⟩
      rw [if_neg (by simp)]
      unfold resetAll
      rw [c]
      rfl
  obtain ⟨i1, f1, f2, f3, f4, f5, f6, f9⟩ := hstart'
  obtain ⟨sm, b, f7, f8, f10⟩ := hinit i1 (by rw [f9]; exact hR)
  obtain ⟨i', k1, k2, k3, k4, k5, k6, k7⟩ := chunks_fold w hq hns M G o hbin hgr p Q val mission hQ
    first hmi.numbered N mission 0 0 { i1 with st := { i1.st with maps := sm }, hasMaps := b } e' os
    rfl le_rfl hmi.tiles (by rw [f2]; exact hr) (by rw [f4]; exact hp)
    (by rw [f2, f3]; exact hmv) (by rw [f5]; exact hch) f8 (f6.trans hm)
  refine ⟨i', ?_, ?_, ?_, k2, k5, by rw [k6]; exact f10, ?_⟩
  · have hb : scanPass w o first p i = (if first then .ok i else resetAll w i).bind fun i =>
        (initPair w o p i).bind fun i =>
          if i.chunks.all fun c => c.1.cidx.isSome then
            (List.range i.chunks.length).foldlM (stepChunk w o p first) i
          else .error .keyError := by
      unfold scanPass
      cases first <;> rfl
    rw [hb, f1]
    simp only [Except.bind]
    rw [f7]
    dsimp only
    rw [if_pos]
    · have hl : i1.chunks.length = mission.length := by rw [f5, ← hch, List.length_map]
      rw [hl, List.range_eq_range']
      exact k1
    · rw [f5, List.all_eq_true]
      intro x hx
      have hc : x.1 ∈ mission := by
        rw [← hch]
        exact List.mem_map_of_mem hx
      obtain ⟨j, hj, e⟩ := List.getElem_of_mem hc
      rw [hmi.numbered j _ (by rw [List.getElem?_eq_getElem hj, e])]
      rfl
  · rw [k3, ← f2]
  · rw [k4, ← f3]
  · rw [k7]
    unfold missionObs
    rw [List.range_eq_range']
    rfl

theorem loop_spec (w : World E) (hq : PixOk w.q) (hns : 0 < w.nsideOut) (M : Motion) (G : Nat → Quat.Q)
    (o : Opts) (hbin : o.binning = true) (hgr : o.ground = true)
    (R : Spinmaps SpinDict → Prop) (val : Pair → BinBeam → Nat → ℝ) (N : Nat) (mission : List Chunk) (hmi : Mission N mission)
    (r0 : Rot ℝ) (h0 : Hwp.State ℝ) (hr : Data.RotOk r0 0) (hr0 : r0.reset = r0)
    (hh0 : h0.reset = h0) (hmv : Moves w.fsamp M r0 h0 mission) (P : Bool → E → Prop)
    (hst : ∀ first e, P first e →
      ∃ e', Points w M G (!first) e mission e' ∧ ∃ e'', w.resetEl e' = .ok e'' ∧ P false e'')
    (ps : List (Option Pair)) : ∀ (first : Bool) (i : Inst E) (os : List Obs),
      (∀ p ∈ ps.filterMap id, PairGood w M G mission o R p (val p)) →
      (if first then i.rot = r0 ∧ i.hwp = h0 ∧ P true i.el
        else i.rot.reset = r0 ∧ i.hwp.reset = h0 ∧ ∃ e, w.resetEl i.el = .ok e ∧ P false e) →
      i.chunks.map (·.1) = mission → R i.st.maps →
      i.maps = mapsOf (12 * w.nsideOut ^ 2) os →
      ∃ i', scanLoop w o first ps i = .ok i' ∧ i'.maps = mapsOf (12 * w.nsideOut ^ 2) (os ++
        (ps.filterMap id).flatMap fun p => missionObs w M o N (val p) p) ∧ i'.chunks.map (·.1) = mission ∧
        (ps ≠ [] ∨ first = false → i'.rot.reset = r0 ∧ i'.hwp.reset = h0 ∧
          ∃ e, w.resetEl i'.el = .ok e ∧ P false e) := by
  induction ps with
  | nil =>
    intro first i os _ hs hch hR hm
    refine ⟨i, rfl, by simpa using hm, hch, ?_⟩
    rintro (h | rfl)
    · exact (h rfl).elim
    · exact hs
  | cons p ps ih =>
    intro first i os hgood hstart hch hR hm
    have hone : ∃ e0, (if first then i.rot = r0 ∧ i.hwp = h0 ∧ i.el = e0
        else i.rot.reset = r0 ∧ i.hwp.reset = h0 ∧ w.resetEl i.el = .ok e0) ∧ P first e0 := by
      cases first with
      | true =>
        obtain ⟨a, b, c⟩ := hstart
        exact ⟨i.el, ⟨a, b, rfl⟩, c⟩
      | false =>
        obtain ⟨a, b, e, c, d⟩ := hstart
        exact ⟨e, ⟨a, b, c⟩, d⟩
    obtain ⟨e0, hs0, hP⟩ := hone
    obtain ⟨e', q1, e'', q2, q3⟩ := hst first e0 hP
    have hg : PairGood w M G mission o R (p.getD (none, none)) (val (p.getD (none, none))) := by
      cases p with
      | none => exact pairGood_none _ _ _ _ _ _ _
      | some p => exact hgood p (by simp)
    obtain ⟨i1, k1, k2, k3, k4, k5, k7, k6⟩ := pass_spec w hq hns M G o hbin hgr (p.getD (none, none))
      R (val (p.getD (none, none))) N mission hmi hg first i r0 h0 e0 e' hs0 hr q1 hmv hch hR os hm
    obtain ⟨i2, g1, g2, g3, g4⟩ := ih false i1 _ (fun p' hp' => hgood p' (by
        cases p with
        | none => simpa using hp'
        | some p => exact List.mem_cons_of_mem _ (by simpa using hp')))
      ⟨k2.trans hr0, k3.trans hh0, e'', by rw [k4]; exact q2, q3⟩ k5 k7 k6
    refine ⟨i2, ?_, ?_, g3, fun _ => g4 (.inr rfl)⟩
    · unfold scanLoop
      rw [k1]
      exact g1
    · rw [g2, List.append_assoc]
      congr 2
      cases p with
      | none =>
        have : missionObs w M o N (val (none, none)) (none, none) = [] := by
          unfold missionObs
          rw [List.flatMap_eq_nil_iff]
          intro t _
          unfold pairObs
          simp [live]
        simp [this]
      | some p => simp

theorem all_spec (w : World E) (hq : PixOk w.q) (hns : 0 < w.nsideOut) (M : Motion) (G : Nat → Quat.Q)
    (o : Opts) (hbin : o.binning = true) (hgr : o.ground = true)
    (R : Spinmaps SpinDict → Prop) (val : Pair → BinBeam → Nat → ℝ) (N : Nat) (mission : List Chunk) (hmi : Mission N mission)
    (i : Inst E) (hi : Ready w mission i) (hmv : Moves w.fsamp M i.rot i.hwp mission)
    (hst : Steady w M G mission i.el) (hR : R i.st.maps) (beams : List Pair) (size : Nat) (hsize : 0 < size)
    (hgood : ∀ p ∈ beams, PairGood w M G mission o R p (val p)) :
    scanAll w o beams true size i = .ok (mapsOf (12 * w.nsideOut ^ 2)
      (beams.flatMap fun p => missionObs w M o N (val p) p)) := by
  obtain ⟨work, w1, w2, w3, -⟩ := C03_every_pair_scanned_once beams size hsize
  obtain ⟨P, p1, p2⟩ := hst
  have hrot := ready_rot hi
  have hmem : ∀ l ∈ work, ∀ p ∈ l.filterMap id, p ∈ beams := by
    intro l hl p hp
    rw [← w3]
    exact List.mem_flatten.2 ⟨_, List.mem_map_of_mem hl, hp⟩
  have hone : ∀ l ∈ work, ∃ i', scanLoop w o true l i = .ok i' ∧
      i'.maps = mapsOf (12 * w.nsideOut ^ 2)
        ((l.filterMap id).flatMap fun p => missionObs w M o N (val p) p) := by
    intro l hl
    obtain ⟨i', g1, g2, -⟩ := loop_spec w hq hns M G o hbin hgr R val N mission hmi i.rot i.hwp hrot hi.rot
      hi.hwp hmv P p2 l true i [] (fun p hp => hgood p (hmem l hl p hp)) ⟨rfl, rfl, p1⟩ hi.chunks hR
      (by rw [hi.maps, mapsOf_nil])
    exact ⟨i', g1, by simpa using g2⟩
  have hmap : ∃ is, (List.range size).mapM (fun r => scanInstrument w o beams true size r i) =
      Except.ok (ε := PyErr) is ∧ is.map (·.maps) = (work.map fun l => (l.filterMap id).flatMap fun p =>
        missionObs w M o N (val p) p).map (mapsOf (12 * w.nsideOut ^ 2)) := by
    have hw : work = (List.range size).map fun r => (work[r]?).getD [] := by
      apply List.ext_getElem (by simp [w1])
      intro k h1 h2
      simp [h1]
    have hlist : ∀ rs : List Nat, (∀ r ∈ rs, r < size) → ∃ is,
        rs.mapM (fun r => scanInstrument w o beams true size r i) = Except.ok (ε := PyErr) is ∧
        is.map (·.maps) = ((rs.map fun r => (work[r]?).getD []).map fun l =>
          (l.filterMap id).flatMap fun p =>
            missionObs w M o N (val p) p).map (mapsOf (12 * w.nsideOut ^ 2)) := by
      intro rs
      induction rs with
      | nil => exact fun _ => ⟨[], rfl, rfl⟩
      | cons r rs ih =>
        intro hrs
        obtain ⟨is, e1, e2⟩ := ih fun r hr => hrs r (List.mem_cons_of_mem _ hr)
        have hr := hrs r List.mem_cons_self
        have hlt : r < work.length := by omega
        have hwr := w2 r hr
        rw [List.getElem?_eq_getElem hlt] at hwr
        obtain ⟨i', g1, g2⟩ := hone work[r] (List.getElem_mem hlt)
        refine ⟨i' :: is, ?_, ?_⟩
        · rw [List.mapM_cons]
          unfold scanInstrument
          rw [← Option.some.inj hwr]
          simp only [bind, Except.bind]
          rw [g1]
          dsimp only
          have e1' := e1
          unfold scanInstrument at e1'
          simp only [bind, Except.bind] at e1'
          rw [e1']
          rfl
        · simp only [List.map_cons, List.getElem?_eq_getElem hlt, Option.getD_some]
          rw [e2, g2]
    obtain ⟨is, e1, e2⟩ := hlist (List.range size) fun r hr => List.mem_range.1 hr
    refine ⟨is, e1, ?_⟩
    rw [e2, ← hw]
  obtain ⟨is, e1, e2⟩ := hmap
  unfold scanAll
  rw [e1]
  simp only [bind, Except.bind, pure, Except.pure]
  rw [e2, hi.maps]
  have hlen : (allocateMaps w.nsideOut).length = 12 * w.nsideOut ^ 2 := by simp [allocateMaps]
  rw [hlen, reduce_mapsOf]
  congr 2
  rw [← w3]
  simp only [List.flatMap_def, List.map_flatten, List.flatten_flatten, List.map_map]
  rfl

/-! ### detectors -/

theorem pairGood_scan (w : World E) (hx : ExtOk w.x) (M : Motion) (G : Nat → Quat.Q)
    (mission : List Chunk) (o : Opts) (hpre : o.preview = false) (hre : o.reuseSpinmaps = false)
    (nside : Nat) (sm : Spinmaps SpinDict) (p : Pair) (hm : MapsOk w nside sm p) :
    PairGood w M G mission o (fun _ => True) p (detects M G w.x o.interp nside sm) := by
  rcases hm with rfl | ⟨a, h1, h2, h3, h4⟩
  · exact pairGood_none _ _ _ _ _ _ _
  · refine ⟨fun m => m = sm, ?_, fun i _ => ⟨sm, true, ?_, rfl, trivial⟩⟩
    · intro s st flag t0 i n hat hG hQ b hb t
      obtain ⟨e1, e2, d, e3, e4⟩ := h4 b hb
      have := scanOne_spec w hx M G mission o hpre flag b s { st with tod := t } t0 i n
        (hat.tod t) (hG.tod t) nside h3 (live_of hb) e1 (by rw [hQ]; exact e2) d (by rw [hQ]; exact e3) e4
      rw [this, hQ]
    · obtain ⟨p1, p2⟩ := p
      obtain rfl : p1 = some a := h1
      unfold initPair
      simp only [hpre, hre, Bool.and_false, Bool.false_eq_true, if_false, h2, bind, Except.bind,
        pure, Except.pure]

theorem scanOne_preview (w : World E) (hx : ExtOk w.x) (M : Motion) (G : Nat → Quat.Q)
    (mission : List Chunk) (o : Opts) (hpre : o.preview = true) (flag : Option (List Bool))
    (b : BinBeam) (s : Sub) (st : State) (t0 i n : Nat) (h : At M mission s st flag t0 i n)
    (hG : GroundAt G mission s st t0 i n) (nside : Nat) (hns : 0 < nside)
    (hb : b.beam.dead = false) (hg : b.beam.ghost = false) (d : SpinDict)
    (hd : st.maps.ground = some d) (hground : DictOk (12 * nside ^ 2) d) :
    scanOne w.x mission o b s true st = .ok { st with
      tod := some ((List.range n).map fun k => pickup M G w.x o.interp nside d b.beam (t0 + k)) } := by
  obtain ⟨l, l1, l2, l3⟩ := hG
  obtain ⟨c, _, _, hn⟩ := h.sub.chunk
  unfold scanOne
  rw [if_pos hpre, if_pos rfl, if_neg (by simp [hg])]
  obtain ⟨m', t, h1, h2⟩ := ghostSkips_spec s n hn b.ghosts 0 st (by simp)
  rw [h1]
  simp only [bind, Except.bind]
  obtain ⟨ret, h3, -⟩ := scan_spec w.x hx mission { st with tod := t } b.beam s true o.interp
    (decide (0 < m')) nside i n hns l (l2.tod t) d hground (by simpa using l1) (by simp [mapsFor, hd])
    hb (by
      intro hm t' ht'
      have := h2 (by simpa using Nat.pos_iff_ne_zero.1 (by simpa using hm))
      rw [this] at ht'
      cases ht'
      simp)
  rw [h3]
  dsimp only
  have e : added (decide (0 < m')) t n (measures w.x { st with tod := t } o.interp nside i l d b.beam) =
      (List.range n).map fun k => pickup M G w.x o.interp nside d b.beam (t0 + k) := by
    have hk : ∀ k ∈ List.range n, measures w.x { st with tod := t } o.interp nside i l d b.beam k =
        pickup M G w.x o.interp nside d b.beam (t0 + k) := by
      intro k hk
      exact measures_ground w.x M G mission s _ flag t0 i n (h.tod t) l l3 o.interp nside d b.beam k
        (List.mem_range.1 hk)
    unfold added
    by_cases hm : m' = 0
    · rw [hm]
      exact List.map_congr_left hk
    · rw [List.map_congr_left hk, h2 hm, decide_eq_true (Nat.pos_of_ne_zero hm)]
      dsimp only
      apply List.ext_getElem (by simp)
      intro k k1 k2
      simp
  rw [e]
  unfold scanSkip
  rw [if_neg (by simp [hb])]
  have e' : (s.stop - s.start).toNat = n := by omega
  rw [e']
  unfold addTod iadd
  simp only [bind, Except.bind, pure, Except.pure]
  rw [if_pos (by simp)]
  dsimp only
  congr 3
  apply List.ext_getElem (by simp)
  intro k k1 k2
  simp

theorem pairGood_preview (w : World E) (hx : ExtOk w.x) (M : Motion) (G : Nat → Quat.Q)
    (mission : List Chunk) (o : Opts) (hpre : o.preview = true) (nside : Nat) (hns : 0 < nside)
    (d : SpinDict) (hd : DictOk (12 * nside ^ 2) d) (p : Pair)
    (hg : ∀ b, (live p.1 = some b ∨ live p.2 = some b) → b.beam.ghost = false) :
    PairGood w M G mission o (fun m => m.ground = some d) p
      fun b => pickup M G w.x o.interp nside d b.beam := by
  refine ⟨fun m => m.ground = some d, ?_, fun i h => ⟨i.st.maps, i.hasMaps, ?_, h, h⟩⟩
  · intro s st flag t0 i n hat hG hQ b hb t
    exact scanOne_preview w hx M G mission o hpre flag b s { st with tod := t } t0 i n (hat.tod t)
      (hG.tod t) nside hns (live_of hb) (hg b hb) d hQ hd
  · unfold initPair
    split
    · rfl
    · rw [if_pos hpre]

/-! ### sums of signals -/

theorem vecAt_append (a b : List Obs) (p : Nat) : vecAt (a ++ b) p = vecAt a p + vecAt b p := by
  rw [← cellAt_vec, ← cellAt_vec, ← cellAt_vec, cellAt_append]
  rfl

theorem vecAt_flatMap {α : Type} (l : List α) (f g h : α → List Obs) (p : Nat)
    (H : ∀ a ∈ l, vecAt (f a) p = vecAt (g a) p + vecAt (h a) p) :
    vecAt (l.flatMap f) p = vecAt (l.flatMap g) p + vecAt (l.flatMap h) p := by
  induction l with
  | nil => simp [vecAt, here]
  | cons a l ih =>
    simp only [List.flatMap_cons, vecAt_append]
    rw [H a List.mem_cons_self, ih fun a ha => H a (List.mem_cons_of_mem _ ha)]
    ring

theorem vecAt_one (M : Motion) (x : Ext) (q : QExt) (varphi : ℝ) (nsideOut : Nat) (b : BinBeam)
    (t : Nat) (d e : ℝ) (p : Nat) : vecAt [obsAt M x q varphi nsideOut b t (d + e)] p =
      vecAt [obsAt M x q varphi nsideOut b t d] p + vecAt [obsAt M x q varphi nsideOut b t e] p := by
  unfold vecAt here obsAt
  dsimp only
  by_cases h : (q.quat2pix (M.bore t) (q.hwpQuat (M.alpha t * 180 / Real.pi - varphi))
    (binOff (offset x (M.rot t) b.beam) b.polangBin) (M.time t) nsideOut).1 = (p : Int)
  · simp only [List.filter_cons, h]
    simp
    funext i
    simp [Obs.w]
    fin_cases i <;> simp <;> ring
  · simp [List.filter_cons, h]

theorem vecAt_pair (M : Motion) (x : Ext) (q : QExt) (varphi : ℝ) (nsideOut : Nat) (c : ℝ)
    (f g : BinBeam → Nat → ℝ) (p : Pair) (t : Nat) (k : Nat) :
    vecAt (pairObs M x q varphi nsideOut c (fun b t => f b t + g b t) p t) k =
      vecAt (pairObs M x q varphi nsideOut c f p t) k +
        vecAt (pairObs M x q varphi nsideOut c g p t) k := by
  unfold pairObs
  split
  · simp [vecAt, here]
  · split
    · rename_i a b _ _
      have h : ∀ u v : Obs, [u, v] = [u] ++ [v] := fun _ _ => rfl
      simp only [h, vecAt_append]
      have e1 : f a t + g a t + c * (f b t + g b t) = (f a t + c * f b t) + (g a t + c * g b t) := by ring
      have e2 : f b t + g b t + c * (f a t + g a t) = (f b t + c * f a t) + (g b t + c * g a t) := by ring
      rw [e1, e2, vecAt_one M x q varphi nsideOut a t (f a t + c * f b t),
        vecAt_one M x q varphi nsideOut b t (f b t + c * f a t)]
      abel
    · exact vecAt_one ..
    · exact vecAt_one ..
    · simp [vecAt, here]

end Verif.ScanInstrument.Ground
