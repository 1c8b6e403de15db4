import Verif.Spec.ScanInstrument
import Verif.Lemmas.Recovery
import Verif.Lemmas.Observe
import Verif.Props.Convolution
import Verif.Lemmas.Data
import Verif.Lemmas.ImplementScan
import Verif.Props.Timeline
import Verif.Props.Signal
import Verif.Props.Hwp
import Verif.Props.Mpi
import Verif.Props.Chunks

/-! # Lemmas: a whole scan -/

noncomputable section

namespace Verif.ScanInstrument

open Verif.Chunks Verif.Timeline Verif.Spinmaps Verif.MapMaking Verif.Spec Verif.Props

variable {E : Type}

theorem mapsOf_perm {N : Nat} {a b : List Obs} (h : a.Perm b) : mapsOf N a = mapsOf N b := by
  unfold mapsOf
  apply List.map_congr_left
  intro p _
  exact cellAt_perm h p

/-- Flag of sample `j` of a chunk. -/
def flagAt (flag : Option (List Bool)) (j : Nat) : Bool :=
  match flag with
  | some f => (f[j]?).getD false
  | none => false

/-- The attributes during a subchunk of `n` samples, which begins with sample `t0` of the mission and
`i` samples after the start of its chunk, are those of `M`. -/
structure At (M : Motion) (mission : List Chunk) (s : Sub) (st : State)
    (flag : Option (List Bool)) (t0 i n : Nat) : Prop where
  sub : SubOk mission st st.qBore s i n
  hwp : st.hwpAng ≠ none
  flags : ∀ f, flag = some f → i + n ≤ f.length
  time : ∀ k, k < n → st.ctime[i + k]? = some (M.time (t0 + k))
  bore : ∀ k, k < n → st.qBore[i + k]? = some (M.bore (t0 + k))
  rot : ∀ k, k < n → M.rot (t0 + k) = st.rotAngle
  alpha : ∀ k, k < n → M.alpha (t0 + k) = alphaAt st.hwpAng k
  flag : ∀ k, k < n → flagAt flag (i + k) = M.flag (t0 + k)

theorem At.tod {M : Motion} {mission : List Chunk} {s : Sub} {st : State}
    {flag : Option (List Bool)} {t0 i n : Nat} (h : At M mission s st flag t0 i n)
    (t : Option (List ℝ)) : At M mission s { st with tod := t } flag t0 i n :=
  ⟨⟨h.sub.chunk, h.sub.times, h.sub.bore, h.sub.hwp⟩, h.hwp, h.flags, h.time, h.bore, h.rot,
    h.alpha, h.flag⟩

theorem binOne_spec (w : World E) (hq : PixOk w.q) (hns : 0 < w.nsideOut) (M : Motion)
    (mission : List Chunk) (o : Opts) (hbin : o.binning = true) (flag : Option (List Bool))
    (b : BinBeam) (s : Sub) (st : State) (t0 i n : Nat) (h : At M mission s st flag t0 i n)
    (tod : List ℝ) (ht : tod.length = n) (os : List Obs) :
    binOne w mission o flag b s st tod (mapsOf (12 * w.nsideOut ^ 2) os) =
      .ok (mapsOf (12 * w.nsideOut ^ 2) (os ++
        ((List.range n).filter fun k => !M.flag (t0 + k)).map fun k =>
          obsAt M w.x w.q w.varphi w.nsideOut b (t0 + k) ((tod[k]?).getD 0))) := by
  unfold binOne
  rw [if_pos hbin, binTod_spec w.q hq mission ⟨w.varphi, w.nsideOut, flag⟩ hns st _ b.polangBin s i n
    ⟨h.sub, h.hwp, h.flags⟩ tod ht os]
  congr 3
  unfold observations
  have e : ((List.range n).filter fun k => !flagged ⟨w.varphi, w.nsideOut, flag⟩ i k) =
      (List.range n).filter fun k => !M.flag (t0 + k) := by
    apply List.filter_congr
    intro k hk
    rw [← h.flag k (List.mem_range.1 hk)]
    cases flag <;> rfl
  rw [e]
  apply List.map_congr_left
  intro k hk
  have hk := List.mem_range.1 (List.mem_filter.1 hk).1
  unfold obsAt
  rw [h.time k hk, h.bore k hk, h.rot k hk, h.alpha k hk]
  rfl

theorem measures_motion (x : Ext) (M : Motion) (mission : List Chunk) (s : Sub) (st : State)
    (flag : Option (List Bool)) (t0 i n : Nat) (h : At M mission s st flag t0 i n) (interp : Bool)
    (nside : Nat) (d : SpinDict) (b : Timeline.Beam) (k : Nat) (hk : k < n) :
    measures x st interp nside i st.qBore d b k = M.signal x interp nside d b (t0 + k) := by
  unfold measures Motion.signal
  rw [h.time k hk, h.bore k hk, h.rot k hk, h.alpha k hk]
  rfl

theorem scanOne_spec (w : World E) (hx : ExtOk w.x) (M : Motion) (mission : List Chunk) (o : Opts)
    (hpre : o.preview = false) (flag : Option (List Bool)) (b : BinBeam) (s : Sub) (st : State)
    (t0 i n : Nat) (h : At M mission s st flag t0 i n) (nside : Nat) (hns : 0 < nside)
    (hb : b.beam.dead = false) (hg : b.beam.ghost = false)
    (hmain : DictOk (12 * nside ^ 2) st.maps.main)
    (hghost : ∀ g ∈ b.ghosts, g.dead = false → g.ghost = true ∧
        ∃ d, pyGet st.maps.ghosts g.ghostIdx = .ok (some d) ∧ DictOk (12 * nside ^ 2) d) :
    scanOne w.x mission o b s false st = .ok { st with
      tod := some ((List.range n).map fun k => detects M w.x o.interp nside st.maps b (t0 + k)) } := by
  unfold scanOne
  rw [if_neg (by simp [hpre])]
  obtain ⟨ret, tod, h1, h2, h3⟩ := C46_detector_timeline w.x hx mission b.beam b.ghosts s o.interp
    false st nside i n hns h.sub hb hg hmain (ghostMaps st.maps) (by
      intro g hgm hgd
      obtain ⟨e1, d, e2, e3⟩ := hghost g hgm hgd
      have : ghostMaps st.maps g = d := by
        unfold ghostMaps
        rw [e2]
      rw [this]
      exact ⟨e1, e2, e3⟩)
  rw [h1]
  simp only [bind, Except.bind, pure, Except.pure]
  rw [h3]
  congr 3
  apply List.map_congr_left
  intro k hk
  have hk := List.mem_range.1 hk
  unfold detects
  rw [measures_motion w.x M mission s st flag t0 i n h o.interp nside _ _ k hk]
  congr 2
  apply List.map_congr_left
  intro g _
  rw [measures_motion w.x M mission s st flag t0 i n h o.interp nside _ _ k hk]

theorem live_dead {b : Option BinBeam} {c : BinBeam} (h : live b = some c) :
    c.beam.dead = false := by
  unfold live at h
  split at h
  · split at h
    · cases h
    · obtain rfl := Option.some.inj h
      exact eq_false_of_ne_true ‹_›
  · cases h

theorem live_some {b : Option BinBeam} {c : BinBeam} (h : live b = some c) : b = some c := by
  unfold live at h
  split at h
  · split at h
    · cases h
    · exact h
  · cases h

theorem scanOne_preview (w : World E) (M : Motion) (mission : List Chunk) (o : Opts)
    (hpre : o.preview = true) (flag : Option (List Bool)) (b : BinBeam) (s : Sub) (st : State)
    (t0 i n : Nat) (h : At M mission s st flag t0 i n)
    (hb : b.beam.dead = false) (hg : b.beam.ghost = false) :
    scanOne w.x mission o b s false st =
      .ok { st with tod := some ((List.range n).map fun _ => (0 : ℝ)) } := by
  unfold scanOne
  obtain ⟨c, _, _, hn⟩ := h.sub.chunk
  rw [if_pos hpre, if_neg (by simp), previewDetector_spec s n hn b.beam b.ghosts st hb hg]
  simp [List.map_const']

theorem two_lists {α β : Type} (l : List α) (p : α → Bool) (f g : α → β) :
    ((l.filter p).map f ++ (l.filter p).map g).Perm
      (l.flatMap fun k => if p k = false then [] else [f k, g k]) := by
  induction l with
  | nil => simp
  | cons a l ih =>
    by_cases h : p a = true
    · rw [List.filter_cons_of_pos h, List.flatMap_cons, if_neg (by simp [h])]
      simp only [List.map_cons, List.cons_append, List.nil_append]
      refine .cons _ ?_
      refine List.perm_middle.trans ?_
      exact .cons _ ih
    · rw [List.filter_cons_of_neg h, List.flatMap_cons, if_pos (by simpa using h)]
      simpa using ih

theorem one_list {α β : Type} (l : List α) (p : α → Bool) (f : α → β) :
    (l.filter p).map f = l.flatMap fun k => if p k = false then [] else [f k] := by
  induction l with
  | nil => simp
  | cons a l ih =>
    by_cases h : p a = true
    · rw [List.filter_cons_of_pos h, List.flatMap_cons, if_neg (by simp [h])]
      simp [ih]
    · rw [List.filter_cons_of_neg h, List.flatMap_cons, if_pos (by simpa using h)]
      simpa using ih

/-- `scanOne` gives the values `val` for the live detectors of a pair. -/
def ScansAs (w : World E) (mission : List Chunk) (o : Opts) (p : Pair) (s : Sub) (st : State)
    (t0 n : Nat) (val : BinBeam → Nat → ℝ) : Prop :=
  ∀ b, (live p.1 = some b ∨ live p.2 = some b) → ∀ t,
    scanOne w.x mission o b s false { st with tod := t } =
      .ok { st with tod := some ((List.range n).map fun k => val b (t0 + k)) }

theorem scanBinOne_spec (w : World E) (hq : PixOk w.q) (hns : 0 < w.nsideOut) (M : Motion)
    (mission : List Chunk) (o : Opts) (hbin : o.binning = true) (flag : Option (List Bool))
    (p : Pair) (s : Sub) (st : State) (t0 i n : Nat) (h : At M mission s st flag t0 i n)
    (val : BinBeam → Nat → ℝ) (hval : ScansAs w mission o p s st t0 n val) (b : BinBeam)
    (hb : live p.1 = some b ∨ live p.2 = some b) (t : Option (List ℝ)) (os : List Obs) :
    ∃ t', scanBinOne w mission o flag s false b { st with tod := t } (mapsOf (12 * w.nsideOut ^ 2) os) =
      .ok ({ st with tod := t' }, mapsOf (12 * w.nsideOut ^ 2) (os ++
        ((List.range n).filter fun k => !M.flag (t0 + k)).map fun k =>
          obsAt M w.x w.q w.varphi w.nsideOut b (t0 + k) (val b (t0 + k)))) := by
  unfold scanBinOne
  rw [hval b hb t]
  simp only [bind, Except.bind, todOfState]
  rw [binOne_spec w hq hns M mission o hbin flag b s _ t0 i n (h.tod _) _ (by simp) os]
  refine ⟨some ((List.range n).map fun k => val b (t0 + k)), ?_⟩
  simp only [pure, Except.pure]
  congr 4
  apply List.map_congr_left
  intro k hk
  have hk := List.mem_range.1 (List.mem_filter.1 hk).1
  congr 1
  simp [hk]

theorem scanMix_spec (w : World E) (hq : PixOk w.q) (hns : 0 < w.nsideOut) (M : Motion)
    (mission : List Chunk) (o : Opts) (hbin : o.binning = true) (flag : Option (List Bool))
    (p : Pair) (s : Sub) (st : State) (t0 i n : Nat) (h : At M mission s st flag t0 i n)
    (val : BinBeam → Nat → ℝ) (hval : ScansAs w mission o p s st t0 n val) (a b : BinBeam)
    (ha : live p.1 = some a) (hb : live p.2 = some b) (t : Option (List ℝ)) (os : List Obs) :
    ∃ t', scanMix w mission o flag s false a b { st with tod := t } (mapsOf (12 * w.nsideOut ^ 2) os) =
      .ok ({ st with tod := t' }, mapsOf (12 * w.nsideOut ^ 2) (os ++
        (((List.range n).filter fun k => !M.flag (t0 + k)).map fun k =>
          obsAt M w.x w.q w.varphi w.nsideOut a (t0 + k)
            (val a (t0 + k) + o.ctalk * val b (t0 + k))) ++
        ((List.range n).filter fun k => !M.flag (t0 + k)).map fun k =>
          obsAt M w.x w.q w.varphi w.nsideOut b (t0 + k)
            (val b (t0 + k) + o.ctalk * val a (t0 + k)))) := by
  unfold scanMix
  rw [hval a (.inl ha) t]
  simp only [bind, Except.bind, todOfState]
  rw [hval b (.inr hb) _]
  dsimp only
  obtain ⟨a', b', h1, h2, h3, h4⟩ := C27_cross_talk ((List.range n).map fun k => val a (t0 + k))
    ((List.range n).map fun k => val b (t0 + k)) o.ctalk (by simp)
  rw [h1]
  dsimp only
  rw [binOne_spec w hq hns M mission o hbin flag a s _ t0 i n (h.tod _) _ (by simpa using h2) os]
  dsimp only
  rw [binOne_spec w hq hns M mission o hbin flag b s _ t0 i n (h.tod _) _ (by simpa using h3) _]
  refine ⟨some b', ?_⟩
  simp only [pure, Except.pure]
  congr 4
  · congr 1
    apply List.map_congr_left
    intro k hk
    have hk := List.mem_range.1 (List.mem_filter.1 hk).1
    rw [(h4 k (val a (t0 + k)) (val b (t0 + k)) (by simp [hk]) (by simp [hk])).1]
    rfl
  · apply List.map_congr_left
    intro k hk
    have hk := List.mem_range.1 (List.mem_filter.1 hk).1
    rw [(h4 k (val a (t0 + k)) (val b (t0 + k)) (by simp [hk]) (by simp [hk])).2]
    rfl

theorem scanPair_spec (w : World E) (hq : PixOk w.q) (hns : 0 < w.nsideOut) (M : Motion)
    (mission : List Chunk) (o : Opts) (hbin : o.binning = true) (flag : Option (List Bool))
    (p : Pair) (s : Sub) (st : State) (t0 i n : Nat) (h : At M mission s st flag t0 i n)
    (val : BinBeam → Nat → ℝ) (hval : ScansAs w mission o p s st t0 n val) (os : List Obs) :
    ∃ t', scanPair w mission o flag p s false st (mapsOf (12 * w.nsideOut ^ 2) os) =
      .ok ({ st with tod := t' }, mapsOf (12 * w.nsideOut ^ 2) (os ++
        (List.range n).flatMap fun k => pairObs M w.x w.q w.varphi w.nsideOut o.ctalk val p
          (t0 + k))) := by
  have hst : st = { st with tod := st.tod } := rfl
  unfold scanPair
  rcases ha : live p.1 with _ | a <;> rcases hb : live p.2 with _ | b <;> dsimp only
  · refine ⟨st.tod, ?_⟩
    have : (List.range n).flatMap (fun k => pairObs M w.x w.q w.varphi w.nsideOut o.ctalk val p
          (t0 + k)) = [] := by
      rw [List.flatMap_eq_nil_iff]
      intro k _
      unfold pairObs
      rw [ha, hb]
      simp
    rw [this, List.append_nil]
  · obtain ⟨t', e⟩ := scanBinOne_spec w hq hns M mission o hbin flag p s st t0 i n h val hval b
      (.inr hb) st.tod os
    refine ⟨t', ?_⟩
    rw [hst, e, one_list]
    unfold pairObs
    rw [ha, hb]
    simp
  · obtain ⟨t', e⟩ := scanBinOne_spec w hq hns M mission o hbin flag p s st t0 i n h val hval a
      (.inl ha) st.tod os
    refine ⟨t', ?_⟩
    rw [hst, e, one_list]
    unfold pairObs
    rw [ha, hb]
    simp
  · by_cases hc : o.ctalk = 0
    · rw [if_neg (by simp [hc])]
      obtain ⟨t', e⟩ := scanBinOne_spec w hq hns M mission o hbin flag p s st t0 i n h val hval a
        (.inl ha) st.tod os
      obtain ⟨t'', e'⟩ := scanBinOne_spec w hq hns M mission o hbin flag p s st t0 i n h val hval b
        (.inr hb) t' (os ++ ((List.range n).filter fun k => !M.flag (t0 + k)).map fun k =>
          obsAt M w.x w.q w.varphi w.nsideOut a (t0 + k) (val a (t0 + k)))
      refine ⟨t'', ?_⟩
      rw [hst, e]
      simp only [bind, Except.bind]
      rw [e']
      congr 2
      apply mapsOf_perm
      rw [List.append_assoc]
      apply List.Perm.append_left
      refine (two_lists _ _ _ _).trans (List.Perm.of_eq ?_)
      unfold pairObs
      rw [ha, hb, hc]
      simp
    · rw [if_pos hc]
      obtain ⟨t', e⟩ := scanMix_spec w hq hns M mission o hbin flag p s st t0 i n h val hval a b
        ha hb st.tod os
      refine ⟨t', ?_⟩
      rw [hst, e]
      congr 2
      apply mapsOf_perm
      rw [List.append_assoc]
      apply List.Perm.append_left
      refine (two_lists _ _ _ _).trans (List.Perm.of_eq ?_)
      unfold pairObs
      rw [ha, hb]
      simp

/-! ### angles of a subchunk -/

theorem pyClip_le (n : Nat) (i : Int) : pyClip n i ≤ n := by
  unfold pyClip
  split <;> omega

theorem addSlice_length {K : Type} [Add K] (arr : List K) (i j : Int) (v : K) :
    (Step.addSlice arr i j v).length = arr.length := by
  have h1 := pyClip_le arr.length i
  have h2 := pyClip_le arr.length j
  unfold Step.addSlice
  simp only [List.length_append, List.length_map, List.length_take, List.length_drop]
  omega

theorem stepLoop_length {K : Type} [Add K] (stepSize : Int) (k : Nat) :
    ∀ (s : Int) (a : K) (arr : List K) (g : Gen K) (r : List K × Int × K × Gen K),
      Step.stepLoop stepSize k s a arr g = .ok r → r.1.length = arr.length := by
  induction k with
  | zero =>
    intro s a arr g r h
    obtain rfl := Except.ok.inj h
    rfl
  | succ k ih =>
    intro s a arr g r h
    unfold Step.stepLoop at h
    obtain ⟨x, _, h⟩ := bind_ok h
    rw [ih _ _ _ _ _ h, addSlice_length]

theorem stepArray_length {K : Type} [Add K] (arr : List K) (d : Step.StepDict K) (g : Gen K)
    (r : List K × Step.StepDict K × Gen K) (h : Step.stepArray arr d g = .ok r) :
    r.1.length = arr.length := by
  unfold Step.stepArray at h
  dsimp only at h
  split at h
  · cases h
  generalize (if ceilDiv (↑arr.length - d.remainder) d.stepSize < 1 then 1
    else ceilDiv (↑arr.length - d.remainder) d.stepSize) = ns at h
  split at h
  · split at h
    · obtain rfl := Except.ok.inj h
      exact addSlice_length _ _ _ _
    · obtain ⟨x, _, h⟩ := bind_ok h
      obtain rfl := Except.ok.inj h
      simp [addSlice_length]
  · obtain ⟨x, hx, h⟩ := bind_ok h
    obtain ⟨y, _, h⟩ := bind_ok h
    obtain rfl := Except.ok.inj h
    have := stepLoop_length _ _ _ _ _ _ _ hx
    dsimp only
    rw [addSlice_length, this]
    split <;> simp [addSlice_length]

theorem rotateHwp_length (fsamp : ℝ) (h h1 : Hwp.State ℝ) (ha : Option ℝ) (a b : Int)
    (l : List ℝ) (e : Hwp.rotateHwp Real.pi fsamp h ha a b = .ok (some (.array l), h1)) :
    l.length = (b - a).toNat := by
  unfold Hwp.rotateHwp at e
  dsimp only at e
  split at e
  · split at e
    · split at e <;> cases e
    · cases e
  split at e
  · split at e
    · cases e
    split at e
    · cases e
    obtain ⟨x, _, e⟩ := bind_ok e
    cases e
    simp [Hwp.linspace]
  · split at e
    · cases e
    obtain ⟨x, hx, e⟩ := bind_ok e
    obtain ⟨y, _, e⟩ := bind_ok e
    have := stepArray_length _ _ _ _ hx
    cases e
    simpa using this
  · cases e

theorem alphaAt_ang (a : Hwp.Ang ℝ) (k : Nat) : alphaAt (some (hwpAngOf a)) k = angAt a k := by
  cases a <;> rfl

theorem range'_flatMap {β : Type} (f : Nat → List β) (a n : Nat) :
    ((List.range n).flatMap fun k => f (a + k)) = (List.range' a n).flatMap f := by
  rw [List.range'_eq_map_range, List.flatMap_map]

/-! ### subchunks, chunks, passes -/

/-- The detectors of a pair give the values `val`, whenever the spin maps meet `Q`. -/
def Gives (w : World E) (M : Motion) (mission : List Chunk) (o : Opts) (p : Pair)
    (Q : Spinmaps SpinDict → Prop) (val : BinBeam → Nat → ℝ) : Prop :=
  ∀ s st flag t0 i n, At M mission s st flag t0 i n → Q st.maps →
    ScansAs w mission o p s st t0 n val

/-- What the loop over subchunks leaves alone. -/
structure Same (i i' : Inst E) : Prop where
  el : i'.el = i.el
  flag : i'.flag = i.flag
  hasMaps : i'.hasMaps = i.hasMaps
  chunks : i'.chunks = i.chunks
  ctime : i'.st.ctime = i.st.ctime
  qBore : i'.st.qBore = i.st.qBore
  spin : i'.st.maps = i.st.maps

theorem Same.trans {a b c : Inst E} (h : Same a b) (h' : Same b c) : Same a c :=
  ⟨h'.el.trans h.el, h'.flag.trans h.flag, h'.hasMaps.trans h.hasMaps, h'.chunks.trans h.chunks,
    h'.ctime.trans h.ctime, h'.qBore.trans h.qBore, h'.spin.trans h.spin⟩

theorem at_sub (M : Motion) (mission : List Chunk) (c : Chunk) (cidx : Int)
    (hc : pyGet mission cidx = .ok c) (h0 : 0 ≤ c.start) (pt : Pointing) (hpt : PointsAt M c pt)
    (fsamp : ℝ) (s : Chunk) (h1 h2 : Hwp.State ℝ) (x : Option ℝ) (ang : Hwp.Ang ℝ) (rot : ℝ)
    (e2 : Hwp.rotateHwp Real.pi fsamp h1 x s.start s.stop = .ok (some ang, h2))
    (e3 : ∀ t : Nat, s.start ≤ t → (t : Int) < s.stop →
        M.rot t = rot ∧ M.alpha t = angAt ang (t - s.start.toNat))
    (ha : c.start ≤ s.start) (hlt : s.start < s.stop) (hb : s.stop ≤ c.stop) (st : State)
    (hct : st.ctime = pt.ctime) (hqb : st.qBore = pt.bore) (hrot : st.rotAngle = rot)
    (hhwp : st.hwpAng = some (hwpAngOf ang)) :
    At M mission ⟨s.start, s.stop, cidx⟩ st pt.flag s.start.toNat
        (s.start - c.start).toNat (s.stop - s.start).toNat := by
  have hlen : (s.start - c.start).toNat + (s.stop - s.start).toNat ≤ (c.stop - c.start).toNat := by
    omega
  have hidx : ∀ k, c.start.toNat + ((s.start - c.start).toNat + k) = s.start.toNat + k := by
    intro k
    omega
  refine ⟨⟨⟨c, hc, ?_, ?_⟩, ?_, ?_, ?_⟩, ?_, ?_, ?_, ?_, ?_, ?_, ?_⟩
  · show s.start = _
    omega
  · show s.stop = s.start + _
    omega
  · rw [hct, hpt.times]
    simpa using hlen
  · rw [hqb, hpt.bore]
    simpa using hlen
  · intro l hl
    rw [hhwp] at hl
    cases ang with
    | scalar x => cases hl
    | array x =>
      cases hl
      exact rotateHwp_length _ _ _ _ _ _ _ e2
  · rw [hhwp]
    intro hno
    cases hno
  · intro f hf
    have := hpt.flag
    rw [hf] at this
    dsimp only at this
    rw [this]
    simpa using hlen
  · intro k hk
    rw [hct, hpt.times]
    simp only [List.getElem?_map]
    rw [List.getElem?_range (by omega), Option.map_some, hidx]
  · intro k hk
    rw [hqb, hpt.bore]
    simp only [List.getElem?_map]
    rw [List.getElem?_range (by omega), Option.map_some, hidx]
  · intro k hk
    rw [hrot]
    exact (e3 (s.start.toNat + k) (by omega) (by omega)).1
  · intro k hk
    rw [(e3 (s.start.toNat + k) (by omega) (by omega)).2, hhwp, alphaAt_ang]
    congr 1
    omega
  · intro k hk
    have := hpt.flag
    unfold flagAt
    cases hf : pt.flag with
    | none =>
      rw [hf] at this
      dsimp only at this ⊢
      rw [← hidx, this _ (by omega)]
    | some f =>
      rw [hf] at this
      dsimp only at this ⊢
      rw [this]
      simp only [List.getElem?_map]
      rw [List.getElem?_range (by omega), Option.map_some, hidx]
      rfl

theorem stepSub_spec (w : World E) (hq : PixOk w.q) (hns : 0 < w.nsideOut) (M : Motion)
    (o : Opts) (hbin : o.binning = true) (p : Pair) (Q : Spinmaps SpinDict → Prop)
    (val : BinBeam → Nat → ℝ) (c : Chunk) (cidx : Int) (i : Inst E)
    (hc : pyGet (i.chunks.map (·.1)) cidx = .ok c) (h0 : 0 ≤ c.start) (pt : Pointing)
    (hpt : PointsAt M c pt) (hval : Gives w M (i.chunks.map (·.1)) o p Q val) (s : Chunk)
    (hcx : s.cidx = some cidx) (r1 : Rot ℝ) (h1 : Hwp.State ℝ) (ang : Hwp.Ang ℝ)
    (e1 : rotStep i.rot s = .ok r1)
    (e2 : Hwp.rotateHwp Real.pi w.fsamp i.hwp (s.hwpang.map fun (a : ℚ) => (a : ℝ)) s.start s.stop =
        .ok (some ang, h1))
    (e3 : ∀ t : Nat, s.start ≤ t → (t : Int) < s.stop →
        M.rot t = r1.angle ∧ M.alpha t = angAt ang (t - s.start.toNat))
    (ha : c.start ≤ s.start) (hlt : s.start < s.stop) (hb : s.stop ≤ c.stop)
    (hfl : i.flag = pt.flag) (hct : i.st.ctime = pt.ctime) (hqb : i.st.qBore = pt.bore)
    (hQ : Q i.st.maps) (os : List Obs) (hm : i.maps = mapsOf (12 * w.nsideOut ^ 2) os) :
    ∃ i', stepSub w o p false s i = .ok i' ∧ i'.rot = r1 ∧ i'.hwp = h1 ∧ Same i i' ∧
      i'.maps = mapsOf (12 * w.nsideOut ^ 2) (os ++
          (List.range' s.start.toNat (s.stop - s.start).toNat).flatMap
            (pairObs M w.x w.q w.varphi w.nsideOut o.ctalk val p)) := by
  have hA := at_sub M _ c cidx hc h0 pt hpt w.fsamp s i.hwp h1 _ ang r1.angle e2 e3 ha hlt hb
    { i.st with rotAngle := r1.angle, hwpAng := newAng (some ang) i.st.hwpAng } hct hqb rfl rfl
  obtain ⟨t', hs⟩ := scanPair_spec w hq hns M _ o hbin pt.flag p
    ⟨s.start, s.stop, cidx⟩ _ s.start.toNat _ _ hA val (hval _ _ _ _ _ _ hA hQ) os
  unfold stepSub
  rw [e1]
  simp only [bind, Except.bind]
  rw [e2]
  dsimp only
  unfold cidxOf
  rw [hcx]
  dsimp only
  rw [hm, hfl, hs]
  dsimp only
  rw [range'_flatMap]
  exact ⟨_, rfl, rfl, rfl, ⟨rfl, hfl.symm, rfl, rfl, rfl, rfl, rfl⟩, rfl⟩

theorem subs_fold (w : World E) (hq : PixOk w.q) (hns : 0 < w.nsideOut) (M : Motion)
    (o : Opts) (hbin : o.binning = true) (p : Pair) (Q : Spinmaps SpinDict → Prop)
    (val : BinBeam → Nat → ℝ) (chunks : List (Chunk × Bool)) (c : Chunk) (cidx : Int)
    (hc : pyGet (chunks.map (·.1)) cidx = .ok c) (h0 : 0 ≤ c.start) (pt : Pointing)
    (hpt : PointsAt M c pt) (hval : Gives w M (chunks.map (·.1)) o p Q val) (subs : List Chunk) :
    ∀ (a : Int) (i : Inst E) (r' : Rot ℝ) (h' : Hwp.State ℝ) (os : List Obs),
      c.start ≤ a → Tiles a c.stop (subs.map Chunk.ivl) → (∀ s ∈ subs, s.cidx = some cidx) →
      Turns w.fsamp M i.rot i.hwp subs r' h' → i.chunks = chunks → i.flag = pt.flag →
      i.st.ctime = pt.ctime → i.st.qBore = pt.bore → Q i.st.maps →
      i.maps = mapsOf (12 * w.nsideOut ^ 2) os →
      ∃ i', subs.foldlM (fun i s => stepSub w o p false s i) i = .ok i' ∧ i'.rot = r' ∧
        i'.hwp = h' ∧ Same i i' ∧
        i'.maps = mapsOf (12 * w.nsideOut ^ 2) (os ++
          (List.range' a.toNat (c.stop - a).toNat).flatMap
            (pairObs M w.x w.q w.varphi w.nsideOut o.ctalk val p)) := by
  induction subs with
  | nil =>
    intro a i r' h' os ha ht _ htu hch hfl hct hqb hQ hm
    obtain ⟨rfl, rfl⟩ := htu
    simp only [List.map_nil] at ht
    cases ht
    refine ⟨i, rfl, rfl, rfl, ⟨rfl, rfl, rfl, rfl, rfl, rfl, rfl⟩, ?_⟩
    simp [hm]
  | cons s subs ih =>
    intro a i r' h' os ha ht hcx htu hch hfl hct hqb hQ hm
    simp only [List.map_cons] at ht
    generalize hiv : Chunk.ivl s = iv at ht
    cases ht with
    | cons hlt ht =>
    simp only [Chunk.ivl, Prod.mk.injEq] at hiv
    obtain ⟨rfl, rfl⟩ := hiv
    obtain ⟨r1, ang, h1, e1, e2, e3, e4⟩ := htu
    have hb : s.stop ≤ c.stop := tiles_le ht
    subst hch
    obtain ⟨i1, g1, g2, g3, g4, g5⟩ := stepSub_spec w hq hns M o hbin p Q val c cidx i hc h0 pt hpt
      hval s (hcx s List.mem_cons_self) r1 h1 ang e1 e2 e3 ha hlt hb hfl hct hqb hQ os hm
    obtain ⟨i2, k1, k2, k3, k4, k5⟩ := ih s.stop i1 r' h' _ (by omega) ht
      (fun s hs => hcx s (List.mem_cons_of_mem _ hs)) (by rw [g2, g3]; exact e4) g4.chunks
      (g4.flag.trans hfl) (g4.ctime.trans hct) (g4.qBore.trans hqb) (by rw [g4.spin]; exact hQ) g5
    refine ⟨i2, ?_, k2, k3, g4.trans k4, ?_⟩
    · rw [List.foldlM_cons, g1]
      exact k1
    · rw [k5, List.append_assoc, ← List.flatMap_append]
      congr 3
      have e5 : (c.stop - s.start).toNat = (s.stop - s.start).toNat + (c.stop - s.stop).toNat := by
        omega
      have e6 : s.stop.toNat = s.start.toNat + (s.stop - s.start).toNat := by omega
      rw [e5, e6, List.range'_append_1]

/-! ### chunks -/

theorem turns_reset {fsamp : ℝ} {M : Motion} (subs : List Chunk) :
    ∀ {r : Rot ℝ} {h : Hwp.State ℝ} {r' : Rot ℝ} {h' : Hwp.State ℝ},
      Turns fsamp M r h subs r' h' →
      (r'.period = r.period ∧ r'.rotChunkSize = r.rotChunkSize ∧ r'.remainder = r.remainder ∧
        r'.reset = r.reset) ∧ h'.reset = h.reset := by
  induction subs with
  | nil =>
    rintro r h r' h' ⟨rfl, rfl⟩
    exact ⟨⟨rfl, rfl, rfl, rfl⟩, rfl⟩
  | cons s subs ih =>
    rintro r h r' h' ⟨r1, a, h1, e1, e2, -, e4⟩
    obtain ⟨⟨a1, a2, a3, a4⟩, a5⟩ := ih e4
    obtain ⟨b1, b2, b3, b4⟩ := Data.rot_period e1
    have b5 := rotate_reset _ _ _ _ _ _ _ _ e2
    exact ⟨⟨a1.trans b1, a2.trans b2, a3.trans b3, a4.trans b4⟩, a5.trans b5⟩

theorem subpart_full (r : Rot ℝ) (c : Chunk) (hr : Data.RotOk r c.start) (hc : c.start < c.stop)
    (subs : List Chunk) (r1 : Rot ℝ) (h : subpartChunk r c = .ok (subs, r1)) :
    Data.RotOk r1 c.stop ∧ r1.reset = r.reset ∧ Tiles c.start c.stop (subs.map Chunk.ivl) ∧
      ∀ s ∈ subs, s.cidx = c.cidx := by
  obtain ⟨subs', r', h1, h2, h3, h4⟩ := Data.subpart_tiles r c hr hc
  rw [h] at h1
  simp only [Except.ok.injEq, Prod.mk.injEq] at h1
  obtain ⟨rfl, rfl⟩ := h1
  refine ⟨h2, h3, h4, ?_⟩
  rcases hr with hp | ⟨n, hn, hr⟩
  · unfold subpartChunk at h
    rw [if_neg (by simp [hp])] at h
    cases h
    simp
  · obtain ⟨subs', rem', g1, -, -, g4⟩ := subpartChunk_spec n hn r c hr hc
    rw [h] at g1
    simp only [Except.ok.injEq, Prod.mk.injEq] at g1
    obtain ⟨rfl, -⟩ := g1
    exact fun s hs => (g4 s hs).1

theorem chunk_step (w : World E) (hq : PixOk w.q) (hns : 0 < w.nsideOut) (M : Motion)
    (o : Opts) (hbin : o.binning = true) (hgr : o.ground = false) (p : Pair)
    (Q : Spinmaps SpinDict → Prop) (val : BinBeam → Nat → ℝ) (mission : List Chunk)
    (hval : Gives w M mission o p Q val) (first : Bool) (k : Nat) (c : Chunk)
    (hk : mission[k]? = some c) (hcx : c.cidx = some (k : Int)) (h0 : 0 ≤ c.start)
    (hlt : c.start < c.stop) (i : Inst E) (hch : i.chunks = mission.map fun c => (c, false))
    (hr : Data.RotOk i.rot c.start) (pt : Pointing) (el : E)
    (himp : w.implement i.el c false (!first) = .ok (pt, el)) (hpt : PointsAt M c pt)
    (subs : List Chunk) (r1 r2 : Rot ℝ) (h2 : Hwp.State ℝ)
    (hsub : subpartChunk i.rot c = .ok (subs, r1)) (htu : Turns w.fsamp M r1 i.hwp subs r2 h2)
    (hQ : Q i.st.maps) (os : List Obs) (hm : i.maps = mapsOf (12 * w.nsideOut ^ 2) os) :
    ∃ i', stepChunk w o p first i k = .ok i' ∧ i'.rot = r2 ∧ i'.hwp = h2 ∧ i'.el = el ∧
      Data.RotOk i'.rot c.stop ∧ i'.rot.reset = i.rot.reset ∧ i'.hwp.reset = i.hwp.reset ∧
      i'.chunks = i.chunks ∧ i'.st.maps = i.st.maps ∧
      i'.maps = mapsOf (12 * w.nsideOut ^ 2) (os ++
        (List.range' c.start.toNat (c.stop - c.start).toNat).flatMap
            (pairObs M w.x w.q w.varphi w.nsideOut o.ctalk val p)) := by
  obtain ⟨a1, a2, a3, a4⟩ := subpart_full i.rot c hr hlt subs r1 hsub
  obtain ⟨b1, b2⟩ := turns_reset subs htu
  have hmap : (mission.map fun c => (c, false)).map (·.1) = mission := by
    rw [List.map_map]
    exact List.map_id' _
  have hget : pyGet i.chunks (k : Int) = .ok (c, false) := by
    unfold pyGet
    rw [if_neg (show ¬ (k : Int) < 0 by omega), hch]
    simp [hk]
  have hget' : pyGet ((mission.map fun c => (c, false)).map (·.1)) (k : Int) = .ok c := by
    rw [hmap]
    unfold pyGet
    rw [if_neg (show ¬ (k : Int) < 0 by omega)]
    simp [hk]
  obtain ⟨i', g1, g2, g3, g4, g5⟩ := subs_fold w hq hns M o hbin p Q val
    (mission.map fun c => (c, false)) c k hget' h0 pt hpt (by rw [hmap]; exact hval) subs c.start
    { i with rot := r1, el := el,
             st := { i.st with ctime := pt.ctime, qBore := pt.bore, qGround := pt.ground },
             flag := pt.flag } r2 h2 os le_rfl a3 (fun s hs => (a4 s hs).trans hcx) htu hch rfl rfl
    rfl hQ hm
  refine ⟨i', ?_, g2, g3, g4.el, ?_, ?_, ?_, g4.chunks, g4.spin, g5⟩
  · unfold stepChunk
    rw [hget]
    simp only [bind, Except.bind]
    simp only [hgr, Bool.or_false, Bool.false_eq_true, false_and, if_false, ite_self]
    rw [himp]
    dsimp only
    rw [hsub]
    exact g1
  · rw [g2]
    exact Data.rotOk_congr b1 a1
  · rw [g2, b1.2.2.2, a2]
  · rw [g3, b2]

theorem chunks_fold (w : World E) (hq : PixOk w.q) (hns : 0 < w.nsideOut) (M : Motion)
    (o : Opts) (hbin : o.binning = true) (hgr : o.ground = false) (p : Pair)
    (Q : Spinmaps SpinDict → Prop) (val : BinBeam → Nat → ℝ) (mission : List Chunk)
    (hval : Gives w M mission o p Q val) (first : Bool)
    (hnum : ∀ (i : Nat) c, mission[i]? = some c → c.cidx = some (i : Int)) (N : Nat)
    (cs : List Chunk) : ∀ (k : Nat) (a : Int) (i : Inst E) (e' : E) (os : List Obs),
      mission.drop k = cs → 0 ≤ a → Tiles a N (cs.map Chunk.ivl) → Data.RotOk i.rot a →
      Points w M (!first) i.el cs e' → Moves w.fsamp M i.rot i.hwp cs →
      (i.chunks = mission.map fun c => (c, false)) → Q i.st.maps →
      i.maps = mapsOf (12 * w.nsideOut ^ 2) os →
      ∃ i', (List.range' k cs.length).foldlM (stepChunk w o p first) i = .ok i' ∧ i'.el = e' ∧
        i'.rot.reset = i.rot.reset ∧ i'.hwp.reset = i.hwp.reset ∧
        i'.chunks = i.chunks ∧ i'.st.maps = i.st.maps ∧
        i'.maps = mapsOf (12 * w.nsideOut ^ 2) (os ++
          (List.range' a.toNat (N - a).toNat).flatMap
            (pairObs M w.x w.q w.varphi w.nsideOut o.ctalk val p)) := by
  induction cs with
  | nil =>
    intro k a i e' os hd h0 ht hr hp hmv hch hQ hm
    simp only [List.map_nil] at ht
    cases ht
    refine ⟨i, rfl, hp.symm, rfl, rfl, rfl, rfl, ?_⟩
    simp [hm]
  | cons c cs ih =>
    intro k a i e' os hd h0 ht hr hp hmv hch hQ hm
    simp only [List.map_cons] at ht
    generalize hiv : Chunk.ivl c = iv at ht
    cases ht with
    | cons hlt ht =>
    simp only [Chunk.ivl, Prod.mk.injEq] at hiv
    obtain ⟨rfl, rfl⟩ := hiv
    obtain ⟨pt, e1, q1, q2, q3⟩ := hp
    obtain ⟨subs, r1, r2, h2, m1, m2, m3⟩ := hmv
    have hk : mission[k]? = some c := by
      have := congrArg (·[0]?) hd
      simpa using this
    obtain ⟨i1, g1, g2, g3, g4, g5, g6, g7, g8, g9, g10⟩ := chunk_step w hq hns M o hbin hgr p Q val
      mission hval first k c hk (hnum k c hk) h0 hlt i hch hr pt e1 q1 q2 subs r1 r2 h2 m1 m2 hQ os hm
    have hd' : mission.drop (k + 1) = cs := by
      rw [← List.drop_drop, hd]
      rfl
    have hN : c.stop ≤ N := tiles_le ht
    obtain ⟨i2, k1, k2, k3, k4, k5, k6, k7⟩ := ih (k + 1) c.stop i1 e' _ hd' (by omega) ht g5
      (by rw [g4]; exact q3) (by rw [g2, g3]; exact m3) (g8.trans hch) (by rw [g9]; exact hQ) g10
    refine ⟨i2, ?_, k2, k3.trans g6, k4.trans g7, k5.trans g8, k6.trans g9, ?_⟩
    · rw [List.length_cons, List.range'_succ, List.foldlM_cons, g1]
      exact k1
    · rw [k7, List.append_assoc, ← List.flatMap_append]
      congr 3
      have e5 : ((N : Int) - c.start).toNat = (c.stop - c.start).toNat + ((N : Int) - c.stop).toNat := by
        omega
      have e6 : c.stop.toNat = c.start.toNat + (c.stop - c.start).toNat := by omega
      rw [e5, e6, List.range'_append_1]

/-! ### passes and ranks -/

/-- A pair can be scanned and gives the values `val`. -/
def PairGood (w : World E) (M : Motion) (mission : List Chunk) (o : Opts) (p : Pair)
    (val : BinBeam → Nat → ℝ) : Prop :=
  ∃ Q, Gives w M mission o p Q val ∧ ∀ i : Inst E, ∃ sm b, initPair w o p i =
    .ok { i with st := { i.st with maps := sm }, hasMaps := b } ∧ Q sm

theorem pairGood_none (w : World E) (M : Motion) (mission : List Chunk) (o : Opts)
    (val : BinBeam → Nat → ℝ) : PairGood w M mission o (none, none) val := by
  refine ⟨fun _ => True, ?_, fun i => ⟨i.st.maps, i.hasMaps, rfl, trivial⟩⟩
  intro s st flag t0 i n _ _ b hb
  rcases hb with hb | hb <;> cases hb

/-- The samples of a mission as seen by a pair. -/
def missionObs (w : World E) (M : Motion) (o : Opts) (N : Nat) (val : BinBeam → Nat → ℝ) (p : Pair) :
    List Obs :=
  (List.range N).flatMap (pairObs M w.x w.q w.varphi w.nsideOut o.ctalk val p)

theorem pass_spec (w : World E) (hq : PixOk w.q) (hns : 0 < w.nsideOut) (M : Motion)
    (o : Opts) (hbin : o.binning = true) (hgr : o.ground = false) (p : Pair)
    (val : BinBeam → Nat → ℝ) (N : Nat) (mission : List Chunk) (hmi : Mission N mission)
    (hgood : PairGood w M mission o p val) (first : Bool) (i : Inst E) (r0 : Rot ℝ)
    (h0 : Hwp.State ℝ) (e0 e' : E)
    (hstart : if first then i.rot = r0 ∧ i.hwp = h0 ∧ i.el = e0
      else i.rot.reset = r0 ∧ i.hwp.reset = h0 ∧ w.resetEl i.el = .ok e0)
    (hr : Data.RotOk r0 0) (hp : Points w M (!first) e0 mission e')
    (hmv : Moves w.fsamp M r0 h0 mission)
    (hch : i.chunks = mission.map fun c => (c, false)) (os : List Obs)
    (hm : i.maps = mapsOf (12 * w.nsideOut ^ 2) os) :
    ∃ i', scanPass w o first p i = .ok i' ∧ i'.rot.reset = r0.reset ∧ i'.hwp.reset = h0.reset ∧
      i'.el = e' ∧ i'.chunks = i.chunks ∧
      i'.maps = mapsOf (12 * w.nsideOut ^ 2) (os ++ missionObs w M o N val p) := by
  obtain ⟨Q, hQ, hinit⟩ := hgood
  have hstart' : ∃ i1, (if first then .ok i else resetAll w i) = Except.ok (ε := PyErr) i1 ∧
      i1.rot = r0 ∧ i1.hwp = h0 ∧ i1.el = e0 ∧ i1.chunks = i.chunks ∧ i1.maps = i.maps := by
    cases first with
    | true =>
      obtain ⟨a, b, c⟩ := hstart
      exact ⟨i, rfl, a, b, c, rfl, rfl⟩
    | false =>
      obtain ⟨a, b, c⟩ := hstart
      refine ⟨{ i with rot := i.rot.reset, hwp := i.hwp.reset, el := e0 }, ?_, a, b, rfl, rfl, rfl⟩
      rw [if_neg (by simp)]
      unfold resetAll
      rw [c]
      rfl
  obtain ⟨i1, f1, f2, f3, f4, f5, f6⟩ := hstart'
  obtain ⟨sm, b, f7, f8⟩ := hinit i1
  obtain ⟨i', k1, k2, k3, k4, k5, k6, k7⟩ := chunks_fold w hq hns M o hbin hgr p Q val mission hQ
    first hmi.numbered N mission 0 0 { i1 with st := { i1.st with maps := sm }, hasMaps := b } e' os
    rfl le_rfl hmi.tiles (by rw [f2]; exact hr) (by rw [f4]; exact hp)
    (by rw [f2, f3]; exact hmv) (f5.trans hch) f8 (f6.trans hm)
  refine ⟨i', ?_, ?_, ?_, k2, k5.trans f5, ?_⟩
  · have hb : scanPass w o first p i = (if first then .ok i else resetAll w i).bind fun i =>
        (initPair w o p i).bind fun i =>
          if i.chunks.all fun c => c.1.cidx.isSome then
            (List.range i.chunks.length).foldlM (stepChunk w o p first) i
          else .error .keyError := by
      unfold scanPass
      cases first <;> rfl
    rw [hb, f1]
    simp only [Except.bind]
    rw [f7]
    dsimp only
    rw [if_pos]
    · have hl : i1.chunks.length = mission.length := by rw [f5, hch, List.length_map]
      rw [hl, List.range_eq_range']
      exact k1
    · rw [f5, hch, List.all_eq_true]
      intro x hx
      obtain ⟨c, hc, rfl⟩ := List.mem_map.1 hx
      obtain ⟨j, hj, rfl⟩ := List.getElem_of_mem hc
      rw [hmi.numbered j _ (List.getElem?_eq_getElem hj)]
      rfl
  · rw [k3, ← f2]
  · rw [k4, ← f3]
  · rw [k7]
    unfold missionObs
    rw [List.range_eq_range']
    rfl

theorem loop_spec (w : World E) (hq : PixOk w.q) (hns : 0 < w.nsideOut) (M : Motion)
    (o : Opts) (hbin : o.binning = true) (hgr : o.ground = false)
    (val : Pair → BinBeam → Nat → ℝ) (N : Nat) (mission : List Chunk) (hmi : Mission N mission)
    (r0 : Rot ℝ) (h0 : Hwp.State ℝ) (hr : Data.RotOk r0 0) (hr0 : r0.reset = r0)
    (hh0 : h0.reset = h0) (hmv : Moves w.fsamp M r0 h0 mission) (P : Bool → E → Prop)
    (hst : ∀ first e, P first e →
      ∃ e', Points w M (!first) e mission e' ∧ ∃ e'', w.resetEl e' = .ok e'' ∧ P false e'')
    (ps : List (Option Pair)) : ∀ (first : Bool) (i : Inst E) (os : List Obs),
      (∀ p ∈ ps.filterMap id, PairGood w M mission o p (val p)) →
      (if first then i.rot = r0 ∧ i.hwp = h0 ∧ P true i.el
        else i.rot.reset = r0 ∧ i.hwp.reset = h0 ∧ ∃ e, w.resetEl i.el = .ok e ∧ P false e) →
      (i.chunks = mission.map fun c => (c, false)) →
      i.maps = mapsOf (12 * w.nsideOut ^ 2) os →
      ∃ i', scanLoop w o first ps i = .ok i' ∧ i'.maps = mapsOf (12 * w.nsideOut ^ 2) (os ++
        (ps.filterMap id).flatMap fun p => missionObs w M o N (val p) p) ∧ i'.chunks = i.chunks ∧
        (ps ≠ [] ∨ first = false → i'.rot.reset = r0 ∧ i'.hwp.reset = h0 ∧
          ∃ e, w.resetEl i'.el = .ok e ∧ P false e) := by
  induction ps with
  | nil =>
    intro first i os _ hs _ hm
    refine ⟨i, rfl, by simpa using hm, rfl, ?_⟩
    rintro (h | rfl)
    · exact (h rfl).elim
    · exact hs
  | cons p ps ih =>
    intro first i os hgood hstart hch hm
    have hone : ∃ e0, (if first then i.rot = r0 ∧ i.hwp = h0 ∧ i.el = e0
        else i.rot.reset = r0 ∧ i.hwp.reset = h0 ∧ w.resetEl i.el = .ok e0) ∧ P first e0 := by
      cases first with
      | true =>
        obtain ⟨a, b, c⟩ := hstart
        exact ⟨i.el, ⟨a, b, rfl⟩, c⟩
      | false =>
        obtain ⟨a, b, e, c, d⟩ := hstart
        exact ⟨e, ⟨a, b, c⟩, d⟩
    obtain ⟨e0, hs0, hP⟩ := hone
    obtain ⟨e', q1, e'', q2, q3⟩ := hst first e0 hP
    have hg : PairGood w M mission o (p.getD (none, none)) (val (p.getD (none, none))) := by
      cases p with
      | none => exact pairGood_none _ _ _ _ _
      | some p => exact hgood p (by simp)
    obtain ⟨i1, k1, k2, k3, k4, k5, k6⟩ := pass_spec w hq hns M o hbin hgr (p.getD (none, none))
      (val (p.getD (none, none))) N mission hmi hg first i r0 h0 e0 e' hs0 hr q1 hmv hch os hm
    obtain ⟨i2, g1, g2, g3, g4⟩ := ih false i1 _ (fun p' hp' => hgood p' (by
        cases p with
        | none => simpa using hp'
        | some p => exact List.mem_cons_of_mem _ (by simpa using hp')))
      ⟨k2.trans hr0, k3.trans hh0, e'', by rw [k4]; exact q2, q3⟩ (k5.trans hch) k6
    refine ⟨i2, ?_, ?_, g3.trans k5, fun _ => g4 (.inr rfl)⟩
    · unfold scanLoop
      rw [k1]
      exact g1
    · rw [g2, List.append_assoc]
      congr 2
      cases p with
      | none =>
        have : missionObs w M o N (val (none, none)) (none, none) = [] := by
          unfold missionObs
          rw [List.flatMap_eq_nil_iff]
          intro t _
          unfold pairObs
          simp [live]
        simp [this]
      | some p => simp

theorem reduce_mapsOf (N : Nat) (l : List (List Obs)) :
    reduceMaps N (l.map (mapsOf N)) = mapsOf N l.flatten := by
  unfold reduceMaps
  have hz : List.replicate N (0 : Cell) = mapsOf N [] := by
    unfold mapsOf
    apply List.ext_getElem (by simp)
    intro k h1 h2
    simp [cellAt_nil]
  have hadd : ∀ a b : List Obs, List.zipWith (· + ·) (mapsOf N a) (mapsOf N b) = mapsOf N (a ++ b) := by
    intro a b
    have := iadd_mapsOf N a b
    unfold iadd at this
    rw [if_pos (by simp [mapsOf])] at this
    exact Except.ok.inj this
  rw [hz]
  suffices H : ∀ os, (l.map (mapsOf N)).foldl (fun acc m => List.zipWith (· + ·) acc m) (mapsOf N os) =
      mapsOf N (os ++ l.flatten) by simpa using H []
  induction l with
  | nil => simp
  | cons a l ih =>
    intro os
    rw [List.map_cons, List.foldl_cons, hadd, ih]
    simp

theorem ready_rot {w : World E} {mission : List Chunk} {i : Inst E} (hi : Ready w mission i) :
    Data.RotOk i.rot 0 := by
  rcases hi.period with h | h
  · exact .inl h
  · by_cases hp : i.rot.period = true
    · refine .inr ⟨i.rot.rotChunkSize.toNat, by omega, hp, by omega, ?_, ?_, ?_⟩
      all_goals
        have hrem : i.rot.remainder = 0 := by rw [← hi.rot]; rfl
        rw [hrem]
      · omega
      · simp
    · exact .inl (by simpa using hp)

/-- What one rank does, and the state it is in after a reset. -/
theorem rank_spec (w : World E) (hq : PixOk w.q) (hns : 0 < w.nsideOut) (M : Motion)
    (o : Opts) (hbin : o.binning = true) (hgr : o.ground = false)
    (val : Pair → BinBeam → Nat → ℝ) (N : Nat) (mission : List Chunk) (hmi : Mission N mission)
    (r0 : Rot ℝ) (h0 : Hwp.State ℝ) (hmv : Moves w.fsamp M r0 h0 mission) (beams : List Pair)
    (hb : beams ≠ []) (size : Nat) (rank : Nat) (hrank : rank < size)
    (hgood : ∀ p ∈ beams, PairGood w M mission o p (val p)) :
    ∃ os, ∀ i : Inst E, Ready w mission i → i.rot = r0 → i.hwp = h0 → Repeats w M mission i.el →
      ∃ i' i'', scanInstrument w o beams true size rank i = .ok i' ∧
        i'.maps = mapsOf (12 * w.nsideOut ^ 2) os ∧ resetAll w i' = .ok i'' ∧
        i''.rot = r0 ∧ i''.hwp = h0 ∧ i''.chunks = i.chunks ∧ Repeats w M mission i''.el := by
  obtain ⟨work, w1, w2, w3, w4⟩ := C03_every_pair_scanned_once beams size (by omega)
  have hlt : rank < work.length := by omega
  have hwr := w2 rank hrank
  rw [List.getElem?_eq_getElem hlt] at hwr
  have hmem : ∀ p ∈ work[rank].filterMap id, p ∈ beams := by
    intro p hp
    rw [← w3]
    exact List.mem_flatten.2 ⟨_, List.mem_map_of_mem (List.getElem_mem hlt), hp⟩
  have hne : work[rank] ≠ [] := by
    intro h
    apply hb
    rw [← w3]
    simp only [List.flatten_eq_nil_iff, List.mem_map]
    rintro l ⟨l', hl', rfl⟩
    have := w4 l' hl' _ (List.getElem_mem hlt)
    rw [h] at this
    rw [List.eq_nil_of_length_eq_zero this]
    rfl
  refine ⟨(work[rank].filterMap id).flatMap fun p => missionObs w M o N (val p) p,
    fun i hi e1 e2 hst => ?_⟩
  obtain ⟨P, p1, p2⟩ := hst
  obtain ⟨i', g1, g2, g3, g4⟩ := loop_spec w hq hns M o hbin hgr val N mission hmi i.rot i.hwp
    (ready_rot hi) hi.rot hi.hwp (by rw [e1, e2]; exact hmv) (fun _ e => P e) (fun f e he => p2 f e he)
    work[rank] true i [] (fun p hp => hgood p (hmem p hp)) ⟨rfl, rfl, p1⟩ hi.chunks
    (by rw [hi.maps, mapsOf_nil])
  obtain ⟨k1, k2, e, k3, k4⟩ := g4 (.inl hne)
  refine ⟨i', { i' with rot := i'.rot.reset, hwp := i'.hwp.reset, el := e }, ?_, by simpa using g2, ?_,
    k1.trans e1, k2.trans e2, g3, P, k4, p2⟩
  · unfold scanInstrument
    rw [← Option.some.inj hwr]
    exact g1
  · unfold resetAll
    rw [k3]
    rfl

theorem all_spec (w : World E) (hq : PixOk w.q) (hns : 0 < w.nsideOut) (M : Motion)
    (o : Opts) (hbin : o.binning = true) (hgr : o.ground = false)
    (val : Pair → BinBeam → Nat → ℝ) (N : Nat) (mission : List Chunk) (hmi : Mission N mission)
    (i : Inst E) (hi : Ready w mission i) (hmv : Moves w.fsamp M i.rot i.hwp mission)
    (hst : Steady w M mission i.el) (beams : List Pair) (size : Nat) (hsize : 0 < size)
    (hgood : ∀ p ∈ beams, PairGood w M mission o p (val p)) :
    scanAll w o beams true size i = .ok (mapsOf (12 * w.nsideOut ^ 2)
      (beams.flatMap fun p => missionObs w M o N (val p) p)) := by
  obtain ⟨work, w1, w2, w3, -⟩ := C03_every_pair_scanned_once beams size hsize
  obtain ⟨P, p1, p2⟩ := hst
  have hrot := ready_rot hi
  have hmem : ∀ l ∈ work, ∀ p ∈ l.filterMap id, p ∈ beams := by
    intro l hl p hp
    rw [← w3]
    exact List.mem_flatten.2 ⟨_, List.mem_map_of_mem hl, hp⟩
  have hone : ∀ l ∈ work, ∃ i', scanLoop w o true l i = .ok i' ∧
      i'.maps = mapsOf (12 * w.nsideOut ^ 2)
        ((l.filterMap id).flatMap fun p => missionObs w M o N (val p) p) := by
    intro l hl
    obtain ⟨i', g1, g2, -⟩ := loop_spec w hq hns M o hbin hgr val N mission hmi i.rot i.hwp hrot hi.rot
      hi.hwp hmv P p2 l true i [] (fun p hp => hgood p (hmem l hl p hp)) ⟨rfl, rfl, p1⟩ hi.chunks
      (by rw [hi.maps, mapsOf_nil])
    exact ⟨i', g1, by simpa using g2⟩
  have hmap : ∃ is, (List.range size).mapM (fun r => scanInstrument w o beams true size r i) =
      Except.ok (ε := PyErr) is ∧ is.map (·.maps) = (work.map fun l => (l.filterMap id).flatMap fun p =>
        missionObs w M o N (val p) p).map (mapsOf (12 * w.nsideOut ^ 2)) := by
    have hw : work = (List.range size).map fun r => (work[r]?).getD [] := by
      apply List.ext_getElem (by simp [w1])
      intro k h1 h2
      simp [h1]
    have hlist : ∀ rs : List Nat, (∀ r ∈ rs, r < size) → ∃ is,
        rs.mapM (fun r => scanInstrument w o beams true size r i) = Except.ok (ε := PyErr) is ∧
        is.map (·.maps) = ((rs.map fun r => (work[r]?).getD []).map fun l =>
          (l.filterMap id).flatMap fun p =>
            missionObs w M o N (val p) p).map (mapsOf (12 * w.nsideOut ^ 2)) := by
      intro rs
      induction rs with
      | nil => exact fun _ => ⟨[], rfl, rfl⟩
      | cons r rs ih =>
        intro hrs
        obtain ⟨is, e1, e2⟩ := ih fun r hr => hrs r (List.mem_cons_of_mem _ hr)
        have hr := hrs r List.mem_cons_self
        have hlt : r < work.length := by omega
        have hwr := w2 r hr
        rw [List.getElem?_eq_getElem hlt] at hwr
        obtain ⟨i', g1, g2⟩ := hone work[r] (List.getElem_mem hlt)
        refine ⟨i' :: is, ?_, ?_⟩
        · rw [List.mapM_cons]
          unfold scanInstrument
          rw [← Option.some.inj hwr]
          simp only [bind, Except.bind]
          rw [g1]
          dsimp only
          have e1' := e1
          unfold scanInstrument at e1'
          simp only [bind, Except.bind] at e1'
          rw [e1']
          rfl
        · simp only [List.map_cons, List.getElem?_eq_getElem hlt, Option.getD_some]
          rw [e2, g2]
    obtain ⟨is, e1, e2⟩ := hlist (List.range size) fun r hr => List.mem_range.1 hr
    refine ⟨is, e1, ?_⟩
    rw [e2, ← hw]
  obtain ⟨is, e1, e2⟩ := hmap
  unfold scanAll
  rw [e1]
  simp only [bind, Except.bind, pure, Except.pure]
  rw [e2, hi.maps]
  have hlen : (allocateMaps w.nsideOut).length = 12 * w.nsideOut ^ 2 := by simp [allocateMaps]
  rw [hlen, reduce_mapsOf]
  congr 2
  rw [← w3]
  simp only [List.flatMap_def, List.map_flatten, List.flatten_flatten, List.map_map]
  rfl

/-! ### detectors -/

theorem live_of {p : Pair} {b : BinBeam} (h : live p.1 = some b ∨ live p.2 = some b) :
    b.beam.dead = false := by
  rcases h with h | h
  · exact live_dead h
  · exact live_dead h

theorem pairGood_scan (w : World E) (hx : ExtOk w.x) (M : Motion) (mission : List Chunk) (o : Opts)
    (hpre : o.preview = false) (hre : o.reuseSpinmaps = false) (nside : Nat)
    (sm : Spinmaps SpinDict) (p : Pair) (hm : MapsOk w nside sm p) :
    PairGood w M mission o p (detects M w.x o.interp nside sm) := by
  rcases hm with rfl | ⟨a, h1, h2, h3, h4⟩
  · exact pairGood_none _ _ _ _ _
  · refine ⟨fun m => m = sm, ?_, fun i => ⟨sm, true, ?_, rfl⟩⟩
    · intro s st flag t0 i n hat hQ b hb t
      obtain ⟨e1, e2, e3⟩ := h4 b hb
      have := scanOne_spec w hx M mission o hpre flag b s { st with tod := t } t0 i n
        (hat.tod t) nside h3 (live_of hb) e1 (by rw [hQ]; exact e2) (by rw [hQ]; exact e3)
      rw [this, hQ]
    · obtain ⟨p1, p2⟩ := p
      obtain rfl : p1 = some a := h1
      unfold initPair
      simp only [hpre, hre, Bool.and_false, Bool.false_eq_true, if_false, h2, bind, Except.bind,
        pure, Except.pure]

theorem pairGood_preview (w : World E) (M : Motion) (mission : List Chunk) (o : Opts)
    (hpre : o.preview = true) (p : Pair)
    (hg : ∀ b, (live p.1 = some b ∨ live p.2 = some b) → b.beam.ghost = false) :
    PairGood w M mission o p fun _ _ => 0 := by
  refine ⟨fun _ => True, ?_, fun i => ⟨i.st.maps, i.hasMaps, ?_, trivial⟩⟩
  · intro s st flag t0 i n hat _ b hb t
    exact scanOne_preview w M mission o hpre flag b s { st with tod := t } t0 i n (hat.tod t)
      (live_of hb) (hg b hb)
  · unfold initPair
    split
    · rfl
    · rw [if_pos hpre]

/-! ### motions -/

theorem rotLoop_cons (r : Rot ℝ) (s : Chunk) (subs : List Chunk) :
    rotLoop r (s :: subs) = (rotStep r s).bind (fun r => (rotLoop r subs).bind fun q =>
        .ok ((s, r.angle) :: q.1, q.2)) := by
  rw [rotLoop]
  unfold rotStep
  cases s.norot <;> rfl

theorem turns_of_loop (fsamp : ℝ) (M : Motion) (subs : List Chunk) :
    ∀ (r : Rot ℝ) (h : Hwp.State ℝ) (out : List (Chunk × ℝ)) (r' : Rot ℝ)
      (rest : List (Int × Int)) (angs : List (Hwp.Ang ℝ)) (h' : Hwp.State ℝ),
      rotLoop r subs = .ok (out, r') → (∀ s ∈ subs, s.hwpang = none) →
      Hwp.run Real.pi fsamp h (out.map (fun p => (p.1.start, p.1.stop)) ++ rest) =
        .ok (angs.map some, h') →
      (∀ (j : Nat) p a, out[j]? = some p → angs[j]? = some a →
        ∀ t : Nat, p.1.start ≤ t → (t : Int) < p.1.stop →
          M.rot t = p.2 ∧ M.alpha t = angAt a (t - p.1.start.toNat)) →
      ∃ h1, Turns fsamp M r h subs r' h1 ∧
        Hwp.run Real.pi fsamp h1 rest = .ok ((angs.drop out.length).map some, h') := by
  induction subs with
  | nil =>
    intro r h out r' rest angs h' hl hh hr hM
    simp only [rotLoop, Except.ok.injEq, Prod.mk.injEq] at hl
    obtain ⟨rfl, rfl⟩ := hl
    exact ⟨h, ⟨rfl, rfl⟩, by simpa using hr⟩
  | cons s subs ih =>
    intro r h out r' rest angs h' hl hh hr hM
    have hl' := hl
    rw [rotLoop_cons] at hl'
    rcases e1 : rotStep r s with e | r1
    · rw [e1] at hl'
      cases hl'
    rw [e1] at hl'
    simp only [Except.bind] at hl'
    rcases e2 : rotLoop r1 subs with e | ⟨out1, r2⟩
    · rw [e2] at hl'
      cases hl'
    rw [e2] at hl'
    simp only [Except.ok.injEq, Prod.mk.injEq] at hl'
    obtain ⟨rfl, rfl⟩ := hl'
    rw [List.map_cons, List.cons_append] at hr
    unfold Hwp.run at hr
    simp only [bind, Except.bind, pure, Except.pure] at hr
    rcases e3 : Hwp.rotateHwp Real.pi fsamp h none s.start s.stop with e | ⟨a, h1⟩
    · rw [e3] at hr
      cases hr
    rw [e3] at hr
    dsimp only at hr
    rcases e4 : Hwp.run Real.pi fsamp h1 (out1.map (fun p => (p.1.start, p.1.stop)) ++ rest) with
      e | ⟨as, h2⟩
    · rw [e4] at hr
      cases hr
    rw [e4] at hr
    simp only [Except.ok.injEq, Prod.mk.injEq] at hr
    obtain ⟨hr, rfl⟩ := hr
    cases angs with
    | nil => cases hr
    | cons a0 angs =>
    rw [List.map_cons, List.cons.injEq] at hr
    obtain ⟨rfl, rfl⟩ := hr
    obtain ⟨h3, k1, k2⟩ := ih r1 h1 out1 r2 rest angs _ e2
      (fun s hs => hh s (List.mem_cons_of_mem _ hs)) e4
      (fun j p a hp ha => hM (j + 1) p a (by simpa using hp) (by simpa using ha))
    refine ⟨h3, ⟨r1, a0, h1, e1, ?_, ?_, k1⟩, ?_⟩
    · rw [hh s List.mem_cons_self]
      exact e3
    · exact hM 0 (s, r1.angle) a0 rfl rfl
    · simpa using k2

theorem moves_of_loop (fsamp : ℝ) (M : Motion) (cs : List Chunk) :
    ∀ (r : Rot ℝ) (h : Hwp.State ℝ) (out : List (Chunk × ℝ)) (r' : Rot ℝ)
      (angs : List (Hwp.Ang ℝ)) (h' : Hwp.State ℝ),
      chunkLoop r cs = .ok (out, r') → (∀ p ∈ out, p.1.hwpang = none) →
      Hwp.run Real.pi fsamp h (out.map fun p => (p.1.start, p.1.stop)) = .ok (angs.map some, h') →
      (∀ (j : Nat) p a, out[j]? = some p → angs[j]? = some a →
        ∀ t : Nat, p.1.start ≤ t → (t : Int) < p.1.stop →
          M.rot t = p.2 ∧ M.alpha t = angAt a (t - p.1.start.toNat)) →
      Moves fsamp M r h cs := by
  induction cs with
  | nil => intros; trivial
  | cons c cs ih =>
    intro r h out r' angs h' hl hh hr hM
    unfold chunkLoop at hl
    simp only [bind, Except.bind, pure, Except.pure] at hl
    rcases e1 : subpartChunk r c with e | ⟨subs, r1⟩
    · rw [e1] at hl
      cases hl
    rw [e1] at hl
    dsimp only at hl
    rcases e2 : rotLoop r1 subs with e | ⟨out1, r2⟩
    · rw [e2] at hl
      cases hl
    rw [e2] at hl
    dsimp only at hl
    rcases e3 : chunkLoop r2 cs with e | ⟨out2, r3⟩
    · rw [e3] at hl
      cases hl
    rw [e3] at hl
    simp only [Except.ok.injEq, Prod.mk.injEq] at hl
    obtain ⟨rfl, rfl⟩ := hl
    rw [List.map_append] at hr
    have hsub : out1.map (·.1) = subs := by
      clear hr hh hM e1 e3
      induction subs generalizing r1 out1 with
      | nil =>
        simp only [rotLoop, Except.ok.injEq, Prod.mk.injEq] at e2
        rw [← e2.1]
        rfl
      | cons s subs ihs =>
        have hl' := e2
        rw [rotLoop_cons] at hl'
        rcases f1 : rotStep r1 s with e | r4
        · rw [f1] at hl'
          cases hl'
        rw [f1] at hl'
        simp only [Except.bind] at hl'
        rcases f2 : rotLoop r4 subs with e | ⟨o2, r5⟩
        · rw [f2] at hl'
          cases hl'
        rw [f2] at hl'
        simp only [Except.ok.injEq, Prod.mk.injEq] at hl'
        obtain ⟨rfl, rfl⟩ := hl'
        rw [List.map_cons, ihs _ _ f2]
    obtain ⟨h1, k1, k2⟩ := turns_of_loop fsamp M subs r1 h out1 r2 _ angs h' e2
      (fun s hs => by
        rw [← hsub] at hs
        obtain ⟨p, hp, rfl⟩ := List.mem_map.1 hs
        exact hh p (List.mem_append_left _ hp)) hr
      (fun j p a hp ha => hM j p a (by
        obtain ⟨hlt, _⟩ := List.getElem?_eq_some_iff.1 hp
        rw [List.getElem?_append_left hlt]
        exact hp) ha)
    refine ⟨subs, r1, r2, h1, e1, k1, ?_⟩
    refine ih r2 h1 out2 r3 (angs.drop out1.length) h' e3
      (fun p hp => hh p (List.mem_append_right _ hp)) k2 fun j p a hp ha => ?_
    refine hM (out1.length + j) p a ?_ (by simpa using ha)
    rw [List.getElem?_append_right (by omega)]
    simpa using hp

theorem full_hwpang (m : Int) (k : Nat) : ∀ a, ∀ s ∈ (fullSubchunks m k a).1, s.hwpang = none := by
  induction k with
  | zero =>
    intro a s hs
    simp [fullSubchunks] at hs
  | succ k ih =>
    intro a s hs
    simp only [fullSubchunks, List.mem_cons] at hs
    rcases hs with rfl | hs
    · rfl
    · exact ih _ s hs

theorem subpart_hwpang (r : Rot ℝ) (c : Chunk) (hc : c.hwpang = none) (subs : List Chunk) (r1 : Rot ℝ)
    (h : subpartChunk r c = .ok (subs, r1)) : ∀ s ∈ subs, s.hwpang = none := by
  unfold subpartChunk at h
  split at h
  · rcases e : subpartCore r.rotChunkSize r.remainder c with e' | ⟨ss, rem⟩
    · rw [e] at h
      cases h
    rw [e] at h
    have hss : ∀ s ∈ ss, s.hwpang = none := by
      unfold subpartCore at e
      split at e
      · cases e
      dsimp only at e
      generalize (if ceilDiv (c.stop - c.start - r.remainder) r.rotChunkSize < 1 then (1 : Int) else
        ceilDiv (c.stop - c.start - r.remainder) r.rotChunkSize) = n at e
      split at e
      · split at e
        · simp only [Except.ok.injEq, Prod.mk.injEq] at e
          rw [← e.1]
          simp
        · simp only [Except.ok.injEq, Prod.mk.injEq] at e
          rw [← e.1]
          intro s hs
          split at hs <;> simp at hs <;> aesop
      · simp only [Except.ok.injEq, Prod.mk.injEq] at e
        rw [← e.1]
        intro s hs
        rw [List.append_assoc, List.mem_append, List.mem_append] at hs
        rcases hs with hs | hs | hs
        · split at hs <;> simp at hs
          rw [hs]
        · exact full_hwpang _ _ _ s hs
        · simp at hs
          rw [hs]
    simp only [bind, Except.bind, pure, Except.pure, Except.ok.injEq, Prod.mk.injEq] at h
    rw [← h.1]
    intro s hs
    split at hs
    · obtain ⟨s', hs', rfl⟩ := List.mem_map.1 hs
      exact hss s' hs'
    · exact hss s hs
  · cases h
    simpa using hc

theorem rotLoop_subs (subs : List Chunk) : ∀ (r : Rot ℝ) (out : List (Chunk × ℝ)) (r' : Rot ℝ),
    rotLoop r subs = .ok (out, r') → out.map (·.1) = subs := by
  induction subs with
  | nil =>
    intro r out r' h
    simp only [rotLoop, Except.ok.injEq, Prod.mk.injEq] at h
    rw [← h.1]
    rfl
  | cons s subs ih =>
    intro r out r' h
    rw [rotLoop_cons] at h
    rcases f1 : rotStep r s with e | r4
    · rw [f1] at h
      cases h
    rw [f1] at h
    simp only [Except.bind] at h
    rcases f2 : rotLoop r4 subs with e | ⟨o2, r5⟩
    · rw [f2] at h
      cases h
    rw [f2] at h
    simp only [Except.ok.injEq, Prod.mk.injEq] at h
    obtain ⟨rfl, rfl⟩ := h
    rw [List.map_cons, ih _ _ _ f2]

theorem loop_hwpang (cs : List Chunk) : ∀ (r : Rot ℝ) (out : List (Chunk × ℝ)) (r' : Rot ℝ),
    (∀ c ∈ cs, c.hwpang = none) → chunkLoop r cs = .ok (out, r') →
    ∀ p ∈ out, p.1.hwpang = none := by
  induction cs with
  | nil =>
    intro r out r' _ h
    simp only [chunkLoop, Except.ok.injEq, Prod.mk.injEq] at h
    rw [← h.1]
    simp
  | cons c cs ih =>
    intro r out r' hc hl
    unfold chunkLoop at hl
    simp only [bind, Except.bind, pure, Except.pure] at hl
    rcases e1 : subpartChunk r c with e | ⟨subs, r1⟩
    · rw [e1] at hl
      cases hl
    rw [e1] at hl
    dsimp only at hl
    rcases e2 : rotLoop r1 subs with e | ⟨out1, r2⟩
    · rw [e2] at hl
      cases hl
    rw [e2] at hl
    dsimp only at hl
    rcases e3 : chunkLoop r2 cs with e | ⟨out2, r3⟩
    · rw [e3] at hl
      cases hl
    rw [e3] at hl
    simp only [Except.ok.injEq, Prod.mk.injEq] at hl
    obtain ⟨rfl, rfl⟩ := hl
    intro p hp
    rcases List.mem_append.1 hp with hp | hp
    · refine subpart_hwpang r c (hc c List.mem_cons_self) subs r1 e1 p.1 ?_
      rw [← rotLoop_subs subs r1 out1 r2 e2]
      exact List.mem_map_of_mem hp
    · exact ih r2 out2 r3 (fun c h => hc c (List.mem_cons_of_mem _ h)) e3 p hp

theorem chunkLoop_fixed (r : Rot ℝ) (hp : r.period = false) (cs : List Chunk) :
    chunkLoop r cs = .ok (cs.map fun c => (c, r.angle), r) := by
  induction cs with
  | nil => rfl
  | cons c cs ih =>
    have h1 : subpartChunk r c = .ok ([c], r) := by
      unfold subpartChunk
      rw [if_neg (by simp [hp])]
    have h2 : rotLoop r [c] = .ok ([(c, r.angle)], r) := by
      rw [rotLoop_cons]
      have : rotStep r c = .ok r := by
        unfold rotStep
        split
        · rfl
        · unfold Rot.rotate
          rw [if_neg (by simp [hp])]
      rw [this]
      rfl
    unfold chunkLoop
    simp only [bind, Except.bind, pure, Except.pure]
    rw [h1]
    dsimp only
    rw [h2]
    dsimp only
    rw [ih]
    rfl

theorem run_still (fsamp : ℝ) (h : Hwp.State ℝ) (hs : h.freq = 0 ∨ h.mode = .none)
    (cs : List (Int × Int)) : Hwp.run Real.pi fsamp h cs =
      .ok ((cs.map fun _ => Hwp.Ang.scalar (h.dict.angle * (Real.pi / 180))).map some, h) := by
  induction cs with
  | nil => rfl
  | cons c cs ih =>
    unfold Hwp.run
    have : Hwp.rotateHwp Real.pi fsamp h none c.1 c.2 =
        .ok (some (.scalar (h.dict.angle * (Real.pi / 180))), h) := by
      unfold Hwp.rotateHwp
      rw [if_pos hs]
      rfl
    rw [this]
    simp only [bind, Except.bind, pure, Except.pure]
    rw [ih]
    rfl

theorem run_flatten (fsamp : ℝ) (cs : List (Int × Int)) : ∀ (h : Hwp.State ℝ) (a N : Int)
    (arrs : List (List ℝ)) (h' : Hwp.State ℝ), 0 ≤ a → Tiles a N cs →
    Hwp.run Real.pi fsamp h cs = .ok (arrs.map fun x => some (.array x), h') →
    ∀ (j : Nat) c arr, cs[j]? = some c → arrs[j]? = some arr → ∀ t : Nat, c.1 ≤ t → (t : Int) < c.2 →
      arr[t - c.1.toNat]? = arrs.flatten[t - a.toNat]? := by
  induction cs with
  | nil =>
    intro h a N arrs h' _ _ _ j c arr hc
    simp at hc
  | cons c0 cs ih =>
    intro h a N arrs h' h0 ht hr j c arr hc harr t ht1 ht2
    unfold Hwp.run at hr
    simp only [bind, Except.bind, pure, Except.pure] at hr
    rcases e3 : Hwp.rotateHwp Real.pi fsamp h none c0.1 c0.2 with e | ⟨x, h1⟩
    · rw [e3] at hr
      cases hr
    rw [e3] at hr
    dsimp only at hr
    rcases e4 : Hwp.run Real.pi fsamp h1 cs with e | ⟨as, h2⟩
    · rw [e4] at hr
      cases hr
    rw [e4] at hr
    simp only [Except.ok.injEq, Prod.mk.injEq] at hr
    obtain ⟨hr, rfl⟩ := hr
    cases arrs with
    | nil => cases hr
    | cons a0 arrs =>
    rw [List.map_cons, List.cons.injEq] at hr
    obtain ⟨rfl, rfl⟩ := hr
    obtain ⟨c01, c02⟩ := c0
    cases ht with
    | cons hlt ht =>
    have hlen : a0.length = (c02 - a).toNat := rotateHwp_length _ _ _ _ _ _ _ e3
    rw [List.flatten_cons]
    cases j with
    | zero =>
      simp only [List.getElem?_cons_zero, Option.some.injEq] at hc harr
      subst hc harr
      dsimp only at ht1 ht2
      rw [List.getElem?_append_left (by omega)]
    | succ j =>
      simp only [List.getElem?_cons_succ] at hc harr
      have hge : c02 ≤ c.1 := by
        have := tiles_mem ht _ (List.mem_of_getElem? hc)
        omega
      rw [List.getElem?_append_right (by omega), ih h1 c02 N arrs _ (by omega) ht e4 j c arr hc harr t
        ht1 ht2]
      congr 1
      omega

theorem run_length (fsamp : ℝ) (cs : List (Int × Int)) : ∀ (h : Hwp.State ℝ)
    (as : List (Option (Hwp.Ang ℝ))) (h' : Hwp.State ℝ),
    Hwp.run Real.pi fsamp h cs = .ok (as, h') → as.length = cs.length := by
  induction cs with
  | nil =>
    intro h as h' hr
    simp only [Hwp.run, Except.ok.injEq, Prod.mk.injEq] at hr
    rw [← hr.1]
    rfl
  | cons c cs ih =>
    intro h as h' hr
    unfold Hwp.run at hr
    simp only [bind, Except.bind, pure, Except.pure] at hr
    rcases e3 : Hwp.rotateHwp Real.pi fsamp h none c.1 c.2 with e | ⟨x, h1⟩
    · rw [e3] at hr
      cases hr
    rw [e3] at hr
    dsimp only at hr
    rcases e4 : Hwp.run Real.pi fsamp h1 cs with e | ⟨as, h2⟩
    · rw [e4] at hr
      cases hr
    rw [e4] at hr
    simp only [Except.ok.injEq, Prod.mk.injEq] at hr
    rw [← hr.1, List.length_cons, List.length_cons, ih _ _ _ e4]

theorem out_of (N : Nat) (chunks : List Chunk) (hmi : Mission N chunks)
    (hh : ∀ c ∈ chunks, c.hwpang = none) (r : Rot ℝ) (rot : Nat → ℝ) (hr : Rotates N chunks r rot) :
    ∃ out r', chunkLoop r chunks = .ok (out, r') ∧ (∀ p ∈ out, p.1.hwpang = none) ∧
      Tiles 0 N (out.map fun p => (p.1.start, p.1.stop)) ∧
      ∀ p ∈ out, ∀ t : Nat, t < N → p.1.start ≤ t → (t : Int) < p.1.stop → rot t = p.2 := by
  cases hr with
  | fixed hp hrot =>
    have h1 := chunkLoop_fixed r hp chunks
    refine ⟨_, _, h1, loop_hwpang chunks r _ _ hh h1, ?_, ?_⟩
    · rw [List.map_map]
      exact hmi.tiles
    · intro p hpm t htN _ _
      obtain ⟨c, _, rfl⟩ := List.mem_map.1 hpm
      exact hrot t htN
  | schedule n hn startAng angles hA hr hlong hrot =>
    subst hr
    obtain ⟨out, r', h1, h2, h3⟩ := C09_boresight_angle_partial n hn startAng angles hA chunks N
      hmi.tiles hlong
    refine ⟨out, r', h1, loop_hwpang chunks _ _ _ hh h1, h2, ?_⟩
    intro p hpm t htN ha hb
    have := h3 p hpm t ha hb
    rw [hrot t htN] at this
    exact Option.some.inj this

theorem moves_spec (fsamp : ℝ) (M : Motion) (N : Nat) (chunks : List Chunk) (hmi : Mission N chunks)
    (hh : ∀ c ∈ chunks, c.hwpang = none) (r : Rot ℝ) (h : Hwp.State ℝ)
    (hr : Rotates N chunks r M.rot) (hp : Plate fsamp N h M.alpha) :
    Moves fsamp M r h chunks := by
  obtain ⟨out, r', h1, h2, h3, h4⟩ := out_of N chunks hmi hh r M.rot hr
  have hlt : ∀ p ∈ out, p.1.stop ≤ N := by
    intro p hp
    have := tiles_mem h3 _ (List.mem_map_of_mem (f := fun p : Chunk × ℝ => (p.1.start, p.1.stop)) hp)
    exact this.2.2
  cases hp with
  | still hs ha =>
    refine moves_of_loop fsamp M chunks r h out r' _ h h1 h2 (run_still fsamp h hs _) ?_
    intro j p a hpj haj t ht1 ht2
    have hm := List.mem_of_getElem? hpj
    have := hlt p hm
    refine ⟨h4 p hm t (by omega) ht1 ht2, ?_⟩
    obtain ⟨_, _, rfl⟩ := List.mem_map.1 (List.mem_of_getElem? haj)
    exact ha t (by omega)
  | stepped n hn freq startAng varphi angles hf hstep hA hrange hs ha =>
    obtain ⟨h0, arrs, h', e1, e2, e3⟩ := C12_stepped_hwp_exact Real.pi fsamp freq startAng varphi
      Real.pi_pos hf n hn hstep angles hA hrange N _ h3
    rw [hs] at e1
    obtain rfl := Except.ok.inj e1
    refine moves_of_loop fsamp M chunks r h out r' (arrs.map .array) h' h1 h2
      (by rw [e2, List.map_map]; rfl) ?_
    intro j p a hpj haj t ht1 ht2
    have hm := List.mem_of_getElem? hpj
    have := hlt p hm
    refine ⟨h4 p hm t (by omega) ht1 ht2, ?_⟩
    rw [List.getElem?_map] at haj
    rcases harr : arrs[j]? with _ | arr
    · rw [harr] at haj
      cases haj
    rw [harr] at haj
    simp only [Option.map_some, Option.some.injEq] at haj
    subst haj
    have hfl := run_flatten fsamp _ h 0 N arrs h' le_rfl h3 e2 j (p.1.start, p.1.stop) arr
      (by rw [List.getElem?_map, hpj]; rfl) harr t ht1 ht2
    obtain ⟨x, x1, x2⟩ := e3 t (by omega)
    obtain ⟨y, y1, y2⟩ := ha t (by omega)
    rw [x1] at y1
    obtain rfl := Option.some.inj y1
    show M.alpha t = (arr[t - p.1.start.toNat]?).getD 0
    simp only [Int.toNat_zero, Nat.sub_zero] at hfl
    rw [hfl, x2, y2]
    rfl

theorem moves_turning (fsamp : ℝ) (N : Nat) (chunks : List Chunk) (hmi : Mission N chunks)
    (hh : ∀ c ∈ chunks, c.hwpang = none) (r : Rot ℝ) (h : Hwp.State ℝ) (rot : Nat → ℝ)
    (hr : Rotates N chunks r rot) (hfs : fsamp ≠ 0) (freq startAng varphi : ℝ) (hf : freq ≠ 0)
    (angles : Option (List ℝ))
    (hs : Hwp.setHwpMod fsamp .continuous freq startAng angles varphi = .ok h) :
    ∃ (cuts : List (Int × Int)) (alpha : Nat → ℝ), Tiles 0 N cuts ∧
      (r.period = false → cuts = chunks.map fun c => (c.start, c.stop)) ∧
      (∀ (j : Nat) c, cuts[j]? = some c → ∀ t : Nat, c.1 ≤ t → (t : Int) < c.2 → ∃ z : ℤ,
        alpha t = (startAng + 360 * freq / fsamp * ((t : ℝ) - j)) * (Real.pi / 180) +
          2 * Real.pi * z) ∧
      ∀ M : Motion, M.rot = rot → M.alpha = alpha → Moves fsamp M r h chunks := by
  obtain ⟨out, r', h1, h2, h3, h4⟩ := out_of N chunks hmi hh r rot hr
  have hlt : ∀ p ∈ out, p.1.stop ≤ N := by
    intro p hp
    have := tiles_mem h3 _ (List.mem_map_of_mem (f := fun p : Chunk × ℝ => (p.1.start, p.1.stop)) hp)
    exact this.2.2
  obtain ⟨h0, arrs, h', e1, e2, e3, e4⟩ := C13_continuous_hwp_lag Real.pi fsamp freq startAng varphi
    Real.pi_pos hfs hf angles N _ h3
  rw [hs] at e1
  obtain rfl := Except.ok.inj e1
  have hfl := run_flatten fsamp _ h 0 N arrs h' le_rfl h3 e2
  refine ⟨_, fun t => (arrs.flatten[t]?).getD 0, h3, ?_, ?_, ?_⟩
  · intro hp
    have := chunkLoop_fixed r hp chunks
    rw [this] at h1
    simp only [Except.ok.injEq, Prod.mk.injEq] at h1
    rw [← h1.1, List.map_map]
    rfl
  · intro j c hc t ht1 ht2
    have hj : j < arrs.length := by
      rw [e3]
      exact (List.getElem?_eq_some_iff.1 hc).1
    have harr := List.getElem?_eq_getElem hj
    obtain ⟨l1, l2⟩ := e4 j c _ hc harr
    have hm := tiles_mem h3 _ (List.mem_of_getElem? hc)
    obtain ⟨z, hz⟩ := l2 (t - c.1.toNat) (by omega)
    refine ⟨z, ?_⟩
    have := hfl j c _ hc harr t ht1 ht2
    simp only [Int.toNat_zero, Nat.sub_zero] at this
    dsimp only
    rw [← this, hz]
    have e : ((c.1 : ℝ) + ((t - c.1.toNat : Nat) : ℝ)) = t := by
      have : c.1 + ((t - c.1.toNat : Nat) : Int) = t := by omega
      exact_mod_cast this
    rw [e]
    rfl
  · intro M hM1 hM2
    refine moves_of_loop fsamp M chunks r h out r' (arrs.map .array) h' h1 h2
      (by rw [e2, List.map_map]; rfl) ?_
    intro j p a hpj haj t ht1 ht2
    have hm := List.mem_of_getElem? hpj
    have := hlt p hm
    refine ⟨by rw [hM1]; exact h4 p hm t (by omega) ht1 ht2, ?_⟩
    rw [List.getElem?_map] at haj
    rcases harr : arrs[j]? with _ | arr
    · rw [harr] at haj
      cases haj
    rw [harr] at haj
    simp only [Option.map_some, Option.some.injEq] at haj
    subst haj
    have := hfl j (p.1.start, p.1.stop) arr (by rw [List.getElem?_map, hpj]; rfl) harr t ht1 ht2
    show M.alpha t = (arr[t - p.1.start.toNat]?).getD 0
    simp only [Int.toNat_zero, Nat.sub_zero] at this
    rw [this, hM2]

theorem moves_static (fsamp : ℝ) (M : Motion) (r : Rot ℝ) (hr : r.period = false) (h : Hwp.State ℝ)
    (hs : h.freq = 0 ∨ h.mode = .none) (chunks : List Chunk)
    (h0 : ∀ c ∈ chunks, c.hwpang ≠ some 0)
    (hM : ∀ c ∈ chunks, ∀ t : Nat, c.start ≤ t → (t : Int) < c.stop → M.rot t = r.angle ∧
      M.alpha t = ((c.hwpang.map fun (a : ℚ) => (a : ℝ)).getD h.dict.angle) * (Real.pi / 180)) :
    Moves fsamp M r h chunks := by
  induction chunks with
  | nil => trivial
  | cons c cs ih =>
    have hrot : rotStep r c = .ok r := by
      unfold rotStep Rot.rotate
      rw [hr]
      simp
    refine ⟨[c], r, r, h, by unfold subpartChunk; rw [hr]; rfl, ?_,
      ih (fun c hc => h0 c (List.mem_cons_of_mem _ hc)) fun c hc => hM c (List.mem_cons_of_mem _ hc)⟩
    refine ⟨r, .scalar (((c.hwpang.map fun (a : ℚ) => (a : ℝ)).getD h.dict.angle) * (Real.pi / 180)),
      h, hrot, ?_, fun t h1 h2 => hM c List.mem_cons_self t h1 h2, rfl, rfl⟩
    unfold Hwp.rotateHwp
    rw [if_pos hs]
    rcases hc : c.hwpang with _ | a
    · rfl
    · have : a ≠ 0 := fun h => h0 c List.mem_cons_self (by rw [hc, h])
      have : (a : ℝ) ≠ 0 := by exact_mod_cast this
      simp [this]
      rfl

/-! ### the generic scan -/

theorem tiles_unique {a b : Int} {l : List (Int × Int)} (h : Tiles a b l) {t : Int}
    {p q : Int × Int} (hp : p ∈ l) (hq : q ∈ l) (hp1 : p.1 ≤ t) (hp2 : t < p.2) (hq1 : q.1 ≤ t)
    (hq2 : t < q.2) : p = q := by
  induction h with
  | nil => cases hp
  | cons hlt ht ih =>
    rcases List.mem_cons.1 hp with rfl | hp' <;> rcases List.mem_cons.1 hq with rfl | hq'
    · rfl
    · have := tiles_mem ht _ hq'
      dsimp only at hp2
      omega
    · have := tiles_mem ht _ hp'
      dsimp only at hq2
      omega
    · exact ih hp' hq'

theorem at_unique {cfg : Scan.ElCfg ℝ} {t : Nat} {x y y' : ℝ} (h : cfg.At t x y) (h' : cfg.At t x y') :
    y = y' := by
  cases cfg with
  | none => exact h.trans h'.symm
  | some c =>
    obtain ⟨a, h1, h2⟩ := h
    obtain ⟨b, h3, h4⟩ := h'
    rw [h1] at h3
    rw [h2, h4, Option.some.inj h3]

theorem pass_after (site : Scan.Site ℝ Quat.Q) (o : Scan.Opts ℝ) (w : Nat → ℝ)
    (hw : Scan.IsProfile site o w) (hfs : o.fsamp ≠ 0) (hcl : 0 < o.checkLen)
    (hd : o.dec0 ≠ []) (hr : o.ra0.length = o.dec0.length) (cfg : Scan.ElCfg ℝ) (hv : cfg.Valid)
    (cs : List (Int × Int)) (N : Nat) (pre : Bool) (st : Scan.State ℝ Quat.Q) (ht : Tiles 0 N cs)
    (hdiv : o.azThrow ≠ 0 ∨ ∀ c ∈ cs, o.checkLen.toNat ∣ (c.2 - c.1).toNat)
    (hfr : Scan.Fresh cfg st.el) (hm : st.mmap = none) :
    ∃ out st', Scan.passPointing site o pre cs st = .ok (out, st') ∧ st'.flag = st.flag ∧
      st'.mmap = none ∧ ∃ e'', Scan.resetEl st'.el = .ok e'' ∧ Scan.Fresh cfg e'' := by
  obtain ⟨p, hsel, hp⟩ := Scan.azel_all site o w hw hcl hd hr
  obtain ⟨as, has⟩ := hp cs hdiv
  obtain ⟨outs, o1, o2, o3⟩ := Scan.runEl_fresh cfg hv (as.map Prod.snd)
  obtain ⟨e', e'', r1, r2, r3⟩ := o3 st.el hfr
  have has' : List.Forall₂ (fun c a => Scan.azel site o (Scan.times o c) = .ok a) cs as :=
    has.imp fun _ _ h => h.1
  obtain ⟨out, st', p1, p2, p3, p4, p5, _⟩ := Scan.pass_compute site o hfs cs as outs st e' pre has' r1
    o1 0 N (by simpa using ht) (.inl hm)
  exact ⟨out, st', p1, p4, p5 hm, e'', by rw [p3]; exact r2, r3⟩

theorem implement_flag (site : Scan.Site ℝ Quat.Q) (o : Scan.Opts ℝ) (hfs : o.fsamp ≠ 0) (pre : Bool)
    (c : Int × Int) (st st' : Scan.State ℝ Quat.Q)
    (h : Scan.implementScan site o pre c.1 c.2 st = .ok st') :
    st'.flag = st.flag ∧ st'.ctime = Scan.times o c := by
  unfold Scan.implementScan at h
  rw [Scan.ctimes_ok o c hfs] at h
  simp only [bind, Except.bind, pure, Except.pure] at h
  split at h
  · cases h
    exact ⟨rfl, rfl⟩
  · unfold Scan.compute at h
    simp only [bind, Except.bind, pure, Except.pure] at h
    split at h
    · cases h
    split at h
    · cases h
    split at h
    · cases h
    cases h
    exact ⟨rfl, rfl⟩

theorem points_of_pass (w : World (Scan.State ℝ Quat.Q)) (site : Scan.Site ℝ Quat.Q)
    (o : Scan.Opts ℝ) (hgr : o.ground = false) (hfs : o.fsamp ≠ 0)
    (hw : w.implement = genericImplement site o) (M : Motion)
    (htime : ∀ t : Nat, M.time t = t / o.fsamp + o.ctime0) (hflag : ∀ t, M.flag t = false)
    (pre : Bool) (cs : List Chunk) : ∀ (st : Scan.State ℝ Quat.Q) out st',
      Scan.passPointing site o pre (cs.map fun c => (c.start, c.stop)) st = .ok (out, st') →
      st.flag = none → (∀ c ∈ cs, 0 ≤ c.start) →
      (∀ (k : Nat) c, cs[k]? = some c → ∃ q g, out[k]? = some (q, g) ∧
        q = (List.range (c.stop - c.start).toNat).map fun i => M.bore (c.start.toNat + i)) →
      Points w M pre st cs st' := by
  have ho : ({ o with ground := false } : Scan.Opts ℝ) = o := by
    cases o
    cases hgr
    rfl
  induction cs with
  | nil =>
    intro st out st' h _ _ _
    simp only [List.map_nil, Scan.passPointing, Except.ok.injEq, Prod.mk.injEq] at h
    exact h.2.symm
  | cons c cs ih =>
    intro st out st' h hf h0 hq
    rw [List.map_cons] at h
    unfold Scan.passPointing at h
    simp only [bind, Except.bind, pure, Except.pure] at h
    rcases e1 : Scan.implementScan site o pre c.start c.stop st with e | st1
    · rw [e1] at h
      cases h
    rw [e1] at h
    dsimp only at h
    rcases e2 : Scan.passPointing site o pre (cs.map fun c => (c.start, c.stop)) st1 with e | ⟨o2, st2⟩
    · rw [e2] at h
      cases h
    rw [e2] at h
    simp only [Except.ok.injEq, Prod.mk.injEq] at h
    obtain ⟨rfl, rfl⟩ := h
    obtain ⟨f1, f2⟩ := implement_flag site o hfs pre (c.start, c.stop) st st1 e1
    obtain ⟨q, g, g1, g2⟩ := hq 0 c rfl
    simp only [List.getElem?_cons_zero, Option.some.injEq, Prod.mk.injEq] at g1
    refine ⟨⟨st1.ctime, st1.qBore, st1.qGround, st1.flag⟩, st1, ?_, ⟨?_, ?_, ?_⟩, ?_⟩
    · rw [hw]
      unfold genericImplement
      rw [ho, e1]
      rfl
    · have := h0 c List.mem_cons_self
      rw [f2]
      unfold Scan.times intRange
      rw [List.map_map]
      apply List.map_congr_left
      intro i _
      rw [htime]
      simp only [Function.comp_def]
      congr 2
      have h9 : ((c.start.toNat : Nat) : Int) = c.start := by omega
      push_cast
      rw [← h9]
      push_cast
      norm_cast
    · rw [g1.1, g2]
    · rw [f1, hf]
      exact fun k _ => hflag _
    · exact ih st1 o2 _ e2 (f1.trans hf) (fun c hc => h0 c (List.mem_cons_of_mem _ hc))
        fun k c hk => by simpa using hq (k + 1) c (by simpa using hk)

theorem generic_steady_every (w : World (Scan.State ℝ Quat.Q)) (site : Scan.Site ℝ Quat.Q)
    (o : Scan.Opts ℝ) (hgr : o.ground = false) (prf : Nat → ℝ) (hprf : Scan.IsProfile site o prf)
    (hfs : o.fsamp ≠ 0) (hcl : 0 < o.checkLen) (hd : o.dec0 ≠ [])
    (hr : o.ra0.length = o.dec0.length) (cfg : Scan.ElCfg ℝ) (hv : cfg.Valid)
    (hw : w.implement = genericImplement site o) (hw' : w.resetEl = genericReset) (N : Nat)
    (chunks : List Chunk) (hmi : Mission N chunks)
    (hdiv : o.azThrow ≠ 0 ∨ ∀ c ∈ chunks, o.checkLen.toNat ∣ (c.stop - c.start).toNat)
    (e0 : Scan.State ℝ Quat.Q) (hfr : Scan.Fresh cfg e0.el) (hm : e0.mmap = none) :
    ∃ bore : Nat → Quat.Q,
      (∀ c ∈ chunks, ∀ i : Nat, i < (c.stop - c.start).toNat → ∃ (p : ℝ × ℝ) (y : ℝ),
        Selected o.elMin (Scan.patches site o (((c.start +
            (i / o.checkLen.toNat * o.checkLen.toNat : Nat) : Int) : ℝ) / o.fsamp + o.ctime0)) p ∧
          cfg.At (c.start.toNat + i) p.2 y ∧
          bore (c.start.toNat + i) =
            site.azel2bore (prf i + p.1) y (((c.start + i : Int) : ℝ) / o.fsamp + o.ctime0)) ∧
      ∀ M : Motion, M.bore = bore → (∀ t : Nat, M.time t = t / o.fsamp + o.ctime0) →
        (∀ t, M.flag t = false) → ∀ e : Scan.State ℝ Quat.Q, Scan.Fresh cfg e.el → e.mmap = none →
        e.flag = none → Repeats w M chunks e := by
  obtain ⟨p, hsel, hp⟩ := Scan.pass_pointwise site o prf hprf hfs hcl hd hr cfg hv
  have hdiv' : o.azThrow ≠ 0 ∨ ∀ c ∈ chunks.map (fun c => (c.start, c.stop)),
      o.checkLen.toNat ∣ (c.2 - c.1).toNat := by
    rcases hdiv with h | h
    · exact .inl h
    · right
      intro c hc
      obtain ⟨c', hc', rfl⟩ := List.mem_map.1 hc
      exact h c' hc'
  have h0 : ∀ c ∈ chunks, 0 ≤ c.start ∧ c.start < c.stop := by
    intro c hc
    have := tiles_mem hmi.tiles _ (List.mem_map_of_mem (f := fun c : Chunk => (c.start, c.stop)) hc)
    exact ⟨this.1, this.2.1⟩
  -- a value for each sample of each chunk
  let At : Int → Nat → Quat.Q → Prop := fun a i q => ∃ y,
    cfg.At (a.toNat + i) (p (((a + (i / o.checkLen.toNat * o.checkLen.toNat : Nat) : Int) : ℝ)
      / o.fsamp + o.ctime0)).2 y ∧
    q = site.azel2bore (prf i + (p (((a + (i / o.checkLen.toNat * o.checkLen.toNat : Nat) : Int) : ℝ)
      / o.fsamp + o.ctime0)).1) y (((a + i : Int) : ℝ) / o.fsamp + o.ctime0)
  have hAt : ∀ a i q q', At a i q → At a i q' → q = q' := by
    rintro a i q q' ⟨y, h1, h2⟩ ⟨y', h1', h2'⟩
    rw [h2, h2', at_unique h1 h1']
  have hpass : ∀ (pre : Bool) (st : Scan.State ℝ Quat.Q), Scan.Fresh cfg st.el → st.mmap = none →
      ∃ out st', Scan.passPointing site o pre (chunks.map fun c => (c.start, c.stop)) st =
        .ok (out, st') ∧ (st'.flag = st.flag ∧ st'.mmap = none ∧
          ∃ e'', Scan.resetEl st'.el = .ok e'' ∧ Scan.Fresh cfg e'') ∧
        ∀ (k : Nat) c, chunks[k]? = some c → ∃ q g, out[k]? = some (q, g) ∧
          q.length = (c.stop - c.start).toNat ∧ ∀ (i : Nat) x, q[i]? = some x → At c.start i x := by
    intro pre st h1 h2
    obtain ⟨out, st', a1, _, _, a4⟩ := hp _ N pre st hmi.tiles hdiv' h1 h2
    obtain ⟨out', st'', b1, b2, b3, b4⟩ := pass_after site o prf hprf hfs hcl hd hr cfg hv _ N pre st
      hmi.tiles hdiv' h1 h2
    rw [a1] at b1
    simp only [Except.ok.injEq, Prod.mk.injEq] at b1
    obtain ⟨rfl, rfl⟩ := b1
    refine ⟨out, st', a1, ⟨b2, b3, b4⟩, fun k c hk => ?_⟩
    obtain ⟨q, g, c1, c2, c3⟩ := a4 k (c.start, c.stop) (by rw [List.getElem?_map, hk]; rfl)
    refine ⟨q, g, c1, c2, fun i x hx => ?_⟩
    have hi := (List.getElem?_eq_some_iff.1 hx).1
    obtain ⟨y, d1, d2⟩ := c3 i (by omega)
    rw [hx] at d2
    exact ⟨y, d1, Option.some.inj d2⟩
  have hex : ∀ c ∈ chunks, ∀ i : Nat, i < (c.stop - c.start).toNat → ∃ x, At c.start i x := by
    obtain ⟨out, st', _, _, a3⟩ := hpass false e0 hfr hm
    intro c hc i hi
    obtain ⟨k, hk, rfl⟩ := List.getElem_of_mem hc
    obtain ⟨q, g, c1, c2, c3⟩ := a3 k _ (List.getElem?_eq_getElem hk)
    exact ⟨q[i], c3 i _ (List.getElem?_eq_getElem (by omega))⟩
  have hbore : ∀ t : Nat, ∃ x : Quat.Q, ∀ c ∈ chunks, ∀ i : Nat, i < (c.stop - c.start).toNat →
      c.start.toNat + i = t → At c.start i x := by
    intro t
    by_cases h : ∃ c ∈ chunks, ∃ i : Nat, i < (c.stop - c.start).toNat ∧ c.start.toNat + i = t
    · obtain ⟨c, hc, i, hi, rfl⟩ := h
      obtain ⟨x, hx⟩ := hex c hc i hi
      refine ⟨x, fun c' hc' i' hi' e => ?_⟩
      have h1 := h0 c hc
      have h2 := h0 c' hc'
      have := tiles_unique (t := c.start + i) hmi.tiles
        (List.mem_map_of_mem (f := fun c : Chunk => (c.start, c.stop)) hc)
        (List.mem_map_of_mem (f := fun c : Chunk => (c.start, c.stop)) hc')
        (by dsimp only; omega) (by dsimp only; omega) (by dsimp only; omega) (by dsimp only; omega)
      have h3 : c.start = c'.start := congrArg Prod.fst this
      have h4 : i' = i := by omega
      rw [← h3, h4]
      exact hx
    · exact ⟨0, fun c hc i hi e => (h ⟨c, hc, i, hi, e⟩).elim⟩
  choose bore hbore using hbore
  refine ⟨bore, fun c hc i hi => ?_, fun M hM htime hflag e hfr hm hf => ?_⟩
  · obtain ⟨y, d1, d2⟩ := hbore _ c hc i hi rfl
    exact ⟨_, y, hsel _, d1, d2⟩
  · refine ⟨fun e => Scan.Fresh cfg e.el ∧ e.mmap = none ∧ e.flag = none, ⟨hfr, hm, hf⟩, ?_⟩
    rintro first e ⟨p1, p2, p3⟩
    obtain ⟨out, st', a1, ⟨a2, a3, e'', a4, a5⟩, a6⟩ := hpass (!first) e p1 p2
    refine ⟨st', ?_, { st' with el := e'' }, ?_, a5, a3, a2.trans p3⟩
    · refine points_of_pass w site o hgr hfs hw M htime hflag _ chunks e out st' a1 p3
        (fun c hc => (h0 c hc).1) fun k c hk => ?_
      obtain ⟨q, g, c1, c2, c3⟩ := a6 k c hk
      refine ⟨q, g, c1, ?_⟩
      apply List.ext_getElem (by simp [c2])
      intro i h1 h2
      have hc := List.mem_of_getElem? hk
      simp only [List.getElem_map, List.getElem_range, hM]
      exact hAt _ _ _ _ (c3 i _ (List.getElem?_eq_getElem h1)) (hbore _ c hc i (by omega) rfl)
    · rw [hw']
      unfold genericReset
      rw [a4]
      rfl

theorem generic_steady (w : World (Scan.State ℝ Quat.Q)) (site : Scan.Site ℝ Quat.Q)
    (o : Scan.Opts ℝ) (hgr : o.ground = false) (prf : Nat → ℝ) (hprf : Scan.IsProfile site o prf)
    (hfs : o.fsamp ≠ 0) (hcl : 0 < o.checkLen) (hd : o.dec0 ≠ [])
    (hr : o.ra0.length = o.dec0.length) (cfg : Scan.ElCfg ℝ) (hv : cfg.Valid)
    (hw : w.implement = genericImplement site o) (hw' : w.resetEl = genericReset) (N : Nat)
    (chunks : List Chunk) (hmi : Mission N chunks)
    (hdiv : o.azThrow ≠ 0 ∨ ∀ c ∈ chunks, o.checkLen.toNat ∣ (c.stop - c.start).toNat)
    (e0 : Scan.State ℝ Quat.Q) (hfr : Scan.Fresh cfg e0.el) (hm : e0.mmap = none)
    (hf : e0.flag = none) :
    ∃ bore : Nat → Quat.Q,
      (∀ c ∈ chunks, ∀ i : Nat, i < (c.stop - c.start).toNat → ∃ (p : ℝ × ℝ) (y : ℝ),
        Selected o.elMin (Scan.patches site o (((c.start +
            (i / o.checkLen.toNat * o.checkLen.toNat : Nat) : Int) : ℝ) / o.fsamp + o.ctime0)) p ∧
          cfg.At (c.start.toNat + i) p.2 y ∧
          bore (c.start.toNat + i) =
            site.azel2bore (prf i + p.1) y (((c.start + i : Int) : ℝ) / o.fsamp + o.ctime0)) ∧
      ∀ M : Motion, M.bore = bore → (∀ t : Nat, M.time t = t / o.fsamp + o.ctime0) →
        (∀ t, M.flag t = false) → Repeats w M chunks e0 :=
  let ⟨bore, h1, h2⟩ := generic_steady_every w site o hgr prf hprf hfs hcl hd hr cfg hv hw hw' N chunks
    hmi hdiv e0 hfr hm
  ⟨bore, h1, fun M a b c => h2 M a b c e0 hfr hm hf⟩

/-! ### observations -/

theorem flatMap_congr' {α β : Type} {l : List α} {f g : α → List β} (h : ∀ a ∈ l, f a = g a) :
    l.flatMap f = l.flatMap g := by
  induction l with
  | nil => rfl
  | cons a l ih =>
    rw [List.flatMap_cons, List.flatMap_cons, h a List.mem_cons_self,
      ih fun a ha => h a (List.mem_cons_of_mem _ ha)]

theorem obs_cases {M : Motion} {x : Ext} {q : QExt} {varphi : ℝ} {nsideOut : Nat} {c : ℝ}
    {val : BinBeam → Nat → ℝ} {p : Pair} {t : Nat} {ob : Obs}
    (h : ob ∈ pairObs M x q varphi nsideOut c val p t) :
    ∃ b d, (live p.1 = some b ∨ live p.2 = some b) ∧ ob = obsAt M x q varphi nsideOut b t d ∧
      (d = val b t ∨ ∃ b', (live p.1 = some b' ∨ live p.2 = some b') ∧ d = val b t + c * val b' t) := by
  unfold pairObs at h
  split at h
  · cases h
  · split at h
    · rename_i a b ha hb
      simp only [List.mem_cons, List.not_mem_nil, or_false] at h
      rcases h with rfl | rfl
      · exact ⟨a, _, .inl ha, rfl, .inr ⟨b, .inr hb, rfl⟩⟩
      · exact ⟨b, _, .inr hb, rfl, .inr ⟨a, .inl ha, rfl⟩⟩
    · rename_i a ha hb
      simp only [List.mem_cons, List.not_mem_nil, or_false] at h
      exact ⟨a, _, .inl ha, h, .inl rfl⟩
    · rename_i b ha hb
      simp only [List.mem_cons, List.not_mem_nil, or_false] at h
      exact ⟨b, _, .inr hb, h, .inl rfl⟩
    · cases h

theorem pairObs_pix {M : Motion} {x : Ext} {q : QExt} (hq : PixOk q) {varphi : ℝ} {nsideOut : Nat}
    (hns : 0 < nsideOut) {c : ℝ} {val : BinBeam → Nat → ℝ} {p : Pair} {t : Nat} {ob : Obs}
    (h : ob ∈ pairObs M x q varphi nsideOut c val p t) :
    0 ≤ ob.pix ∧ ob.pix < 12 * (nsideOut : Int) ^ 2 := by
  obtain ⟨b, d, _, rfl, _⟩ := obs_cases h
  exact hq _ _ _ _ _ hns

theorem pairObs_zero {M : Motion} {x : Ext} {q : QExt} {varphi : ℝ} {nsideOut : Nat} {c : ℝ} {p : Pair}
    {t : Nat} {ob : Obs} (h : ob ∈ pairObs M x q varphi nsideOut c (fun _ _ => 0) p t) : ob.d = 0 := by
  obtain ⟨b, d, _, rfl, h | ⟨_, _, h⟩⟩ := obs_cases h
  · exact h
  · show d = 0
    rw [h]
    ring

theorem pairObs_blank (M : Motion) (x : Ext) (q : QExt) (varphi : ℝ) (nsideOut : Nat) (c : ℝ)
    (val val' : BinBeam → Nat → ℝ) (p : Pair) (t : Nat) :
    (pairObs M x q varphi nsideOut c val p t).map blank =
      (pairObs M x q varphi nsideOut c val' p t).map blank := by
  unfold pairObs
  split
  · rfl
  · split <;> rfl

theorem obs_count (M : Motion) (x : Ext) (q : QExt) (varphi : ℝ) (nsideOut : Nat) (c : ℝ)
    (val : Pair → BinBeam → Nat → ℝ) (N : Nat) (beams : List Pair) :
    (beams.flatMap fun p => (List.range N).flatMap
      (pairObs M x q varphi nsideOut c (val p) p)).length =
      (beams.map fun p => (live p.1).toList.length + (live p.2).toList.length).sum *
        ((List.range N).filter fun t => !M.flag t).length := by
  have hone : ∀ p (l : List Nat), (l.flatMap (pairObs M x q varphi nsideOut c (val p) p)).length =
      ((live p.1).toList.length + (live p.2).toList.length) * (l.filter fun t => !M.flag t).length := by
    intro p l
    induction l with
    | nil => simp
    | cons t l ih =>
      rw [List.flatMap_cons, List.length_append, ih, List.filter_cons]
      unfold pairObs
      cases hf : M.flag t with
      | true => simp
      | false =>
        simp only [Bool.false_eq_true, if_false, Bool.not_false, if_true, List.length_cons]
        rcases live p.1 with _ | a <;> rcases live p.2 with _ | b <;> simp <;> ring
  induction beams with
  | nil => simp
  | cons p beams ih =>
    rw [List.flatMap_cons, List.length_append, ih, hone, List.map_cons, List.sum_cons]
    ring

theorem here_sum (os : List Obs) (n : Nat) (h : ∀ o ∈ os, 0 ≤ o.pix ∧ o.pix < (n : Int)) :
    ((List.range n).map fun p => (here p os).length).sum = os.length := by
  induction os with
  | nil => simp [here]
  | cons o os ih =>
    have h1 : ∀ p, (here p (o :: os)).length =
        (if (o.pix = (p : Int)) then 1 else 0) + (here p os).length := by
      intro p
      unfold here
      rw [List.filter_cons]
      split <;> simp_all <;> omega
    simp only [h1, List.sum_map_add, ih fun o ho => h o (List.mem_cons_of_mem _ ho)]
    obtain ⟨h2, h3⟩ := h o List.mem_cons_self
    have : ((List.range n).map fun p : Nat => if o.pix = (p : Int) then 1 else 0).sum = 1 := by
      obtain ⟨k, hk⟩ : ∃ k : Nat, o.pix = (k : Int) := ⟨o.pix.toNat, by omega⟩
      rw [hk] at h3 ⊢
      have hk' : k < n := by exact_mod_cast h3
      simp only [Nat.cast_inj]
      have hall : ∀ n, ((List.range n).map fun p : Nat => if k = p then 1 else 0).sum =
          if k < n then 1 else 0 := by
        intro n
        induction n with
        | zero => simp
        | succ n ih =>
          rw [List.range_succ, List.map_append, List.sum_append, ih]
          simp only [List.map_cons, List.map_nil, List.sum_singleton]
          split_ifs <;> omega
      rw [hall, if_pos hk']
    rw [this, List.length_cons]
    omega

theorem hits_total {nside : Nat} {m : Maps} {os : List Obs} (h : Holds nside m os)
    (hp : ∀ o ∈ os, 0 ≤ o.pix ∧ o.pix < 12 * (nside : Int) ^ 2) :
    (m.map fun c => c.proj 0).sum = (os.length : ℝ) := by
  have h1 : m.map (fun c => c.proj 0) =
      ((List.range (12 * nside ^ 2)).map fun p => ((here p os).length : ℝ)) := by
    apply List.ext_getElem (by simp [h.npix])
    intro p h1 h2
    simp only [List.getElem_map, List.getElem_range]
    have h3 : p < m.length := by simpa using h1
    have := congrFun (congrFun (h.cells p _ (List.getElem?_eq_getElem h3)).2 0) 0
    rw [projAt_zero] at this
    exact this
  rw [h1, ← here_sum os (12 * nside ^ 2) (by exact_mod_cast hp), Nat.cast_list_sum, List.map_map]
  rfl

/-! ### recovery -/

open Complex in
theorem ideal_sample (Y : Harmonics) (hY : Conjugation Y) (x : Ext) (hx : ExtOk x) (q : QExt)
    (iau : Bool) (hxq : Agree x q iau) {Ls L : Nat} {a b : Nat → Nat → Nat → ℂ} {maxSpin : Int}
    (h0 : 0 ≤ maxSpin) {inputV beamV : Bool} (ha : RealSky Ls a) (hb : RealBeam L b)
    (nside : Nat) (hns : 0 < nside) (err varphi : ℝ) (M : Motion) (e : BinBeam) (t : Nat)
    (hrb : IsRot (M.bore t)) (hro : IsRot (x.detOffset e.beam.az e.beam.el 0))
    (hpol : e.beam.polang = e.polangBin + err) (d : ℝ)
    (hd : d = M.signal x false nside (dictSpec Y nside (min Ls L) a b maxSpin true none inputV beamV)
      e.beam t) :
    let ob := obsAt M x q varphi nside e t d
    let X := stokes iau (smoothI Y nside (min Ls L) (skyOf inputV a) (beamOf beamV b) ob.pix.toNat)
      (smoothP Y nside (min Ls L) (skyOf inputV a) (beamOf beamV b) ob.pix.toNat *
        exp (2 * ((err + 2 * varphi) * Real.pi / 180 : ℝ) * I))
    ob.c ^ 2 + ob.s ^ 2 = 1 ∧ ob.d = X 0 + ob.c * X 1 + ob.s * X 2 := by
  have hr : InRange nside (sampleAt x false (offset x (M.rot t) e.beam) nside (M.time t) (M.bore t)
      (M.alpha t)) := sampleAt_inRange x hx false _ nside hns _ _ _
  have hsig : d = convolved Y nside (min Ls L) {0} {2} (skyOf inputV a)
      (turned (2 * M.alpha t + e.beam.polang * Real.pi / 180) (beamOf beamV b))
      (sampleAt x false (offset x (M.rot t) e.beam) nside (M.time t) (M.bore t) (M.alpha t)) := by
    rw [hd]
    unfold Motion.signal
    rw [signal_dictSpec Y nside _ _ _ _ h0 _ _ _ _ _ _ hr]
    exact signal_old Y hY nside _ a b (fun i hi l hl => ha i hi l (le_trans hl (min_le_left _ _)))
      (fun l hl => hb l (le_trans hl (min_le_right _ _))) _ h0 true _ _ _ _ _
  dsimp only [obsAt]
  have eo : offset x (M.rot t) e.beam = qOff x (M.rot t) e.beam := rfl
  rw [eo, hxq _ _ _ _ _ _ hrb (qOff_rot x _ _ hro)]
  dsimp only
  refine ⟨by
    rw [mul_pow]
    have h1 : ((if iau = true then 1 else -1 : ℝ)) ^ 2 = 1 := by cases iau <;> norm_num
    rw [h1, one_mul]
    exact Real.cos_sq_add_sin_sq _, ?_⟩
  rw [hsig]
  unfold sampleAt
  simp only [Bool.false_eq_true, if_false]
  rw [convolved_sym, hpol, eo]
  set r := x.bore2pix (qOff x (M.rot t) e.beam) (M.time t) (M.bore t) nside with hr
  set P := smoothP Y nside (min Ls L) (skyOf inputV a) (beamOf beamV b) r.1.toNat with hP
  set al := M.alpha t with hal
  have hpi : (Real.pi : ℝ) ≠ 0 := Real.pi_ne_zero
  have e : P * exp (2 * (((2 * al + (e.polangBin + err) * Real.pi / 180 : ℝ) : ℂ) +
      ((r.2 * Real.pi / 180 : ℝ) : ℂ)) * I) =
      (P * exp (2 * ((err + 2 * varphi) * Real.pi / 180 : ℝ) * I)) *
      exp (2 * (((r.2 + e.polangBin + 2 * (al * 180 / Real.pi - varphi)) * Real.pi / 180 : ℝ) : ℂ)
        * I) := by
    rw [mul_assoc P, ← exp_add]
    congr 2
    rw [← add_mul, ← mul_add]
    congr 2
    norm_cast
    field_simp
    ring
  rw [e, re_mul_exp]
  show _ = smoothI _ _ _ _ _ _ + _ * (_ : ℂ).re + _ * (_ * (_ : ℂ).im)
  cases iau <;> simp <;> ring

theorem ideal_maps (w : World E) (hns : 0 < w.nsideOut) (Y : Harmonics) {Ls L : Nat}
    {alm : List (List ℂ)} {a b : Nat → Nat → Nat → ℂ} {maxSpin : Int} {inputV beamV : Bool} {err : ℝ}
    {data : BinBeam → BeamData} {p : Pair}
    (h : IdealPair w Y Ls L alm a b maxSpin inputV beamV err data p) :
    ∃ sm, MapsOk w w.nsideOut sm p ∧ (p = (none, none) ∨ ∃ s, 0 ≤ s ∧
      sm.main = dictSpec Y w.nsideOut (min Ls L) a b s true none inputV beamV) := by
  rcases h with rfl | ⟨d, h1, h2, h3, h4, h5, h6⟩
  · exact ⟨⟨[], none, []⟩, .inl rfl, .inl rfl⟩
  · have hsp := spinmapsOf_spec Y w.nsideOut h3
    have hi : initSpinmaps Y alm none maxSpin w.nsideOut inputV beamV (data d) [] =
        .ok ⟨dictSpec Y w.nsideOut (min Ls L) a b (min (data d).mmax maxSpin) true none inputV beamV,
          none, []⟩ := by
      unfold initSpinmaps initSpinmapsG
      dsimp only
      rw [h4, h5, hsp]
      rfl
    refine ⟨_, .inr ⟨d, h1, h2.trans hi, hns, fun e he => ⟨(h6 e he).2.1, ?_, ?_⟩⟩,
      .inr ⟨_, h3.spin0, rfl⟩⟩
    · exact dictF_ok w.nsideOut _ _ _ h3.spin0 _
    · rw [(h6 e he).1]
      simp

theorem Repeats.steady {w : World E} {M : Motion} {chunks : List Chunk} {e : E}
    (h : Repeats w M chunks e) : Steady w M chunks e := by
  obtain ⟨P, h1, h2⟩ := h
  exact ⟨fun _ e => P e, h1, h2⟩

/-! ### grounds -/

theorem ghost_ground {x : Ext} {mission : List Chunk} {s : Sub} {interp : Bool}
    (gs : List Timeline.Beam) : ∀ (n : Nat) (st : State) r, st.maps.ground.getD [] = [] →
    ghostScans x mission s true interp gs n st = .ok r → r.2.maps = st.maps := by
  induction gs with
  | nil =>
    intro n st r _ h
    simp only [ghostScans, Except.ok.injEq] at h
    rw [← h]
  | cons g gs ih =>
    intro n st r hm h
    unfold ghostScans at h
    split at h
    · exact ih n st r hm h
    · obtain ⟨y, h1, h2⟩ := bind_ok h
      exfalso
      unfold scan at h1
      split at h1
      · cases h1
      · unfold mapsFor at h1
        simp only [if_true, hm] at h1
        obtain ⟨d, hd, h1⟩ := bind_ok h1
        obtain rfl := Except.ok.inj hd
        obtain ⟨ns, hns, h1⟩ := bind_ok h1
        obtain rfl := Except.ok.inj hns
        obtain ⟨ij, _, h1⟩ := bind_ok h1
        obtain ⟨b, _, h1⟩ := bind_ok h1
        cases interp <;> cases h1

/-- A scan of the ground without maps of the ground fails. -/
theorem scan_ground {x : Ext} {mission : List Chunk} {st : State} {b : Timeline.Beam} {s : Sub}
    {interp add : Bool} (hm : st.maps.ground.getD [] = []) (r : Ret × State) :
    scan x mission st b s true interp add ≠ .ok r := by
  intro h1
  unfold scan at h1
  split at h1
  · cases h1
  · unfold mapsFor at h1
    simp only [if_true, hm] at h1
    obtain ⟨d, hd, h1⟩ := bind_ok h1
    obtain rfl := Except.ok.inj hd
    obtain ⟨ns, hns, h1⟩ := bind_ok h1
    obtain rfl := Except.ok.inj hns
    obtain ⟨ij, _, h1⟩ := bind_ok h1
    obtain ⟨b, _, h1⟩ := bind_ok h1
    cases interp <;> cases h1

theorem detector_ground {x : Ext} {mission : List Chunk} {st : State} {b : Timeline.Beam}
    {gs : List Timeline.Beam} {s : Sub} {interp : Bool} (hm : st.maps.ground.getD [] = [])
    (r : Ret × State) : scanDetector x mission b gs s true interp false st ≠ .ok r := by
  intro h
  unfold scanDetector at h
  split at h
  · cases h
  · obtain ⟨⟨n, st'⟩, h1, h2⟩ := bind_ok h
    have := ghost_ground gs 0 st _ hm h1
    simp only [if_true] at h2
    obtain ⟨q, h3, _⟩ := bind_ok h2
    exact scan_ground (by rw [this]; exact hm) _ h3

theorem foldlM_inv {α β : Type} (P : β → Prop) (f : β → α → PyM β) (l : List α) :
    (∀ a ∈ l, ∀ b b', P b → f b a = .ok b' → P b') → ∀ b b', P b → l.foldlM f b = .ok b' → P b' := by
  induction l with
  | nil =>
    intro _ b b' hb h
    rw [List.foldlM_nil] at h
    rw [← Except.ok.inj h]
    exact hb
  | cons a l ih =>
    intro hf b b' hb h
    rw [List.foldlM_cons] at h
    obtain ⟨c, h1, h2⟩ := bind_ok h
    exact ih (fun a ha => hf a (List.mem_cons_of_mem _ ha)) c b'
      (hf a List.mem_cons_self b c hb h1) h2

theorem stepSub_keeps {w : World E} {o : Opts} {p : Pair} {g : Bool} {s : Chunk} {i i' : Inst E}
    (h : stepSub w o p g s i = .ok i') :
    i'.chunks = i.chunks ∧ i'.rot.period = i.rot.period := by
  unfold stepSub at h
  obtain ⟨r, h1, h⟩ := bind_ok h
  obtain ⟨⟨a, hw⟩, _, h⟩ := bind_ok h
  obtain ⟨c, _, h⟩ := bind_ok h
  obtain ⟨⟨st, m⟩, _, h⟩ := bind_ok h
  rw [← Except.ok.inj h]
  refine ⟨rfl, ?_⟩
  show r.period = i.rot.period
  unfold rotStep at h1
  split at h1
  · rw [← Except.ok.inj h1]
  · unfold Rot.rotate at h1
    split at h1
    · obtain ⟨⟨b, g'⟩, _, h1⟩ := bind_ok h1
      rw [← Except.ok.inj h1]
    · rw [← Except.ok.inj h1]

theorem initPair_keeps {w : World E} {o : Opts} {p : Pair} {i i' : Inst E}
    (h : initPair w o p i = .ok i') : i'.chunks = i.chunks ∧ i'.rot = i.rot := by
  unfold initPair at h
  repeat' split at h
  all_goals first
    | (cases h; done)
    | (rw [← Except.ok.inj h]; exact ⟨rfl, rfl⟩)
    | (obtain ⟨sm, _, h⟩ := bind_ok h
       rw [← Except.ok.inj h]
       exact ⟨rfl, rfl⟩)

/-- The beginning of a pass. -/
theorem pass_ok {w : World E} {o : Opts} {first : Bool} {p : Pair} {i i' : Inst E}
    (h : scanPass w o first p i = .ok i') : ∃ i0 i1, i0.chunks = i.chunks ∧
      i0.rot.period = i.rot.period ∧ initPair w o p i0 = .ok i1 ∧
      (List.range i1.chunks.length).foldlM (stepChunk w o p first) i1 = .ok i' := by
  unfold scanPass at h
  obtain ⟨i0, h1, h⟩ : ∃ i0, (if first then .ok i else resetAll w i) = Except.ok (ε := PyErr) i0 ∧
      ((initPair w o p i0).bind fun i => if i.chunks.all fun c => c.1.cidx.isSome then
            (List.range i.chunks.length).foldlM (stepChunk w o p first) i
          else .error .keyError) = .ok i' := by
    cases first
    · exact bind_ok h
    · exact ⟨i, rfl, h⟩
  obtain ⟨i1, h2, h3⟩ := bind_ok h
  have h0 : i0.chunks = i.chunks ∧ i0.rot.period = i.rot.period := by
    split at h1
    · rw [← Except.ok.inj h1]
      exact ⟨rfl, rfl⟩
    · unfold resetAll at h1
      obtain ⟨e, _, h1⟩ := bind_ok h1
      rw [← Except.ok.inj h1]
      exact ⟨rfl, rfl⟩
  refine ⟨i0, i1, h0.1, h0.2, h2, ?_⟩
  split at h3
  · exact h3
  · cases h3

theorem subpart_fixed {r r' : Rot ℝ} {c : Chunk} {subs : List Chunk} (hr : r.period = false)
    (h : subpartChunk r c = .ok (subs, r')) : subs = [c] ∧ r' = r := by
  unfold subpartChunk at h
  rw [hr] at h
  simp at h
  exact ⟨h.1.symm, h.2.symm⟩

theorem stepChunk_ground {w : World E} {o : Opts} (hgr : o.ground = true) {first : Bool} {p : Pair}
    {i i' : Inst E} (hr : i.rot.period = false) {k : Nat} (h : stepChunk w o p first i k = .ok i') :
    i'.rot.period = false ∧ ∃ c, i.chunks[k]? = some c ∧ i'.chunks = i.chunks.set k (c.1, true) := by
  unfold stepChunk at h
  obtain ⟨⟨c, g⟩, h1, h⟩ := bind_ok h
  obtain ⟨⟨pt, el⟩, _, h⟩ := bind_ok h
  obtain ⟨⟨subs, rot⟩, h2, h⟩ := bind_ok h
  obtain ⟨_, rfl⟩ := subpart_fixed hr h2
  have hk : i.chunks[k]? = some (c, g) := by
    unfold pyGet at h1
    rw [if_neg (show ¬ (k : Int) < 0 by omega)] at h1
    simp only [Int.toNat_natCast] at h1
    rcases hq : i.chunks[k]? with _ | q
    · rw [hq] at h1
      cases h1
    · rw [hq] at h1
      rw [← Except.ok.inj h1]
  have := foldlM_inv (fun j : Inst E => j.rot.period = false ∧ j.chunks = i.chunks.set k (c, true))
    _ _ (fun s _ b b' hb e => ?_) _ _ ?_ h
  · exact ⟨this.1, _, hk, this.2⟩
  · obtain ⟨k1, k2⟩ := stepSub_keeps e
    exact ⟨k2.trans hb.1, k1.trans hb.2⟩
  · refine ⟨hr, ?_⟩
    dsimp only
    rw [if_pos ⟨hgr, hr⟩]

end Verif.ScanInstrument
