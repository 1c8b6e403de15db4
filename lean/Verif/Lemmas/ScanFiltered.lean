import Verif.Spec.ScanFiltered
import Verif.Lemmas.ScanFilteredSim

/-! # Lemmas: what a scan with filters observes -/

noncomputable section

namespace Verif.ScanFiltered

open Verif.Chunks Verif.Timeline Verif.Spinmaps Verif.MapMaking Verif.ScanInstrument Verif.Filters
  Verif.Spec Verif.Props

variable {E : Type}

/-- The filters work for timelines of `n` samples. -/
def Good (f : FilterOpts) (n : Nat) : Prop :=
  ∃ g : Nat → ℝ, IsGain f n g ∧ ∀ tod : List ℝ, tod.length = n →
    ∃ out, filterTod f tod = .ok (some out) ∧ Filtered g tod out

/-- The filtered timeline. -/
def filt (f : FilterOpts) (tod : List ℝ) : List ℝ :=
  match filterTod f tod with
  | .ok (some out) => out
  | _ => List.replicate tod.length 0

theorem filt_good {f : FilterOpts} {n : Nat} {g : Nat → ℝ}
    (h : ∀ tod : List ℝ, tod.length = n →
      ∃ out, filterTod f tod = .ok (some out) ∧ Filtered g tod out) {tod : List ℝ}
    (ht : tod.length = n) :
    filterTod f tod = .ok (some (filt f tod)) ∧ Filtered g tod (filt f tod) := by
  obtain ⟨out, h1, h2⟩ := h tod ht
  have : filt f tod = out := by
    unfold filt
    rw [h1]
  rw [this]
  exact ⟨h1, h2⟩

/-- The filters return timelines of the same length, and are linear. -/
def Tame (f : FilterOpts) (n : Nat) : Prop :=
  (∀ tod : List ℝ, tod.length = n → filterTod f tod = .ok (some (filt f tod)) ∧
    (filt f tod).length = n) ∧
  ∀ (x y : List ℝ) (c : ℝ), x.length = n → y.length = n →
    filt f (List.zipWith (fun u v => u + c * v) x y) =
      List.zipWith (fun u v => u + c * v) (filt f x) (filt f y)

theorem tame_of {f : FilterOpts} {n : Nat} {g : Nat → ℝ} (h : ∀ tod : List ℝ, tod.length = n →
    ∃ out, filterTod f tod = .ok (some out) ∧ Filtered g tod out) : Tame f n := by
  refine ⟨fun tod ht => ⟨(filt_good h ht).1, by rw [(filt_good h ht).2.size, ht]⟩, ?_⟩
  intro x y c hx hy
  have e : ∀ x y : List ℝ, List.zipWith (fun u v => u + c * v) x y = combine 1 c x y := by
    intro x y
    unfold combine
    congr 1
    funext u v
    rw [one_mul]
  rw [e, e]
  exact filtered_unique (filt_good h (by simp [combine, hx, hy])).2
    (filtered_combine (filt_good h hx).2 (filt_good h hy).2 (by omega) 1 c)

theorem Good.tame {f : FilterOpts} {n : Nat} (hg : Good f n) : Tame f n := by
  obtain ⟨g, -, h⟩ := hg
  exact tame_of h

/-- The filters work for timelines of `n` samples, or (`bad`) make NaN of them. -/
def Works (f : FilterOpts) (n : Nat) (bad : Bool) : Prop :=
  if bad then ∀ tod : List ℝ, tod.length = n → filterTod f tod = .ok none else Tame f n

theorem works_length {f : FilterOpts} {n : Nat} {bad : Bool} (h : Works f n bad) {tod : List ℝ}
    (ht : tod.length = n) : (filt f tod).length = n := by
  cases bad with
  | true =>
    have := h tod ht
    unfold filt
    rw [this]
    simp [ht]
  | false => exact (h.1 tod ht).2

theorem filt_bad {f : FilterOpts} {n : Nat} (h : Works f n true) {tod : List ℝ}
    (ht : tod.length = n) : filt f tod = List.replicate n 0 := by
  have := h tod ht
  unfold filt
  rw [this, ht]

/-- There is something to scan. -/
def alive (p : Pair) : Bool := (live p.1).isSome || (live p.2).isSome

/-- The value of sample `t` after filtering. -/
def after (f : FilterOpts) (win : Nat → Nat × Nat) (v : Nat → ℝ) (t : Nat) : ℝ :=
  ((filt f (part v (win t)))[t - (win t).1]?).getD 0

theorem part_length (v : Nat → ℝ) (ab : Nat × Nat) : (part v ab).length = ab.2 := by simp [part]

theorem filt_mix {f : FilterOpts} {n : Nat} {bad : Bool} (hg : Works f n bad) (x y : List ℝ) (hx : x.length = n)
    (hy : y.length = n) (c : ℝ) :
    filt f (List.zipWith (fun u v => u + c * v) x y) =
      List.zipWith (fun u v => u + c * v) (filt f x) (filt f y) := by
  cases bad with
  | true =>
    rw [filt_bad hg hx, filt_bad hg hy, filt_bad hg (by simp [hx, hy])]
    simp
  | false => exact hg.2 x y c hx hy

theorem binFiltered_none (q : QExt) (mission : List Chunk) (su : Setup) (st : State) (off : Quat.Q)
    (polang : ℝ) (f : FilterOpts) (tod zeros : List ℝ) (h : filterTod f tod = .ok none)
    (s : Sub) (maps m : Maps) (hb : binTod q mission su st off polang zeros .none s maps = .ok m) :
    binFiltered q mission su st off polang f tod .none s maps = .ok none := by
  unfold binFiltered
  rw [h]
  cases hh : st.hwpAng with
  | none =>
    unfold binTod binLocal at hb
    rw [hh] at hb
    cases hb
  | some a =>
    cases hc : chunk2idx mission s.start s.stop s.cidx with
    | error e =>
      unfold binTod binLocal at hb
      rw [hh, hc] at hb
      cases hb
    | ok p => rfl

theorem binOne_spec (w : World E) (hq : PixOk w.q) (hns : 0 < w.nsideOut) (M : Motion)
    (mission : List Chunk) (o : Opts) (hbin : o.binning = true) (f : FilterOpts)
    (flag : Option (List Bool))
    (b : BinBeam) (s : Sub) (st : State) (t0 i n : Nat) (h : At M mission s st flag t0 i n)
    (bad : Bool) (hg : Works f n bad) (tod : List ℝ) (ht : tod.length = n) (os : List Obs) (nan : Bool) :
    binOne w mission o f flag b s st tod ⟨mapsOf (12 * w.nsideOut ^ 2) os, nan⟩ =
      .ok (filt f tod, ⟨mapsOf (12 * w.nsideOut ^ 2) (os ++
        ((List.range n).filter fun k => !M.flag (t0 + k)).map fun k =>
          obsAt M w.x w.q w.varphi w.nsideOut b (t0 + k) (((filt f tod)[k]?).getD 0)), nan || bad⟩) := by
  have hb := ScanInstrument.binOne_spec w hq hns M mission o hbin flag b s st t0 i n h (filt f tod)
    (works_length hg ht) os
  unfold ScanInstrument.binOne at hb
  rw [if_pos hbin] at hb
  unfold binOne
  rw [if_pos hbin]
  cases bad with
  | false =>
    have h1 := (hg.1 tod ht).1
    rw [binFiltered_of _ _ _ _ _ _ f tod _ h1, hb, Bool.or_false]
    rfl
  | true =>
    rw [filt_bad hg ht] at hb ⊢
    have hz : filterTod f tod = .ok none := hg tod ht
    rw [binFiltered_none _ _ _ _ _ _ f tod _ hz _ _ _ hb, Bool.or_true]
    simp only [bind, Except.bind]
    rw [ht, hb]
    rfl

/-- `win` is constant in a subchunk. -/
def Covers (win : Nat → Nat × Nat) (t0 n : Nat) : Prop := ∀ k, k < n → win (t0 + k) = (t0, n)

theorem after_eq {f : FilterOpts} {win : Nat → Nat × Nat} {t0 n : Nat} (hw : Covers win t0 n)
    (v : Nat → ℝ) {k : Nat} (hk : k < n) :
    after f win v (t0 + k) = ((filt f ((List.range n).map fun k => v (t0 + k)))[k]?).getD 0 := by
  unfold after
  rw [hw k hk]
  unfold part
  dsimp only
  rw [Nat.add_sub_cancel_left]

theorem scanBinOne_spec (w : World E) (hq : PixOk w.q) (hns : 0 < w.nsideOut) (M : Motion)
    (mission : List Chunk) (o : Opts) (hbin : o.binning = true) (f : FilterOpts)
    (flag : Option (List Bool))
    (p : Pair) (s : Sub) (st : State) (t0 i n : Nat) (h : At M mission s st flag t0 i n)
    (bad : Bool) (hg : Works f n bad) (win : Nat → Nat × Nat) (hw : Covers win t0 n)
    (val : BinBeam → Nat → ℝ) (hval : ScansAs w mission o p s st t0 n val) (b : BinBeam)
    (hb : live p.1 = some b ∨ live p.2 = some b) (t : Option (List ℝ)) (os : List Obs)
    (nan : Bool) :
    ∃ t', scanBinOne w mission o f flag s false b { st with tod := t }
        ⟨mapsOf (12 * w.nsideOut ^ 2) os, nan⟩ =
      .ok ({ st with tod := t' }, ⟨mapsOf (12 * w.nsideOut ^ 2) (os ++
        ((List.range n).filter fun k => !M.flag (t0 + k)).map fun k =>
          obsAt M w.x w.q w.varphi w.nsideOut b (t0 + k) (after f win (val b) (t0 + k))), nan || bad⟩) := by
  unfold scanBinOne
  rw [hval b hb t]
  simp only [bind, Except.bind, todOfState]
  rw [binOne_spec w hq hns M mission o hbin f flag b s _ t0 i n (h.tod _) bad hg _ (by simp) os]
  refine ⟨some (filt f ((List.range n).map fun k => val b (t0 + k))), ?_⟩
  simp only [pure, Except.pure]
  congr 5
  apply List.map_congr_left
  intro k hk
  have hk := List.mem_range.1 (List.mem_filter.1 hk).1
  rw [after_eq hw _ hk]

theorem crossTalk_lists (a b : List ℝ) (h : a.length = b.length) (c : ℝ) :
    Signal.crossTalk a b c = .ok (List.zipWith (fun u v => u + c * v) a b,
      List.zipWith (fun u v => u + c * v) b a) := by
  obtain ⟨a', b', h1, h2, h3, h4⟩ := C27_cross_talk a b c h
  rw [h1]
  congr 2
  · apply List.ext_getElem (by simp [h2, h])
    intro k k1 k2
    have ka : k < a.length := by omega
    have kb : k < b.length := by omega
    have := (h4 k _ _ (List.getElem?_eq_getElem ka) (List.getElem?_eq_getElem kb)).1
    rw [List.getElem?_eq_getElem k1] at this
    rw [Option.some.inj this]
    simp
  · apply List.ext_getElem (by simp [h3, h])
    intro k k1 k2
    have kb : k < b.length := by omega
    have ka : k < a.length := by omega
    have := (h4 k _ _ (List.getElem?_eq_getElem ka) (List.getElem?_eq_getElem kb)).2
    rw [List.getElem?_eq_getElem k1] at this
    rw [Option.some.inj this]
    simp

theorem mix_at {f : FilterOpts} {n : Nat} {bad : Bool} (hg : Works f n bad) {win : Nat → Nat × Nat} {t0 : Nat}
    (hw : Covers win t0 n) (u v : Nat → ℝ) (c : ℝ) {k : Nat} (hk : k < n) :
    ((filt f (List.zipWith (fun u v => u + c * v) ((List.range n).map fun k => u (t0 + k))
      ((List.range n).map fun k => v (t0 + k))))[k]?).getD 0 =
      after f win u (t0 + k) + c * after f win v (t0 + k) := by
  rw [filt_mix hg _ _ (by simp) (by simp), after_eq hw _ hk, after_eq hw _ hk]
  have l1 := works_length hg (tod := (List.range n).map fun k => u (t0 + k)) (by simp)
  have l2 := works_length hg (tod := (List.range n).map fun k => v (t0 + k)) (by simp)
  rw [List.getElem?_zipWith, List.getElem?_eq_getElem (by omega), List.getElem?_eq_getElem (by omega)]
  rfl

theorem scanMix_spec (w : World E) (hq : PixOk w.q) (hns : 0 < w.nsideOut) (M : Motion)
    (mission : List Chunk) (o : Opts) (hbin : o.binning = true) (f : FilterOpts)
    (flag : Option (List Bool))
    (p : Pair) (s : Sub) (st : State) (t0 i n : Nat) (h : At M mission s st flag t0 i n)
    (bad : Bool) (hg : Works f n bad) (win : Nat → Nat × Nat) (hw : Covers win t0 n)
    (val : BinBeam → Nat → ℝ) (hval : ScansAs w mission o p s st t0 n val) (a b : BinBeam)
    (ha : live p.1 = some a) (hb : live p.2 = some b) (t : Option (List ℝ)) (os : List Obs)
    (nan : Bool) :
    ∃ t', scanMix w mission o f flag s false a b { st with tod := t }
        ⟨mapsOf (12 * w.nsideOut ^ 2) os, nan⟩ =
      .ok ({ st with tod := t' }, ⟨mapsOf (12 * w.nsideOut ^ 2) (os ++
        (((List.range n).filter fun k => !M.flag (t0 + k)).map fun k =>
          obsAt M w.x w.q w.varphi w.nsideOut a (t0 + k)
            (after f win (val a) (t0 + k) + o.ctalk * after f win (val b) (t0 + k))) ++
        ((List.range n).filter fun k => !M.flag (t0 + k)).map fun k =>
          obsAt M w.x w.q w.varphi w.nsideOut b (t0 + k)
            (after f win (val b) (t0 + k) + o.ctalk * after f win (val a) (t0 + k))), nan || bad⟩) := by
  unfold scanMix
  rw [hval a (.inl ha) t]
  simp only [bind, Except.bind, todOfState]
  rw [hval b (.inr hb) _]
  dsimp only
  rw [crossTalk_lists _ _ (by simp)]
  dsimp only
  rw [binOne_spec w hq hns M mission o hbin f flag a s _ t0 i n (h.tod _) bad hg _ (by simp) os]
  dsimp only
  rw [binOne_spec w hq hns M mission o hbin f flag b s _ t0 i n (h.tod _) bad hg _ (by simp) _]
  rw [Bool.or_assoc, Bool.or_self]
  refine ⟨some (filt f (List.zipWith (fun u v => u + o.ctalk * v)
    ((List.range n).map fun k => val b (t0 + k)) ((List.range n).map fun k => val a (t0 + k)))), ?_⟩
  simp only [pure, Except.pure]
  congr 5
  · congr 1
    apply List.map_congr_left
    intro k hk
    have hk := List.mem_range.1 (List.mem_filter.1 hk).1
    rw [mix_at hg hw _ _ _ hk]
  · apply List.map_congr_left
    intro k hk
    have hk := List.mem_range.1 (List.mem_filter.1 hk).1
    rw [mix_at hg hw _ _ _ hk]

theorem scanPair_spec (w : World E) (hq : PixOk w.q) (hns : 0 < w.nsideOut) (M : Motion)
    (mission : List Chunk) (o : Opts) (hbin : o.binning = true) (f : FilterOpts)
    (flag : Option (List Bool))
    (p : Pair) (s : Sub) (st : State) (t0 i n : Nat) (h : At M mission s st flag t0 i n)
    (bad : Bool) (hg : Works f n bad) (win : Nat → Nat × Nat) (hw : Covers win t0 n)
    (val : BinBeam → Nat → ℝ) (hval : ScansAs w mission o p s st t0 n val) (os : List Obs)
    (nan : Bool) :
    ∃ t', scanPair w mission o f flag p s false st ⟨mapsOf (12 * w.nsideOut ^ 2) os, nan⟩ =
      .ok ({ st with tod := t' }, ⟨mapsOf (12 * w.nsideOut ^ 2) (os ++
        (List.range n).flatMap fun k => pairObs M w.x w.q w.varphi w.nsideOut o.ctalk
          (fun b => after f win (val b)) p (t0 + k)), nan || (bad && alive p)⟩) := by
  have hst : st = { st with tod := st.tod } := rfl
  unfold scanPair
  rcases ha : live p.1 with _ | a <;> rcases hb : live p.2 with _ | b <;> dsimp only
  · refine ⟨st.tod, ?_⟩
    have : (List.range n).flatMap (fun k => pairObs M w.x w.q w.varphi w.nsideOut o.ctalk
        (fun b => after f win (val b)) p (t0 + k)) = [] := by
      rw [List.flatMap_eq_nil_iff]
      intro k _
      unfold pairObs
      rw [ha, hb]
      simp
    rw [this, List.append_nil]
    simp [alive, ha, hb]
  · obtain ⟨t', e⟩ := scanBinOne_spec w hq hns M mission o hbin f flag p s st t0 i n h bad hg win hw val
      hval b (.inr hb) st.tod os nan
    refine ⟨t', ?_⟩
    rw [hst, e, one_list]
    unfold pairObs
    rw [ha, hb]
    simp [alive, ha, hb]
  · obtain ⟨t', e⟩ := scanBinOne_spec w hq hns M mission o hbin f flag p s st t0 i n h bad hg win hw val
      hval a (.inl ha) st.tod os nan
    refine ⟨t', ?_⟩
    rw [hst, e, one_list]
    unfold pairObs
    rw [ha, hb]
    simp [alive, ha, hb]
  · by_cases hc : o.ctalk = 0
    · rw [if_neg (by simp [hc])]
      obtain ⟨t', e⟩ := scanBinOne_spec w hq hns M mission o hbin f flag p s st t0 i n h bad hg win hw
        val hval a (.inl ha) st.tod os nan
      obtain ⟨t'', e'⟩ := scanBinOne_spec w hq hns M mission o hbin f flag p s st t0 i n h bad hg win hw
        val hval b (.inr hb) t' (os ++ ((List.range n).filter fun k => !M.flag (t0 + k)).map fun k =>
          obsAt M w.x w.q w.varphi w.nsideOut a (t0 + k) (after f win (val a) (t0 + k))) (nan || bad)
      refine ⟨t'', ?_⟩
      rw [hst, e]
      simp only [bind, Except.bind]
      rw [e', Bool.or_assoc, Bool.or_self, show alive p = true by simp [alive, ha], Bool.and_true]
      congr 3
      apply mapsOf_perm
      rw [List.append_assoc]
      apply List.Perm.append_left
      refine (two_lists _ _ _ _).trans (List.Perm.of_eq ?_)
      unfold pairObs
      rw [ha, hb, hc]
      simp
    · rw [if_pos hc]
      obtain ⟨t', e⟩ := scanMix_spec w hq hns M mission o hbin f flag p s st t0 i n h bad hg win hw val
        hval a b ha hb st.tod os nan
      refine ⟨t', ?_⟩
      rw [hst, e, show alive p = true by simp [alive, ha], Bool.and_true]
      congr 3
      apply mapsOf_perm
      rw [List.append_assoc]
      apply List.Perm.append_left
      refine (two_lists _ _ _ _).trans (List.Perm.of_eq ?_)
      unfold pairObs
      rw [ha, hb]
      simp

/-! ### subchunks, chunks, passes -/

theorem optsOf_reset (w : World E) (f : Wanted) {h h' : Hwp.State ℝ} (e : h.reset = h'.reset) :
    optsOf w f h = optsOf w f h' := by
  have e1 : h.mode = h'.mode := by
    have := congrArg Hwp.State.mode e
    exact this
  have e2 : h.freq = h'.freq := by
    have := congrArg Hwp.State.freq e
    exact this
  unfold optsOf
  rw [e1, e2]

theorem stepSub_spec (w : World E) (hq : PixOk w.q) (hns : 0 < w.nsideOut) (M : Motion)
    (o : Opts) (hbin : o.binning = true) (p : Pair) (Q : Spinmaps SpinDict → Prop)
    (val : BinBeam → Nat → ℝ) (f : Wanted) (fo : FilterOpts) (win : Nat → Nat × Nat)
    (c : Chunk) (cidx : Int) (i : FInst E)
    (hc : pyGet (i.inst.chunks.map (·.1)) cidx = .ok c) (h0 : 0 ≤ c.start) (pt : Pointing)
    (hpt : PointsAt M c pt) (hval : Gives w M (i.inst.chunks.map (·.1)) o p Q val) (s : Chunk)
    (hcx : s.cidx = some cidx) (r1 : Rot ℝ) (h1 : Hwp.State ℝ) (ang : Hwp.Ang ℝ)
    (e1 : rotStep i.inst.rot s = .ok r1)
    (e2 : Hwp.rotateHwp Real.pi w.fsamp i.inst.hwp (s.hwpang.map fun (a : ℚ) => (a : ℝ)) s.start s.stop =
        .ok (some ang, h1))
    (e3 : ∀ t : Nat, s.start ≤ t → (t : Int) < s.stop →
        M.rot t = r1.angle ∧ M.alpha t = angAt ang (t - s.start.toNat))
    (ha : c.start ≤ s.start) (hlt : s.start < s.stop) (hb : s.stop ≤ c.stop)
    (hfl : i.inst.flag = pt.flag) (hct : i.inst.st.ctime = pt.ctime) (hqb : i.inst.st.qBore = pt.bore)
    (hw : Covers win s.start.toNat (s.stop - s.start).toNat)
    (bad : Bool) (hg : Works fo (s.stop - s.start).toNat bad) (hfo : optsOf w f i.inst.hwp = fo)
    (hQ : Q i.inst.st.maps) (os : List Obs) (hm : i.inst.maps = mapsOf (12 * w.nsideOut ^ 2) os) :
    ∃ i', stepSub w o f p false s i = .ok i' ∧ i'.inst.rot = r1 ∧ i'.inst.hwp = h1 ∧ Same i.inst i'.inst ∧ i'.nan = (i.nan || (bad && alive p)) ∧
      i'.inst.maps = mapsOf (12 * w.nsideOut ^ 2) (os ++
          (List.range' s.start.toNat (s.stop - s.start).toNat).flatMap
            (pairObs M w.x w.q w.varphi w.nsideOut o.ctalk (fun b => after fo win (val b)) p)) := by
  have hA := at_sub M _ c cidx hc h0 pt hpt w.fsamp s i.inst.hwp h1 _ ang r1.angle e2 e3 ha hlt hb
    { i.inst.st with rotAngle := r1.angle, hwpAng := newAng (some ang) i.inst.st.hwpAng } hct hqb rfl rfl
  obtain ⟨t', hs⟩ := scanPair_spec w hq hns M _ o hbin fo pt.flag p
    ⟨s.start, s.stop, cidx⟩ _ s.start.toNat _ _ hA bad hg win hw val (hval _ _ _ _ _ _ hA hQ) os i.nan
  unfold stepSub
  rw [e1]
  simp only [bind, Except.bind]
  rw [e2]
  dsimp only
  unfold cidxOf
  rw [hcx]
  dsimp only
  rw [hm, hfl, ← optsOf_reset w f (rotate_reset _ _ _ _ _ _ _ _ e2).symm, hfo, hs]
  dsimp only
  rw [range'_flatMap]
  exact ⟨_, rfl, rfl, rfl, ⟨rfl, hfl.symm, rfl, rfl, rfl, rfl, rfl⟩, rfl, rfl⟩

theorem or_more (a b c : Bool) : ((a || b) || (b && c)) = (a || (b && !false)) := by
  cases a <;> cases b <;> cases c <;> rfl

theorem subs_fold (w : World E) (hq : PixOk w.q) (hns : 0 < w.nsideOut) (M : Motion)
    (o : Opts) (hbin : o.binning = true) (p : Pair) (Q : Spinmaps SpinDict → Prop)
    (val : BinBeam → Nat → ℝ) (f : Wanted) (fo : FilterOpts) (win : Nat → Nat × Nat) (bad : Bool)
    (chunks : List (Chunk × Bool)) (c : Chunk) (cidx : Int)
    (hc : pyGet (chunks.map (·.1)) cidx = .ok c) (h0 : 0 ≤ c.start) (pt : Pointing)
    (hpt : PointsAt M c pt) (hval : Gives w M (chunks.map (·.1)) o p Q val) (subs : List Chunk) :
    ∀ (a : Int) (i : FInst E) (r' : Rot ℝ) (h' : Hwp.State ℝ) (os : List Obs),
      c.start ≤ a → Tiles a c.stop (subs.map Chunk.ivl) → (∀ s ∈ subs, s.cidx = some cidx) →
      (∀ s ∈ subs, Covers win s.start.toNat (s.stop - s.start).toNat ∧
        Works fo (s.stop - s.start).toNat bad) → optsOf w f i.inst.hwp = fo →
      Turns w.fsamp M i.inst.rot i.inst.hwp subs r' h' → i.inst.chunks = chunks → i.inst.flag = pt.flag →
      i.inst.st.ctime = pt.ctime → i.inst.st.qBore = pt.bore → Q i.inst.st.maps →
      i.inst.maps = mapsOf (12 * w.nsideOut ^ 2) os →
      ∃ i', subs.foldlM (fun i s => stepSub w o f p false s i) i = .ok i' ∧ i'.inst.rot = r' ∧
        i'.inst.hwp = h' ∧ Same i.inst i'.inst ∧ i'.nan = (i.nan || (bad && alive p && !subs.isEmpty)) ∧
        i'.inst.maps = mapsOf (12 * w.nsideOut ^ 2) (os ++
          (List.range' a.toNat (c.stop - a).toNat).flatMap
            (pairObs M w.x w.q w.varphi w.nsideOut o.ctalk (fun b => after fo win (val b)) p)) := by
  induction subs with
  | nil =>
    intro a i r' h' os ha ht _ _ _ htu hch hfl hct hqb hQ hm
    obtain ⟨rfl, rfl⟩ := htu
    simp only [List.map_nil] at ht
    cases ht
    refine ⟨i, rfl, rfl, rfl, ⟨rfl, rfl, rfl, rfl, rfl, rfl, rfl⟩, by simp, ?_⟩
    simp [hm]
  | cons s subs ih =>
    intro a i r' h' os ha ht hcx hcv hfo htu hch hfl hct hqb hQ hm
    simp only [List.map_cons] at ht
    generalize hiv : Chunk.ivl s = iv at ht
    cases ht with
    | cons hlt ht =>
    simp only [Chunk.ivl, Prod.mk.injEq] at hiv
    obtain ⟨rfl, rfl⟩ := hiv
    obtain ⟨r1, ang, h1, e1, e2, e3, e4⟩ := htu
    have hb : s.stop ≤ c.stop := tiles_le ht
    subst hch
    obtain ⟨i1, g1, g2, g3, g4, g6, g5⟩ := stepSub_spec w hq hns M o hbin p Q val f fo win c cidx i hc h0 pt hpt
      hval s (hcx s List.mem_cons_self) r1 h1 ang e1 e2 e3 ha hlt hb hfl hct hqb
      (hcv s List.mem_cons_self).1 bad (hcv s List.mem_cons_self).2 hfo hQ os hm
    obtain ⟨i2, k1, k2, k3, k4, k6, k5⟩ := ih s.stop i1 r' h' _ (by omega) ht
      (fun s hs => hcx s (List.mem_cons_of_mem _ hs))
      (fun s hs => hcv s (List.mem_cons_of_mem _ hs))
      (by rw [g3, ← hfo]; exact optsOf_reset w f (rotate_reset _ _ _ _ _ _ _ _ e2)) (by rw [g2, g3]; exact e4) g4.chunks
      (g4.flag.trans hfl) (g4.ctime.trans hct) (g4.qBore.trans hqb) (by rw [g4.spin]; exact hQ) g5
    refine ⟨i2, ?_, k2, k3, g4.trans k4, by rw [k6, g6]; exact or_more _ _ _, ?_⟩
    · rw [List.foldlM_cons, g1]
      exact k1
    · rw [k5, List.append_assoc, ← List.flatMap_append]
      congr 3
      have e5 : (c.stop - s.start).toNat = (s.stop - s.start).toNat + (c.stop - s.stop).toNat := by
        omega
      have e6 : s.stop.toNat = s.start.toNat + (s.stop - s.start).toNat := by omega
      rw [e5, e6, List.range'_append_1]

/-! ### stretches -/

theorem find_chunk {N : Int} {mission : List Chunk} {a : Int}
    (ht : Tiles a N (mission.map Chunk.ivl)) {c : Chunk} (hc : c ∈ mission) (t : Nat)
    (h1 : c.start ≤ (t : Int)) (h2 : (t : Int) < c.stop) :
    (mission.find? fun c => decide (c.start ≤ (t : Int) ∧ (t : Int) < c.stop)) = some c := by
  induction mission generalizing a with
  | nil => cases hc
  | cons d ds ih =>
    simp only [List.map_cons] at ht
    generalize hiv : Chunk.ivl d = iv at ht
    cases ht with
    | cons hlt ht =>
    simp only [Chunk.ivl, Prod.mk.injEq] at hiv
    obtain ⟨rfl, rfl⟩ := hiv
    rcases List.mem_cons.1 hc with rfl | hc
    · rw [List.find?_cons_of_pos]
      simp [h1, h2]
    · have := tiles_mem ht c.ivl (List.mem_map_of_mem hc)
      rw [List.find?_cons_of_neg]
      · exact ih ht hc
      · simp only [Chunk.ivl] at this
        simp only [decide_eq_true_eq, not_and]
        omega

theorem tile_ends (n : Nat) (subs : List Chunk) : ∀ (a0 a b : Int), a0 ≤ a →
    Tiles a b (subs.map Chunk.ivl) → (∀ s ∈ subs, s.start = a0 ∨ (n : Int) ∣ s.start) →
    ∀ s ∈ subs, s.stop = b ∨ (n : Int) ∣ s.stop := by
  induction subs with
  | nil => simp
  | cons d ds ih =>
    intro a0 a b ha ht h s hs
    simp only [List.map_cons] at ht
    generalize hiv : Chunk.ivl d = iv at ht
    cases ht with
    | cons hlt ht =>
    simp only [Chunk.ivl, Prod.mk.injEq] at hiv
    obtain ⟨rfl, rfl⟩ := hiv
    rcases List.mem_cons.1 hs with rfl | hs
    · cases ds with
      | nil =>
        simp only [List.map_nil] at ht
        cases ht
        exact .inl rfl
      | cons e es =>
        simp only [List.map_cons] at ht
        generalize hiv : Chunk.ivl e = iv at ht
        cases ht with
        | cons hlt' ht =>
        simp only [Chunk.ivl, Prod.mk.injEq] at hiv
        obtain ⟨e1, -⟩ := hiv
        have := h e (by simp)
        rw [e1] at this
        rcases this with h | h
        · omega
        · exact .inr h
    · exact ih a0 d.stop b (by omega) ht (fun s hs => h s (List.mem_cons_of_mem _ hs)) s hs

theorem stretch_sub {N : Nat} {mission : List Chunk} (hmi : Mission N mission) {c : Chunk}
    (hc : c ∈ mission) (h0 : 0 ≤ c.start) (hlt : c.start < c.stop) {r0 r : Rot ℝ}
    (hr0 : r.reset = r0.reset) (hr : Data.RotOk r c.start) {subs : List Chunk} {r1 : Rot ℝ}
    (h : subpartChunk r c = .ok (subs, r1)) {s : Chunk} (hs : s ∈ subs) :
    Covers (stretch r0 mission) s.start.toNat (s.stop - s.start).toNat := by
  have e1 : r.period = r0.period := by
    have := congrArg Rot.period hr0
    exact this
  have e2 : r.rotChunkSize = r0.rotChunkSize := by
    have := congrArg Rot.rotChunkSize hr0
    exact this
  obtain ⟨-, -, b3, -⟩ := subpart_full r c hr hlt subs r1 h
  have b4 := tiles_mem b3 s.ivl (List.mem_map_of_mem hs)
  simp only [Chunk.ivl] at b4
  intro k hk
  unfold stretch
  rw [find_chunk hmi.tiles hc _ (by omega) (by omega)]
  dsimp only
  rcases hr with hp | ⟨n, hn, hr⟩
  · unfold subpartChunk at h
    rw [if_neg (by simp [hp])] at h
    cases h
    obtain rfl := List.mem_singleton.1 hs
    rw [← e1, hp]
    simp only [Bool.false_eq_true, if_false]
    congr 1
    omega
  · obtain ⟨subs', rem', g1, -, -, g4⟩ := subpartChunk_spec n hn r c hr hlt
    rw [h] at g1
    simp only [Except.ok.injEq, Prod.mk.injEq] at g1
    obtain ⟨rfl, -⟩ := g1
    obtain ⟨-, d1, d2, -⟩ := g4 s hs
    have d3 := tile_ends n subs c.start c.start c.stop le_rfl b3 (fun s hs => (g4 s hs).2.1) s hs
    rw [← e1, ← e2, hr.1, hr.2.1, Int.toNat_natCast]
    simp only [if_true]
    generalize ht : s.start.toNat + k = t
    have q1 : t / n * n ≤ t := Nat.div_mul_le_self t n
    have q2 : t < (t / n + 1) * n := by
      rw [add_mul, one_mul]
      exact Nat.lt_div_mul_add hn
    generalize t / n = q at q1 q2 ⊢
    have q3 : ((q * n : Nat) : Int) ≤ s.start := by
      by_contra hno
      exact d2 (q * n : Nat) (by omega) (by omega) (by push_cast; exact Dvd.intro_left _ rfl)
    have q4 : s.stop ≤ (((q + 1) * n : Nat) : Int) := by
      by_contra hno
      exact d2 ((q + 1) * n : Nat) (by omega) (by omega) (by push_cast; exact Dvd.intro_left _ rfl)
    have q5 : s.start = c.start ∨ ((q * n : Nat) : Int) = s.start := by
      rcases d1 with d1 | ⟨m, d1⟩
      · exact .inl d1
      · right
        have a1 : (q : Int) * n ≤ m * n := by push_cast at q3; linarith
        have a2 : m * n < ((q : Int) + 1) * n := by
          have : m * (n : Int) ≤ t := by rw [mul_comm]; omega
          have : (t : Int) < ((q + 1) * n : Nat) := by exact_mod_cast q2
          push_cast at this
          linarith
        have hn' : (0 : Int) < n := by exact_mod_cast hn
        have a3 := le_of_mul_le_mul_right a1 hn'
        have a4 := lt_of_mul_lt_mul_right a2 hn'.le
        have : m = q := by omega
        rw [d1, this]
        push_cast
        ring
    have q6 : s.stop = c.stop ∨ (((q + 1) * n : Nat) : Int) = s.stop := by
      rcases d3 with d3 | ⟨m, d3⟩
      · exact .inl d3
      · right
        have a1 : (q : Int) * n < m * n := by
          have : (t : Int) < m * (n : Int) := by rw [mul_comm]; omega
          have : ((q * n : Nat) : Int) ≤ t := by exact_mod_cast q1
          push_cast at this
          linarith
        have a2 : m * n ≤ ((q : Int) + 1) * n := by
          push_cast at q4
          linarith
        have hn' : (0 : Int) < n := by exact_mod_cast hn
        have a3 := lt_of_mul_lt_mul_right a1 hn'.le
        have a4 := le_of_mul_le_mul_right a2 hn'
        have : m = q + 1 := by omega
        rw [d3, this]
        push_cast
        ring
    generalize (q + 1) * n = x at q4 q6 ⊢
    generalize q * n = y at q3 q5 ⊢
    congr 1 <;> omega

theorem tiles_nil {a b : Int} (h : Tiles a b []) : a = b := by
  cases h
  rfl

theorem chunk_step (w : World E) (hq : PixOk w.q) (hns : 0 < w.nsideOut) (M : Motion)
    (o : Opts) (hbin : o.binning = true) (hgr : o.ground = false) (p : Pair)
    (Q : Spinmaps SpinDict → Prop) (val : BinBeam → Nat → ℝ) (N : Nat) (mission : List Chunk)
    (hmi : Mission N mission) (f : Wanted) (fo : FilterOpts) (r0 : Rot ℝ) (bad : Bool)
    (hval : Gives w M mission o p Q val) (first : Bool) (k : Nat) (c : Chunk)
    (hk : mission[k]? = some c) (hcx : c.cidx = some (k : Int)) (h0 : 0 ≤ c.start)
    (hlt : c.start < c.stop) (i : FInst E) (hch : i.inst.chunks = mission.map fun c => (c, false))
    (hr : Data.RotOk i.inst.rot c.start) (pt : Pointing) (el : E)
    (himp : w.implement i.inst.el c false (!first) = .ok (pt, el)) (hpt : PointsAt M c pt)
    (subs : List Chunk) (r1 r2 : Rot ℝ) (h2 : Hwp.State ℝ)
    (hsub : subpartChunk i.inst.rot c = .ok (subs, r1)) (htu : Turns w.fsamp M r1 i.inst.hwp subs r2 h2)
    (hr0 : i.inst.rot.reset = r0.reset) (hfo : optsOf w f i.inst.hwp = fo)
    (hG : ∀ t : Nat, c.start ≤ t → (t : Int) < c.stop → Works fo (stretch r0 mission t).2 bad)
    (hQ : Q i.inst.st.maps) (os : List Obs) (hm : i.inst.maps = mapsOf (12 * w.nsideOut ^ 2) os) :
    ∃ i', stepChunk w o f p first i k = .ok i' ∧ i'.inst.rot = r2 ∧ i'.inst.hwp = h2 ∧ i'.inst.el = el ∧
      Data.RotOk i'.inst.rot c.stop ∧ i'.inst.rot.reset = i.inst.rot.reset ∧ i'.inst.hwp.reset = i.inst.hwp.reset ∧
      i'.inst.chunks = i.inst.chunks ∧ i'.inst.st.maps = i.inst.st.maps ∧ i'.nan = (i.nan || (bad && alive p)) ∧
      i'.inst.maps = mapsOf (12 * w.nsideOut ^ 2) (os ++
        (List.range' c.start.toNat (c.stop - c.start).toNat).flatMap
            (pairObs M w.x w.q w.varphi w.nsideOut o.ctalk (fun b => after fo (stretch r0 mission) (val b)) p)) := by
  obtain ⟨a1, a2, a3, a4⟩ := subpart_full i.inst.rot c hr hlt subs r1 hsub
  obtain ⟨b1, b2⟩ := turns_reset subs htu
  have hmap : (mission.map fun c => (c, false)).map (·.1) = mission := by
    rw [List.map_map]
    exact List.map_id' _
  have hget : pyGet i.inst.chunks (k : Int) = .ok (c, false) := by
    unfold pyGet
    rw [if_neg (show ¬ (k : Int) < 0 by omega), hch]
    simp [hk]
  have hget' : pyGet ((mission.map fun c => (c, false)).map (·.1)) (k : Int) = .ok c := by
    rw [hmap]
    unfold pyGet
    rw [if_neg (show ¬ (k : Int) < 0 by omega)]
    simp [hk]
  have hcm : c ∈ mission := List.mem_of_getElem? hk
  have hcov : ∀ s ∈ subs, Covers (stretch r0 mission) s.start.toNat (s.stop - s.start).toNat ∧
      Works fo (s.stop - s.start).toNat bad := by
    intro s hs
    have hc := stretch_sub hmi hcm h0 hlt hr0 hr hsub hs
    refine ⟨hc, ?_⟩
    have b4 := tiles_mem a3 s.ivl (List.mem_map_of_mem hs)
    simp only [Chunk.ivl] at b4
    have b6 := hG s.start.toNat (by omega) (by omega)
    have b7 := hc 0 (by omega)
    rw [Nat.add_zero] at b7
    rw [b7] at b6
    exact b6
  obtain ⟨i', g1, g2, g3, g4, g6, g5⟩ := subs_fold w hq hns M o hbin p Q val f fo
    (stretch r0 mission) bad
    (mission.map fun c => (c, false)) c k hget' h0 pt hpt (by rw [hmap]; exact hval) subs c.start
    ⟨{ i.inst with rot := r1, el := el,
                   st := { i.inst.st with ctime := pt.ctime, qBore := pt.bore, qGround := pt.ground },
                   flag := pt.flag }, i.nan⟩ r2 h2 os le_rfl a3 (fun s hs => (a4 s hs).trans hcx)
    hcov hfo htu hch rfl rfl
    rfl hQ hm
  refine ⟨i', ?_, g2, g3, g4.el, ?_, ?_, ?_, g4.chunks, g4.spin, ?_, g5⟩
  · unfold stepChunk
    rw [hget]
    simp only [bind, Except.bind]
    simp only [hgr, Bool.or_false, Bool.false_eq_true, false_and, if_false, ite_self]
    rw [himp]
    dsimp only
    rw [hsub]
    exact g1
  · rw [g2]
    exact Data.rotOk_congr b1 a1
  · rw [g2, b1.2.2.2, a2]
  · rw [g3, b2]
  · rw [g6]
    cases subs with
    | nil =>
      simp only [List.map_nil] at a3
      have := tiles_nil a3
      omega
    | cons s subs => simp

theorem chunks_fold (w : World E) (hq : PixOk w.q) (hns : 0 < w.nsideOut) (M : Motion)
    (o : Opts) (hbin : o.binning = true) (hgr : o.ground = false) (p : Pair)
    (Q : Spinmaps SpinDict → Prop) (val : BinBeam → Nat → ℝ) (mission : List Chunk)
    (hval : Gives w M mission o p Q val) (first : Bool) (N : Nat)
    (hmi : Mission N mission) (f : Wanted) (fo : FilterOpts) (r0 : Rot ℝ) (bad : Bool)
    (hG : ∀ t, t < N → Works fo (stretch r0 mission t).2 bad)
    (cs : List Chunk) : ∀ (k : Nat) (a : Int) (i : FInst E) (e' : E) (os : List Obs),
      mission.drop k = cs → 0 ≤ a → Tiles a N (cs.map Chunk.ivl) → Data.RotOk i.inst.rot a →
      Points w M (!first) i.inst.el cs e' → Moves w.fsamp M i.inst.rot i.inst.hwp cs →
      (i.inst.chunks = mission.map fun c => (c, false)) → i.inst.rot.reset = r0.reset →
      optsOf w f i.inst.hwp = fo → Q i.inst.st.maps →
      i.inst.maps = mapsOf (12 * w.nsideOut ^ 2) os →
      ∃ i', (List.range' k cs.length).foldlM (stepChunk w o f p first) i = .ok i' ∧ i'.inst.el = e' ∧
        i'.inst.rot.reset = i.inst.rot.reset ∧ i'.inst.hwp.reset = i.inst.hwp.reset ∧
        i'.inst.chunks = i.inst.chunks ∧ i'.inst.st.maps = i.inst.st.maps ∧ i'.nan = (i.nan || (bad && alive p && !cs.isEmpty)) ∧
        i'.inst.maps = mapsOf (12 * w.nsideOut ^ 2) (os ++
          (List.range' a.toNat (N - a).toNat).flatMap
            (pairObs M w.x w.q w.varphi w.nsideOut o.ctalk (fun b => after fo (stretch r0 mission) (val b)) p)) := by
  induction cs with
  | nil =>
    intro k a i e' os hd h0 ht hr hp hmv hch hr0 hfo hQ hm
    simp only [List.map_nil] at ht
    cases ht
    refine ⟨i, rfl, hp.symm, rfl, rfl, rfl, rfl, by simp, ?_⟩
    simp [hm]
  | cons c cs ih =>
    intro k a i e' os hd h0 ht hr hp hmv hch hr0 hfo hQ hm
    simp only [List.map_cons] at ht
    generalize hiv : Chunk.ivl c = iv at ht
    cases ht with
    | cons hlt ht =>
    simp only [Chunk.ivl, Prod.mk.injEq] at hiv
    obtain ⟨rfl, rfl⟩ := hiv
    obtain ⟨pt, e1, q1, q2, q3⟩ := hp
    obtain ⟨subs, r1, r2, h2, m1, m2, m3⟩ := hmv
    have hk : mission[k]? = some c := by
      have := congrArg (·[0]?) hd
      simpa using this
    obtain ⟨i1, g1, g2, g3, g4, g5, g6, g7, g8, g9, g11, g10⟩ := chunk_step w hq hns M o hbin hgr p Q val
      N mission hmi f fo r0 bad hval first k c hk (hmi.numbered k c hk) h0 hlt i hch hr pt e1 q1 q2 subs r1
      r2 h2 m1 m2 hr0 hfo (fun t _ ht' => hG t (by have := tiles_le ht; omega)) hQ os hm
    have hd' : mission.drop (k + 1) = cs := by
      rw [← List.drop_drop, hd]
      rfl
    have hN : c.stop ≤ N := tiles_le ht
    obtain ⟨i2, k1, k2, k3, k4, k5, k6, k8, k7⟩ := ih (k + 1) c.stop i1 e' _ hd' (by omega) ht g5
      (by rw [g4]; exact q3) (by rw [g2, g3]; exact m3) (g8.trans hch) (g6.trans hr0)
      (by rw [← hfo]; exact optsOf_reset w f g7) (by rw [g9]; exact hQ) g10
    refine ⟨i2, ?_, k2, k3.trans g6, k4.trans g7, k5.trans g8, k6.trans g9, by rw [k8, g11]; exact or_more _ _ _, ?_⟩
    · rw [List.length_cons, List.range'_succ, List.foldlM_cons, g1]
      exact k1
    · rw [k7, List.append_assoc, ← List.flatMap_append]
      congr 3
      have e5 : ((N : Int) - c.start).toNat = (c.stop - c.start).toNat + ((N : Int) - c.stop).toNat := by
        omega
      have e6 : c.stop.toNat = c.start.toNat + (c.stop - c.start).toNat := by omega
      rw [e5, e6, List.range'_append_1]

theorem pass_spec (w : World E) (hq : PixOk w.q) (hns : 0 < w.nsideOut) (M : Motion)
    (o : Opts) (hbin : o.binning = true) (hgr : o.ground = false) (p : Pair)
    (val : BinBeam → Nat → ℝ) (N : Nat) (mission : List Chunk) (hmi : Mission N mission)
    (hgood : PairGood w M mission o p val) (first : Bool) (i : FInst E) (r0 : Rot ℝ)
    (h0 : Hwp.State ℝ) (e0 e' : E) (f : Wanted)
    (bad : Bool)
    (hG : ∀ t, t < N → Works (optsOf w f h0) (stretch r0 mission t).2 bad)
    (hstart : if first then i.inst.rot = r0 ∧ i.inst.hwp = h0 ∧ i.inst.el = e0
      else i.inst.rot.reset = r0 ∧ i.inst.hwp.reset = h0 ∧ w.resetEl i.inst.el = .ok e0)
    (hr : Data.RotOk r0 0) (hp : Points w M (!first) e0 mission e')
    (hmv : Moves w.fsamp M r0 h0 mission)
    (hch : i.inst.chunks = mission.map fun c => (c, false)) (os : List Obs)
    (hm : i.inst.maps = mapsOf (12 * w.nsideOut ^ 2) os) :
    ∃ i', scanPass w o f first p i = .ok i' ∧ i'.inst.rot.reset = r0.reset ∧ i'.inst.hwp.reset = h0.reset ∧
      i'.inst.el = e' ∧ i'.inst.chunks = i.inst.chunks ∧
      i'.inst.maps = mapsOf (12 * w.nsideOut ^ 2) (os ++ missionObs w M o N (fun b => after (optsOf w f h0) (stretch r0 mission) (val b)) p) ∧
      i'.nan = (i.nan || (bad && alive p && !mission.isEmpty)) := by
  obtain ⟨Q, hQ, hinit⟩ := hgood
  have hstart' : ∃ i1, (if first then .ok i.inst else resetAll w i.inst) = Except.ok (ε := PyErr) i1 ∧
      i1.rot = r0 ∧ i1.hwp = h0 ∧ i1.el = e0 ∧ i1.chunks = i.inst.chunks ∧ i1.maps = i.inst.maps := by
    cases first with
    | true =>
      obtain ⟨a, b, c⟩ := hstart
      exact ⟨i.inst, rfl, a, b, c, rfl, rfl⟩
    | false =>
      obtain ⟨a, b, c⟩ := hstart
      refine ⟨{ i.inst with rot := i.inst.rot.reset, hwp := i.inst.hwp.reset, el := e0 }, ?_, a, b, rfl, rfl, rfl⟩
      rw [if_neg (by simp)]
      unfold resetAll
      rw [c]
      rfl
  obtain ⟨i1, f1, f2, f3, f4, f5, f6⟩ := hstart'
  obtain ⟨sm, b, f7, f8⟩ := hinit i1
  obtain ⟨i', k1, k2, k3, k4, k5, k6, k8, k7⟩ := chunks_fold w hq hns M o hbin hgr p Q val mission hQ
    first N hmi f (optsOf w f h0) r0 bad hG mission 0 0 ⟨{ i1 with st := { i1.st with maps := sm }, hasMaps := b }, i.nan⟩ e' os
    rfl le_rfl hmi.tiles (by rw [f2]; exact hr) (by rw [f4]; exact hp)
    (by rw [f2, f3]; exact hmv) (f5.trans hch) (by rw [f2]) (by rw [f3]) f8 (f6.trans hm)
  refine ⟨i', ?_, ?_, ?_, k2, k5.trans f5, ?_, k8⟩
  · have hb : scanPass w o f first p i = (if first then .ok i.inst else resetAll w i.inst).bind fun j =>
        (initPair w o p j).bind fun j =>
          if j.chunks.all fun c => c.1.cidx.isSome then
            (List.range j.chunks.length).foldlM (stepChunk w o f p first) ⟨j, i.nan⟩
          else .error .keyError := by
      unfold scanPass
      cases first <;> rfl
    rw [hb, f1]
    simp only [Except.bind]
    rw [f7]
    dsimp only
    rw [if_pos]
    · have hl : i1.chunks.length = mission.length := by rw [f5, hch, List.length_map]
      rw [hl, List.range_eq_range']
      exact k1
    · rw [f5, hch, List.all_eq_true]
      intro x hx
      obtain ⟨c, hc, rfl⟩ := List.mem_map.1 hx
      obtain ⟨j, hj, rfl⟩ := List.getElem_of_mem hc
      rw [hmi.numbered j _ (List.getElem?_eq_getElem hj)]
      rfl
  · rw [k3, ← f2]
  · rw [k4, ← f3]
  · rw [k7]
    unfold missionObs
    rw [List.range_eq_range']
    rfl

theorem loop_spec (w : World E) (hq : PixOk w.q) (hns : 0 < w.nsideOut) (M : Motion)
    (o : Opts) (hbin : o.binning = true) (hgr : o.ground = false)
    (val : Pair → BinBeam → Nat → ℝ) (N : Nat) (mission : List Chunk) (hmi : Mission N mission)
    (r0 : Rot ℝ) (h0 : Hwp.State ℝ) (hr : Data.RotOk r0 0) (hr0 : r0.reset = r0)
    (hh0 : h0.reset = h0) (hmv : Moves w.fsamp M r0 h0 mission) (f : Wanted)
    (bad : Bool)
    (hG : ∀ t, t < N → Works (optsOf w f h0) (stretch r0 mission t).2 bad) (P : Bool → E → Prop)
    (hst : ∀ first e, P first e →
      ∃ e', Points w M (!first) e mission e' ∧ ∃ e'', w.resetEl e' = .ok e'' ∧ P false e'')
    (ps : List (Option Pair)) : ∀ (first : Bool) (i : FInst E) (os : List Obs),
      (∀ p ∈ ps.filterMap id, PairGood w M mission o p (val p)) →
      (if first then i.inst.rot = r0 ∧ i.inst.hwp = h0 ∧ P true i.inst.el
        else i.inst.rot.reset = r0 ∧ i.inst.hwp.reset = h0 ∧ ∃ e, w.resetEl i.inst.el = .ok e ∧ P false e) →
      (i.inst.chunks = mission.map fun c => (c, false)) →
      i.inst.maps = mapsOf (12 * w.nsideOut ^ 2) os →
      ∃ i', scanLoop w o f first ps i = .ok i' ∧ i'.inst.maps = mapsOf (12 * w.nsideOut ^ 2) (os ++
        (ps.filterMap id).flatMap fun p => missionObs w M o N
          (fun b => after (optsOf w f h0) (stretch r0 mission) (val p b)) p) ∧
        i'.nan = (i.nan || (bad && (ps.filterMap id).any alive && !mission.isEmpty)) ∧
        i'.inst.chunks = i.inst.chunks ∧
        (ps ≠ [] ∨ first = false → i'.inst.rot.reset = r0 ∧ i'.inst.hwp.reset = h0 ∧
          ∃ e, w.resetEl i'.inst.el = .ok e ∧ P false e) := by
  induction ps with
  | nil =>
    intro first i os _ hs _ hm
    refine ⟨i, rfl, by simpa using hm, by simp, rfl, ?_⟩
    rintro (h | rfl)
    · exact (h rfl).elim
    · exact hs
  | cons p ps ih =>
    intro first i os hgood hstart hch hm
    have hone : ∃ e0, (if first then i.inst.rot = r0 ∧ i.inst.hwp = h0 ∧ i.inst.el = e0
        else i.inst.rot.reset = r0 ∧ i.inst.hwp.reset = h0 ∧ w.resetEl i.inst.el = .ok e0) ∧ P first e0 := by
      cases first with
      | true =>
        obtain ⟨a, b, c⟩ := hstart
        exact ⟨i.inst.el, ⟨a, b, rfl⟩, c⟩
      | false =>
        obtain ⟨a, b, e, c, d⟩ := hstart
        exact ⟨e, ⟨a, b, c⟩, d⟩
    obtain ⟨e0, hs0, hP⟩ := hone
    obtain ⟨e', q1, e'', q2, q3⟩ := hst first e0 hP
    have hg : PairGood w M mission o (p.getD (none, none)) (val (p.getD (none, none))) := by
      cases p with
      | none => exact pairGood_none _ _ _ _ _
      | some p => exact hgood p (by simp)
    obtain ⟨i1, k1, k2, k3, k4, k5, k6, k7⟩ := pass_spec w hq hns M o hbin hgr (p.getD (none, none))
      (val (p.getD (none, none))) N mission hmi hg first i r0 h0 e0 e' f bad hG hs0 hr q1 hmv hch os hm
    obtain ⟨i2, g1, g2, g5, g3, g4⟩ := ih false i1 _ (fun p' hp' => hgood p' (by
        cases p with
        | none => simpa using hp'
        | some p => exact List.mem_cons_of_mem _ (by simpa using hp')))
      ⟨k2.trans hr0, k3.trans hh0, e'', by rw [k4]; exact q2, q3⟩ (k5.trans hch) k6
    refine ⟨i2, ?_, ?_, ?_, g3.trans k5, fun _ => g4 (.inr rfl)⟩
    · unfold scanLoop
      rw [k1]
      exact g1
    · rw [g2, List.append_assoc]
      congr 2
      cases p with
      | none =>
        have : missionObs w M o N (fun b => after (optsOf w f h0) (stretch r0 mission)
            (val (none, none) b)) (none, none) = [] := by
          unfold missionObs
          rw [List.flatMap_eq_nil_iff]
          intro t _
          unfold pairObs
          simp [live]
        simp [this]
      | some p => simp
    · rw [g5, k7]
      cases p with
      | none =>
        have : alive (none, none) = false := rfl
        simp [this]
      | some p =>
        simp only [Option.getD_some, List.filterMap_cons, id, List.any_cons]
        cases i.nan <;> cases bad <;> cases alive p <;> cases mission.isEmpty <;> simp

theorem all_spec (w : World E) (hq : PixOk w.q) (hns : 0 < w.nsideOut) (M : Motion)
    (o : Opts) (hbin : o.binning = true) (hgr : o.ground = false)
    (val : Pair → BinBeam → Nat → ℝ) (N : Nat) (mission : List Chunk) (hmi : Mission N mission)
    (i : Inst E) (hi : Ready w mission i) (hmv : Moves w.fsamp M i.rot i.hwp mission)
    (hst : Steady w M mission i.el) (beams : List Pair) (size : Nat) (hsize : 0 < size) (f : Wanted)
    (bad : Bool)
    (hG : ∀ t, t < N → Works (optsOf w f i.hwp) (stretch i.rot mission t).2 bad)
    (hgood : ∀ p ∈ beams, PairGood w M mission o p (val p)) :
    scanAll w o f beams true size i = .ok ⟨mapsOf (12 * w.nsideOut ^ 2)
      (beams.flatMap fun p => missionObs w M o N (fun b => after (optsOf w f i.hwp) (stretch i.rot mission) (val p b)) p), bad && beams.any alive && !mission.isEmpty⟩ := by
  obtain ⟨work, w1, w2, w3, -⟩ := C03_every_pair_scanned_once beams size hsize
  obtain ⟨P, p1, p2⟩ := hst
  have hrot := ready_rot hi
  have hmem : ∀ l ∈ work, ∀ p ∈ l.filterMap id, p ∈ beams := by
    intro l hl p hp
    rw [← w3]
    exact List.mem_flatten.2 ⟨_, List.mem_map_of_mem hl, hp⟩
  have hone : ∀ l ∈ work, ∃ i', scanLoop w o f true l ⟨i, false⟩ = .ok i' ∧ i'.nan = (bad && (l.filterMap id).any alive && !mission.isEmpty) ∧
      i'.inst.maps = mapsOf (12 * w.nsideOut ^ 2)
        ((l.filterMap id).flatMap fun p => missionObs w M o N (fun b => after (optsOf w f i.hwp) (stretch i.rot mission) (val p b)) p) := by
    intro l hl
    obtain ⟨i', g1, g2, g3, -⟩ := loop_spec w hq hns M o hbin hgr val N mission hmi i.rot i.hwp hrot hi.rot
      hi.hwp hmv f bad hG P p2 l true ⟨i, false⟩ [] (fun p hp => hgood p (hmem l hl p hp)) ⟨rfl, rfl, p1⟩ hi.chunks
      (by rw [hi.maps, mapsOf_nil])
    exact ⟨i', g1, by rw [g3, Bool.false_or], by simpa using g2⟩
  have hmap : ∃ is, (List.range size).mapM (fun r => scanInstrument w o f beams true size r i) =
      Except.ok (ε := PyErr) is ∧
      is.any (·.nan) = (work.any fun l => bad && (l.filterMap id).any alive && !mission.isEmpty) ∧
      is.map (fun i => i.inst.maps) = (work.map fun l => (l.filterMap id).flatMap fun p =>
        missionObs w M o N (fun b => after (optsOf w f i.hwp) (stretch i.rot mission) (val p b)) p).map (mapsOf (12 * w.nsideOut ^ 2)) := by
    have hw : work = (List.range size).map fun r => (work[r]?).getD [] := by
      apply List.ext_getElem (by simp [w1])
      intro k h1 h2
      simp [h1]
    have hlist : ∀ rs : List Nat, (∀ r ∈ rs, r < size) → ∃ is,
        rs.mapM (fun r => scanInstrument w o f beams true size r i) = Except.ok (ε := PyErr) is ∧
        is.any (·.nan) = ((rs.map fun r => (work[r]?).getD []).any fun l =>
          bad && (l.filterMap id).any alive && !mission.isEmpty) ∧
        is.map (fun i => i.inst.maps) = ((rs.map fun r => (work[r]?).getD []).map fun l =>
          (l.filterMap id).flatMap fun p =>
            missionObs w M o N (fun b => after (optsOf w f i.hwp) (stretch i.rot mission) (val p b)) p).map (mapsOf (12 * w.nsideOut ^ 2)) := by
      intro rs
      induction rs with
      | nil => exact fun _ => ⟨[], rfl, rfl, rfl⟩
      | cons r rs ih =>
        intro hrs
        obtain ⟨is, e1, e3, e2⟩ := ih fun r hr => hrs r (List.mem_cons_of_mem _ hr)
        have hr := hrs r List.mem_cons_self
        have hlt : r < work.length := by omega
        have hwr := w2 r hr
        rw [List.getElem?_eq_getElem hlt] at hwr
        obtain ⟨i', g1, g3, g2⟩ := hone work[r] (List.getElem_mem hlt)
        refine ⟨i' :: is, ?_, ?_, ?_⟩
        · rw [List.mapM_cons]
          unfold scanInstrument
          rw [← Option.some.inj hwr]
          simp only [bind, Except.bind]
          rw [g1]
          dsimp only
          have e1' := e1
          unfold scanInstrument at e1'
          simp only [bind, Except.bind] at e1'
          rw [e1']
          rfl
        · rw [List.any_cons, e3, g3, List.map_cons, List.any_cons, List.getElem?_eq_getElem hlt,
            Option.getD_some]
        · simp only [List.map_cons, List.getElem?_eq_getElem hlt, Option.getD_some]
          rw [e2, g2]
    obtain ⟨is, e1, e3, e2⟩ := hlist (List.range size) fun r hr => List.mem_range.1 hr
    refine ⟨is, e1, ?_, ?_⟩
    · rw [e3, ← hw]
    · rw [e2, ← hw]
  obtain ⟨is, e1, e3, e2⟩ := hmap
  unfold scanAll
  rw [e1]
  simp only [bind, Except.bind, pure, Except.pure]
  rw [e2, e3, hi.maps]
  have hlen : (allocateMaps w.nsideOut).length = 12 * w.nsideOut ^ 2 := by simp [allocateMaps]
  rw [hlen, reduce_mapsOf]
  have hany : (work.any fun l => bad && (l.filterMap id).any alive && !mission.isEmpty) =
      (bad && beams.any alive && !mission.isEmpty) := by
    rw [← w3]
    cases bad <;> cases mission.isEmpty <;> simp [List.any_flatten, List.any_map, Function.comp_def]
  rw [hany]
  congr 3
  rw [← w3]
  simp only [List.flatMap_def, List.map_flatten, List.flatten_flatten, List.map_map]
  rfl

theorem all_tame (w : World E) (hq : PixOk w.q) (hns : 0 < w.nsideOut) (M : Motion)
    (o : Opts) (hbin : o.binning = true) (hgr : o.ground = false)
    (val : Pair → BinBeam → Nat → ℝ) (N : Nat) (mission : List Chunk) (hmi : Mission N mission)
    (i : Inst E) (hi : Ready w mission i) (hmv : Moves w.fsamp M i.rot i.hwp mission)
    (hst : Steady w M mission i.el) (beams : List Pair) (size : Nat) (hsize : 0 < size) (f : Wanted)
    (hG : ∀ t, t < N → Tame (optsOf w f i.hwp) (stretch i.rot mission t).2)
    (hgood : ∀ p ∈ beams, PairGood w M mission o p (val p)) :
    scanAll w o f beams true size i = .ok ⟨mapsOf (12 * w.nsideOut ^ 2)
      (beams.flatMap fun p => missionObs w M o N
        (fun b => after (optsOf w f i.hwp) (stretch i.rot mission) (val p b)) p), false⟩ :=
  all_spec w hq hns M o hbin hgr val N mission hmi i hi hmv hst beams size hsize f false hG hgood

theorem all_good (w : World E) (hq : PixOk w.q) (hns : 0 < w.nsideOut) (M : Motion)
    (o : Opts) (hbin : o.binning = true) (hgr : o.ground = false)
    (val : Pair → BinBeam → Nat → ℝ) (N : Nat) (mission : List Chunk) (hmi : Mission N mission)
    (i : Inst E) (hi : Ready w mission i) (hmv : Moves w.fsamp M i.rot i.hwp mission)
    (hst : Steady w M mission i.el) (beams : List Pair) (size : Nat) (hsize : 0 < size) (f : Wanted)
    (hG : ∀ t, t < N → Good (optsOf w f i.hwp) (stretch i.rot mission t).2)
    (hgood : ∀ p ∈ beams, PairGood w M mission o p (val p)) :
    scanAll w o f beams true size i = .ok ⟨mapsOf (12 * w.nsideOut ^ 2)
      (beams.flatMap fun p => missionObs w M o N
        (fun b => after (optsOf w f i.hwp) (stretch i.rot mission) (val p b)) p), false⟩ :=
  all_spec w hq hns M o hbin hgr val N mission hmi i hi hmv hst beams size hsize f false
    (fun t ht => (hG t ht).tame) hgood

/-- A Butterworth filter with cutoff zero makes NaN of any timeline. -/
theorem works_zero (f : FilterOpts) (n : Nat) (hn : 0 < n) (hs : 0 < f.fsamp)
    (h4 : f.filter4f = false) (hh : f.highpass = true) (m : Nat) (hm : 0 < m)
    (hd : f.dict = some (0, m)) : Works f n true := by
  intro tod ht
  have e : filter4fStep f tod = .ok tod := by
    unfold filter4fStep
    rw [if_neg (by simp [h4])]
  unfold filterTod
  rw [e]
  show highpassStep f tod = _
  unfold highpassStep
  rw [if_pos hh, hd]
  exact C92_violation tod (by omega) f.fsamp hs m hm

/-! ### filters that are set up properly -/

theorem filtered_one {g : Nat → ℝ} (hg : ∀ k, g k = 1) (tod : List ℝ) : Filtered g tod tod :=
  ⟨rfl, fun l _ => by rw [hg]; simp⟩

/-- The filters are set up properly for timelines of `n` samples. -/
theorem good_of (f : FilterOpts) (n : Nat) (hn : 0 < n) (hs : 0 < f.fsamp)
    (h4 : f.filter4f = true → f.mode = .continuous ∧ 1 / 2 < turns n f.fsamp f.hwpFreq ∧
      5 * turns n f.fsamp f.hwpFreq + 3 / 2 ≤ (n : ℝ) / 2)
    (hh : f.highpass = true → ∀ wc m, f.dict = some (wc, m) → wc ≠ 0 ∧ 0 < m) : Good f n := by
  have a : ∃ g4 : Nat → ℝ, (f.filter4f = false → ∀ k, g4 k = 1) ∧
      (f.filter4f = true → (∀ k, 0 ≤ g4 k ∧ g4 k ≤ 1) ∧ g4 0 = 0 ∧
        (∀ k : Nat, turns n f.fsamp f.hwpFreq + 3 / 2 < |(k : ℝ) - 4 * turns n f.fsamp f.hwpFreq| →
          g4 k = 0) ∧
        (∀ k : Nat, |(k : ℝ) - 4 * turns n f.fsamp f.hwpFreq| ≤
          turns n f.fsamp f.hwpFreq / 2 - 5 / 4 → g4 k = 1) ∧
        (∀ k : Nat, |(k : ℝ) - 4 * turns n f.fsamp f.hwpFreq| < 1 / 2 → g4 k = 1)) ∧
      ∀ tod : List ℝ, tod.length = n →
        ∃ out, filter4fStep f tod = .ok out ∧ Filtered g4 tod out := by
    unfold filter4fStep
    cases e : f.filter4f with
    | false =>
      refine ⟨fun _ => 1, fun _ _ => rfl, (by simp), fun tod _ =>
        ⟨tod, rfl, filtered_one (fun _ => rfl) tod⟩⟩
    | true =>
      obtain ⟨h1, h2, h3⟩ := h4 e
      obtain ⟨g, g1, g2, g3, g4, g5, hg⟩ := filter_hwp_spec n f.fsamp f.hwpFreq hs h2 h3
      refine ⟨g, (by simp), fun _ => ⟨g1, g5, g2, g3, g4⟩, fun tod ht => ?_⟩
      rw [if_pos rfl, if_pos h1]
      exact hg tod ht
  have b : ∃ gh : Nat → ℝ, (f.highpass = false → ∀ k, gh k = 1) ∧
      (f.highpass = true → f.dict = none → ∀ k, gh k = if k = 0 then 0 else 1) ∧
      (f.highpass = true → ∀ wc m, f.dict = some (wc, m) →
        ∀ k, gh k = if k = 0 then 0 else butter wc m (k * f.fsamp / n)) ∧
      ∀ tod : List ℝ, tod.length = n →
        ∃ out, highpassStep f tod = .ok (some out) ∧ Filtered gh tod out := by
    cases e : f.highpass with
    | false =>
      refine ⟨fun _ => 1, fun _ _ => rfl, (by simp), (by simp), fun tod _ =>
        ⟨tod, ?_, filtered_one (fun _ => rfl) tod⟩⟩
      unfold highpassStep
      rw [if_neg (by simp [e])]
    | true =>
      cases hd : f.dict with
      | none =>
        exact ⟨_, (by simp), fun _ _ _ => rfl, (by simp),
          fun tod ht => C92_mean tod (by omega) f e hd⟩
      | some p =>
        obtain ⟨wc, m⟩ := p
        obtain ⟨h1, h2⟩ := hh e wc m hd
        refine ⟨fun k => if k = 0 then 0 else butter wc m (k * f.fsamp / n), (by simp),
          (by simp), ?_, fun tod ht => ?_⟩
        · intro _ wc' m' h k
          cases h
          rfl
        · unfold highpassStep
          rw [if_pos e, hd]
          subst ht
          exact C92_butterworth_partial tod hn f.fsamp hs wc h1 m h2
  obtain ⟨g4, a1, a2, a3⟩ := a
  obtain ⟨gh, b1, b2, b3, b4⟩ := b
  refine ⟨fun k => g4 k * gh k, ⟨⟨g4, gh, fun _ => rfl, a1, a2, b1, b2, b3⟩⟩, ?_⟩
  intro tod ht
  obtain ⟨x, x1, x2⟩ := a3 tod ht
  obtain ⟨y, y1, y2⟩ := b4 x (by rw [x2.size, ht])
  refine ⟨y, ?_, by rw [y2.size, x2.size], ?_⟩
  · unfold filterTod
    rw [x1]
    exact y1
  · intro l hl
    rw [y2.modes l (by rw [x2.size]; exact hl), x2.modes l hl, x2.size]
    push_cast
    ring

/-! ### the stretches of a mission -/

theorem cover {a b : Int} {l : List (Int × Int)} (h : Tiles a b l) (t : Int) (h1 : a ≤ t)
    (h2 : t < b) : ∃ p ∈ l, p.1 ≤ t ∧ t < p.2 := by
  induction h with
  | nil => omega
  | @cons a b c l hlt ht ih =>
    by_cases h : t < b
    · exact ⟨_, List.mem_cons_self, h1, h⟩
    · obtain ⟨p, hp, e⟩ := ih (by omega) h2
      exact ⟨p, List.mem_cons_of_mem _ hp, e⟩

/-- The stretch around a sample contains it, is the same for all samples in it, and is within the
mission. -/
theorem stretch_spec {N : Nat} {mission : List Chunk} (hmi : Mission N mission) (r : Rot ℝ)
    (hp : r.period = false ∨ 0 < r.rotChunkSize) (t : Nat) (ht : t < N) :
    (stretch r mission t).1 ≤ t ∧ t < (stretch r mission t).1 + (stretch r mission t).2 ∧
      (stretch r mission t).1 + (stretch r mission t).2 ≤ N ∧
      Covers (stretch r mission) (stretch r mission t).1 (stretch r mission t).2 := by
  obtain ⟨x, hx, h1, h2⟩ := cover hmi.tiles t (by omega) (by omega)
  obtain ⟨c, hc, rfl⟩ := List.mem_map.1 hx
  have h3 := tiles_mem hmi.tiles c.ivl hx
  simp only [Chunk.ivl] at h1 h2 h3
  have hone : ∀ t' : Nat, c.start ≤ (t' : Int) → (t' : Int) < c.stop → stretch r mission t' =
      (if r.period then max c.start.toNat (t' / r.rotChunkSize.toNat * r.rotChunkSize.toNat)
        else c.start.toNat,
       (if r.period then min c.stop.toNat ((t' / r.rotChunkSize.toNat + 1) * r.rotChunkSize.toNat)
        else c.stop.toNat) -
       (if r.period then max c.start.toNat (t' / r.rotChunkSize.toNat * r.rotChunkSize.toNat)
        else c.start.toNat)) := by
    intro t' a b
    unfold stretch
    rw [find_chunk hmi.tiles hc t' a b]
  have ht := hone t h1 h2
  cases hper : r.period with
  | false =>
    rw [hper] at ht hone
    simp only [Bool.false_eq_true, if_false] at ht hone
    rw [ht]
    dsimp only
    refine ⟨by omega, by omega, by omega, ?_⟩
    intro k hk
    exact hone _ (by omega) (by omega)
  | true =>
    rw [hper] at ht hone
    simp only [if_true] at ht hone
    have hn : 0 < r.rotChunkSize.toNat := by
      rcases hp with hp | hp
      · rw [hp] at hper
        cases hper
      · omega
    generalize r.rotChunkSize.toNat = n at ht hone hn
    have q1 : t / n * n ≤ t := Nat.div_mul_le_self t n
    have q2 : t < (t / n + 1) * n := by
      rw [add_mul, one_mul]
      exact Nat.lt_div_mul_add hn
    rw [ht]
    dsimp only
    refine ⟨by omega, by omega, by omega, ?_⟩
    intro k hk
    have e : (max c.start.toNat (t / n * n) + k) / n = t / n := by
      apply Nat.div_eq_of_lt_le
      · omega
      · omega
    rw [hone _ (by omega) (by omega), e]

theorem part_getElem (v : Nat → ℝ) (ab : Nat × Nat) (k : Nat) (h : k < (part v ab).length) :
    (part v ab)[k] = v (ab.1 + k) := by simp [part]

/-- What `after` gives is the timeline with each stretch filtered. -/
theorem passes_after {N : Nat} {mission : List Chunk} (hmi : Mission N mission) (r : Rot ℝ)
    (hp : r.period = false ∨ 0 < r.rotChunkSize) (f : FilterOpts)
    (hG : ∀ t, t < N → Good f (stretch r mission t).2) :
    ∃ gain : Nat → Nat → ℝ, ∀ v : Nat → ℝ,
      PassesFilters f r mission N gain v (after f (stretch r mission) v) := by
  classical
  refine ⟨fun n => if h : Good f n then h.choose else fun _ => 0, ?_⟩
  intro v t ht
  have hg := hG t ht
  simp only [dif_pos hg]
  obtain ⟨h1, h2⟩ := hg.choose_spec
  refine ⟨h1, ?_⟩
  obtain ⟨-, -, -, hc⟩ := stretch_spec hmi r hp t ht
  have h3 := (filt_good h2 (part_length v (stretch r mission t))).2
  have h4 : part (after f (stretch r mission) v) (stretch r mission t) =
      filt f (part v (stretch r mission t)) := by
    have hl := h3.size
    rw [part_length] at hl
    apply List.ext_getElem (by rw [part_length, hl])
    intro k k1 k2
    rw [part_length] at k1
    rw [part_getElem, after_eq hc v k1]
    have : (List.range (stretch r mission t).2).map (fun k => v ((stretch r mission t).1 + k)) =
      part v (stretch r mission t) := rfl
    rw [this, List.getElem?_eq_getElem k2]
    rfl
  rw [h4]
  exact h3


end Verif.ScanFiltered
