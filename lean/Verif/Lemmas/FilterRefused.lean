import Verif.Lemmas.ScanFiltered
import Verif.Props.FilterAny

/-! # Lemmas: scans in which a filter raises an error -/

noncomputable section

namespace Verif.ScanFiltered

open Verif.Chunks Verif.Timeline Verif.Spinmaps Verif.MapMaking Verif.ScanInstrument Verif.Filters
  Verif.Spec Verif.Props

variable {E : Type}

/-- The filters raise ValueError for timelines of `n` samples. -/
def Errs (f : FilterOpts) (n : Nat) : Prop :=
  ∀ tod : List ℝ, tod.length = n → filterTod f tod = .error .valueError

theorem highpass_nonempty {f : FilterOpts} {x : List ℝ} {r : Option (List ℝ)} {wc : ℝ} {m : Nat}
    (h : filterTodHighpass x f.fsamp wc m = .ok r) : 0 < x.length := by
  cases x with
  | nil => cases h
  | cons a l => simp

/-- Whether there are NaN does not depend on the number of samples. -/
theorem errs_or_works (f : FilterOpts) (hs : 0 < f.fsamp) :
    ∃ bad, ∀ n, 0 < n → Errs f n ∨ Works f n bad := by
  classical
  by_cases hb : f.highpass = true ∧ ∃ m, 0 < m ∧ f.dict = some (0, m)
  · refine ⟨true, fun n hn => ?_⟩
    rcases C151_gain f hs n hn with h | h | ⟨g, -, h⟩
    · exact .inl h
    · exact .inr h
    · obtain ⟨out, h1, -⟩ := h (List.replicate n 0) (by simp)
      exfalso
      obtain ⟨hh, m, hm, hd⟩ := hb
      unfold filterTod at h1
      cases h4 : filter4fStep f (List.replicate n 0) with
      | error e => rw [h4] at h1; cases h1
      | ok x =>
        rw [h4] at h1
        have h2 : highpassStep f x = .ok (some out) := h1
        unfold highpassStep at h2
        rw [if_pos hh, hd] at h2
        dsimp only at h2
        rw [C92_violation x (highpass_nonempty h2) f.fsamp hs m hm] at h2
        cases h2
  · refine ⟨false, fun n hn => ?_⟩
    rcases C151_gain f hs n hn with h | h | ⟨g, -, h⟩
    · exact .inl h
    · exfalso
      have h1 := h (List.replicate n 0) (by simp)
      unfold filterTod at h1
      cases h4 : filter4fStep f (List.replicate n 0) with
      | error e => rw [h4] at h1; cases h1
      | ok x =>
        rw [h4] at h1
        have h2 : highpassStep f x = .ok none := h1
        unfold highpassStep at h2
        by_cases hh : f.highpass = true
        · rw [if_pos hh] at h2
          cases hd : f.dict with
          | none => rw [hd] at h2; cases h2
          | some p =>
            rw [hd] at h2
            dsimp only at h2
            obtain ⟨g, -, h3⟩ := highpass_gain x.length (highpass_nonempty h2) f.fsamp hs p.1 p.2
              fun e => hb ⟨hh, p.2, e.2, by rw [hd, ← e.1]⟩
            obtain ⟨out, h5, -⟩ := h3 x rfl
            rw [h5] at h2
            cases h2
        · rw [if_neg hh] at h2
          cases h2
    · exact .inr (tame_of h)

theorem binOne_err (w : World E) (hq : PixOk w.q) (hns : 0 < w.nsideOut) (M : Motion)
    (mission : List Chunk) (o : Opts) (hbin : o.binning = true) (f : FilterOpts)
    (flag : Option (List Bool))
    (b : BinBeam) (s : Sub) (st : State) (t0 i n : Nat) (h : At M mission s st flag t0 i n)
    (hg : Errs f n) (tod : List ℝ) (ht : tod.length = n) (os : List Obs) (nan : Bool) :
    binOne w mission o f flag b s st tod ⟨mapsOf (12 * w.nsideOut ^ 2) os, nan⟩ =
      .error .valueError := by
  have hb := ScanInstrument.binOne_spec w hq hns M mission o hbin flag b s st t0 i n h tod ht os
  unfold ScanInstrument.binOne at hb
  rw [if_pos hbin] at hb
  unfold binOne
  rw [if_pos hbin]
  unfold binFiltered
  rw [hg tod ht]
  cases hh : st.hwpAng with
  | none => exact (h.hwp hh).elim
  | some a =>
    cases hc : chunk2idx mission s.start s.stop s.cidx with
    | error e =>
      unfold binTod binLocal at hb
      rw [hh, hc] at hb
      cases hb
    | ok p => rfl

theorem scanBinOne_err (w : World E) (hq : PixOk w.q) (hns : 0 < w.nsideOut) (M : Motion)
    (mission : List Chunk) (o : Opts) (hbin : o.binning = true) (f : FilterOpts)
    (flag : Option (List Bool))
    (p : Pair) (s : Sub) (st : State) (t0 i n : Nat) (h : At M mission s st flag t0 i n)
    (hg : Errs f n) (val : BinBeam → Nat → ℝ) (hval : ScansAs w mission o p s st t0 n val) (b : BinBeam)
    (hb : live p.1 = some b ∨ live p.2 = some b) (os : List Obs) (nan : Bool) :
    scanBinOne w mission o f flag s false b st ⟨mapsOf (12 * w.nsideOut ^ 2) os, nan⟩ =
      .error .valueError := by
  have hst : st = { st with tod := st.tod } := rfl
  unfold scanBinOne
  rw [hst, hval b hb st.tod]
  simp only [bind, Except.bind, todOfState]
  rw [binOne_err w hq hns M mission o hbin f flag b s _ t0 i n (h.tod _) hg _ (by simp) os]

theorem scanPair_err (w : World E) (hq : PixOk w.q) (hns : 0 < w.nsideOut) (M : Motion)
    (mission : List Chunk) (o : Opts) (hbin : o.binning = true) (f : FilterOpts)
    (flag : Option (List Bool))
    (p : Pair) (hp : alive p = true) (s : Sub) (st : State) (t0 i n : Nat)
    (h : At M mission s st flag t0 i n)
    (hg : Errs f n) (val : BinBeam → Nat → ℝ) (hval : ScansAs w mission o p s st t0 n val)
    (os : List Obs) (nan : Bool) :
    scanPair w mission o f flag p s false st ⟨mapsOf (12 * w.nsideOut ^ 2) os, nan⟩ =
      .error .valueError := by
  have hst : st = { st with tod := st.tod } := rfl
  have one := fun b hb => scanBinOne_err w hq hns M mission o hbin f flag p s st t0 i n h hg val hval b hb
    os nan
  unfold scanPair
  rcases ha : live p.1 with _ | a <;> rcases hb : live p.2 with _ | b <;> dsimp only
  · simp [alive, ha, hb] at hp
  · exact one b (.inr hb)
  · exact one a (.inl ha)
  · by_cases hc : o.ctalk = 0
    · rw [if_neg (by simp [hc]), one a (.inl ha)]
      rfl
    · rw [if_pos hc]
      unfold scanMix
      rw [hst, hval a (.inl ha) st.tod]
      simp only [bind, Except.bind, todOfState]
      rw [hval b (.inr hb) _]
      dsimp only
      rw [crossTalk_lists _ _ (by simp)]
      dsimp only
      rw [binOne_err w hq hns M mission o hbin f flag a s _ t0 i n (h.tod _) hg _ (by simp) os]

theorem subs_err (w : World E) (hq : PixOk w.q) (hns : 0 < w.nsideOut) (M : Motion)
    (o : Opts) (hbin : o.binning = true) (p : Pair) (hp : alive p = true) (Q : Spinmaps SpinDict → Prop)
    (val : BinBeam → Nat → ℝ) (f : Wanted) (fo : FilterOpts) (win : Nat → Nat × Nat) (bad : Bool)
    (chunks : List (Chunk × Bool)) (c : Chunk) (cidx : Int)
    (hc : pyGet (chunks.map (·.1)) cidx = .ok c) (h0 : 0 ≤ c.start) (pt : Pointing)
    (hpt : PointsAt M c pt) (hval : Gives w M (chunks.map (·.1)) o p Q val) (subs : List Chunk) :
    ∀ (a : Int) (i : FInst E) (r' : Rot ℝ) (h' : Hwp.State ℝ) (os : List Obs),
      c.start ≤ a → Tiles a c.stop (subs.map Chunk.ivl) → (∀ s ∈ subs, s.cidx = some cidx) →
      (∀ s ∈ subs, Covers win s.start.toNat (s.stop - s.start).toNat ∧
        (Errs fo (s.stop - s.start).toNat ∨ Works fo (s.stop - s.start).toNat bad)) →
      (∃ s ∈ subs, Errs fo (s.stop - s.start).toNat) → optsOf w f i.inst.hwp = fo →
      Turns w.fsamp M i.inst.rot i.inst.hwp subs r' h' → i.inst.chunks = chunks → i.inst.flag = pt.flag →
      i.inst.st.ctime = pt.ctime → i.inst.st.qBore = pt.bore → Q i.inst.st.maps →
      i.inst.maps = mapsOf (12 * w.nsideOut ^ 2) os →
      subs.foldlM (fun i s => stepSub w o f p false s i) i = .error .valueError := by
  induction subs with
  | nil =>
    rintro a i r' h' os ha ht _ _ ⟨s, hs, -⟩
    cases hs
  | cons s subs ih =>
    intro a i r' h' os ha ht hcx hcv hbad hfo htu hch hfl hct hqb hQ hm
    simp only [List.map_cons] at ht
    generalize hiv : Chunk.ivl s = iv at ht
    cases ht with
    | cons hlt ht =>
    simp only [Chunk.ivl, Prod.mk.injEq] at hiv
    obtain ⟨rfl, rfl⟩ := hiv
    obtain ⟨r1, ang, h1, e1, e2, e3, e4⟩ := htu
    have hb : s.stop ≤ c.stop := tiles_le ht
    subst hch
    rw [List.foldlM_cons]
    rcases (hcv s List.mem_cons_self).2 with he | hw
    · have hA := at_sub M _ c cidx hc h0 pt hpt w.fsamp s i.inst.hwp h1 _ ang r1.angle e2 e3 ha hlt hb
        { i.inst.st with rotAngle := r1.angle, hwpAng := newAng (some ang) i.inst.st.hwpAng } hct hqb rfl rfl
      have hs := scanPair_err w hq hns M _ o hbin fo pt.flag p hp
        ⟨s.start, s.stop, cidx⟩ _ s.start.toNat _ _ hA he val (hval _ _ _ _ _ _ hA hQ) os i.nan
      have : stepSub w o f p false s i = .error .valueError := by
        unfold stepSub
        rw [e1]
        simp only [bind, Except.bind]
        rw [e2]
        dsimp only
        unfold cidxOf
        rw [hcx s List.mem_cons_self]
        dsimp only
        rw [hm, hfl, ← optsOf_reset w f (rotate_reset _ _ _ _ _ _ _ _ e2).symm, hfo, hs]
      rw [this]
      rfl
    · by_cases he : Errs fo (s.stop - s.start).toNat
      · exfalso
        have := he (List.replicate (s.stop - s.start).toNat 0) (by simp)
        cases bad with
        | true =>
          rw [hw _ (by simp)] at this
          cases this
        | false =>
          rw [(hw.1 _ (by simp)).1] at this
          cases this
      obtain ⟨i1, g1, g2, g3, g4, g6, g5⟩ := stepSub_spec w hq hns M o hbin p Q val f fo win c cidx i hc h0
        pt hpt hval s (hcx s List.mem_cons_self) r1 h1 ang e1 e2 e3 ha hlt hb hfl hct hqb
        (hcv s List.mem_cons_self).1 bad hw hfo hQ os hm
      rw [g1]
      refine ih s.stop i1 r' h' _ (by omega) ht
        (fun s hs => hcx s (List.mem_cons_of_mem _ hs))
        (fun s hs => hcv s (List.mem_cons_of_mem _ hs)) ?_
        (by rw [g3, ← hfo]; exact optsOf_reset w f (rotate_reset _ _ _ _ _ _ _ _ e2))
        (by rw [g2, g3]; exact e4) g4.chunks
        (g4.flag.trans hfl) (g4.ctime.trans hct) (g4.qBore.trans hqb) (by rw [g4.spin]; exact hQ) g5
      obtain ⟨s', hs', he'⟩ := hbad
      rcases List.mem_cons.1 hs' with rfl | hs'
      · exact (he he').elim
      · exact ⟨s', hs', he'⟩

theorem chunk_err (w : World E) (hq : PixOk w.q) (hns : 0 < w.nsideOut) (M : Motion)
    (o : Opts) (hbin : o.binning = true) (hgr : o.ground = false) (p : Pair) (hp : alive p = true)
    (Q : Spinmaps SpinDict → Prop) (val : BinBeam → Nat → ℝ) (N : Nat) (mission : List Chunk)
    (hmi : Mission N mission) (f : Wanted) (fo : FilterOpts) (r0 : Rot ℝ) (bad : Bool)
    (hval : Gives w M mission o p Q val) (first : Bool) (k : Nat) (c : Chunk)
    (hk : mission[k]? = some c) (hcx : c.cidx = some (k : Int)) (h0 : 0 ≤ c.start)
    (hlt : c.start < c.stop) (i : FInst E) (hch : i.inst.chunks = mission.map fun c => (c, false))
    (hr : Data.RotOk i.inst.rot c.start) (pt : Pointing) (el : E)
    (himp : w.implement i.inst.el c false (!first) = .ok (pt, el)) (hpt : PointsAt M c pt)
    (subs : List Chunk) (r1 r2 : Rot ℝ) (h2 : Hwp.State ℝ)
    (hsub : subpartChunk i.inst.rot c = .ok (subs, r1)) (htu : Turns w.fsamp M r1 i.inst.hwp subs r2 h2)
    (hr0 : i.inst.rot.reset = r0.reset) (hfo : optsOf w f i.inst.hwp = fo)
    (hG : ∀ t : Nat, c.start ≤ t → (t : Int) < c.stop →
      Errs fo (stretch r0 mission t).2 ∨ Works fo (stretch r0 mission t).2 bad)
    (hbad : ∃ t : Nat, c.start ≤ t ∧ (t : Int) < c.stop ∧ Errs fo (stretch r0 mission t).2)
    (hQ : Q i.inst.st.maps) (os : List Obs) (hm : i.inst.maps = mapsOf (12 * w.nsideOut ^ 2) os) :
    stepChunk w o f p first i k = .error .valueError := by
  obtain ⟨a1, a2, a3, a4⟩ := subpart_full i.inst.rot c hr hlt subs r1 hsub
  have hmap : (mission.map fun c => (c, false)).map (·.1) = mission := by
    rw [List.map_map]
    exact List.map_id' _
  have hget : pyGet i.inst.chunks (k : Int) = .ok (c, false) := by
    unfold pyGet
    rw [if_neg (show ¬ (k : Int) < 0 by omega), hch]
    simp [hk]
  have hget' : pyGet ((mission.map fun c => (c, false)).map (·.1)) (k : Int) = .ok c := by
    rw [hmap]
    unfold pyGet
    rw [if_neg (show ¬ (k : Int) < 0 by omega)]
    simp [hk]
  have hcm : c ∈ mission := List.mem_of_getElem? hk
  have hcov : ∀ s ∈ subs, Covers (stretch r0 mission) s.start.toNat (s.stop - s.start).toNat ∧
      (Errs fo (s.stop - s.start).toNat ∨ Works fo (s.stop - s.start).toNat bad) := by
    intro s hs
    have hc := stretch_sub hmi hcm h0 hlt hr0 hr hsub hs
    refine ⟨hc, ?_⟩
    have b4 := tiles_mem a3 s.ivl (List.mem_map_of_mem hs)
    simp only [Chunk.ivl] at b4
    have b6 := hG s.start.toNat (by omega) (by omega)
    have b7 := hc 0 (by omega)
    rw [Nat.add_zero] at b7
    rw [b7] at b6
    exact b6
  have hex : ∃ s ∈ subs, Errs fo (s.stop - s.start).toNat := by
    obtain ⟨t, t1, t2, t3⟩ := hbad
    obtain ⟨iv, v1, v2, v3⟩ := cover a3 t t1 t2
    obtain ⟨s, hs, rfl⟩ := List.mem_map.1 v1
    simp only [Chunk.ivl] at v2 v3
    refine ⟨s, hs, ?_⟩
    have b4 := tiles_mem a3 s.ivl (List.mem_map_of_mem hs)
    simp only [Chunk.ivl] at b4
    have b7 := (hcov s hs).1 (t - s.start.toNat) (by omega)
    rw [show s.start.toNat + (t - s.start.toNat) = t by omega] at b7
    rw [b7] at t3
    exact t3
  unfold stepChunk
  rw [hget]
  simp only [bind, Except.bind]
  simp only [hgr, Bool.or_false, Bool.false_eq_true, false_and, if_false, ite_self]
  rw [himp]
  dsimp only
  rw [hsub]
  exact subs_err w hq hns M o hbin p hp Q val f fo (stretch r0 mission) bad
    (mission.map fun c => (c, false)) c k hget' h0 pt hpt (by rw [hmap]; exact hval) subs c.start
    ⟨{ i.inst with rot := r1, el := el,
                   st := { i.inst.st with ctime := pt.ctime, qBore := pt.bore, qGround := pt.ground },
                   flag := pt.flag }, i.nan⟩ r2 h2 os le_rfl a3 (fun s hs => (a4 s hs).trans hcx)
    hcov hex hfo htu hch rfl rfl rfl hQ hm

theorem chunks_err (w : World E) (hq : PixOk w.q) (hns : 0 < w.nsideOut) (M : Motion)
    (o : Opts) (hbin : o.binning = true) (hgr : o.ground = false) (p : Pair) (hp : alive p = true)
    (Q : Spinmaps SpinDict → Prop) (val : BinBeam → Nat → ℝ) (mission : List Chunk)
    (hval : Gives w M mission o p Q val) (first : Bool) (N : Nat)
    (hmi : Mission N mission) (f : Wanted) (fo : FilterOpts) (r0 : Rot ℝ) (bad : Bool)
    (hG : ∀ t, t < N → Errs fo (stretch r0 mission t).2 ∨ Works fo (stretch r0 mission t).2 bad)
    (cs : List Chunk) : ∀ (k : Nat) (a : Int) (i : FInst E) (e' : E) (os : List Obs),
      mission.drop k = cs → 0 ≤ a → Tiles a N (cs.map Chunk.ivl) → Data.RotOk i.inst.rot a →
      Points w M (!first) i.inst.el cs e' → Moves w.fsamp M i.inst.rot i.inst.hwp cs →
      (i.inst.chunks = mission.map fun c => (c, false)) → i.inst.rot.reset = r0.reset →
      optsOf w f i.inst.hwp = fo → Q i.inst.st.maps →
      i.inst.maps = mapsOf (12 * w.nsideOut ^ 2) os →
      (∃ t : Nat, a ≤ t ∧ t < N ∧ Errs fo (stretch r0 mission t).2) →
      (List.range' k cs.length).foldlM (stepChunk w o f p first) i = .error .valueError := by
  induction cs with
  | nil =>
    rintro k a i e' os hd h0 ht hr hpt hmv hch hr0 hfo hQ hm ⟨t, t1, t2, -⟩
    simp only [List.map_nil] at ht
    cases ht
    omega
  | cons c cs ih =>
    intro k a i e' os hd h0 ht hr hpt hmv hch hr0 hfo hQ hm hbad
    simp only [List.map_cons] at ht
    generalize hiv : Chunk.ivl c = iv at ht
    cases ht with
    | cons hlt ht =>
    simp only [Chunk.ivl, Prod.mk.injEq] at hiv
    obtain ⟨rfl, rfl⟩ := hiv
    obtain ⟨pt, e1, q1, q2, q3⟩ := hpt
    obtain ⟨subs, r1, r2, h2, m1, m2, m3⟩ := hmv
    have hk : mission[k]? = some c := by
      have := congrArg (·[0]?) hd
      simpa using this
    have hN : c.stop ≤ N := tiles_le ht
    rw [List.length_cons, List.range'_succ, List.foldlM_cons]
    by_cases hx : ∃ t : Nat, c.start ≤ t ∧ (t : Int) < c.stop ∧ Errs fo (stretch r0 mission t).2
    · rw [chunk_err w hq hns M o hbin hgr p hp Q val N mission hmi f fo r0 bad hval first k c hk
        (hmi.numbered k c hk) h0 hlt i hch hr pt e1 q1 q2 subs r1 r2 h2 m1 m2 hr0 hfo
        (fun t _ ht' => hG t (by omega)) hx hQ os hm]
      rfl
    · obtain ⟨i1, g1, g2, g3, g4, g5, g6, g7, g8, g9, g11, g10⟩ := chunk_step w hq hns M o hbin hgr p Q val
        N mission hmi f fo r0 bad hval first k c hk (hmi.numbered k c hk) h0 hlt i hch hr pt e1 q1 q2 subs r1
        r2 h2 m1 m2 hr0 hfo (fun t ht1 ht' => (hG t (by omega)).resolve_left
          fun he => hx ⟨t, ht1, ht', he⟩) hQ os hm
      have hd' : mission.drop (k + 1) = cs := by
        rw [← List.drop_drop, hd]
        rfl
      rw [g1]
      refine ih (k + 1) c.stop i1 e' _ hd' (by omega) ht g5
        (by rw [g4]; exact q3) (by rw [g2, g3]; exact m3) (g8.trans hch) (g6.trans hr0)
        (by rw [← hfo]; exact optsOf_reset w f g7) (by rw [g9]; exact hQ) g10 ?_
      obtain ⟨t, t1, t2, t3⟩ := hbad
      refine ⟨t, ?_, t2, t3⟩
      by_contra hlt'
      exact hx ⟨t, t1, by omega, t3⟩

theorem pass_err (w : World E) (hq : PixOk w.q) (hns : 0 < w.nsideOut) (M : Motion)
    (o : Opts) (hbin : o.binning = true) (hgr : o.ground = false) (p : Pair) (hp : alive p = true)
    (val : BinBeam → Nat → ℝ) (N : Nat) (mission : List Chunk) (hmi : Mission N mission)
    (hgood : PairGood w M mission o p val) (first : Bool) (i : FInst E) (r0 : Rot ℝ)
    (h0 : Hwp.State ℝ) (e0 e' : E) (f : Wanted)
    (bad : Bool)
    (hG : ∀ t, t < N → Errs (optsOf w f h0) (stretch r0 mission t).2 ∨
      Works (optsOf w f h0) (stretch r0 mission t).2 bad)
    (hbad : ∃ t, t < N ∧ Errs (optsOf w f h0) (stretch r0 mission t).2)
    (hstart : if first then i.inst.rot = r0 ∧ i.inst.hwp = h0 ∧ i.inst.el = e0
      else i.inst.rot.reset = r0 ∧ i.inst.hwp.reset = h0 ∧ w.resetEl i.inst.el = .ok e0)
    (hr : Data.RotOk r0 0) (hpt : Points w M (!first) e0 mission e')
    (hmv : Moves w.fsamp M r0 h0 mission)
    (hch : i.inst.chunks = mission.map fun c => (c, false)) (os : List Obs)
    (hm : i.inst.maps = mapsOf (12 * w.nsideOut ^ 2) os) :
    scanPass w o f first p i = .error .valueError := by
  obtain ⟨Q, hQ, hinit⟩ := hgood
  have hstart' : ∃ i1, (if first then .ok i.inst else resetAll w i.inst) = Except.ok (ε := PyErr) i1 ∧
      i1.rot = r0 ∧ i1.hwp = h0 ∧ i1.el = e0 ∧ i1.chunks = i.inst.chunks ∧ i1.maps = i.inst.maps := by
    cases first with
    | true =>
      obtain ⟨a, b, c⟩ := hstart
      exact ⟨i.inst, rfl, a, b, c, rfl, rfl⟩
    | false =>
      obtain ⟨a, b, c⟩ := hstart
      refine ⟨{ i.inst with rot := i.inst.rot.reset, hwp := i.inst.hwp.reset, el := e0 }, ?_, a, b, rfl, rfl, rfl⟩
      rw [if_neg (by simp)]
      unfold resetAll
      rw [c]
      rfl
  obtain ⟨i1, f1, f2, f3, f4, f5, f6⟩ := hstart'
  obtain ⟨sm, b, f7, f8⟩ := hinit i1
  obtain ⟨t, t1, t2⟩ := hbad
  have hk := chunks_err w hq hns M o hbin hgr p hp Q val mission hQ
    first N hmi f (optsOf w f h0) r0 bad hG mission 0 0 ⟨{ i1 with st := { i1.st with maps := sm }, hasMaps := b }, i.nan⟩ e' os
    rfl le_rfl hmi.tiles (by rw [f2]; exact hr) (by rw [f4]; exact hpt)
    (by rw [f2, f3]; exact hmv) (f5.trans hch) (by rw [f2]) (by rw [f3]) f8 (f6.trans hm)
    ⟨t, by omega, t1, t2⟩
  have hb : scanPass w o f first p i = (if first then .ok i.inst else resetAll w i.inst).bind fun j =>
      (initPair w o p j).bind fun j =>
        if j.chunks.all fun c => c.1.cidx.isSome then
          (List.range j.chunks.length).foldlM (stepChunk w o f p first) ⟨j, i.nan⟩
        else .error .keyError := by
    unfold scanPass
    cases first <;> rfl
  rw [hb, f1]
  simp only [Except.bind]
  rw [f7]
  dsimp only
  rw [if_pos]
  · have hl : i1.chunks.length = mission.length := by rw [f5, hch, List.length_map]
    rw [hl, List.range_eq_range']
    exact hk
  · rw [f5, hch, List.all_eq_true]
    intro x hx
    obtain ⟨c, hc, rfl⟩ := List.mem_map.1 hx
    obtain ⟨j, hj, rfl⟩ := List.getElem_of_mem hc
    rw [hmi.numbered j _ (List.getElem?_eq_getElem hj)]
    rfl

/-- Filters are not used if there is nothing to scan. -/
theorem pass_dead (w : World E) (o : Opts) (f g : Wanted) (first : Bool) (p : Pair)
    (hp : alive p = false) (i : FInst E) : scanPass w o f first p i = scanPass w o g first p i := by
  have h1 : live p.1 = none ∧ live p.2 = none := by
    unfold alive at hp
    rcases h1 : live p.1 <;> rcases h2 : live p.2 <;> simp [h1, h2] at hp ⊢
  have hs : ∀ ground s (i : FInst E), stepSub w o f p ground s i = stepSub w o g p ground s i := by
    intro ground s i
    unfold stepSub scanPair
    rw [h1.1, h1.2]
  have hc : stepChunk w o f p first = stepChunk w o g p first := by
    funext i k
    unfold stepChunk
    simp only [hs]
  unfold scanPass
  rw [hc]

theorem works_off (w : World E) (h : Hwp.State ℝ) (n : Nat) :
    Works (optsOf w ⟨false, false, none⟩ h) n false := by
  have e := filterTod_off (f := optsOf w ⟨false, false, none⟩ h) rfl rfl
  have e' : ∀ tod, filt (optsOf w ⟨false, false, none⟩ h) tod = tod := by
    intro tod
    unfold filt
    rw [e]
  refine ⟨fun tod ht => ⟨by rw [e', e], by rw [e', ht]⟩, fun x y c _ _ => ?_⟩
  rw [e', e', e']

/-- With a stretch for which the filters raise, a rank that has anything to scan raises; a rank that has
nothing to scan returns. -/
theorem loop_err (w : World E) (hq : PixOk w.q) (hns : 0 < w.nsideOut) (M : Motion)
    (o : Opts) (hbin : o.binning = true) (hgr : o.ground = false)
    (val : Pair → BinBeam → Nat → ℝ) (N : Nat) (mission : List Chunk) (hmi : Mission N mission)
    (r0 : Rot ℝ) (h0 : Hwp.State ℝ) (hr : Data.RotOk r0 0) (hr0 : r0.reset = r0)
    (hh0 : h0.reset = h0) (hmv : Moves w.fsamp M r0 h0 mission) (f : Wanted)
    (bad : Bool)
    (hG : ∀ t, t < N → Errs (optsOf w f h0) (stretch r0 mission t).2 ∨
      Works (optsOf w f h0) (stretch r0 mission t).2 bad)
    (hbad : ∃ t, t < N ∧ Errs (optsOf w f h0) (stretch r0 mission t).2) (P : Bool → E → Prop)
    (hst : ∀ first e, P first e →
      ∃ e', Points w M (!first) e mission e' ∧ ∃ e'', w.resetEl e' = .ok e'' ∧ P false e'')
    (ps : List (Option Pair)) : ∀ (first : Bool) (i : FInst E) (os : List Obs),
      (∀ p ∈ ps.filterMap id, PairGood w M mission o p (val p)) →
      (if first then i.inst.rot = r0 ∧ i.inst.hwp = h0 ∧ P true i.inst.el
        else i.inst.rot.reset = r0 ∧ i.inst.hwp.reset = h0 ∧ ∃ e, w.resetEl i.inst.el = .ok e ∧ P false e) →
      (i.inst.chunks = mission.map fun c => (c, false)) →
      i.inst.maps = mapsOf (12 * w.nsideOut ^ 2) os →
      ((ps.filterMap id).any alive = true → scanLoop w o f first ps i = .error .valueError) ∧
      ((ps.filterMap id).any alive = false → ∃ i', scanLoop w o f first ps i = .ok i') := by
  induction ps with
  | nil =>
    intro first i os _ hs _ hm
    exact ⟨fun h => by simp at h, fun _ => ⟨i, rfl⟩⟩
  | cons p ps ih =>
    intro first i os hgood hstart hch hm
    have hone : ∃ e0, (if first then i.inst.rot = r0 ∧ i.inst.hwp = h0 ∧ i.inst.el = e0
        else i.inst.rot.reset = r0 ∧ i.inst.hwp.reset = h0 ∧ w.resetEl i.inst.el = .ok e0) ∧ P first e0 := by
      cases first with
      | true =>
        obtain ⟨a, b, c⟩ := hstart
        exact ⟨i.inst.el, ⟨a, b, rfl⟩, c⟩
      | false =>
        obtain ⟨a, b, e, c, d⟩ := hstart
        exact ⟨e, ⟨a, b, c⟩, d⟩
    obtain ⟨e0, hs0, hP⟩ := hone
    obtain ⟨e', q1, e'', q2, q3⟩ := hst first e0 hP
    have hg : PairGood w M mission o (p.getD (none, none)) (val (p.getD (none, none))) := by
      cases p with
      | none => exact pairGood_none _ _ _ _ _
      | some p => exact hgood p (by simp)
    have hany : ((p :: ps).filterMap id).any alive =
        (alive (p.getD (none, none)) || (ps.filterMap id).any alive) := by
      cases p with
      | none =>
        have : alive (none, none) = false := rfl
        simp [this]
      | some p => simp
    rw [hany]
    cases hp : alive (p.getD (none, none)) with
    | true =>
      refine ⟨fun _ => ?_, fun h => by simp at h⟩
      unfold scanLoop
      rw [pass_err w hq hns M o hbin hgr (p.getD (none, none)) hp (val (p.getD (none, none))) N mission hmi
        hg first i r0 h0 e0 e' f bad hG hbad hs0 hr q1 hmv hch os hm]
      rfl
    | false =>
      rw [Bool.false_or]
      obtain ⟨i1, k1, k2, k3, k4, k5, k6, k7⟩ := pass_spec w hq hns M o hbin hgr (p.getD (none, none))
        (val (p.getD (none, none))) N mission hmi hg first i r0 h0 e0 e' ⟨false, false, none⟩ false
        (fun t _ => works_off w h0 _) hs0 hr q1 hmv hch os hm
      rw [pass_dead w o _ f first _ hp] at k1
      have := ih false i1 _ (fun p' hp' => hgood p' (by
          cases p with
          | none => simpa using hp'
          | some p => exact List.mem_cons_of_mem _ (by simpa using hp')))
        ⟨k2.trans hr0, k3.trans hh0, e'', by rw [k4]; exact q2, q3⟩ (k5.trans hch) k6
      unfold scanLoop
      rw [k1]
      exact this

theorem mapM_error {α β : Type} (F : α → PyM β) (l : List α)
    (h : ∀ x ∈ l, F x = .error .valueError ∨ ∃ y, F x = .ok y) (hx : ∃ x ∈ l, F x = .error .valueError) :
    l.mapM F = .error .valueError := by
  induction l with
  | nil =>
    obtain ⟨x, hx, -⟩ := hx
    cases hx
  | cons a l ih =>
    rw [List.mapM_cons]
    rcases h a List.mem_cons_self with e | ⟨y, e⟩
    · rw [e]
      rfl
    · rw [e]
      have : l.mapM F = .error .valueError := by
        refine ih (fun x hx => h x (List.mem_cons_of_mem _ hx)) ?_
        obtain ⟨x, hx, e'⟩ := hx
        rcases List.mem_cons.1 hx with rfl | hx
        · rw [e] at e'
          cases e'
        · exact ⟨x, hx, e'⟩
      rw [this]
      rfl

theorem all_err (w : World E) (hq : PixOk w.q) (hns : 0 < w.nsideOut) (M : Motion)
    (o : Opts) (hbin : o.binning = true) (hgr : o.ground = false)
    (val : Pair → BinBeam → Nat → ℝ) (N : Nat) (mission : List Chunk) (hmi : Mission N mission)
    (i : Inst E) (hi : Ready w mission i) (hmv : Moves w.fsamp M i.rot i.hwp mission)
    (hst : Steady w M mission i.el) (beams : List Pair) (size : Nat) (hsize : 0 < size) (f : Wanted)
    (bad : Bool)
    (hG : ∀ t, t < N → Errs (optsOf w f i.hwp) (stretch i.rot mission t).2 ∨
      Works (optsOf w f i.hwp) (stretch i.rot mission t).2 bad)
    (hbad : ∃ t, t < N ∧ Errs (optsOf w f i.hwp) (stretch i.rot mission t).2)
    (hgood : ∀ p ∈ beams, PairGood w M mission o p (val p)) (hlive : beams.any alive = true) :
    scanAll w o f beams true size i = .error .valueError := by
  obtain ⟨work, w1, w2, w3, -⟩ := C03_every_pair_scanned_once beams size hsize
  obtain ⟨P, p1, p2⟩ := hst
  have hrot := ready_rot hi
  have hmem : ∀ l ∈ work, ∀ p ∈ l.filterMap id, p ∈ beams := by
    intro l hl p hp
    rw [← w3]
    exact List.mem_flatten.2 ⟨_, List.mem_map_of_mem hl, hp⟩
  have hone := fun l (hl : l ∈ work) => loop_err w hq hns M o hbin hgr val N mission hmi i.rot i.hwp hrot hi.rot
      hi.hwp hmv f bad hG hbad P p2 l true ⟨i, false⟩ [] (fun p hp => hgood p (hmem l hl p hp))
      ⟨rfl, rfl, p1⟩ hi.chunks (by rw [hi.maps, mapsOf_nil])
  have hrank : ∀ r (hr : r < work.length), scanInstrument w o f beams true size r i =
      scanLoop w o f true work[r] ⟨i, false⟩ := by
    intro r hr
    have hwr := w2 r (by omega)
    rw [List.getElem?_eq_getElem hr] at hwr
    unfold scanInstrument
    rw [← Option.some.inj hwr]
    rfl
  unfold scanAll
  rw [mapM_error (fun r => scanInstrument w o f beams true size r i) (List.range size)]
  · rfl
  · intro r hr
    have hr' : r < work.length := by rw [w1]; exact List.mem_range.1 hr
    rw [hrank r hr']
    have := hone work[r] (List.getElem_mem hr')
    cases ha : (work[r].filterMap id).any alive with
    | true => exact .inl (this.1 ha)
    | false => exact .inr (this.2 ha)
  · obtain ⟨p, hp, hp'⟩ := List.any_eq_true.1 hlive
    rw [← w3] at hp
    obtain ⟨l', hl', hpl⟩ := List.mem_flatten.1 hp
    obtain ⟨l, hl, rfl⟩ := List.mem_map.1 hl'
    obtain ⟨r, hr, rfl⟩ := List.getElem_of_mem hl
    refine ⟨r, List.mem_range.2 (by omega), ?_⟩
    rw [hrank r hr]
    exact (hone _ hl).1 (List.any_eq_true.2 ⟨p, hpl, hp'⟩)

end Verif.ScanFiltered
