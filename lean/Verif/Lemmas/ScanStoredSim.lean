import Verif.Lemmas.ScanStored
import Verif.Spec.ScanStored

/-! # Lemmas: what a whole scan stores -/

noncomputable section

namespace Verif.ScanStored

open Verif.Chunks Verif.Timeline Verif.Spinmaps Verif.MapMaking Verif.Spec Verif.Props
open Verif.ScanInstrument (World Inst Pair Motion At Same PairGood Gives PointsAt Points Turns Moves
  Mission Ready Steady todOfState binOne newAng cidxOf resetAll initPair detects mapsOf_perm angAt
  hwpAngOf Pointing)

variable {E : Type}

/-- HWP angles [deg] as they are stored. -/
def plateDeg : Option (Hwp.Ang ℝ) → Nat → List ℝ
  | some (.array a), n => if a.length = n then a.map fun y => y * 180 / Real.pi else [0]
  | some (.scalar a), _ => [a * 180 / Real.pi]
  | none, _ => [0]

/-- The environment of `Verif.Model.Data` in which the detector with index `j` has timeline `T j`,
pixels `P j` and position angles `A j`. -/
def envOf (fsamp : ℝ) (T P A : Int → Nat → ℝ) :
    Data.Env ℝ (Hwp.State ℝ × Option (Hwp.Ang ℝ)) ℝ where
  rotateHwp := Data.rotateState Real.pi fsamp
  ret _ _ d s := ⟨samples (T d.idx) s.start s.stop, samples (P d.idx) s.start s.stop,
    samples (A d.idx) s.start s.stop⟩
  hwp h s := plateDeg h.2 (s.stop - s.start).toNat

theorem envOf_sized (fsamp : ℝ) (T P A : Int → Nat → ℝ) : Data.Sized (envOf fsamp T P A) := by
  constructor
  · intro a h d s
    simp [envOf, samples]
  · intro h s
    simp only [envOf]
    rcases h.2 with _ | (a | a)
    · exact .inr ⟨0, rfl⟩
    · exact .inr ⟨_, rfl⟩
    · by_cases hl : a.length = (s.stop - s.start).toNat
      · left
        simp [plateDeg, hl]
      · right
        exact ⟨0, by simp [plateDeg, hl]⟩

/-- Scanning gives timelines, pixels and position angles by index. -/
def Stores (w : World E) (M : Motion) (mission : List Chunk) (o : SOpts) (p : SPair)
    (Q : Spinmaps SpinDict → Prop) (T P A : Int → Nat → ℝ) : Prop :=
  ∀ s st flag t0 i n, At M mission s st flag t0 i n → Q st.maps →
    ∀ b, (live p.1 = some b ∨ live p.2 = some b) → ∀ t, ∃ r,
      scanDetector w.x mission b.bin.beam b.bin.ghosts s false o.interp o.savePoint
          { st with tod := t } =
        .ok (r, { st with tod := some ((List.range n).map fun k => T b.idx (t0 + k)) }) ∧
      retOf r = ⟨(List.range n).map fun k => T b.idx (t0 + k),
        (List.range n).map fun k => P b.idx (t0 + k), (List.range n).map fun k => A b.idx (t0 + k)⟩ ∧
      r.hwp = hwpDeg st.hwpAng

/-- Scanning, storing and binning one detector. -/
theorem scanBinOne_sim {w : World E} {mission : List Chunk} {o : SOpts} (hpre : o.preview = false)
    {flag : Option (List Bool)} {s : Sub} {b : SBeam} {st st' : State} {maps maps' : Maps}
    {store store' : Store} {r : Timeline.Ret}
    (hr : scanDetector w.x mission b.bin.beam b.bin.ghosts s false o.interp o.savePoint st =
      .ok (r, st'))
    (hp : ScanInstrument.scanBinOne w mission o.toOpts flag s false b.bin st maps = .ok (st', maps'))
    (hd : Data.storeRet mission o.saveTod o.savePoint s.cidx b.det (asChunk s) (retOf r)
      (hwpList r.hwp) store = .ok store') :
    scanBinOne w mission o flag s false b st maps store = .ok (st', maps', store') := by
  unfold ScanInstrument.scanBinOne at hp
  obtain ⟨st1, h1, hp⟩ := ok_bind hp
  obtain ⟨tod, h2, hp⟩ := ok_bind hp
  obtain ⟨maps1, h3, hp⟩ := ok_bind hp
  cases hp
  unfold scanBinOne scanOne
  rw [if_neg (by simp [hpre]), hr]
  simp only [bind, Except.bind]
  rw [hd]
  dsimp only [pure, Except.pure]
  rw [h2]
  dsimp only
  rw [h3]

theorem bin_state {w : World E} {mission : List Chunk} {o : ScanInstrument.Opts}
    {flag : Option (List Bool)} {s : Sub} {b : BinBeam} {st st' st2 : State} {maps maps' : Maps}
    (h : ScanInstrument.scanOne w.x mission o b s false st = .ok st2)
    (hp : ScanInstrument.scanBinOne w mission o flag s false b st maps = .ok (st', maps')) :
    st' = st2 := by
  unfold ScanInstrument.scanBinOne at hp
  rw [h] at hp
  obtain ⟨_, h1, hp⟩ := ok_bind hp
  cases h1
  obtain ⟨tod, h2, hp⟩ := ok_bind hp
  obtain ⟨maps1, h3, hp⟩ := ok_bind hp
  cases hp
  rfl

theorem scanPair_sim {w : World E} {mission : List Chunk} {o : SOpts} (hpre : o.preview = false)
    {flag : Option (List Bool)} {p : SPair} {s : Sub} {st st' : State} {maps maps' : Maps}
    {store store' : Store} (vals : SBeam → Data.Ret ℝ) (hw : List ℝ)
    (hS : ∀ b, (live p.1 = some b ∨ live p.2 = some b) → ∀ t, ∃ r,
      scanDetector w.x mission b.bin.beam b.bin.ghosts s false o.interp o.savePoint
        { st with tod := t } = .ok (r, { st with tod := some (vals b).tod }) ∧
      retOf r = vals b ∧ hwpList r.hwp = hw)
    (hp : ScanInstrument.scanPair w mission o.toOpts flag (plain p) s false st maps = .ok (st', maps'))
    {A H : Type} (env : Data.Env A H ℝ) (ang : A) (h : H) (c : Chunk)
    (hc : c.start = s.start ∧ c.stop = s.stop)
    (henv : ∀ b, (live p.1 = some b ∨ live p.2 = some b) → env.ret ang h b.det c = vals b)
    (hhw : env.hwp h c = hw)
    (hd : Data.scanSub env mission o.data s.cidx (dets p) c ang h store = .ok store') :
    scanPair w mission o flag p s false st maps store = .ok (st', maps', store') ∧
      ∃ t, st' = { st with tod := t } := by
  have hst : st = { st with tod := st.tod } := rfl
  have hret : ∀ (b : SBeam) (r : Data.Ret ℝ) (hwp : List ℝ) (st : Store),
      Data.storeRet mission o.data.saveTod o.data.savePoint s.cidx b.det c r hwp st =
      Data.storeRet mission o.saveTod o.savePoint s.cidx b.det (asChunk s) r hwp st := by
    intro b r hwp st
    unfold Data.storeRet asChunk
    rw [hc.1, hc.2]
    rfl
  have hupd : ∀ (b : SBeam) (tod : List ℝ) (st : Store), Data.updateTod mission s.cidx b.det c tod st =
      Data.updateTod mission s.cidx b.det (asChunk s) tod st := by
    intro b tod st
    unfold Data.updateTod asChunk
    rw [hc.1, hc.2]
  have hone : ∀ b, (live p.1 = some b ∨ live p.2 = some b) → ∀ t,
      ScanInstrument.scanOne w.x mission o.toOpts b.bin s false { st with tod := t } =
        .ok { st with tod := some (vals b).tod } := by
    intro b hb t
    obtain ⟨r, e1, -, -⟩ := hS b hb t
    unfold ScanInstrument.scanOne
    rw [if_neg (by simp [hpre]), detector_point e1]
    rfl
  unfold ScanInstrument.scanPair plain at hp
  unfold Data.scanSub dets at hd
  unfold scanPair
  rw [live_plain, live_plain] at hp
  rw [live_det, live_det] at hd
  rcases ha : live p.1 with _ | a <;> rcases hb : live p.2 with _ | b <;> rw [ha, hb] at hp hd <;>
    simp only [Option.map_some, Option.map_none] at hp hd ⊢
  · cases hp
    cases hd
    exact ⟨rfl, _, rfl⟩
  · obtain ⟨r, e1, e2, e3⟩ := hS b (.inr hb) st.tod
    obtain ⟨_, h', hd⟩ := ok_bind hd
    cases h'
    obtain ⟨store1, h1, hd⟩ := ok_bind hd
    cases hd
    rw [henv b (.inr hb), hhw, ← e2, ← e3, hret] at h1
    obtain rfl := bin_state (hone b (.inr hb) st.tod) hp
    exact ⟨scanBinOne_sim hpre e1 hp h1, _, rfl⟩
  · obtain ⟨r, e1, e2, e3⟩ := hS a (.inl ha) st.tod
    obtain ⟨store1, h1, hd⟩ := ok_bind hd
    obtain ⟨_, h', hd⟩ := ok_bind hd
    cases h'
    cases hd
    rw [henv a (.inl ha), hhw, ← e2, ← e3, hret] at h1
    obtain rfl := bin_state (hone a (.inl ha) st.tod) hp
    exact ⟨scanBinOne_sim hpre e1 hp h1, _, rfl⟩
  · obtain ⟨r, e1, e2, e3⟩ := hS a (.inl ha) st.tod
    obtain ⟨r', f1, f2, f3⟩ := hS b (.inr hb) (some (vals a).tod)
    obtain ⟨store1, h1, hd⟩ := ok_bind hd
    obtain ⟨store2, h2, hd⟩ := ok_bind hd
    rw [henv a (.inl ha), hhw, ← e2, ← e3, hret] at h1
    rw [henv b (.inr hb), hhw, ← f2, ← f3, hret] at h2
    rw [henv a (.inl ha), henv b (.inr hb)] at hd
    by_cases hk : o.ctalk = 0
    · rw [if_neg (by simpa using hk)] at hp ⊢
      rw [if_neg (by simpa [SOpts.data] using hk)] at hd
      cases hd
      obtain ⟨⟨st1, maps1⟩, g1, g2⟩ := ok_bind hp
      obtain rfl := bin_state (hone a (.inl ha) st.tod) g1
      obtain rfl := bin_state (hone b (.inr hb) _) g2
      rw [scanBinOne_sim hpre e1 g1 h1]
      exact ⟨scanBinOne_sim hpre f1 g2 h2, _, rfl⟩
    · rw [if_pos (by simpa using hk)] at hp ⊢
      rw [if_pos (by simpa [SOpts.data] using hk)] at hd
      obtain ⟨⟨ta, tb⟩, g1, hd⟩ := ok_bind hd
      unfold ScanInstrument.scanMix at hp
      rw [hst, hone a (.inl ha)] at hp
      simp only [bind, Except.bind, todOfState] at hp
      rw [hone b (.inr hb)] at hp
      dsimp only at hp
      have hct : o.data.ctalk = o.ctalk := rfl
      rw [hct] at g1
      rw [g1] at hp
      dsimp only at hp
      obtain ⟨maps1, k1, hp⟩ := ok_bind hp
      obtain ⟨maps2, k2, hp⟩ := ok_bind hp
      cases hp
      have hup : updateBoth mission o s a b ta tb store2 = .ok store' := by
        unfold updateBoth
        have : o.data.saveTod = o.saveTod := rfl
        simp only [this, hupd] at hd
        exact hd
      refine ⟨?_, _, rfl⟩
      unfold scanMix scanOne
      have hst' : scanDetector w.x mission a.bin.beam a.bin.ghosts s false o.interp o.savePoint st =
        _ := e1
      rw [if_neg (by simp [hpre]), hst']
      simp only [bind, Except.bind]
      rw [h1]
      dsimp only [pure, Except.pure, todOfState]
      rw [if_neg (by simp [hpre]), f1]
      dsimp only
      rw [h2]
      dsimp only
      rw [g1]
      dsimp only
      rw [hup]
      dsimp only
      rw [k1]
      dsimp only
      rw [k2]

/-! ### loops -/

theorem hwpList_deg (a : Hwp.Ang ℝ) (n : Nat) (h : ∀ l, a = .array l → l.length = n) :
    hwpList (hwpDeg (some (hwpAngOf a))) = plateDeg (some a) n := by
  cases a with
  | scalar a => rfl
  | array a =>
    simp only [plateDeg, h a rfl, if_true]
    rfl

theorem stepSub_sim (w : World E) (M : Motion)
    (o : SOpts) (hpre : o.preview = false) (p : SPair) (Q : Spinmaps SpinDict → Prop)
    (T P A : Int → Nat → ℝ) (c : Chunk) (cidx : Int) (i : Inst E)
    (hc : pyGet (i.chunks.map (·.1)) cidx = .ok c) (h0 : 0 ≤ c.start) (pt : Pointing)
    (hpt : PointsAt M c pt) (hval : Stores w M (i.chunks.map (·.1)) o p Q T P A) (s : Chunk)
    (hcx : s.cidx = some cidx) (r1 : Rot ℝ) (h1 : Hwp.State ℝ) (ang : Hwp.Ang ℝ)
    (e1 : ScanInstrument.rotStep i.rot s = .ok r1)
    (e2 : Hwp.rotateHwp Real.pi w.fsamp i.hwp (s.hwpang.map fun (a : ℚ) => (a : ℝ)) s.start s.stop =
        .ok (some ang, h1))
    (e3 : ∀ t : Nat, s.start ≤ t → (t : Int) < s.stop →
        M.rot t = r1.angle ∧ M.alpha t = angAt ang (t - s.start.toNat))
    (ha : c.start ≤ s.start) (hlt : s.start < s.stop) (hb : s.stop ≤ c.stop)
    (hct : i.st.ctime = pt.ctime) (hqb : i.st.qBore = pt.bore)
    (hQ : Q i.st.maps) (i' : Inst E)
    (hp : ScanInstrument.stepSub w o.toOpts (plain p) false s i = .ok i') (g : Option (Hwp.Ang ℝ))
    (store : Store) (x' : Rot ℝ × (Hwp.State ℝ × Option (Hwp.Ang ℝ)) × Store)
    (hd : Data.stepSub (envOf w.fsamp T P A) (i.chunks.map (·.1)) o.data cidx (dets p) s
      (i.rot, (i.hwp, g), store) = .ok x') :
    stepSub w o p false s (i, store) = .ok (i', x'.2.2) ∧ x'.1 = i'.rot ∧ x'.2.1.1 = i'.hwp ∧
      Same i i' ∧ i'.rot = r1 ∧ i'.hwp = h1 := by
  have hA := ScanInstrument.at_sub M _ c cidx hc h0 pt hpt w.fsamp s i.hwp h1 _ ang r1.angle e2 e3 ha
    hlt hb { i.st with rotAngle := r1.angle, hwpAng := newAng (some ang) i.st.hwpAng } hct hqb rfl rfl
  have hS := hval _ _ _ _ _ _ hA hQ
  unfold ScanInstrument.stepSub at hp
  rw [e1] at hp
  simp only [bind, Except.bind] at hp
  rw [e2] at hp
  dsimp only at hp
  have hcx' : cidxOf s = .ok cidx := by
    unfold cidxOf
    rw [hcx]
  rw [hcx'] at hp
  obtain ⟨⟨st1, maps1⟩, hp1, hp⟩ := ok_bind hp
  cases hp
  unfold Data.stepSub at hd
  dsimp only at hd
  have e1' : Data.rotStep i.rot s = .ok r1 := e1
  rw [e1'] at hd
  obtain ⟨_, hh, hd⟩ := ok_bind hd
  cases hh
  obtain ⟨h2, hh, hd⟩ := ok_bind hd
  have hh2 : h2 = (h1, some ang) := by
    have : Data.rotateState Real.pi w.fsamp (i.hwp, g) s = .ok h2 := hh
    unfold Data.rotateState at this
    rw [e2] at this
    cases this
    rfl
  subst hh2
  obtain ⟨store1, hd1, hd⟩ := ok_bind hd
  cases hd
  have hlen : ∀ l, ang = .array l → l.length = (s.stop - s.start).toNat := by
    rintro l rfl
    exact ScanInstrument.rotateHwp_length _ _ _ _ _ _ _ e2
  have := scanPair_sim hpre (fun b => ⟨samples (T b.idx) s.start s.stop,
      samples (P b.idx) s.start s.stop, samples (A b.idx) s.start s.stop⟩)
    (plateDeg (some ang) (s.stop - s.start).toNat) (fun b hb t => by
      obtain ⟨r, k1, k2, k3⟩ := hS b hb t
      refine ⟨r, k1, k2, ?_⟩
      rw [k3]
      exact hwpList_deg ang _ hlen) hp1 (envOf w.fsamp T P A) r1.angle (h1, some ang) s ⟨rfl, rfl⟩
    (fun b hb => rfl) rfl hd1
  obtain ⟨this, t, rfl⟩ := this
  refine ⟨?_, rfl, rfl, ⟨rfl, rfl, rfl, rfl, rfl, rfl, rfl⟩, rfl, rfl⟩
  unfold stepSub
  dsimp only
  rw [e1]
  simp only [bind, Except.bind]
  rw [e2]
  dsimp only
  rw [hcx']
  dsimp only
  rw [this]
  rfl

theorem subs_sim (w : World E) (M : Motion)
    (o : SOpts) (hpre : o.preview = false) (p : SPair) (Q : Spinmaps SpinDict → Prop)
    (T P A : Int → Nat → ℝ) (chunks : List (Chunk × Bool)) (c : Chunk) (cidx : Int)
    (hc : pyGet (chunks.map (·.1)) cidx = .ok c) (h0 : 0 ≤ c.start) (pt : Pointing)
    (hpt : PointsAt M c pt) (hval : Stores w M (chunks.map (·.1)) o p Q T P A) (subs : List Chunk) :
    ∀ (a : Int) (i : Inst E) (r' : Rot ℝ) (h' : Hwp.State ℝ),
      c.start ≤ a → Tiles a c.stop (subs.map Chunk.ivl) → (∀ s ∈ subs, s.cidx = some cidx) →
      Turns w.fsamp M i.rot i.hwp subs r' h' → i.chunks = chunks →
      i.st.ctime = pt.ctime → i.st.qBore = pt.bore → Q i.st.maps →
      ∀ i' g store x',
      subs.foldlM (fun i s => ScanInstrument.stepSub w o.toOpts (plain p) false s i) i = .ok i' →
      subs.foldlM (fun x s => Data.stepSub (envOf w.fsamp T P A) (chunks.map (·.1)) o.data cidx
        (dets p) s x) (i.rot, (i.hwp, g), store) = .ok x' →
      subs.foldlM (fun i s => stepSub w o p false s i) (i, store) = .ok (i', x'.2.2) ∧
        x'.1 = i'.rot ∧ x'.2.1.1 = i'.hwp := by
  induction subs with
  | nil =>
    intro a i r' h' ha ht _ htu hch hct hqb hQ i' g store x' hp hd
    cases hp
    cases hd
    exact ⟨rfl, rfl, rfl⟩
  | cons s subs ih =>
    intro a i r' h' ha ht hcx htu hch hct hqb hQ i' g store x' hp hd
    simp only [List.map_cons] at ht
    generalize hiv : Chunk.ivl s = iv at ht
    cases ht with
    | cons hlt ht =>
    simp only [Chunk.ivl, Prod.mk.injEq] at hiv
    obtain ⟨rfl, rfl⟩ := hiv
    obtain ⟨r1, ang, h1, e1, e2, e3, e4⟩ := htu
    have hb : s.stop ≤ c.stop := tiles_le ht
    subst hch
    rw [List.foldlM_cons] at hp hd ⊢
    obtain ⟨i1, hp1, hp⟩ := ok_bind hp
    obtain ⟨x1, hd1, hd⟩ := ok_bind hd
    obtain ⟨g1, g2, g3, hsame⟩ := stepSub_sim w M o hpre p Q T P A c cidx i hc h0 pt hpt hval s
      (hcx s List.mem_cons_self) r1 h1 ang e1 e2 e3 ha hlt hb hct hqb hQ i1 hp1 g store x1 hd1
    obtain ⟨k1, k2, k3⟩ := ih s.stop i1 r' h' (by omega) ht
      (fun s hs => hcx s (List.mem_cons_of_mem _ hs)) (by rw [hsame.2.1, hsame.2.2]; exact e4)
      hsame.1.chunks (hsame.1.ctime.trans hct) (hsame.1.qBore.trans hqb)
      (by rw [hsame.1.spin]; exact hQ) i' x1.2.1.2 x1.2.2 x' hp (by
        have : x1 = (i1.rot, (i1.hwp, x1.2.1.2), x1.2.2) := by
          rw [← g2, ← g3]
        rw [← this]
        exact hd)
    refine ⟨?_, k2, k3⟩
    rw [g1]
    exact k1

theorem chunk_sim (w : World E) (M : Motion) (o : SOpts) (hpre : o.preview = false)
    (hgr : o.ground = false) (p : SPair) (Q : Spinmaps SpinDict → Prop) (T P A : Int → Nat → ℝ)
    (mission : List Chunk) (hval : Stores w M mission o p Q T P A) (first : Bool) (k : Nat) (c : Chunk)
    (hk : mission[k]? = some c) (hcx : c.cidx = some (k : Int)) (h0 : 0 ≤ c.start)
    (hlt : c.start < c.stop) (i : Inst E) (hch : i.chunks = mission.map fun c => (c, false))
    (hr : Data.RotOk i.rot c.start) (pt : Pointing) (el : E)
    (himp : w.implement i.el c false (!first) = .ok (pt, el)) (hpt : PointsAt M c pt)
    (subs : List Chunk) (r1 r2 : Rot ℝ) (h2 : Hwp.State ℝ)
    (hsub : subpartChunk i.rot c = .ok (subs, r1)) (htu : Turns w.fsamp M r1 i.hwp subs r2 h2)
    (hQ : Q i.st.maps) (i' : Inst E)
    (hp : ScanInstrument.stepChunk w o.toOpts (plain p) first i k = .ok i')
    (g : Option (Hwp.Ang ℝ)) (store : Store)
    (x' : Rot ℝ × (Hwp.State ℝ × Option (Hwp.Ang ℝ)) × Store)
    (hd : Data.stepChunk (envOf w.fsamp T P A) mission o.data first (dets p) c
      (i.rot, (i.hwp, g), store) = .ok x') :
    stepChunk w o p first (i, store) k = .ok (i', x'.2.2) ∧ x'.1 = i'.rot ∧ x'.2.1.1 = i'.hwp := by
  obtain ⟨a1, a2, a3, a4⟩ := ScanInstrument.subpart_full i.rot c hr hlt subs r1 hsub
  have hmap : (mission.map fun c => (c, false)).map (·.1) = mission := by
    rw [List.map_map]
    exact List.map_id' _
  have hget : pyGet i.chunks (k : Int) = .ok (c, false) := by
    unfold pyGet
    rw [if_neg (show ¬ (k : Int) < 0 by omega), hch]
    simp [hk]
  have hget' : pyGet ((mission.map fun c => (c, false)).map (·.1)) (k : Int) = .ok c := by
    rw [hmap]
    unfold pyGet
    rw [if_neg (show ¬ (k : Int) < 0 by omega)]
    simp [hk]
  have hcx' : cidxOf c = .ok (k : Int) := by
    unfold cidxOf
    rw [hcx]
  unfold ScanInstrument.stepChunk at hp
  rw [hget] at hp
  simp only [bind, Except.bind] at hp
  simp only [hgr, Bool.or_false, Bool.false_eq_true, false_and, if_false, ite_self] at hp
  rw [himp] at hp
  dsimp only at hp
  rw [hsub] at hp
  dsimp only at hp
  unfold Data.stepChunk at hd
  rw [hcx] at hd
  simp only [bind, Except.bind, pure, Except.pure] at hd
  rw [hsub] at hd
  dsimp only at hd
  obtain ⟨k1, k2, k3⟩ := subs_sim w M o hpre p Q T P A (mission.map fun c => (c, false)) c k hget' h0
    pt hpt (by rw [hmap]; exact hval) subs c.start
    { i with rot := r1, el := el,
             st := { i.st with ctime := pt.ctime, qBore := pt.bore, qGround := pt.ground },
             flag := pt.flag } r2 h2 le_rfl a3 (fun s hs => (a4 s hs).trans hcx) htu hch rfl
    rfl hQ i' g _ x' hp (by rw [hmap]; exact hd)
  refine ⟨?_, k2, k3⟩
  unfold stepChunk
  dsimp only
  rw [hget]
  simp only [bind, Except.bind]
  simp only [hgr, Bool.or_false, Bool.false_eq_true, false_and, if_false, ite_self]
  rw [himp]
  dsimp only
  rw [hcx']
  dsimp only
  rw [hsub]
  exact k1

theorem chunks_sim (w : World E) (hq : PixOk w.q) (hns : 0 < w.nsideOut) (M : Motion)
    (o : SOpts) (hbin : o.binning = true) (hpre : o.preview = false) (hgr : o.ground = false)
    (p : SPair) (Q : Spinmaps SpinDict → Prop) (val : BinBeam → Nat → ℝ) (T P A : Int → Nat → ℝ)
    (mission : List Chunk) (hval : Gives w M mission o.toOpts (plain p) Q val)
    (hvalS : Stores w M mission o p Q T P A) (first : Bool)
    (hnum : ∀ (i : Nat) c, mission[i]? = some c → c.cidx = some (i : Int)) (N : Nat)
    (cs : List Chunk) : ∀ (k : Nat) (a : Int) (i : Inst E) (e' : E) (os : List Obs),
      mission.drop k = cs → 0 ≤ a → Tiles a N (cs.map Chunk.ivl) → Data.RotOk i.rot a →
      Points w M (!first) i.el cs e' → Moves w.fsamp M i.rot i.hwp cs →
      (i.chunks = mission.map fun c => (c, false)) → Q i.st.maps →
      i.maps = mapsOf (12 * w.nsideOut ^ 2) os → ∀ g store x',
      cs.foldlM (fun x c => Data.stepChunk (envOf w.fsamp T P A) mission o.data first (dets p) c x)
        (i.rot, (i.hwp, g), store) = .ok x' →
      ∃ i', (List.range' k cs.length).foldlM (ScanInstrument.stepChunk w o.toOpts (plain p) first) i =
          .ok i' ∧
        (List.range' k cs.length).foldlM (stepChunk w o p first) (i, store) = .ok (i', x'.2.2) ∧
        x'.1 = i'.rot ∧ x'.2.1.1 = i'.hwp := by
  induction cs with
  | nil =>
    intro k a i e' os hd h0 ht hr hp hmv hch hQ hm g store x' hdat
    cases hdat
    exact ⟨i, rfl, rfl, rfl, rfl⟩
  | cons c cs ih =>
    intro k a i e' os hd h0 ht hr hp hmv hch hQ hm g store x' hdat
    simp only [List.map_cons] at ht
    generalize hiv : Chunk.ivl c = iv at ht
    cases ht with
    | cons hlt ht =>
    simp only [Chunk.ivl, Prod.mk.injEq] at hiv
    obtain ⟨rfl, rfl⟩ := hiv
    obtain ⟨pt, e1, q1, q2, q3⟩ := hp
    obtain ⟨subs, r1, r2, h2, m1, m2, m3⟩ := hmv
    have hk : mission[k]? = some c := by
      have := congrArg (·[0]?) hd
      simpa using this
    obtain ⟨i1, g1, g2, g3, g4, g5, g6, g7, g8, g9, g10⟩ := ScanInstrument.chunk_step w hq hns M o.toOpts
      hbin hgr (plain p) Q val mission hval first k c hk (hnum k c hk) h0 hlt i hch hr pt e1 q1 q2 subs
      r1 r2 h2 m1 m2 hQ os hm
    have hd' : mission.drop (k + 1) = cs := by
      rw [← List.drop_drop, hd]
      rfl
    have hN : c.stop ≤ N := tiles_le ht
    rw [List.foldlM_cons] at hdat
    obtain ⟨x1, hd1, hdat⟩ := ok_bind hdat
    obtain ⟨s1, s2, s3⟩ := chunk_sim w M o hpre hgr p Q T P A mission hvalS first k c hk (hnum k c hk) h0
      hlt i hch hr pt e1 q1 q2 subs r1 r2 h2 m1 m2 hQ i1 g1 g store x1 hd1
    have hx1 : x1 = (i1.rot, (i1.hwp, x1.2.1.2), x1.2.2) := by
      rw [← s2, ← s3]
    rw [hx1] at hdat
    obtain ⟨i2, k1, k2, k3, k4⟩ := ih (k + 1) c.stop i1 e' _ hd' (by omega) ht g5
      (by rw [g4]; exact q3) (by rw [g2, g3]; exact m3) (g8.trans hch) (by rw [g9]; exact hQ) g10
      _ _ x' hdat
    refine ⟨i2, ?_, ?_, k3, k4⟩
    · rw [List.length_cons, List.range'_succ, List.foldlM_cons, g1]
      exact k1
    · rw [List.length_cons, List.range'_succ, List.foldlM_cons, s1]
      exact k2

/-- A pair can be scanned, gives the values `val`, and by index `T`, `P`, `A`. -/
def PairStores (w : World E) (M : Motion) (mission : List Chunk) (o : SOpts) (p : SPair)
    (val : BinBeam → Nat → ℝ) (T P A : Int → Nat → ℝ) : Prop :=
  ∃ Q, Gives w M mission o.toOpts (plain p) Q val ∧ Stores w M mission o p Q T P A ∧
    ∀ i : Inst E, ∃ sm b, initPair w o.toOpts (plain p) i =
      .ok { i with st := { i.st with maps := sm }, hasMaps := b } ∧ Q sm

theorem PairStores.good {w : World E} {M : Motion} {mission : List Chunk} {o : SOpts} {p : SPair}
    {val : BinBeam → Nat → ℝ} {T P A : Int → Nat → ℝ} (h : PairStores w M mission o p val T P A) :
    PairGood w M mission o.toOpts (plain p) val := by
  obtain ⟨Q, h1, -, h2⟩ := h
  exact ⟨Q, h1, h2⟩

theorem pairStores_none (w : World E) (M : Motion) (mission : List Chunk) (o : SOpts)
    (val : BinBeam → Nat → ℝ) (T P A : Int → Nat → ℝ) :
    PairStores w M mission o (none, none) val T P A := by
  refine ⟨fun _ => True, ?_, ?_, fun i => ⟨i.st.maps, i.hasMaps, rfl, trivial⟩⟩
  · intro s st flag t0 i n _ _ b hb
    rcases hb with hb | hb <;> cases hb
  · intro s st flag t0 i n _ _ b hb
    rcases hb with hb | hb <;> cases hb

theorem pass_sim (w : World E) (hq : PixOk w.q) (hns : 0 < w.nsideOut) (M : Motion)
    (o : SOpts) (hbin : o.binning = true) (hpre : o.preview = false) (hgr : o.ground = false)
    (p : SPair) (val : BinBeam → Nat → ℝ) (T P A : Int → Nat → ℝ) (N : Nat) (mission : List Chunk)
    (hmi : Mission N mission) (hgood : PairStores w M mission o p val T P A) (first : Bool)
    (i : Inst E) (r0 : Rot ℝ) (h0 : Hwp.State ℝ) (e0 e' : E)
    (hstart : if first then i.rot = r0 ∧ i.hwp = h0 ∧ i.el = e0
      else i.rot.reset = r0 ∧ i.hwp.reset = h0 ∧ w.resetEl i.el = .ok e0)
    (hr : Data.RotOk r0 0) (hp : Points w M (!first) e0 mission e')
    (hmv : Moves w.fsamp M r0 h0 mission)
    (hch : i.chunks = mission.map fun c => (c, false)) (os : List Obs)
    (hm : i.maps = mapsOf (12 * w.nsideOut ^ 2) os) (g : Option (Hwp.Ang ℝ)) (store : Store)
    (x' : Rot ℝ × (Hwp.State ℝ × Option (Hwp.Ang ℝ)) × Store)
    (hd : Data.scanPass (envOf w.fsamp T P A) mission o.data first (dets p)
      (r0, (h0, g), store) = .ok x') :
    ∃ i', ScanInstrument.scanPass w o.toOpts first (plain p) i = .ok i' ∧
      scanPass w o first p (i, store) = .ok (i', x'.2.2) ∧ x'.1 = i'.rot ∧ x'.2.1.1 = i'.hwp := by
  obtain ⟨Q, hQ, hQS, hinit⟩ := hgood
  have hstart' : ∃ i1, (if first then .ok i else resetAll w i) = Except.ok (ε := PyErr) i1 ∧
      i1.rot = r0 ∧ i1.hwp = h0 ∧ i1.el = e0 ∧ i1.chunks = i.chunks ∧ i1.maps = i.maps := by
    cases first with
    | true =>
      obtain ⟨a, b, c⟩ := hstart
      exact ⟨i, rfl, a, b, c, rfl, rfl⟩
    | false =>
      obtain ⟨a, b, c⟩ := hstart
      refine ⟨{ i with rot := i.rot.reset, hwp := i.hwp.reset, el := e0 }, ?_, a, b, rfl, rfl, rfl⟩
      rw [if_neg (by simp)]
      unfold resetAll
      rw [c]
      rfl
  obtain ⟨i1, f1, f2, f3, f4, f5, f6⟩ := hstart'
  obtain ⟨sm, b, f7, f8⟩ := hinit i1
  obtain ⟨i', k1, k2, k3, k4⟩ := chunks_sim w hq hns M o hbin hpre hgr p Q val T P A mission hQ hQS
    first hmi.numbered N mission 0 0 { i1 with st := { i1.st with maps := sm }, hasMaps := b } e' os
    rfl le_rfl hmi.tiles (by rw [f2]; exact hr) (by rw [f4]; exact hp)
    (by rw [f2, f3]; exact hmv) (f5.trans hch) f8 (f6.trans hm) g store x' (by
      dsimp only
      rw [f2, f3]
      exact hd)
  have hl : i1.chunks.length = mission.length := by rw [f5, hch, List.length_map]
  have hall : (i1.chunks.all fun c => c.1.cidx.isSome) = true := by
    rw [f5, hch, List.all_eq_true]
    intro x hx
    obtain ⟨c, hc, rfl⟩ := List.mem_map.1 hx
    obtain ⟨j, hj, rfl⟩ := List.getElem_of_mem hc
    rw [hmi.numbered j _ (List.getElem?_eq_getElem hj)]
    rfl
  refine ⟨i', ?_, ?_, k3, k4⟩
  · have hb : ScanInstrument.scanPass w o.toOpts first (plain p) i =
        (if first then .ok i else resetAll w i).bind fun i =>
        (initPair w o.toOpts (plain p) i).bind fun i =>
          if i.chunks.all fun c => c.1.cidx.isSome then
            (List.range i.chunks.length).foldlM (ScanInstrument.stepChunk w o.toOpts (plain p) first) i
          else .error .keyError := by
      unfold ScanInstrument.scanPass
      cases first <;> rfl
    rw [hb, f1]
    simp only [Except.bind]
    rw [f7]
    dsimp only
    rw [if_pos hall, hl, List.range_eq_range']
    exact k1
  · have hb : scanPass w o first p (i, store) =
        (if first then .ok i else resetAll w i).bind fun j =>
        (initPair w o.toOpts (plain p) j).bind fun j =>
          if j.chunks.all fun c => c.1.cidx.isSome then
            (List.range j.chunks.length).foldlM (stepChunk w o p first) (j, store)
          else .error .keyError := by
      unfold scanPass
      cases first <;> rfl
    rw [hb, f1]
    simp only [Except.bind]
    rw [f7]
    dsimp only
    rw [if_pos hall, hl, List.range_eq_range']
    exact k2

/-- `reset_hwp_mod`, which also forgets the angle. -/
def resetH (h : Hwp.State ℝ × Option (Hwp.Ang ℝ)) : Hwp.State ℝ × Option (Hwp.Ang ℝ) :=
  (h.1.reset, none)

theorem loop_sim (w : World E) (hq : PixOk w.q) (hns : 0 < w.nsideOut) (M : Motion)
    (o : SOpts) (hbin : o.binning = true) (hpre : o.preview = false) (hgr : o.ground = false)
    (val : SPair → BinBeam → Nat → ℝ) (T P A : Int → Nat → ℝ) (N : Nat) (mission : List Chunk)
    (hmi : Mission N mission) (r0 : Rot ℝ) (h0 : Hwp.State ℝ) (hr : Data.RotOk r0 0)
    (hr0 : r0.reset = r0) (hh0 : h0.reset = h0) (hmv : Moves w.fsamp M r0 h0 mission)
    (PP : Bool → E → Prop)
    (hst : ∀ first e, PP first e →
      ∃ e', Points w M (!first) e mission e' ∧ ∃ e'', w.resetEl e' = .ok e'' ∧ PP false e'')
    (ps : List (Option SPair)) : ∀ (first : Bool) (i : Inst E) (os : List Obs),
      (∀ p ∈ ps.filterMap id, PairStores w M mission o p (val p) T P A) →
      (if first then i.rot = r0 ∧ i.hwp = h0 ∧ PP true i.el
        else i.rot.reset = r0 ∧ i.hwp.reset = h0 ∧ ∃ e, w.resetEl i.el = .ok e ∧ PP false e) →
      (i.chunks = mission.map fun c => (c, false)) →
      i.maps = mapsOf (12 * w.nsideOut ^ 2) os → ∀ g store x',
      (first = true → g = none) →
      Data.scanPasses (envOf w.fsamp T P A) resetH mission o.data first
        (ps.map fun p => dets (p.getD (none, none))) (i.rot, (i.hwp, g), store) = .ok x' →
      ∃ i', scanLoop w o first ps (i, store) = .ok (i', x'.2.2) ∧
        i'.maps = mapsOf (12 * w.nsideOut ^ 2) (os ++
        (ps.filterMap id).flatMap fun p => ScanInstrument.missionObs w M o.toOpts N (val p) (plain p)) := by
  induction ps with
  | nil =>
    intro first i os _ hs _ hm g store x' _ hd
    cases hd
    exact ⟨i, rfl, by simpa using hm⟩
  | cons p ps ih =>
    intro first i os hgood hstart hch hm g store x' hg0 hd
    have hone : ∃ e0, (if first then i.rot = r0 ∧ i.hwp = h0 ∧ i.el = e0
        else i.rot.reset = r0 ∧ i.hwp.reset = h0 ∧ w.resetEl i.el = .ok e0) ∧ PP first e0 := by
      cases first with
      | true =>
        obtain ⟨a, b, c⟩ := hstart
        exact ⟨i.el, ⟨a, b, rfl⟩, c⟩
      | false =>
        obtain ⟨a, b, e, c, d⟩ := hstart
        exact ⟨e, ⟨a, b, c⟩, d⟩
    obtain ⟨e0, hs0, hP⟩ := hone
    obtain ⟨e', q1, e'', q2, q3⟩ := hst first e0 hP
    have hg : PairStores w M mission o (p.getD (none, none)) (val (p.getD (none, none))) T P A := by
      cases p with
      | none => exact pairStores_none _ _ _ _ _ _ _ _
      | some p => exact hgood p (by simp)
    rw [List.map_cons] at hd
    unfold Data.scanPasses at hd
    obtain ⟨x1, hd1, hd⟩ := ok_bind hd
    have hbeg : (if first then (i.rot, (i.hwp, g), store) else
        (i.rot.reset, resetH (i.hwp, g), store)) = (r0, (h0, none), store) := by
      cases first with
      | true =>
        obtain ⟨a, b, -⟩ := hs0
        rw [if_pos rfl, a, b, hg0 rfl]
      | false =>
        obtain ⟨a, b, -⟩ := hs0
        rw [if_neg (by simp), a]
        unfold resetH
        rw [b]
    dsimp only at hd1
    rw [hbeg] at hd1
    obtain ⟨i1, k1, k2, k3, k4, k5, k6⟩ := ScanInstrument.pass_spec w hq hns M o.toOpts hbin hgr
      (plain (p.getD (none, none))) (val (p.getD (none, none))) N mission hmi hg.good first i r0 h0 e0 e'
      hs0 hr q1 hmv hch os hm
    obtain ⟨i1', s1, s2, s3, s4⟩ := pass_sim w hq hns M o hbin hpre hgr (p.getD (none, none))
      (val (p.getD (none, none))) T P A N mission hmi hg first i r0 h0 e0 e'
      hs0 hr q1 hmv hch os hm none store x1 hd1
    rw [k1] at s1
    obtain rfl := Except.ok.inj s1
    have hx1 : x1 = (i1.rot, (i1.hwp, x1.2.1.2), x1.2.2) := by
      rw [← s3, ← s4]
    rw [hx1] at hd
    obtain ⟨i2, g1, g2⟩ := ih false i1 _ (fun p' hp' => hgood p' (by
        cases p with
        | none => simpa using hp'
        | some p => exact List.mem_cons_of_mem _ (by simpa using hp')))
      ⟨k2.trans hr0, k3.trans hh0, e'', by rw [k4]; exact q2, q3⟩ (k5.trans hch) k6 _ _ x' (by simp) hd
    refine ⟨i2, ?_, ?_⟩
    · unfold scanLoop
      rw [s2]
      exact g1
    · rw [g2, List.append_assoc]
      congr 2
      cases p with
      | none =>
        have : ScanInstrument.missionObs w M o.toOpts N (val (none, none)) (plain (none, none)) = [] := by
          unfold ScanInstrument.missionObs
          rw [List.flatMap_eq_nil_iff]
          intro t _
          unfold ScanInstrument.pairObs plain
          simp [ScanInstrument.live]
        simp [this]
      | some p => simp

/-! ### detectors -/

theorem nside_unique {n m : Nat} {d : SpinDict} (h : DictOk (12 * n ^ 2) d)
    (h' : ∀ e ∈ d, ∀ x, e.2.maps[0]? = some x → x.length = 12 * m ^ 2) : m = n := by
  obtain ⟨e, he⟩ : ∃ e, e ∈ d := by
    rcases d with _ | ⟨e, d⟩
    · rcases h.keys with h | h <;> cases h
    · exact ⟨e, List.mem_cons_self⟩
  have hE := h.entries e he
  have hlen : 0 < e.2.maps.length := by
    rw [hE.len]
    exact List.length_pos_iff.2 hE.ne
  have h1 := h' e he _ (List.getElem?_eq_getElem hlen)
  have h2 := hE.npix _ (List.getElem_mem hlen)
  have h3 : m ^ 2 = n ^ 2 := by omega
  exact Nat.pow_left_injective (by norm_num : 2 ≠ 0) h3

theorem pairStores_scan (w : World E) (hx : ExtOk w.x) (M : Motion) (mission : List Chunk) (o : SOpts)
    (hpre : o.preview = false) (hre : o.reuseSpinmaps = false) (nside : Nat)
    (sm : Spinmaps SpinDict) (p : SPair) (hm : ScanInstrument.MapsOk w nside sm (plain p))
    (T P A : Int → Nat → ℝ)
    (hT : ∀ b, (live p.1 = some b ∨ live p.2 = some b) → ∀ t,
      T b.idx t = detects M w.x o.interp nside sm b.bin t ∧
      P b.idx t = ((aims M w.x o.interp nside b t).1 : ℝ) ∧
      A b.idx t = (aims M w.x o.interp nside b t).2) :
    PairStores w M mission o p (detects M w.x o.interp nside sm) T P A := by
  have hlive : ∀ b, (live p.1 = some b ∨ live p.2 = some b) →
      (ScanInstrument.live (plain p).1 = some b.bin ∨ ScanInstrument.live (plain p).2 = some b.bin) := by
    intro b hb
    unfold plain
    rw [live_plain, live_plain]
    rcases hb with hb | hb
    · left
      rw [hb]
      rfl
    · right
      rw [hb]
      rfl
  have hm0 := hm
  rcases hm with h | ⟨a, h1, h2, h3, h4⟩
  · have : p = (none, none) := by
      obtain ⟨p1, p2⟩ := p
      unfold plain at h
      rcases p1 with _ | p1 <;> rcases p2 with _ | p2 <;> simp_all
    subst this
    exact pairStores_none _ _ _ _ _ _ _ _
  · refine ⟨fun m => m = sm, ?_, ?_, fun i => ⟨sm, true, ?_, rfl⟩⟩
    · intro s st flag t0 i n hat hQ b hb t
      obtain ⟨e1, e2, e3⟩ := h4 b hb
      have := ScanInstrument.scanOne_spec w hx M mission o.toOpts hpre flag b s { st with tod := t } t0 i n
        (hat.tod t) nside h3 (ScanInstrument.live_of hb) e1 (by rw [hQ]; exact e2) (by rw [hQ]; exact e3)
      rw [this, hQ]
    · intro s st flag t0 i n hat hQ b hb t
      obtain ⟨e1, e2, e3⟩ := h4 b.bin (hlive b hb)
      have hA := hat.tod t
      have hone := ScanInstrument.scanOne_spec w hx M mission o.toOpts hpre flag b.bin s
        { st with tod := t } t0 i n hA nside h3 (ScanInstrument.live_of (hlive b hb)) e1
        (by rw [hQ]; exact e2) (by rw [hQ]; exact e3)
      obtain ⟨ret, tod, g1, g2, g3⟩ := C46_detector_timeline w.x hx mission b.bin.beam b.bin.ghosts s
        o.interp o.savePoint { st with tod := t } nside i n h3 hA.sub
        (ScanInstrument.live_of (hlive b hb)) e1 (by rw [hQ]; exact e2)
        (ScanInstrument.ghostMaps st.maps) (by
          intro g hgm hgd
          obtain ⟨e1, d, e2, e3⟩ := e3 g hgm hgd
          have : ScanInstrument.ghostMaps st.maps g = d := by
            unfold ScanInstrument.ghostMaps
            rw [hQ, e2]
          rw [this]
          exact ⟨e1, by rw [hQ]; exact e2, e3⟩)
      unfold ScanInstrument.scanOne at hone
      rw [if_neg (by simp [hpre]), detector_point g1] at hone
      simp only [bind, Except.bind, pure, Except.pure, Except.ok.injEq, State.mk.injEq, true_and,
        Option.some.injEq] at hone
      have htod : tod = (List.range n).map fun k => T b.idx (t0 + k) := by
        rw [hone]
        apply List.map_congr_left
        intro k _
        rw [(hT b hb (t0 + k)).1, hQ]
      obtain ⟨ns, n1, n2, n3, n4, n5⟩ := C102_returned g1 hA.sub
      have hns : ns = nside := nside_unique e2 (by rw [← hQ]; exact n1)
      subst hns
      refine ⟨ret, ?_, ?_, n4⟩
      · rw [g1, htod]
      · unfold retOf
        have hlook : ∀ k, k < n → looksAt w.x o.interp (offset w.x st.rotAngle b.bin.beam) ns
            ((st.ctime[i + k]?).getD 0) ((st.qBore[i + k]?).getD 0) =
            aims M w.x o.interp ns b (t0 + k) := by
          intro k hk
          unfold aims
          rw [hat.time k hk, hat.bore k hk, hat.rot k hk]
          rfl
        rw [g2, htod, n2, n3]
        congr 1
        · rw [List.map_map]
          apply List.map_congr_left
          intro k hk
          simp only [Function.comp]
          rw [hlook k (List.mem_range.1 hk), (hT b hb (t0 + k)).2.1]
        · apply List.map_congr_left
          intro k hk
          rw [hlook k (List.mem_range.1 hk), (hT b hb (t0 + k)).2.2]
    · obtain ⟨p1, p2⟩ := p
      unfold plain at h1 ⊢
      dsimp only at h1 ⊢
      rw [h1]
      unfold initPair
      simp only [hpre, hre, Bool.and_false, Bool.false_eq_true, if_false, h2, bind, Except.bind,
        pure, Except.pure]

/-! ### what was scanned when -/

/-- The plate angle of an observed subchunk is that of `M`. -/
def PlateOf (M : Motion) (x : Data.Obs ℝ (Hwp.State ℝ × Option (Hwp.Ang ℝ))) : Prop :=
  ∃ ang, x.2.2.2 = some ang ∧ (∀ l, ang = .array l → l.length = (x.1.stop - x.1.start).toNat) ∧
    ∀ t : Nat, x.1.start ≤ t → (t : Int) < x.1.stop → M.alpha t = angAt ang (t - x.1.start.toNat)

theorem subHistory_turns (fsamp : ℝ) (M : Motion) (T P A : Int → Nat → ℝ) (subs : List Chunk) :
    ∀ (r r' : Rot ℝ) (h h' : Hwp.State ℝ) (g : Option (Hwp.Ang ℝ)),
      Turns fsamp M r h subs r' h' →
      ∃ xs g', Data.subHistory (envOf fsamp T P A) r (h, g) subs = .ok (xs, r', (h', g')) ∧
        ∀ x ∈ xs, PlateOf M x := by
  induction subs with
  | nil =>
    intro r r' h h' g htu
    obtain ⟨rfl, rfl⟩ := htu
    exact ⟨[], g, rfl, by simp⟩
  | cons s subs ih =>
    intro r r' h h' g htu
    obtain ⟨r1, ang, h1, e1, e2, e3, e4⟩ := htu
    obtain ⟨xs, g', k1, k2⟩ := ih r1 r' h1 h' (some ang) e4
    refine ⟨(s, r1.angle, (h1, some ang)) :: xs, g', ?_, ?_⟩
    · unfold Data.subHistory
      have e1' : Data.rotStep r s = .ok r1 := e1
      have e2' : (envOf fsamp T P A).rotateHwp (h, g) s = .ok (h1, some ang) := by
        show Data.rotateState Real.pi fsamp (h, g) s = _
        unfold Data.rotateState
        rw [e2]
        rfl
      rw [e1']
      simp only [bind, Except.bind]
      rw [e2']
      dsimp only
      rw [k1]
      rfl
    · intro x hx
      rcases List.mem_cons.1 hx with rfl | hx
      · refine ⟨ang, rfl, ?_, fun t h1 h2 => (e3 t h1 h2).2⟩
        rintro l rfl
        exact ScanInstrument.rotateHwp_length _ _ _ _ _ _ _ e2
      · exact k2 x hx

theorem history_moves (fsamp : ℝ) (M : Motion) (T P A : Int → Nat → ℝ) (cs : List Chunk) :
    ∀ (r : Rot ℝ) (h : Hwp.State ℝ) (g : Option (Hwp.Ang ℝ)), Moves fsamp M r h cs →
      ∃ xss r' h', Data.history (envOf fsamp T P A) r (h, g) cs = .ok (xss, r', h') ∧
        ∀ xs ∈ xss, ∀ x ∈ xs, PlateOf M x := by
  induction cs with
  | nil =>
    intro r h g _
    exact ⟨[], r, (h, g), rfl, by simp⟩
  | cons c cs ih =>
    intro r h g hmv
    obtain ⟨subs, r1, r2, h2, m1, m2, m3⟩ := hmv
    obtain ⟨xs, g', k1, k2⟩ := subHistory_turns fsamp M T P A subs r1 r2 h h2 g m2
    obtain ⟨xss, r', h', k3, k4⟩ := ih r2 h2 g' m3
    refine ⟨xs :: xss, r', h', ?_, ?_⟩
    · unfold Data.history
      rw [m1]
      simp only [bind, Except.bind]
      rw [k1]
      dsimp only
      rw [k3]
      rfl
    · intro ys hys
      rcases List.mem_cons.1 hys with rfl | hys
      · exact k2
      · exact k4 ys hys

theorem samples_append (f : Nat → ℝ) (a b c : Int) (h0 : 0 ≤ a) (h1 : a ≤ b) (h2 : b ≤ c) :
    samples f a b ++ samples f b c = samples f a c := by
  unfold samples
  have e : (c - a).toNat = (b - a).toNat + (c - b).toNat := by omega
  rw [e, List.range_add, List.map_append, List.map_map]
  congr 1
  apply List.map_congr_left
  intro k _
  simp only [Function.comp]
  congr 1
  omega

theorem flatMap_samples {A H : Type} (f : Nat → ℝ) (F : Data.Obs A H → List ℝ)
    (xs : List (Data.Obs A H)) : ∀ (a b : Int), 0 ≤ a →
      Tiles a b (xs.map fun x => (x.1.start, x.1.stop)) →
      (∀ x ∈ xs, 0 ≤ x.1.start → x.1.start < x.1.stop → F x = samples f x.1.start x.1.stop) →
      xs.flatMap F = samples f a b := by
  induction xs with
  | nil =>
    intro a b _ ht _
    cases ht
    simp [samples]
  | cons x xs ih =>
    intro a b h0 ht hF
    simp only [List.map_cons] at ht
    generalize hiv : (x.1.start, x.1.stop) = iv at ht
    cases ht with
    | cons hlt ht =>
    simp only [Prod.mk.injEq] at hiv
    obtain ⟨rfl, rfl⟩ := hiv
    have hle := tiles_le ht
    rw [List.flatMap_cons, hF x List.mem_cons_self h0 hlt,
      ih _ _ (by omega) ht fun y hy => hF y (List.mem_cons_of_mem _ hy)]
    exact samples_append f _ _ _ h0 (by omega) hle

theorem plate_samples {M : Motion} {x : Data.Obs ℝ (Hwp.State ℝ × Option (Hwp.Ang ℝ))}
    (h : PlateOf M x) (h0 : 0 ≤ x.1.start) (hlt : x.1.start < x.1.stop) :
    Data.expand x.size (plateDeg x.2.2.2 (x.1.stop - x.1.start).toNat) =
      samples (fun t => M.alpha t * 180 / Real.pi) x.1.start x.1.stop := by
  obtain ⟨ang, h1, h2, h3⟩ := h
  rw [h1]
  have hang : ∀ k, k < (x.1.stop - x.1.start).toNat →
      M.alpha (x.1.start.toNat + k) = angAt ang k := by
    intro k hk
    rw [h3 (x.1.start.toNat + k) (by omega) (by omega)]
    congr 1
    omega
  unfold Data.Obs.size
  generalize hn : (x.1.stop - x.1.start).toNat = n at *
  unfold samples
  rw [hn]
  have hs : ∀ k ∈ List.range n, (fun k => M.alpha (x.1.start.toNat + k) * 180 / Real.pi) k =
      angAt ang k * 180 / Real.pi := by
    intro k hk
    dsimp only
    rw [hang k (List.mem_range.1 hk)]
  rw [List.map_congr_left hs]
  cases ang with
  | scalar a =>
    simp only [plateDeg, angAt, List.map_const', List.length_range]
    unfold Data.expand
    split
    · rename_i hl
      simp only [List.length_singleton] at hl
      rw [← hl]
      rfl
    · rfl
  | array l =>
    have hl := h2 l rfl
    simp only [plateDeg, hl, if_true, angAt]
    unfold Data.expand
    rw [if_pos (by simpa using hl)]
    apply List.ext_getElem (by simp [hl])
    intro k k1 k2
    simp only [List.getElem_map, List.getElem_range]
    simp only [List.length_map] at k1
    rw [List.getElem?_eq_getElem k1]
    rfl

end Verif.ScanStored
