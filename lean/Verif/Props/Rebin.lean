import Verif.Props.ScanStored
import Verif.Spec.Rebin

/-!
# Property C140: binning the stored data gives the maps
-/

noncomputable section

namespace Verif.ScanStored

open Verif.Chunks Verif.Timeline Verif.Spinmaps Verif.MapMaking Verif.Spec
open Verif.ScanInstrument (Motion detects obsAt pairObs World Inst Mission)

theorem holds_perm {nside : Nat} {m : Maps} {os os' : List Obs} (h : Holds nside m os)
    (hp : os.Perm os') : Holds nside m os' := by
  refine ⟨h.npix, fun p c hc => ?_⟩
  obtain ⟨h1, h2⟩ := h.cells p c hc
  have hf : (here p os).Perm (here p os') := hp.filter _
  exact ⟨h1.trans (hf.map _).sum_eq, h2.trans (hf.map _).sum_eq⟩

theorem tiles_cons_inv {a b : Int} {c : Int × Int} {l : List (Int × Int)} (h : Tiles a b (c :: l)) :
    a = c.1 ∧ c.1 < c.2 ∧ Tiles c.2 b l := by
  cases h with
  | cons h1 h2 => exact ⟨rfl, h1, h2⟩

theorem tiles_range {α : Type} (f : Nat → α) (cs : List Chunk) : ∀ (a n : Nat),
    Tiles (a : Int) ((a + n : Nat) : Int) (cs.map fun c => (c.start, c.stop)) →
    (cs.flatMap fun c => (List.range (c.stop - c.start).toNat).map fun k => f (c.start.toNat + k)) =
      (List.range n).map fun k => f (a + k) := by
  induction cs with
  | nil =>
    intro a n h
    have : (a : Int) = ((a + n : Nat) : Int) := by
      generalize (a : Int) = A at h
      generalize ((a + n : Nat) : Int) = B at h
      cases h
      rfl
    have : n = 0 := by omega
    subst this
    rfl
  | cons c cs ih =>
    intro a n h
    obtain ⟨h1, h2, h3⟩ := tiles_cons_inv h
    dsimp only at h1 h2 h3
    have h4 := tiles_le h3
    obtain ⟨m, hm⟩ : ∃ m : Nat, c.stop = ((a + m : Nat) : Int) := ⟨(c.stop - a).toNat, by omega⟩
    obtain ⟨r, rfl⟩ : ∃ r, n = m + r := ⟨n - m, by omega⟩
    rw [List.flatMap_cons, ih (a + m) r (by rw [← hm]; convert h3 using 1; push_cast; ring)]
    have e1 : (c.stop - c.start).toNat = m := by omega
    have e2 : c.start.toNat = a := by omega
    rw [e1, e2, List.range_add, List.map_append, List.map_map]
    congr 1
    exact List.map_congr_left fun k _ => by simp [add_assoc]

/-- One sample: what the arrays say is how it was binned. -/
theorem seenAs_obsAt {x : Ext} {q : QExt} {iau : Bool} (hxq : Agree x q iau) (M : Motion) (varphi : ℝ)
    (nside : Nat) (b : SBeam) (t : Nat) (hrb : IsRot (M.bore t))
    (hro : IsRot (x.detOffset b.bin.beam.az b.bin.beam.el 0)) (d : ℝ) :
    seenAs iau varphi b.bin.polangBin d ((aims M x false nside b t).1 : ℝ) (aims M x false nside b t).2
      (M.alpha t * 180 / Real.pi) = obsAt M x q varphi nside b.bin t d := by
  unfold seenAs obsAt aims looksAt
  have eo : offset x (M.rot t) b.bin.beam = qOff x (M.rot t) b.bin.beam := rfl
  rw [eo, hxq _ _ _ _ _ _ hrb (Verif.Props.qOff_rot x _ _ hro)]
  simp only [Bool.false_eq_true, if_false, Int.floor_intCast]
  set r := x.bore2pix (qOff x (M.rot t) b.bin.beam) (M.time t) (M.bore t) nside
  have e : 2 * ((r.2 + b.bin.polangBin + 2 * (M.alpha t * 180 / Real.pi - varphi)) * Real.pi / 180) =
      2 * ((b.bin.polangBin - (180 - r.2) + 2 * (M.alpha t * 180 / Real.pi - varphi)) * Real.pi / 180)
        + 2 * Real.pi := by ring
  rw [e, Real.cos_add_two_pi, Real.sin_add_two_pi]

theorem reread_ok {x : Ext} {q : QExt} {iau : Bool} (hxq : Agree x q iau) {M : Motion} {varphi : ℝ}
    {nside N : Nat} {o : SOpts} {sm : SPair → Spinmaps SpinDict} {p : SPair} {c : Chunk} {store : Store}
    (hin : o.interp = false) (ht : o.saveTod = true) (hp : o.savePoint = true)
    (h : StoredOn M x o nside sm p c store) {b : SBeam} {partner : Option SBeam} (hb : InPair p b partner)
    (hc : ∀ k, k < (c.stop - c.start).toNat → c.start.toNat + k < N)
    (hrb : ∀ t, t < N → IsRot (M.bore t)) (hro : IsRot (x.detOffset b.bin.beam.az b.bin.beam.el 0)) :
    reread iau varphi store b c = .ok ((List.range (c.stop - c.start).toNat).map fun k =>
      obsAt M x q varphi nside b.bin (c.start.toNat + k)
        (recorded M x false nside (sm p) o.ctalk b partner (c.start.toNat + k))) := by
  unfold reread
  rw [h.tod ht b partner hb, h.pix hp b partner hb, h.pa hp b partner hb, h.hwpAng hp b partner hb]
  simp only [samples, bind, Except.bind, List.zip_map', List.map_map, pure, Except.pure, hin]
  congr 1
  refine List.map_congr_left fun k hk => ?_
  rw [List.mem_range] at hk
  exact seenAs_obsAt hxq M varphi nside b _ (hrb _ (hc k hk)) hro _

theorem live_eq {b : Option SBeam} {a : SBeam} (h : live b = some a) :
    b = some a ∧ a.bin.beam.dead = false := by
  cases b with
  | none => cases h
  | some b =>
    have h : (if b.bin.beam.dead then none else some b) = some a := h
    cases hd : b.bin.beam.dead <;> rw [hd] at h
    · obtain rfl := Option.some.inj h
      exact ⟨rfl, hd⟩
    · cases h

theorem live_none {a : SBeam} (h : live (some a) = none) : a.bin.beam.dead = true := by
  have h : (if a.bin.beam.dead then none else some a) = none := h
  cases hd : a.bin.beam.dead <;> rw [hd] at h
  cases h

theorem recorded_alone {M : Motion} {x : Ext} {nside : Nat} {sm : Spinmaps SpinDict} {c : ℝ} {b : SBeam}
    {partner : Option SBeam} (h : live partner = none) (t : Nat) :
    recorded M x false nside sm c b partner t = detects M x false nside sm b.bin t := by
  cases partner with
  | none => rfl
  | some d => exact if_pos (live_none h)

theorem recorded_both {M : Motion} {x : Ext} {nside : Nat} {sm : Spinmaps SpinDict} {c : ℝ} {b d : SBeam}
    (h : d.bin.beam.dead = false) (t : Nat) : recorded M x false nside sm c b (some d) t =
      detects M x false nside sm b.bin t + c * detects M x false nside sm d.bin t :=
  if_neg (by rw [h]; decide)

section

variable {x : Ext} {q : QExt} {iau : Bool} {M : Motion} {varphi : ℝ} {nside N : Nat} {o : SOpts}
  {sm : SPair → Spinmaps SpinDict} {p : SPair} {chunks : List Chunk} {store : Store}

/-- The observations of one detector. -/
def detObs (M : Motion) (x : Ext) (q : QExt) (varphi : ℝ) (nside : Nat) (sm : Spinmaps SpinDict) (ctalk : ℝ)
    (b : SBeam) (partner : Option SBeam) (c : Chunk) : List Obs :=
  (List.range (c.stop - c.start).toNat).map fun k => obsAt M x q varphi nside b.bin (c.start.toNat + k)
    (recorded M x false nside sm ctalk b partner (c.start.toNat + k))

theorem detObs_all (hmi : Mission N chunks) (sm : Spinmaps SpinDict) (ctalk : ℝ) (b : SBeam)
    (partner : Option SBeam) : chunks.flatMap (detObs M x q varphi nside sm ctalk b partner) =
      (List.range N).map fun t => obsAt M x q varphi nside b.bin t
        (recorded M x false nside sm ctalk b partner t) := by
  have := tiles_range (fun t => obsAt M x q varphi nside b.bin t
    (recorded M x false nside sm ctalk b partner t)) chunks 0 N (by simpa using hmi.tiles)
  unfold detObs
  simpa using this

theorem pair_reads (hxq : Agree x q iau) (hmi : Mission N chunks) (hin : o.interp = false)
    (ht : o.saveTod = true) (hp : o.savePoint = true) (hf : ∀ t, t < N → M.flag t = false)
    (hrb : ∀ t, t < N → IsRot (M.bore t))
    (hro : ∀ b ∈ liveOf p, IsRot (x.detOffset b.bin.beam.az b.bin.beam.el 0))
    (h : ∀ c ∈ chunks, StoredOn M x o nside sm p c store) :
    ∃ obs : SBeam → Chunk → List Obs,
      (∀ b ∈ liveOf p, ∀ c ∈ chunks, reread iau varphi store b c = .ok (obs b c)) ∧
      ((List.range N).flatMap (pairObs M x q varphi nside o.ctalk (detects M x false nside (sm p))
        (plain p))).Perm ((liveOf p).flatMap fun b => chunks.flatMap (obs b)) := by
  have hread : ∀ b ∈ liveOf p, ∀ partner, InPair p b partner → ∀ c ∈ chunks,
      reread iau varphi store b c = .ok (detObs M x q varphi nside (sm p) o.ctalk b partner c) := by
    intro b hb partner hi c hc
    refine reread_ok hxq hin ht hp (h c hc) hi (N := N) (fun k hk => ?_) hrb (hro b hb)
    have := tiles_mem hmi.tiles (c.start, c.stop) (List.mem_map.2 ⟨c, hc, rfl⟩)
    dsimp only at this
    omega
  have hobs : ∀ t ∈ List.range N, pairObs M x q varphi nside o.ctalk (detects M x false nside (sm p))
      (plain p) t = match live p.1, live p.2 with
        | some a, some b => [obsAt M x q varphi nside a.bin t
              (detects M x false nside (sm p) a.bin t + o.ctalk * detects M x false nside (sm p) b.bin t),
            obsAt M x q varphi nside b.bin t
              (detects M x false nside (sm p) b.bin t + o.ctalk * detects M x false nside (sm p) a.bin t)]
        | some a, none => [obsAt M x q varphi nside a.bin t (detects M x false nside (sm p) a.bin t)]
        | none, some b => [obsAt M x q varphi nside b.bin t (detects M x false nside (sm p) b.bin t)]
        | none, none => [] := by
    intro t htt
    unfold pairObs plain
    rw [hf t (List.mem_range.1 htt), live_plain, live_plain]
    cases live p.1 <;> cases live p.2 <;> rfl
  rw [List.flatMap_congr hobs]
  obtain ⟨p1, p2⟩ := p
  dsimp only [liveOf] at *
  rcases h1 : live p1 with _ | a <;> rcases h2 : live p2 with _ | b <;> rw [h1, h2] at hread
  · refine ⟨fun _ _ => [], fun b hb => by simp at hb, by simp⟩
  · obtain ⟨rfl, hd⟩ := live_eq h2
    refine ⟨fun d => detObs M x q varphi nside (sm (p1, some b)) o.ctalk d p1, ?_, ?_⟩
    · intro d hdm
      have hdb : d = b := by simpa using hdm
      subst hdb
      exact hread d hdm p1 ⟨hd, .inr rfl⟩
    · simp only [Option.toList, List.nil_append, List.flatMap_cons, List.flatMap_nil, List.append_nil]
      rw [detObs_all hmi]
      simp only [recorded_alone h1, ← List.map_eq_flatMap]
      exact .refl _
  · obtain ⟨rfl, hd⟩ := live_eq h1
    refine ⟨fun d => detObs M x q varphi nside (sm (some a, p2)) o.ctalk d p2, ?_, ?_⟩
    · intro d hdm
      have hdb : d = a := by simpa using hdm
      subst hdb
      exact hread d hdm p2 ⟨hd, .inl rfl⟩
    · simp only [Option.toList, List.append_nil, List.flatMap_cons, List.flatMap_nil]
      rw [detObs_all hmi]
      simp only [recorded_alone h2, ← List.map_eq_flatMap]
      exact .refl _
  · obtain ⟨rfl, hda⟩ := live_eq h1
    obtain ⟨rfl, hdb⟩ := live_eq h2
    classical
    refine ⟨fun d => detObs M x q varphi nside (sm (some a, some b)) o.ctalk d
      (if d = a then some b else some a), ?_, ?_⟩
    · intro d hdm
      have hdm' : d = a ∨ d = b := by simpa using hdm
      by_cases hd : d = a
      · subst hd
        dsimp only
        rw [if_pos rfl]
        exact hread d hdm _ ⟨hda, .inl rfl⟩
      · obtain rfl := hdm'.resolve_left hd
        dsimp only
        rw [if_neg hd]
        exact hread d hdm _ ⟨hdb, .inr rfl⟩
    · simp only [Option.toList, List.cons_append, List.nil_append, List.append_nil, List.flatMap_cons,
        List.flatMap_nil]
      rw [detObs_all hmi, detObs_all hmi, if_pos trivial]
      have e : (if b = a then some b else some a) = some a := by
        by_cases hd : b = a
        · rw [if_pos hd, hd]
        · rw [if_neg hd]
      rw [e]
      simp only [recorded_both hda, recorded_both hdb]
      have := List.flatMap_append_perm (List.range N)
        (fun t => [obsAt M x q varphi nside a.bin t (detects M x false nside (sm (some a, some b)) a.bin t +
          o.ctalk * detects M x false nside (sm (some a, some b)) b.bin t)])
        (fun t => [obsAt M x q varphi nside b.bin t (detects M x false nside (sm (some a, some b)) b.bin t +
          o.ctalk * detects M x false nside (sm (some a, some b)) a.bin t)])
      rw [List.map_eq_flatMap, List.map_eq_flatMap]
      exact this.symm

end

end Verif.ScanStored

namespace Verif.Props

open Verif.Chunks Verif.Timeline Verif.Spinmaps Verif.MapMaking Verif.ScanInstrument
open Verif.ScanStored hiding scanInstrument scanLoop scanPass scanPair scanOne scanBinOne scanMix stepSub
  stepChunk live

variable {E : Type}

/-- **C140.** After a scan with `save_tod` and `save_point` by any number of ranks, whose spin maps have
the resolution of the output maps and no sample of which is flagged, `data` returns for every pair, on some
rank, for every live detector and chunk four arrays, and binning these arrays gives the maps: nothing but
the stored data goes into the maps, and nothing that is stored is missing there. -/
theorem C140_rebinned (w : World E) (hx : ExtOk w.x) (hq : PixOk w.q) (iau : Bool)
    (hxq : Agree w.x w.q iau) (hns : 0 < w.nsideOut) (M : Motion)
    (o : SOpts) (halm : o.hasAlm = true) (hbin : o.binning = true) (hpre : o.preview = false)
    (hgr : o.ground = false) (hre : o.reuseSpinmaps = false) (hin : o.interp = false)
    (htod : o.saveTod = true) (hpt : o.savePoint = true) (N : Nat) (chunks : List Chunk)
    (hmi : Mission N chunks) (hang : ∀ c ∈ chunks, c.hwpang = none) (i : Inst E) (hi : Ready w chunks i)
    (hrot : Rotates N chunks i.rot M.rot) (hhwp : Plate w.fsamp N i.hwp M.alpha)
    (hst : Steady w M chunks i.el) (hflag : ∀ t, t < N → M.flag t = false)
    (hbore : ∀ t, t < N → IsRot (M.bore t)) (store : Store) (beams : List SPair)
    (hnd : ((liveBeams beams).map SBeam.idx).Nodup)
    (hoff : ∀ p ∈ beams, ∀ b ∈ liveOf p, IsRot (w.x.detOffset b.bin.beam.az b.bin.beam.el 0))
    (sm : SPair → Spinmaps SpinDict) (hm : ∀ p ∈ beams, MapsOk w w.nsideOut (sm p) (plain p)) (size : Nat)
    (hsize : 0 < size) :
    ∃ (res : List (Inst E × Store)) (obs : SPair → SBeam → Chunk → List Obs),
      (List.range size).mapM (fun r => ScanStored.scanInstrument w o beams true size r (i, store)) =
        Except.ok (ε := PyErr) res ∧
      (∀ p ∈ beams, ∃ x ∈ res, ∀ b ∈ liveOf p, ∀ c ∈ chunks,
        reread iau w.varphi x.2 b c = .ok (obs p b c)) ∧
      Holds w.nsideOut (reduceMaps i.maps.length (res.map (·.1.maps)))
        (beams.flatMap fun p => (liveOf p).flatMap fun b => chunks.flatMap (obs p b)) := by
  obtain ⟨res, h1, h2, h3, -⟩ := C105_stored_partial w hx hq hns M o halm hbin hpre hgr hre N chunks hmi
    hang i hi hrot hhwp hst store beams hnd w.nsideOut sm hm size hsize
  have key : ∀ p : SPair, ∃ obs : SBeam → Chunk → List Obs, p ∈ beams →
      (∃ x ∈ res, ∀ b ∈ liveOf p, ∀ c ∈ chunks, reread iau w.varphi x.2 b c = .ok (obs b c)) ∧
      ((List.range N).flatMap (pairObs M w.x w.q w.varphi w.nsideOut o.ctalk
        (detects M w.x o.interp w.nsideOut (sm p)) (plain p))).Perm
        ((liveOf p).flatMap fun b => chunks.flatMap (obs b)) := by
    intro p
    by_cases hp : p ∈ beams
    · obtain ⟨x, hxr, hs⟩ := h3 p hp
      obtain ⟨obs, g1, g2⟩ := pair_reads (varphi := w.varphi) hxq hmi hin htod hpt hflag hbore (hoff p hp) hs
      exact ⟨obs, fun _ => ⟨⟨x, hxr, g1⟩, by rw [hin]; exact g2⟩⟩
    · exact ⟨fun _ _ => [], fun h => absurd h hp⟩
  choose obs hobs using key
  refine ⟨res, obs, h1, fun p hp => (hobs p hp).1, holds_perm h2 ?_⟩
  exact List.Perm.flatMap_left _ fun p hp => (hobs p hp).2

/-! ## The hypotheses are met -/

namespace Whole

open Rec

/-- The hypotheses of `C140_rebinned` are met by two ranks, one detector and a turning plate. -/
example (store : Store) : ∃ (res : List (Inst Unit × Store)) (obs : SPair → SBeam → Chunk → List Obs),
    (List.range 2).mapM (fun r => ScanStored.scanInstrument w so sbeams true 2 r (i, store)) =
      Except.ok (ε := PyErr) res ∧
    (∀ p ∈ sbeams, ∃ x ∈ res, ∀ b ∈ liveOf p, ∀ c ∈ chunks,
      reread false w.varphi x.2 b c = .ok (obs p b c)) ∧
    Holds 1 (reduceMaps 12 (res.map (·.1.maps)))
      (sbeams.flatMap fun p => (liveOf p).flatMap fun b => chunks.flatMap (obs p b)) := by
  classical
  choose sm hsm using fun p : {p // p ∈ beams} =>
    ScanInstrument.ideal_maps w one_pos Conv.Y (ideal p.1 p.2)
  have hmem : ∀ p ∈ sbeams, plain p ∈ beams := by
    intro p hp
    simp only [sbeams, List.mem_cons, List.not_mem_nil, or_false] at hp
    rcases hp with rfl | rfl
    · exact List.mem_cons_self
    · exact List.mem_cons_of_mem _ List.mem_cons_self
  exact C140_rebinned w ext_ok pix_ok false agree one_pos M so rfl rfl rfl rfl rfl rfl rfl rfl 3 chunks
    mission_ok (by decide) i ready rotates plate repeats.steady (fun _ _ => rfl) (fun _ _ => one_rot) store sbeams
    (by simp [sbeams, liveBeams, ScanStored.live, det]) (fun _ _ _ _ => one_rot)
    (fun p => if hp : plain p ∈ beams then sm ⟨_, hp⟩ else ⟨[], none, []⟩) (by
      intro p hp
      rw [dif_pos (hmem p hp)]
      exact (hsm ⟨_, hmem p hp⟩).1) 2 two_pos

end Whole

end Verif.Props
