import Verif.Lemmas.ScanStoredSim
import Verif.Props.Data
import Verif.Props.ScanInstrument

/-! # Lemmas: the store of one rank -/

noncomputable section

namespace Verif.ScanStored

open Verif.Chunks Verif.Timeline Verif.Spinmaps Verif.MapMaking Verif.Spec Verif.Props
open Verif.ScanInstrument (World Inst Pair Motion Mission Ready Steady Rotates Plate Moves MapsOk detects
  pairObs reduceMaps moves_spec ready_rot)
open Verif.Data (liveDets Scanned stored_of)

variable {E : Type}

/-- The live detectors with their pairs. -/
def pairLive (p : SPair) : List SBeam := (live p.1).toList ++ (live p.2).toList

theorem mem_pairLive {p : SPair} {b : SBeam} :
    b ∈ pairLive p ↔ (live p.1 = some b ∨ live p.2 = some b) := by
  unfold pairLive
  simp [Option.mem_toList, eq_comm]

theorem index_inj {beams : List SPair} (hnd : ((liveBeams beams).map SBeam.idx).Nodup)
    {p p' : SPair} (hp : p ∈ beams) (hp' : p' ∈ beams) {b b' : SBeam}
    (hb : live p.1 = some b ∨ live p.2 = some b) (hb' : live p'.1 = some b' ∨ live p'.2 = some b')
    (h : b.idx = b'.idx) : p = p' ∧ b = b' := by
  have hL : ((beams.flatMap fun p => (pairLive p).map fun b => (p, b)).map fun z => z.2.idx).Nodup := by
    have : (beams.flatMap fun p => (pairLive p).map fun b => (p, b)).map (fun z => z.2.idx) =
        (liveBeams beams).map SBeam.idx := by
      unfold liveBeams
      rw [List.map_flatMap, List.map_flatMap]
      apply List.flatMap_congr
      intro p _
      rw [List.map_map]
      rfl
    rw [this]
    exact hnd
  have := List.inj_on_of_nodup_map hL (x := (p, b)) (y := (p', b'))
    (List.mem_flatMap.2 ⟨p, hp, List.mem_map_of_mem (mem_pairLive.2 hb)⟩)
    (List.mem_flatMap.2 ⟨p', hp', List.mem_map_of_mem (mem_pairLive.2 hb')⟩) h
  exact ⟨congrArg Prod.fst this, congrArg Prod.snd this⟩

open Classical in
/-- A function of detectors as function of their indices. -/
def byIndex {α : Type} [Inhabited α] (beams : List SPair) (F : SPair → SBeam → α) (j : Int) : α :=
  if h : ∃ z : SPair × SBeam, z.1 ∈ beams ∧ (live z.1.1 = some z.2 ∨ live z.1.2 = some z.2) ∧
      z.2.idx = j then F h.choose.1 h.choose.2 else default

theorem byIndex_eq {α : Type} [Inhabited α] {beams : List SPair}
    (hnd : ((liveBeams beams).map SBeam.idx).Nodup) (F : SPair → SBeam → α) {p : SPair}
    (hp : p ∈ beams) {b : SBeam} (hb : live p.1 = some b ∨ live p.2 = some b) :
    byIndex beams F b.idx = F p b := by
  have h : ∃ z : SPair × SBeam, z.1 ∈ beams ∧ (live z.1.1 = some z.2 ∨ live z.1.2 = some z.2) ∧
      z.2.idx = b.idx := ⟨(p, b), hp, hb, rfl⟩
  unfold byIndex
  rw [dif_pos h]
  obtain ⟨h1, h2, h3⟩ := h.choose_spec
  obtain ⟨e1, e2⟩ := index_inj hnd h1 hp h2 hb h3
  rw [e1, e2]

theorem liveDets_passes (l : List (Option SPair)) :
    (liveDets (l.map fun p => dets (p.getD (none, none)))).map Data.Det.idx =
      (liveBeams (l.filterMap id)).map SBeam.idx := by
  have hl : ∀ b : Option SBeam, (Data.live (b.map SBeam.det)).toList.map Data.Det.idx =
      (live b).toList.map SBeam.idx := by
    intro b
    rcases b with _ | b
    · rfl
    · unfold Data.live live
      simp only [Option.map_some, SBeam.det]
      cases b.bin.beam.dead <;> rfl
  induction l with
  | nil => rfl
  | cons p l ih =>
    rcases p with _ | p
    · simpa [liveDets, dets, Data.live] using ih
    · unfold liveDets liveBeams at ih ⊢
      simp only [List.map_cons, List.flatMap_cons, List.filterMap_cons, id, List.map_append, ih,
        Option.getD_some]
      congr 1
      unfold dets
      dsimp only
      rw [hl, hl]

theorem inPair_live {p : SPair} {b : SBeam} {partner : Option SBeam} (h : InPair p b partner) :
    live p.1 = some b ∨ live p.2 = some b := by
  obtain ⟨h1, rfl | rfl⟩ := h
  · left
    simp [live, h1]
  · right
    simp [live, h1]

theorem tiles_nonneg {N : Int} {cs : List Chunk} (h : Tiles 0 N (cs.map fun c => (c.start, c.stop)))
    {c : Chunk} (hc : c ∈ cs) : 0 ≤ c.start := by
  have : ∀ (cs : List Chunk) (a : Int), Tiles a N (cs.map fun c => (c.start, c.stop)) →
      ∀ c ∈ cs, a ≤ c.start := by
    intro cs
    induction cs with
    | nil => simp
    | cons d cs ih =>
      intro a h c hc
      simp only [List.map_cons] at h
      generalize hiv : (d.start, d.stop) = iv at h
      cases h with
      | cons hlt h =>
      simp only [Prod.mk.injEq] at hiv
      obtain ⟨rfl, rfl⟩ := hiv
      rcases List.mem_cons.1 hc with rfl | hc
      · exact le_refl _
      · have := ih _ h c hc
        omega
  exact this cs 0 h c hc

theorem zipWith_self' {α β : Type} (f : α → α → β) (l : List α) :
    List.zipWith f l l = l.map fun x => f x x := by
  induction l with
  | nil => rfl
  | cons a l ih => simp [ih]

theorem rank_stores (w : World E) (hx : ExtOk w.x) (hq : PixOk w.q) (hns : 0 < w.nsideOut) (M : Motion)
    (o : SOpts) (hbin : o.binning = true) (hpre : o.preview = false) (hgr : o.ground = false)
    (hre : o.reuseSpinmaps = false) (N : Nat) (chunks : List Chunk) (hmi : Mission N chunks)
    (i : Inst E) (hi : Ready w chunks i) (hmv : Moves w.fsamp M i.rot i.hwp chunks)
    (hst : Steady w M chunks i.el) (store : Store) (beams : List SPair)
    (hnd : ((liveBeams beams).map SBeam.idx).Nodup) (nside : Nat) (sm : SPair → Spinmaps SpinDict)
    (hm : ∀ p ∈ beams, MapsOk w nside (sm p) (plain p)) (l : List (Option SPair))
    (hl : (l.filterMap id).Sublist beams) :
    ∃ i' store', scanLoop w o true l (i, store) = .ok (i', store') ∧
      i'.maps = mapsOf (12 * w.nsideOut ^ 2) ((l.filterMap id).flatMap fun p =>
        ScanInstrument.missionObs w M o.toOpts N (detects M w.x o.interp nside (sm p)) (plain p)) ∧
      ∀ c ∈ chunks, (∀ p ∈ l.filterMap id, StoredOn M w.x o nside sm p c store') ∧
        ∀ b : SBeam, b.idx ∉ (liveBeams (l.filterMap id)).map SBeam.idx → ∀ f, f ≠ .hwpAng →
          Data.dataOf store' c (some b.det) f = Data.dataOf store c (some b.det) f := by
  classical
  set T : Int → Nat → ℝ := byIndex beams fun p b => detects M w.x o.interp nside (sm p) b.bin with hT
  set P : Int → Nat → ℝ := byIndex beams fun _ b t => ((aims M w.x o.interp nside b t).1 : ℝ) with hP
  set A : Int → Nat → ℝ := byIndex beams fun _ b t => (aims M w.x o.interp nside b t).2 with hA
  have hval : ∀ p ∈ beams, ∀ b, (live p.1 = some b ∨ live p.2 = some b) → ∀ t,
      T b.idx t = detects M w.x o.interp nside (sm p) b.bin t ∧
      P b.idx t = ((aims M w.x o.interp nside b t).1 : ℝ) ∧
      A b.idx t = (aims M w.x o.interp nside b t).2 := by
    intro p hp b hb t
    rw [hT, hP, hA, byIndex_eq hnd _ hp hb, byIndex_eq hnd _ hp hb, byIndex_eq hnd _ hp hb]
    exact ⟨rfl, rfl, rfl⟩
  have hgood : ∀ p ∈ l.filterMap id,
      PairStores w M chunks o p (detects M w.x o.interp nside (sm p)) T P A := fun p hp =>
    pairStores_scan w hx M chunks o hpre hre nside (sm p) p (hm p (hl.subset hp)) T P A
      (hval p (hl.subset hp))
  have hrot := ready_rot hi
  obtain ⟨xss, r1, h1, g1, g2⟩ := history_moves w.fsamp M T P A chunks i.rot i.hwp none hmv
  have htil := hmi.tiles
  have hinv := Data.history_inv (envOf w.fsamp T P A) (fun _ => True) (fun _ _ _ _ _ => trivial) N chunks
    0 i.rot (i.hwp, none) xss r1 h1 htil hrot g1 trivial
  have hnum : ∀ k (hk : k < chunks.length), chunks[k].cidx = some (k : Int) := fun k hk =>
    hmi.numbered k _ (List.getElem?_eq_getElem hk)
  have hndl : ((liveDets (l.map fun p => dets (p.getD (none, none)))).map Data.Det.idx).Nodup := by
    rw [liveDets_passes]
    refine hnd.sublist (List.Sublist.map _ ?_)
    unfold liveBeams
    rw [List.flatMap_def, List.flatMap_def]
    exact (hl.map _).flatten
  obtain ⟨st', r', h', e1, -, -, e2, e3⟩ := stored_of (envOf w.fsamp T P A) (envOf_sized _ _ _ _) resetH
    chunks N htil hnum o.data i.rot hrot hi.rot (i.hwp, none) (by
      show (i.hwp.reset, none) = _
      rw [hi.hwp]) (by
      intro h s h' e
      have e : Data.rotateState Real.pi w.fsamp h s = .ok h' := e
      unfold Data.rotateState at e
      obtain ⟨⟨a, h1⟩, k1, k2⟩ := ScanStored.ok_bind e
      cases k2
      show (h1.reset, none) = (h.1.reset, none)
      rw [rotate_reset _ _ _ _ _ _ _ _ k1])
    (l.map fun p => dets (p.getD (none, none))) hndl xss r1 h1 g1 store
  obtain ⟨PP, p1, p2⟩ := hst
  obtain ⟨i', k1, k2⟩ := loop_sim w hq hns M o hbin hpre hgr
    (fun p => detects M w.x o.interp nside (sm p)) T P A N chunks hmi i.rot i.hwp hrot hi.rot hi.hwp hmv
    PP p2 l true i [] hgood ⟨rfl, rfl, p1⟩ hi.chunks (by rw [hi.maps, mapsOf_nil]) none
    store _ (fun _ => rfl) e1
  refine ⟨i', st', k1, by simpa using k2, fun c hc => ?_⟩
  obtain ⟨k, hk, rfl⟩ := List.getElem_of_mem hc
  have hk2 : k < xss.length := by omega
  have hz : (chunks[k], xss[k]) ∈ chunks.zip xss := by
    rw [← List.getElem_zip (h := by rw [List.length_zip]; omega)]
    exact List.getElem_mem _
  have ht : Tiles chunks[k].start chunks[k].stop (xss[k].map fun x => (x.1.start, x.1.stop)) :=
    (List.forall₂_iff_get.1 hinv.2).2 k hk hk2
  have h0 : 0 ≤ chunks[k].start := tiles_nonneg htil hc
  have hfl := fun f F => flatMap_samples (A := ℝ) (H := Hwp.State ℝ × Option (Hwp.Ang ℝ)) f F xss[k]
    chunks[k].start chunks[k].stop h0 ht
  obtain ⟨s1, s2⟩ := e3 _ _ hz
  have hscan : ∀ p ∈ l.filterMap id, ∀ b partner, InPair p b partner →
      Scanned (l.map fun p => dets (p.getD (none, none))) b.det (partner.map SBeam.det) := by
    intro p hp b partner hb
    have hmem : dets p ∈ l.map fun p => dets (p.getD (none, none)) :=
      List.mem_map.2 ⟨some p, by simpa using hp, rfl⟩
    refine ⟨hb.1, ?_⟩
    rcases hb.2 with rfl | rfl
    · exact .inl hmem
    · exact .inr hmem
  refine ⟨fun p hp => ⟨?_, ?_, ?_, ?_, ?_, ?_⟩, ?_⟩
  · intro ho b partner hb
    have hp' := hl.subset hp
    rw [(s1 _ _ (hscan p hp b partner hb)).1 ho, hfl (recorded M w.x o.interp nside (sm p) o.ctalk b partner)]
    intro x _ hx0 hxlt
    have hTb : T b.idx = detects M w.x o.interp nside (sm p) b.bin :=
      funext fun t => (hval p hp' b (inPair_live hb) t).1
    unfold Data.signal
    rcases partner with _ | b'
    · simp only [Data.live, Option.map_none, envOf, SBeam.det, hTb]
      rfl
    · by_cases hd : b'.bin.beam.dead = true
      · simp only [Data.live, Option.map_some, SBeam.det, hd, if_true, envOf, hTb]
        unfold samples recorded
        simp [hd]
      · have hb' : InPair p b' (some b) := by
          refine ⟨by simpa using hd, ?_⟩
          rcases hb.2 with h | h
          · exact .inr h
          · exact .inl h
        have hTb' : T b'.idx = detects M w.x o.interp nside (sm p) b'.bin :=
          funext fun t => (hval p hp' b' (inPair_live hb') t).1
        simp only [Data.live, Option.map_some, SBeam.det, hd, Bool.false_eq_true, if_false, envOf, hTb,
          hTb']
        unfold samples recorded
        simp only [hd, Bool.false_eq_true, if_false]
        rw [List.zipWith_map, zipWith_self']
        rfl
  · intro ho b partner hb
    rw [((s1 _ _ (hscan p hp b partner hb)).2.1 ho).1,
      hfl (fun t => ((aims M w.x o.interp nside b t).1 : ℝ))]
    intro x _ hx0 hxlt
    have hPb : P b.idx = fun t => ((aims M w.x o.interp nside b t).1 : ℝ) :=
      funext fun t => (hval p (hl.subset hp) b (inPair_live hb) t).2.1
    simp only [envOf, SBeam.det, hPb]
  · intro ho b partner hb
    rw [((s1 _ _ (hscan p hp b partner hb)).2.1 ho).2.1,
      hfl (fun t => (aims M w.x o.interp nside b t).2)]
    intro x _ hx0 hxlt
    have hAb : A b.idx = fun t => (aims M w.x o.interp nside b t).2 :=
      funext fun t => (hval p (hl.subset hp) b (inPair_live hb) t).2.2
    simp only [envOf, SBeam.det, hAb]
  · intro ho b partner hb
    rw [((s1 _ _ (hscan p hp b partner hb)).2.1 ho).2.2, hfl (fun t => M.alpha t * 180 / Real.pi)]
    intro x hx hx0 hxlt
    exact plate_samples (g2 _ (List.getElem_mem hk2) x hx) hx0 hxlt
  · intro ho b partner hb
    exact (s1 _ _ (hscan p hp b partner hb)).2.2.1 ho
  · intro ho b partner hb
    exact (s1 _ _ (hscan p hp b partner hb)).2.2.2 ho
  · intro b hb f hf
    exact s2 b.det (by rw [liveDets_passes]; exact hb) f hf

end Verif.ScanStored
