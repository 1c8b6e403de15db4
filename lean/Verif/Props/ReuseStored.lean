import Verif.Props.Reuse
import Verif.Props.ScanStored
import Verif.Spec.ReuseStored

/-!
# Property C105: the data stored by scans that reuse spin maps
-/

noncomputable section

namespace Verif.ScanStored

open Verif.Chunks Verif.Timeline Verif.Spinmaps Verif.MapMaking Verif.ScanInstrument

variable {E : Type}

/-- The options with and without reuse. -/
abbrev SOpts.reuse (o : SOpts) (b : Bool) : SOpts := { o with reuseSpinmaps := b }

/-- The loop over chunks, after spin maps have been made. -/
def storedChunks (w : World E) (o : SOpts) (first : Bool) (p : SPair) (store : Store) (j : Inst E) :
    PyM (Inst E × Store) :=
  if j.chunks.all fun c => c.1.cidx.isSome then
    (List.range j.chunks.length).foldlM (stepChunk w o p first) (j, store)
  else .error .keyError

theorem storedChunks_spin {w : World E} {o : SOpts} {p : SPair} {first : Bool} {store : Store} {i : Inst E}
    {r : Inst E × Store} (h : storedChunks w o first p store i = .ok r) : SameMaps i r.1 := by
  refine chunksOf_spin (w := w) (o := o.toOpts) (p := plain p) (first := first) ?_
  unfold storedChunks at h
  unfold chunksOf
  split at h
  · rw [if_pos ‹_›]
    exact foldlM_erase _ _ (fun x k x' hx => stepChunk_erase hx) _ _ _ h
  · cases h

theorem storedPass_eq (w : World E) (o : SOpts) (first : Bool) (p : SPair) (i : Inst E × Store) :
    scanPass w o first p i = before w first i.1 >>= fun j => initPair w o.toOpts (plain p) j >>=
      storedChunks w o first p i.2 := by
  unfold scanPass before
  cases first <;> rfl

theorem plain_getD (p : Option SPair) :
    plain (p.getD (none, none)) = (p.map plain).getD (none, none) := by
  cases p <;> rfl

theorem storedLoop_reuse (w : World E) (o : SOpts) (sm : PyM (Spinmaps SpinDict))
    (ps : List (Option SPair)) :
    ∀ (first : Bool) (i : Inst E × Store), (∀ q, some q ∈ ps → q.2.isSome → q.1.isSome) →
      (o.preview = true ∨ Matches w sm i.1 (ps.map (·.map plain))) →
      scanLoop w (o.reuse true) first ps i = scanLoop (w.always sm) (o.reuse false) first ps i := by
  induction ps with
  | nil => intros; rfl
  | cons p ps ih =>
    intro first i hp h
    have hpass : scanPass w (o.reuse true) first (p.getD (none, none)) i
        = scanPass (w.always sm) (o.reuse false) first (p.getD (none, none)) i ∧
        ∀ i', scanPass w (o.reuse true) first (p.getD (none, none)) i = .ok i' →
          (o.preview = true ∨ Matches w sm i'.1 (ps.map (·.map plain))) := by
      rw [storedPass_eq, storedPass_eq]
      have hb : before (w.always sm) first i.1 = before w first i.1 := rfl
      rw [hb]
      cases hbi : before w first i.1 with
      | error x => exact ⟨rfl, fun i' hi' => by cases hi'⟩
      | ok i1 =>
        have hs := before_spin hbi
        show (initPair w (o.toOpts.reuse true) (plain (p.getD (none, none))) i1 >>=
            storedChunks w (o.reuse true) first (p.getD (none, none)) i.2)
          = (initPair (w.always sm) (o.toOpts.reuse false) (plain (p.getD (none, none))) i1 >>=
            storedChunks (w.always sm) (o.reuse false) first (p.getD (none, none)) i.2) ∧ ∀ i',
          (initPair w (o.toOpts.reuse true) (plain (p.getD (none, none))) i1 >>=
            storedChunks w (o.reuse true) first (p.getD (none, none)) i.2) = .ok i' → _
        have hc : storedChunks (w.always sm) (o.reuse false) first (p.getD (none, none)) i.2
            = storedChunks w (o.reuse true) first (p.getD (none, none)) i.2 := rfl
        rw [hc, plain_getD]
        by_cases hpre : o.preview = true
        · rw [init_preview _ _ hpre, init_preview _ _ hpre]
          exact ⟨rfl, fun _ _ => .inl hpre⟩
        · have h := h.resolve_left hpre
          obtain ⟨h1, h2⟩ := init_reuse w o.toOpts (by simpa using hpre) sm (p.map plain)
            (ps.map (·.map plain)) i1
            (fun q hq => by
              obtain ⟨q', rfl, rfl⟩ := Option.map_eq_some_iff.1 hq
              have := hp q' List.mem_cons_self
              simpa [plain] using this) (by simpa using h.same hs)
          rw [h1] at h2 ⊢
          refine ⟨rfl, fun i' hi' => .inr ?_⟩
          obtain ⟨i2, h3, h4⟩ := MapMaking.bind_ok hi'
          exact (h2 i2 h3).same (storedChunks_spin h4)
    unfold scanLoop
    rw [hpass.1]
    cases hi : scanPass (w.always sm) (o.reuse false) first (p.getD (none, none)) i with
    | error x => rfl
    | ok i' =>
      exact ih false i' (fun q hq => hp q (List.mem_cons_of_mem _ hq)) (hpass.2 i' (hpass.1.trans hi))

theorem storedLoop_always (w : World E) (o : SOpts) (sm : PyM (Spinmaps SpinDict))
    (ps : List (Option SPair)) :
    ∀ (first : Bool) (i : Inst E × Store),
      (∀ q a, some q ∈ ps → q.1 = some a → w.spinmaps a.bin = sm) →
      scanLoop (w.always sm) o first ps i = scanLoop w o first ps i := by
  induction ps with
  | nil => intros; rfl
  | cons p ps ih =>
    intro first i h
    have hinit : ∀ i, initPair (w.always sm) o.toOpts (plain (p.getD (none, none))) i
        = initPair w o.toOpts (plain (p.getD (none, none))) i := by
      intro i
      cases p with
      | none => rfl
      | some q =>
        obtain ⟨a, b⟩ := q
        cases a with
        | none => cases b <;> rfl
        | some a =>
          have hsm := h _ a List.mem_cons_self rfl
          show initPair _ _ (some a.bin, b.map _) _ = initPair _ _ (some a.bin, b.map _) _
          unfold initPair World.always
          simp only [hsm]
    have hpass : scanPass (w.always sm) o first (p.getD (none, none)) i
        = scanPass w o first (p.getD (none, none)) i := by
      rw [storedPass_eq, storedPass_eq]
      have hb : before (w.always sm) first i.1 = before w first i.1 := rfl
      have hc : storedChunks (w.always sm) o first (p.getD (none, none)) i.2
            = storedChunks w o first (p.getD (none, none)) i.2 := rfl
      rw [hb, hc]
      simp only [hinit]
    unfold scanLoop
    rw [hpass]
    cases scanPass w o first (p.getD (none, none)) i with
    | error x => rfl
    | ok i' => exact ih false i' fun q a hq => h q a (List.mem_cons_of_mem _ hq)

theorem firstDet_plain (ps : List (Option SPair)) :
    firstDet (ps.map (·.map plain)) = (firstDetS ps).map (·.bin) := by
  unfold firstDet firstDetS
  induction ps with
  | nil => rfl
  | cons p ps ih =>
    rcases p with _ | ⟨_ | a, b⟩
    · simpa using ih
    · simpa [plain] using ih
    · rfl

end Verif.ScanStored

namespace Verif.Props

open Verif.Chunks Verif.Timeline Verif.Spinmaps Verif.MapMaking Verif.ScanInstrument
open Verif.ScanStored hiding scanInstrument scanLoop scanPass scanPair scanOne scanBinOne scanMix stepSub
  stepChunk live

variable {E : Type}

/-- **C105 (reused maps).** If there are spin maps when `scan_instrument_mpi` is called with
`reuse_spinmaps`, the run with its store is the one in which every beam has these maps. -/
theorem C105_reuse_existing (w : World E) (o : SOpts) (beams : List SPair) (hb : PairedS beams)
    (scatter : Bool) (size rank : Nat) (i : Inst E × Store) (hi : i.1.hasMaps = true) :
    ScanStored.scanInstrument w { o with reuseSpinmaps := true } beams scatter size rank i =
      ScanStored.scanInstrument (w.always (.ok i.1.st.maps)) { o with reuseSpinmaps := false } beams
        scatter size rank i := by
  unfold ScanStored.scanInstrument
  cases h : Mpi.scanPasses beams scatter size rank with
  | error x => rfl
  | ok ps =>
    have := storedLoop_reuse w o (.ok i.1.st.maps) ps true i (fun q hq => hb q ((passes_mem h).1 q hq))
      (.inr (.inl ⟨hi, rfl⟩))
    show (if _ then _ else if _ then _ else ScanStored.scanLoop _ _ _ _ _) = _
    rw [this]
    rfl

/-- **C105 (reused maps).** If there are none, the maps of the first detector of each rank are used for
all detectors of this rank. -/
theorem C105_reuse_first (w : World E) (o : SOpts) (beams : List SPair) (hb : PairedS beams)
    (scatter : Bool) (size rank : Nat) (i : Inst E × Store) (hi : i.1.hasMaps = false)
    (ps : List (Option SPair)) (hps : Mpi.scanPasses beams scatter size rank = .ok ps) (a : SBeam)
    (ha : firstDetS ps = some a) :
    ScanStored.scanInstrument w { o with reuseSpinmaps := true } beams scatter size rank i =
      ScanStored.scanInstrument (w.always (w.spinmaps a.bin)) { o with reuseSpinmaps := false } beams
        scatter size rank i := by
  unfold ScanStored.scanInstrument
  rw [hps]
  have := storedLoop_reuse w o (w.spinmaps a.bin) ps true i
    (fun q hq => hb q ((passes_mem hps).1 q hq))
    (.inr (.inr ⟨hi, fun a' ha' => by
      rw [firstDet_plain, ha] at ha'
      rw [← Option.some.inj ha']⟩))
  show (if _ then _ else if _ then _ else ScanStored.scanLoop _ _ _ _ _) = _
  rw [this]
  rfl

/-- **C105 (reused maps).** If all beams have the same spin maps, a first scan with `reuse_spinmaps`
stores what one without stores, on every rank. -/
theorem C105_reuse_same (w : World E) (o : SOpts) (beams : List SPair) (hb : PairedS beams)
    (scatter : Bool) (size rank : Nat) (i : Inst E × Store) (hi : i.1.hasMaps = false)
    (h : ∀ p ∈ beams, ∀ p' ∈ beams, ∀ a a', p.1 = some a → p'.1 = some a' →
      w.spinmaps a.bin = w.spinmaps a'.bin) :
    ScanStored.scanInstrument w { o with reuseSpinmaps := true } beams scatter size rank i =
      ScanStored.scanInstrument w { o with reuseSpinmaps := false } beams scatter size rank i := by
  unfold ScanStored.scanInstrument
  cases hps : Mpi.scanPasses beams scatter size rank with
  | error x => rfl
  | ok ps =>
    obtain ⟨sm, hsm⟩ : ∃ sm, ∀ q a, some q ∈ ps → q.1 = some a → w.spinmaps a.bin = sm := by
      by_cases hex : ∃ q a, q ∈ beams ∧ q.1 = some a
      · obtain ⟨q, a, hq, ha⟩ := hex
        exact ⟨w.spinmaps a.bin, fun q' a' hq' ha' => h q' ((passes_mem hps).1 q' hq') q hq a' a ha' ha⟩
      · exact ⟨.error .valueError, fun q a hq ha => absurd ⟨q, a, (passes_mem hps).1 q hq, ha⟩ hex⟩
    have := (storedLoop_reuse w o sm ps true i (fun q hq => hb q ((passes_mem hps).1 q hq))
      (.inr (.inr ⟨hi, fun a ha => by
        rw [firstDet_plain] at ha
        obtain ⟨a', ha', rfl⟩ := Option.map_eq_some_iff.1 ha
        obtain ⟨p, hp, hpa⟩ := List.exists_of_findSome?_eq_some ha'
        cases p with
        | none => cases hpa
        | some q => exact hsm q a' hp hpa⟩))).trans (storedLoop_always w _ sm ps true i hsm)
    show (if _ then _ else if _ then _ else ScanStored.scanLoop _ _ _ _ _) = _
    rw [this]
    rfl

/-- **C105 (reused maps).** After a scan with `reuse_spinmaps` when there are spin maps `sm`, some rank
has the complete record of every live detector for every chunk, as recorded through `sm`, whatever beams
and sky the scan is given.  Missing: as for `C105_stored_partial`; the case without maps is
`C105_reuse_first`. -/
theorem C105_reuse_stored_partial (w : World E) (hx : ExtOk w.x) (hq : PixOk w.q) (hns : 0 < w.nsideOut)
    (M : Motion) (o : SOpts) (halm : o.hasAlm = true) (hbin : o.binning = true)
    (hpre : o.preview = false) (hgr : o.ground = false)
    (N : Nat) (chunks : List Chunk) (hmi : Mission N chunks)
    (hang : ∀ c ∈ chunks, c.hwpang = none) (i : Inst E) (hi : Ready w chunks i)
    (hrot : Rotates N chunks i.rot M.rot) (hhwp : Plate w.fsamp N i.hwp M.alpha)
    (hst : Steady w M chunks i.el) (hmaps : i.hasMaps = true) (store : Store) (beams : List SPair)
    (hb : PairedS beams) (hnd : ((liveBeams beams).map SBeam.idx).Nodup) (nside : Nat)
    (hm : ∀ p ∈ beams, MapsOk (w.always (.ok i.st.maps)) nside i.st.maps (plain p)) (size : Nat)
    (hsize : 0 < size) :
    ∃ res : List (Inst E × Store),
      (List.range size).mapM (fun r =>
          ScanStored.scanInstrument w { o with reuseSpinmaps := true } beams true size r (i, store)) =
        Except.ok (ε := PyErr) res ∧
      Holds w.nsideOut (reduceMaps i.maps.length (res.map (·.1.maps)))
        (beams.flatMap fun p => (List.range N).flatMap (pairObs M w.x w.q w.varphi w.nsideOut o.ctalk
          (detects M w.x o.interp nside i.st.maps) (plain p))) ∧
      (∀ p ∈ beams, ∃ x ∈ res, ∀ c ∈ chunks, StoredOn M w.x o nside (fun _ => i.st.maps) p c x.2) ∧
      ∀ x ∈ res, ∀ c ∈ chunks, ∀ b : SBeam, b.idx ∉ (liveBeams beams).map SBeam.idx →
        ∀ f, f ≠ .hwpAng →
          Data.dataOf x.2 c (some b.det) f = Data.dataOf store c (some b.det) f := by
  obtain ⟨res, h1, h2, h3, h4⟩ := C105_stored_partial (w.always (.ok i.st.maps)) hx hq hns M
    { o with reuseSpinmaps := false } halm hbin hpre hgr rfl N chunks hmi hang i
    ⟨hi.1, hi.2, hi.3, hi.4, hi.5⟩ hrot hhwp (steady_always hst) store beams hnd nside
    (fun _ => i.st.maps) hm size hsize
  refine ⟨res, ?_, h2, fun p hp => ?_, h4⟩
  · rw [← h1]
    congr 1
    funext r
    exact C105_reuse_existing w o beams hb true size r (i, store) hmaps
  · obtain ⟨x, hx, h⟩ := h3 p hp
    exact ⟨x, hx, fun c hc => ⟨(h c hc).tod, (h c hc).pix, (h c hc).pa, (h c hc).hwpAng, (h c hc).noTod,
      (h c hc).noPoint⟩⟩

/-! ## The hypotheses are met -/

namespace Reusing

open Rec Whole

/-- Two detectors with different beams. -/
def sb : List SPair := [(some ⟨⟨det.point, [], 0⟩, 5⟩, none), (some ⟨⟨det.point, [], 1⟩, 6⟩, none)]

theorem pairedS : PairedS sb := by
  intro p hp _
  simp only [sb, List.mem_cons, List.not_mem_nil, or_false] at hp
  rcases hp with rfl | rfl <;> rfl

/-- A strategy with maps of temperature 5. -/
def i5 : Inst Unit := { Whole.i with hasMaps := true, st := { Whole.i.st with maps := flat 5 } }

/-- The hypotheses of `C105_reuse_stored_partial` are met: with the maps of temperature 5 left from an
earlier scan, the second detector, which would see nothing, records 5 in both samples of the first
chunk. -/
example (store : Store) : ∃ res : List (Inst Unit × Store),
    (List.range 2).mapM (fun r => ScanStored.scanInstrument w { Whole.so with reuseSpinmaps := true } sb
      true 2 r (i5, store)) = Except.ok (ε := PyErr) res ∧
    ∃ x ∈ res, Data.dataOf x.2 { start := 0, stop := 2, cidx := some 0 } (some ⟨6, false⟩) .tod =
      .ok [5, 5] := by
  obtain ⟨res, h1, -, h2, -⟩ := C105_reuse_stored_partial w ext_ok pix_ok one_pos Whole.M
    Whole.so rfl rfl rfl rfl 3 Whole.chunks Whole.mission_ok (by decide) i5 ⟨rfl, rfl, rfl, .inl rfl, rfl⟩
    Whole.rotates Whole.plate steady rfl store sb pairedS
    (by simp [sb, liveBeams, ScanStored.live, det]) 1 (by
      intro p hp
      simp only [sb, List.mem_cons, List.not_mem_nil, or_false] at hp
      rcases hp with rfl | rfl
      all_goals
        refine .inr ⟨_, rfl, rfl, one_pos, ?_⟩
        rintro b (h | h)
        · obtain rfl := Option.some.inj h
          exact ⟨rfl, flat_ok _, by intro g hg; cases hg⟩
        · cases h) 2 two_pos
  obtain ⟨x, hx, h3⟩ := h2 _ (List.mem_cons_of_mem _ List.mem_cons_self)
  refine ⟨res, h1, x, hx, ?_⟩
  have := (h3 _ List.mem_cons_self).tod rfl ⟨⟨det.point, [], 1⟩, 6⟩ none ⟨rfl, .inl rfl⟩
  refine this.trans ?_
  have hr : List.range (((2 : Int) - 0).toNat) = [0, 1] := rfl
  unfold ScanStored.samples
  rw [hr]
  have s5 : ∀ t, recorded Whole.M w.x Whole.so.interp 1 i5.st.maps Whole.so.ctalk ⟨⟨det.point, [], 1⟩, 6⟩
      none t = 5 := fun t => by
    have := sees 5 ⟨det.point, [], 1⟩ rfl t
    exact this
  simp only [s5, List.map_cons, List.map_nil]

/-- The hypotheses of `C105_reuse_first` are met. -/
example (store : Store) : ScanStored.scanInstrument w { Whole.so with reuseSpinmaps := true } sb true 1 0
      (Whole.i, store) =
    ScanStored.scanInstrument (w.always (w.spinmaps ⟨det.point, [], 0⟩))
      { Whole.so with reuseSpinmaps := false } sb true 1 0 (Whole.i, store) :=
  C105_reuse_first w Whole.so _ pairedS true 1 0 (Whole.i, store) rfl _ (passes_two _ _)
    ⟨⟨det.point, [], 0⟩, 5⟩ rfl

/-- The hypotheses of `C105_reuse_same` are met by two detectors with the same beam. -/
example (size rank : Nat) (store : Store) :
    ScanStored.scanInstrument w { Whole.so with reuseSpinmaps := true }
      [(some ⟨⟨det.point, [], 0⟩, 5⟩, none), (some ⟨⟨det.point, [], 0⟩, 6⟩, none)] true size rank
        (Whole.i, store) =
    ScanStored.scanInstrument w { Whole.so with reuseSpinmaps := false }
      [(some ⟨⟨det.point, [], 0⟩, 5⟩, none), (some ⟨⟨det.point, [], 0⟩, 6⟩, none)] true size rank
        (Whole.i, store) := by
  refine C105_reuse_same w Whole.so _ ?_ true size rank (Whole.i, store) rfl ?_
  · intro p hp _
    simp only [List.mem_cons, List.not_mem_nil, or_false] at hp
    rcases hp with rfl | rfl <;> rfl
  · intro p hp p' hp' a a' ha ha'
    simp only [List.mem_cons, List.not_mem_nil, or_false] at hp hp'
    rcases hp with rfl | rfl <;> rcases hp' with rfl | rfl <;>
      (obtain rfl := Option.some.inj ha; obtain rfl := Option.some.inj ha'; rfl)

end Reusing

end Verif.Props
