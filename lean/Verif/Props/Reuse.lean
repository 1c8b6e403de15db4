import Verif.Lemmas.Reuse
import Verif.Props.ScanInstrument

/-!
# Property C109: `reuse_spinmaps`
-/

noncomputable section

namespace Verif.Props

open Verif.Chunks Verif.Timeline Verif.Spinmaps Verif.MapMaking Verif.ScanInstrument

variable {E : Type}

/-- **C109.** If there are spin maps when `scan_instrument_mpi` is called with `reuse_spinmaps`, no maps
are made: the run is the one in which every beam and sky has these maps. -/
theorem C109_existing (w : World E) (o : Opts) (beams : List Pair) (hb : Paired beams) (scatter : Bool)
    (size rank : Nat) (i : Inst E) (hi : i.hasMaps = true) :
    scanInstrument w { o with reuseSpinmaps := true } beams scatter size rank i =
      scanInstrument (w.always (.ok i.st.maps)) { o with reuseSpinmaps := false } beams scatter size rank
        i := by
  unfold scanInstrument
  cases h : Mpi.scanPasses beams scatter size rank with
  | error x => rfl
  | ok ps =>
    exact loop_reuse w o (.ok i.st.maps) ps true i (fun q hq => hb q ((passes_mem h).1 q hq))
      (.inr (.inl ⟨hi, rfl⟩))

/-- **C109.** If there are none, the maps of the first detector of each rank are used for all detectors
of this rank. -/
theorem C109_first (w : World E) (o : Opts) (beams : List Pair) (hb : Paired beams) (scatter : Bool)
    (size rank : Nat) (i : Inst E) (hi : i.hasMaps = false) (ps : List (Option Pair))
    (hps : Mpi.scanPasses beams scatter size rank = .ok ps) (a : BinBeam) (ha : firstDet ps = some a) :
    scanInstrument w { o with reuseSpinmaps := true } beams scatter size rank i =
      scanInstrument (w.always (w.spinmaps a)) { o with reuseSpinmaps := false } beams scatter size rank
        i := by
  unfold scanInstrument
  rw [hps]
  exact loop_reuse w o (w.spinmaps a) ps true i (fun q hq => hb q ((passes_mem hps).1 q hq))
    (.inr (.inr ⟨hi, fun a' ha' => by rw [ha] at ha'; rw [Option.some.inj ha']⟩))

theorem rank_same (w : World E) (o : Opts) (beams : List Pair) (hb : Paired beams) (scatter : Bool)
    (size rank : Nat) (i : Inst E) (hi : i.hasMaps = false)
    (h : ∀ ps, Mpi.scanPasses beams scatter size rank = .ok ps → ∃ sm, ∀ q a, some q ∈ ps → q.1 = some a →
      w.spinmaps a = sm) :
    scanInstrument w { o with reuseSpinmaps := true } beams scatter size rank i =
      scanInstrument w { o with reuseSpinmaps := false } beams scatter size rank i := by
  unfold scanInstrument
  cases hps : Mpi.scanPasses beams scatter size rank with
  | error x => rfl
  | ok ps =>
    obtain ⟨sm, hsm⟩ := h ps hps
    refine (loop_reuse w o sm ps true i (fun q hq => hb q ((passes_mem hps).1 q hq))
      (.inr (.inr ⟨hi, fun a ha => ?_⟩))).trans (loop_always w _ sm ps true i hsm)
    obtain ⟨p, hp, hpa⟩ := List.exists_of_findSome?_eq_some ha
    cases p with
    | none => cases hpa
    | some q => exact hsm q a hp hpa

/-- **C109.** If all beams have the same spin maps, a first scan with `reuse_spinmaps` is the same as one
without, for any number of ranks. -/
theorem C109_same (w : World E) (o : Opts) (beams : List Pair) (hb : Paired beams) (scatter : Bool)
    (size : Nat) (i : Inst E) (hi : i.hasMaps = false)
    (h : ∀ p ∈ beams, ∀ p' ∈ beams, ∀ a a', p.1 = some a → p'.1 = some a' → w.spinmaps a = w.spinmaps a') :
    scanAll w { o with reuseSpinmaps := true } beams scatter size i =
      scanAll w { o with reuseSpinmaps := false } beams scatter size i := by
  have hr : ∀ r, scanInstrument w { o with reuseSpinmaps := true } beams scatter size r i =
      scanInstrument w { o with reuseSpinmaps := false } beams scatter size r i := by
    intro r
    refine rank_same w o beams hb scatter size r i hi fun ps hps => ?_
    by_cases hex : ∃ q a, q ∈ beams ∧ q.1 = some a
    · obtain ⟨q, a, hq, ha⟩ := hex
      exact ⟨w.spinmaps a, fun q' a' hq' ha' => h q' ((passes_mem hps).1 q' hq') q hq a' a ha' ha⟩
    · exact ⟨.error .valueError, fun q a hq ha => absurd ⟨q, a, (passes_mem hps).1 q hq, ha⟩ hex⟩
  unfold scanAll
  simp only [hr]

/-- **C109.** The same if there are at least as many ranks as detector pairs, whatever the beams. -/
theorem C109_one_each (w : World E) (o : Opts) (beams : List Pair) (hb : Paired beams) (size : Nat)
    (hs : 0 < size) (hlen : beams.length ≤ size) (i : Inst E) (hi : i.hasMaps = false) :
    scanAll w { o with reuseSpinmaps := true } beams true size i =
      scanAll w { o with reuseSpinmaps := false } beams true size i := by
  have hr : ∀ r, scanInstrument w { o with reuseSpinmaps := true } beams true size r i =
      scanInstrument w { o with reuseSpinmaps := false } beams true size r i := by
    intro r
    refine rank_same w o beams hb true size r i hi fun ps hps => ?_
    have hl := (passes_mem hps).2
    have h1 := nmax_one hs hlen
    rcases ps with _ | ⟨p, ps⟩
    · exact ⟨.error .valueError, fun q a hq => by cases hq⟩
    · have : ps = [] := List.eq_nil_of_length_eq_zero (by rw [List.length_cons] at hl; omega)
      subst this
      cases p with
      | none => exact ⟨.error .valueError, fun q a hq => by simp at hq⟩
      | some q =>
        cases hq : q.1 with
        | none =>
          refine ⟨.error .valueError, fun q' a hq' ha => ?_⟩
          simp only [List.mem_cons, Option.some.injEq, List.not_mem_nil, or_false] at hq'
          rw [hq', hq] at ha
          cases ha
        | some a =>
          refine ⟨w.spinmaps a, fun q' a' hq' ha => ?_⟩
          simp only [List.mem_cons, Option.some.injEq, List.not_mem_nil, or_false] at hq'
          rw [hq', hq] at ha
          rw [Option.some.inj ha]
  unfold scanAll
  simp only [hr]

/-- **C109.** A second scan with `reuse_spinmaps`, after the resets and `allocate_maps`, does not see
another sky (or other beams, `w'`) that it is given: every rank bins what it has binned in the first
scan. -/
theorem C109_new_sky (w w' : World E) (hw : w' = { w with spinmaps := w'.spinmaps }) (hx : ExtOk w.x)
    (hq : PixOk w.q) (hns : 0 < w.nsideOut) (M : Motion)
    (o : Opts) (hbin : o.binning = true) (hpre : o.preview = false) (hgr : o.ground = false)
    (N : Nat) (chunks : List Chunk) (hmi : Mission N chunks)
    (hang : ∀ c ∈ chunks, c.hwpang = none) (i : Inst E) (hi : Ready w chunks i)
    (hrot : Rotates N chunks i.rot M.rot) (hhwp : Plate w.fsamp N i.hwp M.alpha)
    (hst : Repeats w M chunks i.el) (hfresh : i.hasMaps = false) (beams : List Pair) (hb : beams ≠ [])
    (hpa : Paired beams) (size rank : Nat) (hrank : rank < size) (ps : List (Option Pair))
    (hps : Mpi.scanPasses beams true size rank = .ok ps) (a : BinBeam) (ha : firstDet ps = some a)
    (nside : Nat) (sm : Spinmaps SpinDict) (hsm : w.spinmaps a = .ok sm)
    (hm : ∀ p ∈ beams, MapsOk (w.always (.ok sm)) nside sm p) :
    ∃ i' i'' j, scanInstrument w { o with reuseSpinmaps := true } beams true size rank i = .ok i' ∧
      resetAll w i' = .ok i'' ∧
      scanInstrument w' { o with reuseSpinmaps := true } beams true size rank
        { i'' with maps := allocateMaps w.nsideOut } = .ok j ∧ j.maps = i'.maps := by
  have hsame := C109_first w o beams hpa true size rank i hfresh ps hps a ha
  rw [hsm] at hsame
  have hfirst : ∀ i', scanInstrument w { o with reuseSpinmaps := true } beams true size rank i = .ok i' →
      i'.hasMaps = true ∧ w.spinmaps a = .ok i'.st.maps := by
    intro i' h
    unfold scanInstrument at h
    rw [hps] at h
    exact loop_first w o hpre ps true i i' a (fun q hq => hpa q ((passes_mem hps).1 q hq)) hfresh ha h
  have hst' : Repeats (w.always (.ok sm)) M chunks i.el := repeats_always hst
  obtain ⟨os, h⟩ := rank_spec (w.always (.ok sm)) hq hns M { o with reuseSpinmaps := false } hbin hgr
    (fun p => detects M w.x o.interp nside sm) N
    chunks hmi i.rot i.hwp (moves_spec w.fsamp M N chunks hmi hang i.rot i.hwp hrot hhwp) beams hb size
    rank hrank fun p hp => pairGood_scan (w.always (.ok sm)) hx M chunks { o with reuseSpinmaps := false } hpre rfl nside sm p (hm p hp)
  obtain ⟨i', i'', h1, h2, h3, h4, h5, h6, h7⟩ := h i ⟨hi.1, hi.2, hi.3, hi.4, hi.5⟩ rfl rfl hst'
  obtain ⟨j, _, g1, g2, _⟩ := h { i'' with maps := allocateMaps w.nsideOut }
    ⟨h6.trans hi.chunks, rfl, by rw [h4]; exact hi.rot, by rw [h4]; exact hi.period,
      by rw [h5]; exact hi.hwp⟩ h4 h5 h7
  rw [← hsame] at h1
  obtain ⟨m1, m2⟩ := hfirst i' h1
  rw [hsm] at m2
  have m2 := Except.ok.inj m2
  have m3 : i''.hasMaps = true ∧ i''.st.maps = sm := by
    have := before_spin (w := w) (first := false) h3
    exact ⟨this.1.trans m1, this.2.trans m2.symm⟩
  refine ⟨i', i'', j, h1, h3, ?_, g2.trans h2.symm⟩
  rw [C109_existing w' o beams hpa true size rank { i'' with maps := allocateMaps w.nsideOut } m3.1]
  have e : w'.always (.ok i''.st.maps) = w.always (.ok sm) := by
    rw [m3.2, hw]
    rfl
  show scanInstrument (w'.always (.ok i''.st.maps)) _ _ _ _ _ _ = _
  rw [e]
  exact g1

/-- **C109 (violation).** Two pairs with different beams, scanned with `reuse_spinmaps`: with one rank the
second pair gets the signal that the beam of the first pair would measure, with two ranks its own. -/
theorem C109_ranks_violation (w : World E) (hx : ExtOk w.x) (hq : PixOk w.q) (hns : 0 < w.nsideOut)
    (M : Motion) (o : Opts) (hbin : o.binning = true) (hpre : o.preview = false) (hgr : o.ground = false)
    (N : Nat) (chunks : List Chunk) (hmi : Mission N chunks)
    (hang : ∀ c ∈ chunks, c.hwpang = none) (i : Inst E) (hi : Ready w chunks i)
    (hrot : Rotates N chunks i.rot M.rot) (hhwp : Plate w.fsamp N i.hwp M.alpha)
    (hst : Steady w M chunks i.el) (hfresh : i.hasMaps = false) (p1 p2 : Pair) (a : BinBeam)
    (ha : p1.1 = some a) (nside : Nat) (sm1 sm2 : Spinmaps SpinDict)
    (h1 : MapsOk w nside sm1 p1) (h2 : MapsOk w nside sm2 p2) (h12 : MapsOk (w.always (.ok sm1)) nside sm1 p2) :
    ∃ m1 m2, scanAll w { o with reuseSpinmaps := true } [p1, p2] true 1 i = .ok m1 ∧
      scanAll w { o with reuseSpinmaps := true } [p1, p2] true 2 i = .ok m2 ∧
      Holds w.nsideOut m1 ((List.range N).flatMap
          (pairObs M w.x w.q w.varphi w.nsideOut o.ctalk (detects M w.x o.interp nside sm1) p1) ++
        (List.range N).flatMap
          (pairObs M w.x w.q w.varphi w.nsideOut o.ctalk (detects M w.x o.interp nside sm1) p2)) ∧
      Holds w.nsideOut m2 ((List.range N).flatMap
          (pairObs M w.x w.q w.varphi w.nsideOut o.ctalk (detects M w.x o.interp nside sm1) p1) ++
        (List.range N).flatMap
          (pairObs M w.x w.q w.varphi w.nsideOut o.ctalk (detects M w.x o.interp nside sm2) p2)) := by
  have hpa : Paired [p1, p2] := by
    intro p hp hp2
    simp only [List.mem_cons, List.not_mem_nil, or_false] at hp
    rcases hp with rfl | rfl
    · rw [ha]; rfl
    · rcases h2 with rfl | ⟨a', h, _⟩
      · cases hp2
      · rw [h]; rfl
  have hsm1 : w.spinmaps a = .ok sm1 := by
    rcases h1 with rfl | ⟨a', h, h', _⟩
    · cases ha
    · rw [h] at ha
      rw [← Option.some.inj ha, h']
  have hg1 : MapsOk (w.always (.ok sm1)) nside sm1 p1 := by
    rcases h1 with h | ⟨a', h, h', h''⟩
    · exact .inl h
    · exact .inr ⟨a', h, rfl, h''⟩
  obtain ⟨m1, e1, g1⟩ := C96_maps (w.always (.ok sm1)) hx hq hns M { o with reuseSpinmaps := false } hbin
    hpre hgr rfl N chunks hmi hang i ⟨hi.1, hi.2, hi.3, hi.4, hi.5⟩ hrot hhwp (steady_always hst) [p1, p2] nside
    (fun _ => sm1) (by
      intro p hp
      simp only [List.mem_cons, List.not_mem_nil, or_false] at hp
      rcases hp with rfl | rfl
      · exact hg1
      · exact h12) 1 one_pos
  classical
  by_cases hpp : p2 = p1
  · -- the same pair twice
    subst hpp
    have e12 : sm2 = sm1 := by
      rcases h2 with rfl | ⟨a', h, h', _⟩
      · cases ha
      · rw [h] at ha
        rw [Option.some.inj ha, hsm1] at h'
        exact (Except.ok.inj h').symm
    subst e12
    obtain ⟨m2, e2, g2⟩ := C96_maps w hx hq hns M { o with reuseSpinmaps := false } hbin
      hpre hgr rfl N chunks hmi hang i hi hrot hhwp hst [p2, p2] nside (fun _ => sm2) (by
        intro p hp
        simp only [List.mem_cons, List.not_mem_nil, or_false, or_self] at hp
        rw [hp]
        exact h1) 2 two_pos
    refine ⟨m1, m2, ?_, ?_, by simpa [World.always] using g1, by simpa using g2⟩
    · rw [← e1]
      unfold scanAll
      have := C109_first w o [p2, p2] hpa true 1 0 i hfresh [some p2, some p2] (passes_two _ _) a
        (by simp [firstDet, ha])
      rw [hsm1] at this
      simp only [List.range_one, List.mapM_cons, List.mapM_nil, this]
    · rw [← e2]
      exact C109_one_each w o _ hpa 2 two_pos le_rfl i hfresh
  · obtain ⟨m2, e2, g2⟩ := C96_maps w hx hq hns M { o with reuseSpinmaps := false } hbin
      hpre hgr rfl N chunks hmi hang i hi hrot hhwp hst [p1, p2] nside
      (fun p => if p = p1 then sm1 else sm2) (by
        intro p hp
        simp only [List.mem_cons, List.not_mem_nil, or_false] at hp
        rcases hp with rfl | rfl
        · rw [if_pos rfl]; exact h1
        · rw [if_neg hpp]; exact h2) 2 two_pos
    refine ⟨m1, m2, ?_, ?_, by simpa [World.always] using g1, by simpa [hpp] using g2⟩
    · rw [← e1]
      unfold scanAll
      have := C109_first w o [p1, p2] hpa true 1 0 i hfresh [some p1, some p2] (passes_two _ _) a
        (by simp [firstDet, ha])
      rw [hsm1] at this
      simp only [List.range_one, List.mapM_cons, List.mapM_nil, this]
    · rw [← e2]
      exact C109_one_each w o _ hpa 2 two_pos le_rfl i hfresh

namespace Reusing

open Rec Whole

/-- Maps of a sky of temperature `c` everywhere. -/
def flat (c : ℂ) : Spinmaps SpinDict :=
  ⟨[(.s0a0, ⟨[List.replicate 12 c], [0]⟩), (.s2a4, ⟨[List.replicate 12 0], [0]⟩)], none, []⟩

theorem flat_ok (c : ℂ) : DictOk (12 * 1 ^ 2) (flat c).main := by
  refine ⟨?_, .inl rfl, ?_, ?_, ?_, ?_⟩
  · intro x hx
    simp only [flat, List.mem_cons, List.not_mem_nil, or_false] at hx
    rcases hx with rfl | rfl <;>
      exact ⟨rfl, by simp, by intro m hm; rw [List.mem_singleton.1 hm]; simp⟩
  · intro s hs
    have hs : s ∈ [(0 : Int)] := hs
    rw [List.mem_singleton.1 hs]
  · exact List.nodup_nil
  · intro s hs
    cases hs
  · intro h
    cases h

open Classical in
/-- A beam whose number (here `polangBin`) is 0 sees temperature 1, others see nothing. -/
def w : World Unit := { Whole.w with spinmaps := fun b => .ok (flat (if b.polangBin = 0 then 1 else 0)) }

def p1 : Pair := (some ⟨det.point, [], 0⟩, none)
def p2 : Pair := (some ⟨det.point, [], 1⟩, none)

theorem maps1 : MapsOk w 1 (flat 1) p1 := by
  refine .inr ⟨_, rfl, by simp [w], one_pos, ?_⟩
  rintro b (h | h)
  · obtain rfl := Option.some.inj h
    exact ⟨rfl, flat_ok _, by intro g hg; cases hg⟩
  · cases h

theorem maps2 : MapsOk w 1 (flat 0) p2 := by
  refine .inr ⟨_, rfl, by simp [w], one_pos, ?_⟩
  rintro b (h | h)
  · obtain rfl := Option.some.inj h
    exact ⟨rfl, flat_ok _, by intro g hg; cases hg⟩
  · cases h

theorem maps12 : MapsOk (w.always (.ok (flat 1))) 1 (flat 1) p2 := by
  refine .inr ⟨_, rfl, rfl, one_pos, ?_⟩
  rintro b (h | h)
  · obtain rfl := Option.some.inj h
    exact ⟨rfl, flat_ok _, by intro g hg; cases hg⟩
  · cases h

theorem sees (c : ℝ) (b : BinBeam) (hb : b.ghosts = []) (t : Nat) :
    detects Whole.M ext false 1 (flat c) b t = c := by
  unfold detects Motion.signal Timeline.signal
  rw [hb]
  have h : isOld (flat c).main = true := rfl
  have h1 : part (flat c).main .s0a0 = ⟨[List.replicate 12 (c : ℂ)], [0]⟩ := rfl
  have h2 : part (flat c).main .s2a4 = ⟨[List.replicate 12 0], [0]⟩ := rfl
  simp [h, h1, h2, spinSum, spinSumReal, see, sampleAt, ext]

theorem vec_add (os os' : List Obs) (p : Nat) : vecAt (os ++ os') p = vecAt os p + vecAt os' p := by
  unfold vecAt here
  rw [List.filter_append, List.map_append, List.sum_append]

/-- Three samples of a detector that sees temperature `c`. -/
theorem three_of (c : ℝ) (b : BinBeam) (hl : live (some b) = some b) (hb : b.ghosts = []) :
    vecAt ((List.range 3).flatMap (pairObs Whole.M ext qp 0 1 0
      (detects Whole.M ext false 1 (flat c)) (some b, none))) 0 0 = 3 * c := by
  have h : ∀ t, pairObs Whole.M ext qp 0 1 0 (detects Whole.M ext false 1 (flat c)) (some b, none) t
      = [obsAt Whole.M ext qp 0 1 b t c] := by
    intro t
    unfold pairObs
    rw [hl, if_neg (by simp [Whole.M])]
    show [obsAt _ _ _ _ _ _ _ _] = _
    rw [sees c b hb]
  have hp : ∀ t, (obsAt Whole.M ext qp 0 1 b t c).pix = 0 := fun _ => rfl
  have hd : ∀ t, (obsAt Whole.M ext qp 0 1 b t c).d = c := fun _ => rfl
  rw [show pairObs Whole.M ext qp 0 1 0 (detects Whole.M ext false 1 (flat c)) (some b, none)
    = fun t => [obsAt Whole.M ext qp 0 1 b t c] from funext h]
  show vecAt [obsAt Whole.M ext qp 0 1 b 0 c, obsAt Whole.M ext qp 0 1 b 1 c,
    obsAt Whole.M ext qp 0 1 b 2 c] 0 0 = _
  simp [vecAt, here, hp, hd, Obs.w]
  ring

theorem steady : Steady w Whole.M Whole.chunks Whole.i.el := by
  obtain ⟨P, h1, h2⟩ := Whole.repeats.steady
  refine ⟨P, h1, fun first e he => ?_⟩
  obtain ⟨e', h3, h4⟩ := h2 first e he
  have conv : ∀ (cs : List Chunk) (e : Unit), Points Whole.w Whole.M (!first) e cs e' →
      Points w Whole.M (!first) e cs e' := by
    intro cs
    induction cs with
    | nil => exact fun _ h => h
    | cons c cs ih => exact fun _ ⟨p, e1, a, b, d⟩ => ⟨p, e1, a, b, ih _ d⟩
  exact ⟨e', conv _ _ h3, h4⟩

/-- The hypotheses of `C109_ranks_violation` are met, and the maps differ: with one rank the sum of
temperatures is 6, with two ranks it is 3. -/
example : ∃ m1 m2, scanAll w { Whole.o with reuseSpinmaps := true } [p1, p2] true 1 Whole.i = .ok m1 ∧
    scanAll w { Whole.o with reuseSpinmaps := true } [p1, p2] true 2 Whole.i = .ok m2 ∧ m1 ≠ m2 := by
  obtain ⟨m1, m2, h1, h2, h3, h4⟩ := C109_ranks_violation w ext_ok pix_ok one_pos Whole.M Whole.o rfl rfl
    rfl 3 Whole.chunks mission_ok (by decide) Whole.i ⟨rfl, rfl, rfl, .inl rfl, rfl⟩ rotates plate steady
    rfl p1 p2 _ rfl 1 (flat 1) (flat 0) maps1 maps2 maps12
  refine ⟨m1, m2, h1, h2, ?_⟩
  rintro rfl
  have hl : 0 < m1.length := by rw [h3.npix]; decide
  have e3 := (h3.cells 0 _ (List.getElem?_eq_getElem hl)).1
  have e4 := (h4.cells 0 _ (List.getElem?_eq_getElem hl)).1
  have e := congrFun (e3.symm.trans e4) 0
  rw [vec_add, vec_add] at e
  have a1 := three_of 1 ⟨det.point, [], 0⟩ rfl rfl
  have a2 := three_of 1 ⟨det.point, [], 1⟩ rfl rfl
  have a3 := three_of 0 ⟨det.point, [], 1⟩ rfl rfl
  rw [Complex.ofReal_one] at a1 a2
  rw [Complex.ofReal_zero] at a3
  have e' : vecAt ((List.range 3).flatMap (pairObs Whole.M ext qp 0 1 0
      (detects Whole.M ext false 1 (flat 1)) (some ⟨det.point, [], 0⟩, none))) 0 0 +
    vecAt ((List.range 3).flatMap (pairObs Whole.M ext qp 0 1 0
      (detects Whole.M ext false 1 (flat 1)) (some ⟨det.point, [], 1⟩, none))) 0 0 =
    vecAt ((List.range 3).flatMap (pairObs Whole.M ext qp 0 1 0
      (detects Whole.M ext false 1 (flat 1)) (some ⟨det.point, [], 0⟩, none))) 0 0 +
    vecAt ((List.range 3).flatMap (pairObs Whole.M ext qp 0 1 0
      (detects Whole.M ext false 1 (flat 0)) (some ⟨det.point, [], 1⟩, none))) 0 0 := e
  rw [a1, a2, a3] at e'
  norm_num at e'

theorem paired : Paired [p1, p2] := by
  intro p hp _
  simp only [List.mem_cons, List.not_mem_nil, or_false] at hp
  rcases hp with rfl | rfl <;> rfl

/-- The hypotheses of `C109_first` are met. -/
example : scanInstrument w { Whole.o with reuseSpinmaps := true } [p1, p2] true 1 0 Whole.i =
    scanInstrument (w.always (w.spinmaps ⟨det.point, [], 0⟩)) { Whole.o with reuseSpinmaps := false }
      [p1, p2] true 1 0 Whole.i :=
  C109_first w Whole.o _ paired true 1 0 Whole.i rfl _ (passes_two p1 p2) _ rfl

/-- The hypotheses of `C109_existing` are met. -/
example : scanInstrument w { Whole.o with reuseSpinmaps := true } [p1, p2] true 1 0
      { Whole.i with hasMaps := true, st := { Whole.i.st with maps := flat 5 } } =
    scanInstrument (w.always (.ok (flat 5))) { Whole.o with reuseSpinmaps := false }
      [p1, p2] true 1 0 { Whole.i with hasMaps := true, st := { Whole.i.st with maps := flat 5 } } :=
  C109_existing w Whole.o _ paired true 1 0 { Whole.i with
    hasMaps := true, st := { Whole.i.st with maps := flat 5 } } rfl

/-- The hypotheses of `C109_same` are met by two detectors with the same beam. -/
example (size : Nat) : scanAll w { Whole.o with reuseSpinmaps := true } [p1, p1, (none, none)] true size
      Whole.i
    = scanAll w { Whole.o with reuseSpinmaps := false } [p1, p1, (none, none)] true size Whole.i := by
  refine C109_same w Whole.o _ ?_ true size Whole.i rfl ?_
  · intro p hp hp2
    simp only [List.mem_cons, List.not_mem_nil, or_false] at hp
    rcases hp with rfl | rfl | rfl
    · rfl
    · rfl
    · cases hp2
  · intro p hp p' hp' a a' ha ha'
    simp only [List.mem_cons, List.not_mem_nil, or_false] at hp hp'
    rcases hp with rfl | rfl | rfl <;> rcases hp' with rfl | rfl | rfl <;>
      first
      | (obtain rfl := Option.some.inj ha; obtain rfl := Option.some.inj ha'; rfl)
      | (exfalso; cases ha; done)
      | (exfalso; cases ha'; done)

/-- The hypotheses of `C109_one_each` are met. -/
example : scanAll w { Whole.o with reuseSpinmaps := true } [p1, p2] true 2 Whole.i
    = scanAll w { Whole.o with reuseSpinmaps := false } [p1, p2] true 2 Whole.i :=
  C109_one_each w Whole.o _ paired 2 two_pos le_rfl Whole.i rfl

/-- The hypotheses of `C109_new_sky` are met: the second scan is given a sky of temperature 2, and bins
temperatures 1. -/
example : ∃ i' i'' j, scanInstrument w { Whole.o with reuseSpinmaps := true } [p1, p2] true 1 0 Whole.i
      = .ok i' ∧ resetAll w i' = .ok i'' ∧
    scanInstrument { w with spinmaps := fun _ => .ok (flat 2) } { Whole.o with reuseSpinmaps := true }
      [p1, p2] true 1 0 { i'' with maps := allocateMaps 1 } = .ok j ∧ j.maps = i'.maps := by
  have hrep : Repeats w Whole.M Whole.chunks Whole.i.el := by
    refine ⟨fun _ => True, trivial, fun first e _ => ?_⟩
    obtain ⟨p, h1, h2⟩ := points (!first) { start := 0, stop := 2, cidx := some 0 }
    obtain ⟨p', h1', h2'⟩ := points (!first) { start := 2, stop := 3, cidx := some 1 }
    exact ⟨(), ⟨p, (), h1, h2, p', (), h1', h2', rfl⟩, (), rfl, trivial⟩
  refine C109_new_sky w { w with spinmaps := fun _ => .ok (flat 2) } rfl ext_ok pix_ok one_pos Whole.M
    Whole.o rfl rfl rfl 3 Whole.chunks mission_ok (by decide) Whole.i ⟨rfl, rfl, rfl, .inl rfl, rfl⟩
    rotates plate hrep rfl [p1, p2] (by simp) paired 1 0 one_pos _ (passes_two p1 p2) _ rfl 1 (flat 1)
    (by simp [w]) ?_
  intro p hp
  simp only [List.mem_cons, List.not_mem_nil, or_false] at hp
  rcases hp with rfl | rfl
  · refine .inr ⟨_, rfl, rfl, one_pos, ?_⟩
    rintro b (h | h)
    · obtain rfl := Option.some.inj h
      exact ⟨rfl, flat_ok _, by intro g hg; cases hg⟩
    · cases h
  · exact maps12

end Reusing

end Verif.Props
