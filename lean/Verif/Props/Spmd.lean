import Verif.Lemmas.SpmdLoop
import Verif.Lemmas.GenericMemmap
import Verif.Props.ScanInstrument

/-!
# C106: scans by several processes that talk to each other

The ranks run at any relative speed and meet in collective calls (`Step`); `AlwaysEnds` and
`AlwaysHangs` are in `Verif.Spec.Spmd`.
-/

noncomputable section

namespace Verif.Props

open Verif.Chunks Verif.Timeline Verif.Spinmaps Verif.MapMaking Verif.ScanInstrument Verif.Spec
open Verif.Spmd (Junk JunkOk AlwaysEnds AlwaysHangs program asRank withMmap firstOnly TracksPatch rankInst RunsTo)

theorem asRank_eq {i : Inst (Scan.State ℝ Quat.Q)} (hm : i.el.mmap = none) (r : Nat) :
    asRank i = rankInst r i := by
  unfold asRank rankInst Spmd.toRank
  obtain ⟨_, _, el, _, _, _, _, _⟩ := i
  obtain ⟨_, _, _, m, _, _⟩ := el
  dsimp only at hm
  subst hm
  simp

/-- **C106.** Whenever every rank alone, with a communicator of `size` ranks, gets through its part of
the scan, the ranks together do so whatever their relative speed: no rank waits forever, and
`solve_for_map` returns on the first rank what a serial run gets from the sum of the parts.  The
others return None. -/
theorem C106_ends (s : Spmd.Setup) (hg : s.Generic) (beams : List Pair) (i : Inst (Scan.State ℝ Quat.Q))
    (hm : i.el.mmap = none) (size : Nat) (hs : 0 < size) (junk : Junk) (hj : JunkOk junk) (fill : ℝ)
    (m : Maps) (h : scanAll s.w s.o beams true size (withMmap s i) = .ok m) :
    AlwaysEnds size (fun r => program junk size r s beams fill (asRank i))
      (firstOnly (solveForMap s.w.q m fill)) := by
  obtain ⟨i', h1, rfl⟩ := Spmd.scanAll_inv h
  refine RunsTo.alwaysEnds hs ?_
  have h2 := Spmd.runsTo_scanInstrument hs junk hj hg beams i i' h1
  have h3 := Spmd.runsTo_solveForMap hs s.w.q fill (withMmap s i).maps.length (fun r => rankInst r (i' r))
    fun r hr => Spmd.scan_length (h1 r hr)
  refine (RunsTo.andThen h2 h3).congr (fun r _ => ?_) fun _ _ => rfl
  unfold program
  rw [asRank_eq hm r]

theorem generic_withMmap (s : Spmd.Setup) (hg : s.Generic) (hgr : s.so.ground = false) (prf : Nat → ℝ)
    (hprf : Scan.IsProfile s.site s.so prf) (hfs : s.so.fsamp ≠ 0) (hcl : 0 < s.so.checkLen)
    (hd : s.so.dec0 ≠ []) (hr : s.so.ra0.length = s.so.dec0.length) (cfg : Scan.ElCfg ℝ) (hv : cfg.Valid)
    (N : Nat) (chunks : List Chunk) (hmi : Mission N chunks)
    (hdiv : s.so.azThrow ≠ 0 ∨ ∀ c ∈ chunks, s.so.checkLen.toNat ∣ (c.stop - c.start).toNat)
    (i : Inst (Scan.State ℝ Quat.Q)) (hfr : Scan.Fresh cfg i.el.el) (hm : i.el.mmap = none)
    (hf : i.el.flag = none) (hmem : s.createMemmap = true → N ≤ s.nsamp) :
    ∃ bore : Nat → Quat.Q, TracksPatch s prf cfg chunks bore ∧
      ∀ M : Motion, M.bore = bore → (∀ t : Nat, M.time t = t / s.so.fsamp + s.so.ctime0) →
        (∀ t, M.flag t = false) → Steady s.w M chunks (withMmap s i).el := by
  have he : ({ i.el with mmap := none } : Scan.State ℝ Quat.Q) = i.el := by
    cases h : i.el
    rw [h] at hm
    dsimp only at hm
    rw [hm]
  obtain ⟨bore, h1, h2⟩ := generic_steady s.w s.site s.so hgr prf hprf hfs hcl hd hr cfg hv hg.1 hg.2 N
    chunks hmi hdiv i.el hfr hm hf
  refine ⟨bore, h1, fun M a b c => ?_⟩
  have h3 := h2 M a b c
  unfold withMmap
  split
  · rename_i hc
    rw [← he] at h3
    exact generic_steady_memmap s.w s.site s.so hgr prf hprf hfs hcl hd hr cfg hv hg.1 hg.2 N chunks hmi
      hdiv i.el hfr (List.replicate s.nsamp 0) (by simpa using hmem hc) hf M b c h3
  · exact h3.steady

theorem tiles_cover {a b : Int} {l : List (Int × Int)} (h : Tiles a b l) (t : Int) (h1 : a ≤ t)
    (h2 : t < b) : ∃ p ∈ l, p.1 ≤ t ∧ t < p.2 := by
  induction h with
  | nil => omega
  | @cons a b c l hlt ht ih =>
    by_cases hb : t < b
    · exact ⟨_, List.mem_cons_self, h1, hb⟩
    · obtain ⟨p, hp, h⟩ := ih (by omega) h2
      exact ⟨p, List.mem_cons_of_mem _ hp, h⟩

theorem ready_withMmap {s : Spmd.Setup} {chunks : List Chunk} {i : Inst (Scan.State ℝ Quat.Q)}
    (h : Ready s.w chunks i) : Ready s.w chunks (withMmap s i) := by
  unfold withMmap
  split
  · exact ⟨h.chunks, h.maps, h.rot, h.period, h.hwp⟩
  · exact h

theorem withMmap_rot (s : Spmd.Setup) (i : Inst (Scan.State ℝ Quat.Q)) :
    (withMmap s i).rot = i.rot ∧ (withMmap s i).hwp = i.hwp := by
  unfold withMmap
  split <;> exact ⟨rfl, rfl⟩

/-- **C106 (maps).** A generic ground-based scan, with or without memory map, by any number of ranks at
any relative speed: every rank ends, and the first one gets the solution of the maps that hold every
sample of every live detector once. -/
theorem C106_maps (s : Spmd.Setup) (hg : s.Generic) (hgr' : s.so.ground = false) (prf : Nat → ℝ)
    (hprf : Scan.IsProfile s.site s.so prf) (hfs : s.so.fsamp ≠ 0) (hcl : 0 < s.so.checkLen)
    (hd : s.so.dec0 ≠ []) (hr : s.so.ra0.length = s.so.dec0.length) (cfg : Scan.ElCfg ℝ) (hv : cfg.Valid)
    (N : Nat) (chunks : List Chunk) (hmi : Mission N chunks)
    (hdiv : s.so.azThrow ≠ 0 ∨ ∀ c ∈ chunks, s.so.checkLen.toNat ∣ (c.stop - c.start).toNat)
    (hx : ExtOk s.w.x) (hq : PixOk s.w.q) (hns : 0 < s.w.nsideOut) (hbin : s.o.binning = true)
    (hpre : s.o.preview = false) (hgr : s.o.ground = false) (hre : s.o.reuseSpinmaps = false)
    (hang : ∀ c ∈ chunks, c.hwpang = none) (i : Inst (Scan.State ℝ Quat.Q)) (hi : Ready s.w chunks i)
    (hfr : Scan.Fresh cfg i.el.el) (hm : i.el.mmap = none) (hf : i.el.flag = none)
    (hmem : s.createMemmap = true → N ≤ s.nsamp) :
    ∃ bore : Nat → Quat.Q, TracksPatch s prf cfg chunks bore ∧
      ∀ M : Motion, M.bore = bore → (∀ t : Nat, M.time t = t / s.so.fsamp + s.so.ctime0) →
        (∀ t, M.flag t = false) → Rotates N chunks i.rot M.rot → Plate s.w.fsamp N i.hwp M.alpha →
        ∀ (beams : List Pair) (nside : Nat) (sm : Pair → Spinmaps SpinDict),
          (∀ p ∈ beams, MapsOk s.w nside (sm p) p) →
          ∃ m, Holds s.w.nsideOut m (beams.flatMap fun p => (List.range N).flatMap
              (pairObs M s.w.x s.w.q s.w.varphi s.w.nsideOut s.o.ctalk
                (detects M s.w.x s.o.interp nside (sm p)) p)) ∧
            ∀ (size : Nat) (junk : Junk) (fill : ℝ), 0 < size → JunkOk junk →
              AlwaysEnds size (fun r => program junk size r s beams fill (asRank i))
                (firstOnly (solveForMap s.w.q m fill)) := by
  obtain ⟨bore, h1, h2⟩ := generic_withMmap s hg hgr' prf hprf hfs hcl hd hr cfg hv N chunks hmi hdiv i
    hfr hm hf hmem
  refine ⟨bore, h1, fun M a b c hrot hhwp beams nside sm hsm => ?_⟩
  have hst := h2 M a b c
  have hi' := ready_withMmap hi
  rw [← (withMmap_rot s i).1] at hrot
  rw [← (withMmap_rot s i).2] at hhwp
  obtain ⟨m, e1, e2⟩ := C96_maps s.w hx hq hns M s.o hbin hpre hgr hre N chunks hmi hang _ hi' hrot hhwp
    hst beams nside sm hsm 1 one_pos
  refine ⟨m, e2, fun size junk fill hs hj => C106_ends s hg beams i hm size hs junk hj fill m ?_⟩
  rw [← e1]
  exact C96_ranks s.w hx hq hns M s.o hbin hpre hgr hre N chunks hmi hang _ hi' hrot hhwp hst beams nside
    sm hsm size 1 hs one_pos

/-- **C106 (recovery).** With ideal detectors the first rank gets the smoothed sky back, however many
ranks there are and however they are scheduled (see C98). -/
theorem C106_recovery (s : Spmd.Setup) (hg : s.Generic) (hgr' : s.so.ground = false) (prf : Nat → ℝ)
    (hprf : Scan.IsProfile s.site s.so prf) (hfs : s.so.fsamp ≠ 0) (hcl : 0 < s.so.checkLen)
    (hd : s.so.dec0 ≠ []) (hr : s.so.ra0.length = s.so.dec0.length) (cfg : Scan.ElCfg ℝ) (hv : cfg.Valid)
    (N : Nat) (chunks : List Chunk) (hmi : Mission N chunks)
    (hdiv : s.so.azThrow ≠ 0 ∨ ∀ c ∈ chunks, s.so.checkLen.toNat ∣ (c.stop - c.start).toNat)
    (Y : Harmonics) (hY : Conjugation Y)
    (hx : ExtOk s.w.x) (hq : PixOk s.w.q) (hsol : SolveOk s.w.q) (iau : Bool)
    (hxq : Agree s.w.x s.w.q iau) (hns : 0 < s.w.nsideOut) (hbin : s.o.binning = true)
    (hpre : s.o.preview = false) (hgr : s.o.ground = false) (hre : s.o.reuseSpinmaps = false)
    (hint : s.o.interp = false) (hct : s.o.ctalk = 0)
    (hang : ∀ c ∈ chunks, c.hwpang = none) (i : Inst (Scan.State ℝ Quat.Q)) (hi : Ready s.w chunks i)
    (hfr : Scan.Fresh cfg i.el.el) (hm : i.el.mmap = none) (hf : i.el.flag = none)
    (hmem : s.createMemmap = true → N ≤ s.nsamp)
    (hrotq : ∀ az el t, IsRot (s.site.azel2bore az el t))
    {Ls L : Nat} {alm : List (List ℂ)} {a b : Nat → Nat → Nat → ℂ} {maxSpin : Int}
    {inputV beamV : Bool} (ha : RealSky Ls a) (hb : RealBeam L b) (err : ℝ)
    (data : BinBeam → BeamData) (beams : List Pair)
    (hideal : ∀ p ∈ beams, IdealPair s.w Y Ls L alm a b maxSpin inputV beamV err data p) :
    ∃ bore : Nat → Quat.Q, TracksPatch s prf cfg chunks bore ∧ ∀ M : Motion, M.bore = bore →
      (∀ t : Nat, M.time t = t / s.so.fsamp + s.so.ctime0) → (∀ t, M.flag t = false) →
      Rotates N chunks i.rot M.rot → Plate s.w.fsamp N i.hwp M.alpha →
      ∀ (size : Nat) (junk : Junk) (fill : ℝ), 0 < size → JunkOk junk →
        ∃ sky : List (Fin 3 → ℝ),
          AlwaysEnds size (fun r => program junk size r s beams fill (asRank i)) (firstOnly sky) ∧
          ∀ p, p < 12 * s.w.nsideOut ^ 2 →
            (ThreeAngles (here p (seenBy M s.w N beams)) → sky[p]? = some (stokes iau
              (smoothI Y s.w.nsideOut (min Ls L) (skyOf inputV a) (beamOf beamV b) p)
              (smoothP Y s.w.nsideOut (min Ls L) (skyOf inputV a) (beamOf beamV b) p *
                Complex.exp (2 * ((err + 2 * s.w.varphi) * Real.pi / 180 : ℝ) * Complex.I)))) ∧
            (here p (seenBy M s.w N beams) = [] → sky[p]? = some fun _ => fill) := by
  obtain ⟨bore, h1, h2⟩ := generic_withMmap s hg hgr' prf hprf hfs hcl hd hr cfg hv N chunks hmi hdiv i
    hfr hm hf hmem
  refine ⟨bore, h1, fun M e1 e2 e3 hrot hhwp size junk fill hs hj => ?_⟩
  have hst := h2 M e1 e2 e3
  have hi' := ready_withMmap hi
  rw [← (withMmap_rot s i).1] at hrot
  rw [← (withMmap_rot s i).2] at hhwp
  have hbore : ∀ t, t < N → IsRot (M.bore t) := by
    intro t ht
    obtain ⟨c, hc, k1, k2⟩ := tiles_cover hmi.tiles (t : Int) (by omega) (by omega)
    obtain ⟨c', hc', rfl⟩ := List.mem_map.1 hc
    have h0 := tiles_mem hmi.tiles _ hc
    dsimp only at k1 k2 h0
    obtain ⟨p, y, _, _, h5⟩ := h1 c' hc' (t - c'.start.toNat) (by omega)
    rw [show c'.start.toNat + (t - c'.start.toNat) = t by omega] at h5
    rw [e1, h5]
    exact hrotq _ _ _
  obtain ⟨m, k1, k2⟩ := C98_recovery Y hY s.w hx hq hsol iau hxq hns M s.o hbin hpre hgr hre hint hct N
    chunks hmi hang _ hi' hrot hhwp hst hbore ha hb err data beams hideal size hs fill
  exact ⟨_, C106_ends s hg beams i hm size hs junk hj fill m k1, k2⟩

/-! ## a rank that raises -/

/-- This program makes a call before it ends. -/
def Calls {A : Type} (P : Spmd.Prog A) : Prop := ∃ c k, P = .call c k

theorem Calls.andThen {A B : Type} {P : Spmd.Prog A} (h : Calls P) (f : A → Spmd.Prog B) :
    Calls (P.andThen f) := by
  obtain ⟨c, k, rfl⟩ := h
  exact ⟨_, _, rfl⟩

theorem andThen_assoc {A B C : Type} (P : Spmd.Prog A) (f : A → Spmd.Prog B) (g : B → Spmd.Prog C) :
    (P.andThen f).andThen g = P.andThen fun a => (f a).andThen g := by
  induction P with
  | done r => cases r <;> rfl
  | call c k ih =>
    show Spmd.Prog.call _ _ = Spmd.Prog.call _ _
    congr 1
    funext r
    exact ih r

theorem calls_implementScan (junk : Junk) (size r : Nat) (site : Scan.Site ℝ Quat.Q) (o : Scan.Opts ℝ)
    (start stop : Int) (e : Spmd.RState) (x e' : Scan.State ℝ Quat.Q) (hel : e.st.el = x.el)
    (h : Scan.implementScan site o false start stop x = .ok e') :
    Calls (Spmd.implementScan junk size r site o false start stop e) := by
  obtain ⟨ct, h1, h⟩ := bind_ok h
  have h : Scan.compute site o ct start stop x = .ok e' := by
    revert h
    cases x.mmap <;> exact id
  obtain ⟨⟨az, el⟩, h2, h⟩ := bind_ok h
  obtain ⟨⟨el', steps⟩, h3, h⟩ := bind_ok h
  unfold Spmd.implementScan
  rw [h1]
  show Calls (Spmd.compute junk size r site o ct start stop e)
  unfold Spmd.compute
  rw [h2]
  show Calls ((Spmd.run (Scan.stepEl el e.st.el)).andThen _)
  rw [hel, h3]
  show Calls ((Spmd.groundQuats _ _ _ _ _ _ _ _).andThen _)
  unfold Spmd.groundQuats
  split
  · exact ((Calls.andThen ⟨_, _, rfl⟩ _).andThen _)
  · exact Calls.andThen (P := Spmd.gather _ _ _ _ _ _) ⟨_, _, rfl⟩ _

/-- **C106 (violation).** Two ranks scan one pair each.  If the spin maps of the pair of the second rank
cannot be made, because the pair has no first detector or for any other reason, that rank raises an
exception and the first rank waits for it forever, whatever the schedule. -/
theorem C106_hang_violation (s : Spmd.Setup) (hg : s.Generic) (hpre : s.o.preview = false) (a : BinBeam)
    (a' b b' : Option BinBeam) (hb : (b, b') ≠ (none, none))
    (hbad : ∀ x, b = some x → ∃ e, s.w.spinmaps x = .error e)
    (sm : Spinmaps SpinDict) (ha : s.w.spinmaps a = .ok sm)
    (i : Inst (Scan.State ℝ Quat.Q)) (hi : i.hasMaps = false) (c : Chunk) (g : Bool)
    (rest : List (Chunk × Bool)) (hc : i.chunks = (c, g) :: rest)
    (hcidx : ∀ x ∈ i.chunks, x.1.cidx.isSome) (p : Pointing × Scan.State ℝ Quat.Q)
    (him : s.w.implement i.el c (g || s.o.ground) false = .ok p) (junk : Junk) (fill : ℝ) :
    AlwaysHangs 2 (fun r => program junk 2 r s [(some a, a'), (b, b')] fill (asRank i)) 0 := by
  have hall : (i.chunks.all fun c => c.1.cidx.isSome) = true := List.all_eq_true.2 hcidx
  let l : Nat → List Pair := fun r => if r = 0 then [(some a, a')] else [(b, b')]
  have hl : ∀ r, r < 2 → Mpi.scatterList [((some a, a') : Pair), (b, b')] 2 r = .ok (l r) := by
    intro r hr
    have : r = 0 ∨ r = 1 := by omega
    rcases this with rfl | rfl <;> simp [Mpi.scatterList, Mpi.arraySplit, Mpi.arraySplit.go, l]
  have hn : Mpi.nmax [((some a, a') : Pair), (b, b')].length 2 = 1 := by
    show Mpi.nmax 2 2 = 1
    decide
  -- the first rank
  have h0 : ∀ e, e.st.el = i.el.el →
      Calls (Spmd.passLoop junk 2 0 s true [some (some a, a')] { asRank i with el := e }) := by
    intro e he
    unfold Spmd.passLoop
    have : Spmd.begin (s.world (Spmd.leave e)) s.o true (some a, a')
        { asRank i with el := e } = .ok { asRank i with
          el := e, st := { i.st with maps := sm }, hasMaps := true } := by
      unfold Spmd.begin Spmd.resetIf initPair
      simp [asRank, hpre, hi, Spmd.Setup.world, ha, hall, bind, Except.bind, pure, Except.pure]
    show Calls ((Spmd.run (Spmd.begin _ _ _ (some a, a') _)).andThen _)
    rw [this]
    show Calls ((Spmd.chunkLoop junk 2 0 s (some a, a') true (List.range i.chunks.length) _).andThen _)
    refine Calls.andThen ?_ _
    rw [hc, List.length_cons, List.range_succ_eq_map]
    refine Calls.andThen ?_ _
    unfold Spmd.stepChunk
    have hget : pyGet i.chunks ((0 : Nat) : Int) = .ok (c, g) := by
      rw [hc]
      rfl
    show Calls ((Spmd.run (pyGet i.chunks ((0 : Nat) : Int))).andThen _)
    rw [hget]
    show Calls ((Spmd.implementScan _ _ _ _ _ _ _ _ _).andThen _)
    refine Calls.andThen ?_ _
    rw [hg.1] at him
    obtain ⟨e', h1, _⟩ := bind_ok him
    exact calls_implementScan junk 2 0 s.site _ c.start c.stop e i.el e' he h1
  -- the second rank
  have h1 : ∀ e, ∃ x, Spmd.passLoop junk 2 1 s true [some (b, b')] { asRank i with el := e }
      = .done (.error x) := by
    intro e
    unfold Spmd.passLoop
    have : ∃ x, Spmd.begin (s.world (Spmd.leave e)) s.o true (b, b')
        { asRank i with el := e } = .error x := by
      unfold Spmd.begin Spmd.resetIf initPair
      cases b with
      | none =>
        cases b' with
        | none => exact absurd rfl hb
        | some b' => exact ⟨.attributeError, by simp [asRank, hpre, hi, bind, Except.bind]⟩
      | some b =>
        obtain ⟨x, hx⟩ := hbad b rfl
        exact ⟨x, by simp [asRank, hpre, hi, Spmd.Setup.world, hx, bind, Except.bind]⟩
    obtain ⟨x, hx⟩ := this
    refine ⟨x, ?_⟩
    show (Spmd.run (Spmd.begin _ _ _ (b, b') _)).andThen _ = _
    rw [hx]
    rfl
  have hinit : ∀ r, (Spmd.initMmap r s (asRank i).el).st.el = i.el.el := by
    intro r
    unfold Spmd.initMmap
    split <;> rfl
  obtain ⟨c0, k0, h0⟩ := h0 _ (hinit 0)
  obtain ⟨x1, h1⟩ := h1 (Spmd.initMmap 1 s (asRank i).el)
  have hfin : Spmd.Blocks 2 0 0 (fun r => (Spmd.passLoop junk 2 r s true (Mpi.passes (l r) 1)
      { asRank i with el := Spmd.initMmap r s (asRank i).el }).andThen
        (Spmd.solveForMap s.w.q fill)) := by
    refine .now c0 (fun x => (k0 x).andThen (Spmd.solveForMap s.w.q fill)) ?_ 1 (by omega) (.error x1) ?_
    · exact congrArg (fun P => Spmd.Prog.andThen P (Spmd.solveForMap s.w.q fill)) h0
    · exact congrArg (fun P => Spmd.Prog.andThen P (Spmd.solveForMap s.w.q fill)) h1
  obtain ⟨n1, b1⟩ := Spmd.runsTo_barrier (size := 2)
  obtain ⟨n2, b2⟩ := Spmd.runsTo_scatterList (size := 2) (by omega) [((some a, a') : Pair), (b, b')] l hl
  obtain ⟨m2, hm2⟩ := Spmd.Runs.blocks (Q := fun r l => (Spmd.passLoop junk 2 r s true (Mpi.passes l 1)
      { asRank i with el := Spmd.initMmap r s (asRank i).el }).andThen
        (Spmd.solveForMap s.w.q fill)) (by omega) b2 hfin
  obtain ⟨m1, hm1⟩ := Spmd.Runs.blocks (Q := fun r _ => (Spmd.scatterList 2 r [((some a, a') : Pair),
    (b, b')]).andThen fun l => (Spmd.passLoop junk 2 r s true (Mpi.passes l 1)
      { asRank i with el := Spmd.initMmap r s (asRank i).el }).andThen
        (Spmd.solveForMap s.w.q fill)) (by omega) b1 hm2
  refine Spmd.Blocks.alwaysHangs (by omega) (n := m1) (hm1.congr (by omega) fun r _ => ?_)
  unfold program Spmd.scanInstrument
  rw [andThen_assoc]
  congr 1
  funext _
  rw [andThen_assoc, hn]

/-! ## examples -/

namespace Together

open Rec Whole

/-- A site from which the patch stands still; a memory map is made. -/
def s : Spmd.Setup where
  w :=
    { x := ext, q := qp, varphi := 0, nsideOut := 1, fsamp := 1
      implement := genericImplement ⟨fun _ _ _ => (0, 1), fun _ _ _ => ![1, 0, 0, 0],
        fun _ _ => ![1, 0, 0, 0], fun _ _ _ _ => []⟩
        ⟨1, 0, [0], [0], 0, 1, .triangle, 1, 0, false, false⟩
      resetEl := genericReset
      spinmaps := fun b => if b.ghosts = [] then Whole.w.spinmaps b else .error .valueError }
  o := Whole.o
  site := ⟨fun _ _ _ => (0, 1), fun _ _ _ => ![1, 0, 0, 0], fun _ _ => ![1, 0, 0, 0], fun _ _ _ _ => []⟩
  so := ⟨1, 0, [0], [0], 0, 1, .triangle, 1, 0, false, false⟩
  createMemmap := true
  nsamp := 3

def i : Inst (Scan.State ℝ Quat.Q) :=
  { rot := Whole.rot, hwp := Whole.hwp, el := ⟨[], [], none, none, none, none⟩, st := Whole.i.st,
    flag := none, hasMaps := false, chunks := Whole.i.chunks, maps := Whole.i.maps }

theorem ideal : ∀ p ∈ beams, IdealPair s.w Conv.Y 5 6 (Conv.rows 5 3 (Conv.coef 1)) (Conv.coef 1)
    (Conv.bcoef 2) 4 false false 7 (fun _ => det.data) p := by
  intro p hp
  simp only [beams, List.mem_cons, List.not_mem_nil, or_false] at hp
  rcases hp with rfl | rfl
  · refine .inr ⟨_, rfl, rfl, ⟨Conv.rows_ok _ _ _, Conv.rows_ok _ _ _, by simp, by simp, by decide,
      by decide, by simp, by simp⟩, rfl, rfl, ?_⟩
    rintro e (h | h)
    · obtain rfl := Option.some.inj h
      exact ⟨rfl, rfl, by show (7 : ℝ) = 0 + 7; norm_num, one_rot⟩
    · cases h
  · exact .inl rfl

/-- The hypotheses of `C106_recovery` (and so those of `C106_maps` and `C106_ends`) are met, with a
memory map and any number of ranks: the first rank gets the sky in pixel 0. -/
example (size : Nat) (hs : 0 < size) (junk : Junk) (hj : JunkOk junk) (fill : ℝ) :
    ∃ sky : List (Fin 3 → ℝ),
      AlwaysEnds size (fun r => program junk size r s beams fill (asRank i)) (firstOnly sky) ∧
      sky[0]? = some (stokes false
        (smoothI Conv.Y 1 5 (skyOf false (Conv.coef 1)) (beamOf false (Conv.bcoef 2)) 0)
        (smoothP Conv.Y 1 5 (skyOf false (Conv.coef 1)) (beamOf false (Conv.bcoef 2)) 0 *
          Complex.exp (2 * ((7 + 2 * 0) * Real.pi / 180 : ℝ) * Complex.I))) := by
  obtain ⟨bore, h1, h2⟩ := C106_recovery s ⟨rfl, rfl⟩ rfl (fun _ => 0) (.inl ⟨rfl, fun _ => rfl⟩)
    one_ne_zero one_pos (by decide) rfl none trivial 3 chunks mission_ok
    (.inr fun _ _ => one_dvd _) Conv.Y Conv.Y_conj ext_ok pix_ok solve_ok false agree one_pos
    rfl rfl rfl rfl rfl rfl (by decide) i ⟨rfl, rfl, rfl, .inl rfl, rfl⟩ trivial rfl rfl
    (fun _ => le_refl 3) (fun _ _ _ => one_rot) (Conv.coef_real 1 5) (Conv.bcoef_real 2 6) 7
    (fun _ => det.data) beams ideal
  obtain ⟨sky, h3, h4⟩ := h2 { Whole.M with bore := bore } rfl
    (fun t => by show (t : ℝ) = t / 1 + 0; simp) (fun _ => rfl) rotates plate size junk fill hs hj
  refine ⟨sky, h3, (h4 0 (by decide)).1 ?_⟩
  have hb : ∀ t, t < 3 → bore t = ![1, 0, 0, 0] := by
    intro t ht
    have hc : chunks = [{ start := 0, stop := 2, cidx := some 0 },
      { start := 2, stop := 3, cidx := some 1 }] := rfl
    by_cases h : t < 2
    · obtain ⟨_, _, _, _, h5⟩ := h1 { start := 0, stop := 2, cidx := some 0 }
        (by rw [hc]; exact List.mem_cons_self) t h
      have h6 : bore (0 + t) = ![1, 0, 0, 0] := h5
      rwa [Nat.zero_add] at h6
    · obtain ⟨_, _, _, _, h5⟩ := h1 { start := 2, stop := 3, cidx := some 1 } (by rw [hc]; simp) 0
        (by decide)
      have : t = 2 := by omega
      rw [this]
      exact h5
  have hse : seenBy { Whole.M with bore := bore } s.w 3 beams = seenBy Whole.M Whole.w 3 beams := by
    unfold seenBy
    refine List.flatMap_congr fun p _ => List.flatMap_congr fun t ht => ?_
    have := hb t (List.mem_range.1 ht)
    have ho : ∀ b v, obsAt { Whole.M with bore := bore } s.w.x s.w.q s.w.varphi s.w.nsideOut b t v
        = obsAt Whole.M Whole.w.x Whole.w.q Whole.w.varphi Whole.w.nsideOut b t v := by
      intro b v
      unfold obsAt
      show _ = _
      simp only [this]
      rfl
    unfold pairObs
    simp only [ho]
  rw [hse]
  exact Whole.three

/-- The hypotheses of `C106_hang_violation` are met. -/
example (junk : Junk) (fill : ℝ) : AlwaysHangs 2 (fun r => program junk 2 r s
    [(some ⟨det.point, [], 0⟩, none), (none, some ⟨det.point, [], 0⟩)] fill (asRank i)) 0 := by
  obtain ⟨sm, h⟩ : ∃ sm, s.w.spinmaps ⟨det.point, [], 0⟩ = .ok sm := by
    obtain ⟨sm, h, _⟩ := ideal_maps s.w one_pos Conv.Y (ideal (some ⟨det.point, [], 0⟩, none)
      List.mem_cons_self)
    rcases h with h | ⟨a, h1, h2, _⟩
    · cases h
    cases h1
    exact ⟨_, h2⟩
  have him : ∃ p, s.w.implement i.el { start := 0, stop := 2, cidx := some 0 } (false || s.o.ground) false
      = .ok p := by
    obtain ⟨bore, _, h⟩ := generic_steady s.w s.site s.so rfl (fun _ => 0) (.inl ⟨rfl, fun _ => rfl⟩)
      one_ne_zero one_pos (by decide) rfl none trivial rfl rfl 3 chunks mission_ok
      (.inr fun _ _ => one_dvd _) i.el trivial rfl rfl
    obtain ⟨I, h1, h2⟩ := h { Whole.M with bore := bore } rfl
      (fun t => by show (t : ℝ) = t / 1 + 0; simp) fun _ => rfl
    obtain ⟨_, ⟨p, e, h3, _⟩, _⟩ := h2 true i.el h1
    exact ⟨_, h3⟩
  obtain ⟨p, hp⟩ := him
  exact C106_hang_violation s ⟨rfl, rfl⟩ rfl _ none none (some ⟨det.point, [], 0⟩) (by simp)
    (fun x hx => by cases hx) sm h i rfl { start := 0, stop := 2, cidx := some 0 } false
    [({ start := 2, stop := 3, cidx := some 1 }, false)] rfl (by decide) p hp junk fill

end Together

end Verif.Props
