import Verif.Lemmas.ScanObjects
import Verif.Lemmas.PlateAngle
import Verif.Props.ScanFiltered

/-!
# C118: whole scans with beam objects
-/

noncomputable section

namespace Verif.Props

open Verif.Chunks Verif.Timeline Verif.Spinmaps Verif.MapMaking Verif.ScanInstrument Verif.Spec
open Verif.Beam (Heap Ref Val Obj Env Key LimitFree PairOk)
open Verif.ScanObjects (ObjPair ObjWorld Prepared Apart Settled Coarse Coefs usedBy PairOf PointOf OneOf skyMaker beamSees plateSees)

variable {E : Type}

/-- **C118.** Detector pairs given as beam objects are scanned, without MPI or with any number of ranks.
The maps then contain exactly the observations of C96, every pair with the spin maps of its own
coefficients and with the pointing, angles and dead flags of its own objects.  With MPI the objects
are afterwards as before.  Without MPI they can be used for the next scan, with the azimuthal limits of
their coefficients. -/
theorem C118_maps (s : ObjWorld E) (hf : LimitFree s.env) (hx : ExtOk s.w.x) (hq : PixOk s.w.q)
    (hns : 0 < s.w.nsideOut) (M : Motion) (o : Opts) (hbin : o.binning = true)
    (hpre : o.preview = false) (hgr : o.ground = false) (hre : o.reuseSpinmaps = false) (N : Nat)
    (chunks : List Chunk) (hmi : Mission N chunks) (hang : ∀ c ∈ chunks, c.hwpang = none) (i : Inst E)
    (hi : Ready s.w chunks i) (hrot : Rotates N chunks i.rot M.rot)
    (hhwp : Plate s.w.fsamp N i.hwp M.alpha) (hst : Steady s.w M chunks i.el)
    (nside : Nat) (q : ObjPair → Pair) (sm sm' : ObjPair → Spinmaps SpinDict) (h : Heap ℝ)
    (beams : List ObjPair) (hp : ∀ p ∈ beams, Prepared s nside h p (q p) (sm p) (sm' p))
    (hap : Apart s.env h beams) (mpi : Bool) (size : Nat) (hsize : 0 < size)
    (hone : mpi = false → size = 1) :
    ∃ m h', ScanObjects.scanAll s o beams mpi true size (i, h) = .ok (m, h') ∧
      Holds s.w.nsideOut m (beams.flatMap fun p => (List.range N).flatMap (pairObs M s.w.x s.w.q
        s.w.varphi s.w.nsideOut o.ctalk (detects M s.w.x o.interp nside (sm p)) (q p))) ∧
      (mpi = true → h' = h) ∧
      (mpi = false → ∀ p ∈ beams, Prepared s nside h' p (q p) (sm' p) (sm' p) ∧ Settled s.env h' p) := by
  obtain ⟨h', h1, h2, h3⟩ := ScanObjects.all_objects s hf hx hq hns M o hbin hpre hgr hre N chunks hmi i
    hi (moves_spec s.w.fsamp M N chunks hmi hang i.rot i.hwp hrot hhwp) hst nside q sm sm' h beams hp
    hap mpi size hsize hone
  exact ⟨_, h', h1, holds_mapsOf _ _, h2, h3⟩

/-- Pairs without coarse beams are always apart. -/
theorem C118_apart (env : Env ℝ) (h : Heap ℝ) (beams : List ObjPair)
    (hs : ∀ p ∈ beams, Settled env h p) : Apart env h beams := by
  refine List.pairwise_iff_forall_sublist.2 fun {p p'} hsub a e _ => hs p' ?_ a e
  exact hsub.subset (by simp)

/-- **C118, repeated scans (a part).** If no main beam is coarse, any number of scans with the same beam
objects, with and without MPI and with any numbers of ranks, all give maps of the same observations.
Missing: coarse main beams (`C118_second_violation`). -/
theorem C118_again_partial (s : ObjWorld E) (hf : LimitFree s.env) (hx : ExtOk s.w.x) (hq : PixOk s.w.q)
    (hns : 0 < s.w.nsideOut) (M : Motion) (o : Opts) (hbin : o.binning = true)
    (hpre : o.preview = false) (hgr : o.ground = false) (hre : o.reuseSpinmaps = false) (N : Nat)
    (chunks : List Chunk) (hmi : Mission N chunks) (hang : ∀ c ∈ chunks, c.hwpang = none)
    (nside : Nat) (q : ObjPair → Pair) (sm : ObjPair → Spinmaps SpinDict)
    (beams : List ObjPair) (l : List (Inst E × Bool × Nat))
    (hl : ∀ x ∈ l, Ready s.w chunks x.1 ∧ Rotates N chunks x.1.rot M.rot ∧
      Plate s.w.fsamp N x.1.hwp M.alpha ∧ Steady s.w M chunks x.1.el ∧ 0 < x.2.2 ∧
      (x.2.1 = false → x.2.2 = 1)) (h : Heap ℝ)
    (hp : ∀ p ∈ beams, Prepared s nside h p (q p) (sm p) (sm p) ∧ Settled s.env h p) :
    ∃ ms h', ScanObjects.scans s o beams l h = .ok (ms, h') ∧ ms.length = l.length ∧ ∀ m ∈ ms,
      Holds s.w.nsideOut m (beams.flatMap fun p => (List.range N).flatMap (pairObs M s.w.x s.w.q
        s.w.varphi s.w.nsideOut o.ctalk (detects M s.w.x o.interp nside (sm p)) (q p))) := by
  induction l generalizing h with
  | nil => exact ⟨[], h, rfl, rfl, by simp⟩
  | cons x l ih =>
    obtain ⟨i, mpi, size⟩ := x
    obtain ⟨c1, c2, c3, c4, c5, c6⟩ := hl _ List.mem_cons_self
    obtain ⟨m, h1, e1, e2, e3, e4⟩ := C118_maps s hf hx hq hns M o hbin hpre hgr hre N chunks hmi hang i
      c1 c2 c3 c4 nside q sm sm h beams (fun p hp' => (hp p hp').1)
      (C118_apart _ _ _ fun p hp' => (hp p hp').2) mpi size c5 c6
    have hp1 : ∀ p ∈ beams, Prepared s nside h1 p (q p) (sm p) (sm p) ∧ Settled s.env h1 p := by
      cases mpi with
      | true => rw [e3 rfl]; exact hp
      | false => exact e4 rfl
    obtain ⟨ms, h2, f1, f2, f3⟩ := ih (fun x hx => hl x (List.mem_cons_of_mem _ hx)) h1 hp1
    refine ⟨m :: ms, h2, ?_, by simp [f2], ?_⟩
    · unfold ScanObjects.scans
      rw [e1]
      simp only [bind, Except.bind]
      rw [f1]
      rfl
    · intro m' hm'
      rcases List.mem_cons.1 hm' with rfl | hm'
      · exact e2
      · exact f3 m' hm'

/-- **C118, beams, plates and sky (a part).** The preparation of a pair gives spin maps with which its
detectors see the convolution of the sky with the beam of A, at its present azimuthal limit, and with
the beams of the ghosts of A, each behind its own plate if it has a Mueller matrix `mu`: ghost number `k`
of either detector sees with ghost number `k` of A.  Missing: plates that are not as `PlateOk` says
(`C73_violation`), and polarization angles at which they are not as `AngleOk` says (`C72_violation`). -/
theorem C118_plates_partial (Y : Harmonics) (hY : Conjugation Y) (s : ObjWorld E)
    (hx : ExtOk s.w.x) (nside : Nat) (hns : 0 < nside) {Ls : Nat} {alm : List (List ℂ)}
    {sky : Nat → Nat → Nat → ℂ} {inputV beamV : Bool} (blmOf : Nat → List (List ℂ))
    (muOf : Nat → Spin.Mat4) (hs : s.sky = skyMaker Y alm nside inputV beamV blmOf muOf)
    (hsky : RealSky Ls sky) (h : Heap ℝ) (a : Ref) (gs : List Ref) (B : Option (Ref × List Ref))
    (c : Ref → Coefs) (M : Ref → Int) (sy : Ref → Val ℝ) (mu : Ref → Option Nat)
    (plates : Nat → Fin 4 → Fin 4 → ℝ) (M0 : Int) (q : Pair)
    (ok : PairOk s.env h a gs B (fun x => .obj (c x).n) M sy fun x => (mu x).elim .none .obj)
    (fresh : ∀ x ∈ a :: gs ++ B.elim [] Prod.snd, (h.cell x).attr .blm = none)
    (mmax : (h.cell a).attr .mmax = some (.int M0))
    (fewer : ∀ b ∈ B, b.2.length ≤ gs.length)
    (read : PairOf h (some a, B.map Prod.fst) q)
    (hreal : ∀ x ∈ a :: gs, RealBeam (c x).L (c x).b)
    (hin : ∀ x ∈ a :: gs, InputOk Ls (c x).L alm (blmOf (c x).n) sky (c x).b (min (M x) s.maxSpin)
      (sy x).truthy ((mu x).map muOf) inputV beamV)
    (hin0 : InputOk Ls (c a).L alm (blmOf (c a).n) sky (c a).b (min M0 s.maxSpin)
      (sy a).truthy ((mu a).map muOf) inputV beamV)
    (hmu : ∀ x ∈ a :: gs, ∀ k, mu x = some k → Vanishing Y ∧
      muOf k = realMat (plates k) ∧ PlateOk (plates k) inputV) :
    ∃ sm sm', Prepared s nside h (some a, B.map Prod.fst) q sm sm' ∧
      ∀ (Mo : Motion) (interp : Bool) (b : BinBeam), (live q.1 = some b ∨ live q.2 = some b) →
      (∀ x ∈ a :: gs, ∀ k, mu x = some k → ∀ pt ∈ b.beam :: b.ghosts,
        AngleOk (pt.polang * Real.pi / 180) (plates k) inputV) →
      ∀ (m : Spinmaps SpinDict) (lim : Int), ((m = sm ∧ lim = M0) ∨ (m = sm' ∧ lim = M a)) → ∀ t,
        detects Mo s.w.x interp nside m b t =
          plateSees Y s.w.x nside Ls sky inputV beamV interp Mo (c a) ((mu a).map plates) (sy a).truthy
            (min lim s.maxSpin) b.beam t +
          ((b.ghosts.filter fun g => !g.dead).map fun g =>
            let r := (gs[g.ghostIdx.toNat]?).getD a
            plateSees Y s.w.x nside Ls sky inputV beamV interp Mo (c r) ((mu r).map plates) (sy r).truthy
              (min (M r) s.maxSpin) g t).sum := by
  have hmk : ∀ x lim, InputOk Ls (c x).L alm (blmOf (c x).n) sky (c x).b lim (sy x).truthy
      ((mu x).map muOf) inputV beamV → s.sky (.obj (c x).n) (.int lim) (sy x) ((mu x).elim .none .obj) =
        .ok (dictSpec Y nside (min Ls (c x).L) sky (c x).b lim (sy x).truthy ((mu x).map muOf) inputV
          beamV) := by
    intro x lim hi
    rw [hs]
    cases hm : mu x with
    | none =>
      rw [hm] at hi
      exact spinmapsOf_spec Y nside hi
    | some k =>
      rw [hm] at hi
      exact spinmapsOf_spec Y nside hi
  have hdict : ∀ x lim, 0 ≤ lim → DictOk (12 * nside ^ 2) (dictSpec Y nside (min Ls (c x).L) sky
        (c x).b lim (sy x).truthy ((mu x).map muOf) inputV beamV) := fun x lim h0 =>
    dictF_ok nside _ _ _ h0 _
  have hprep := Prepared.pair (s := s) (nside := nside) (h := h) a gs B (fun x => .obj (c x).n) M sy
    (fun x => (mu x).elim .none .obj) M0 q _ _ (fun g => dictSpec Y nside (min Ls (c g).L) sky (c g).b
      (min (M g) s.maxSpin) (sy g).truthy ((mu g).map muOf) inputV beamV) ok fresh mmax fewer read hns
    (hmk a _ hin0) (hmk a _ (hin a (by simp)))
    (fun g hg => hmk g _ (hin g (List.mem_cons_of_mem _ hg))) (hdict a _ hin0.spin0)
    (hdict a _ (hin a (by simp)).spin0) (fun g hg => hdict g _ (hin g (List.mem_cons_of_mem _ hg)).spin0)
  refine ⟨_, _, hprep, fun Mo interp b hb hpol m lim hm t => ?_⟩
  have hsig : ∀ x ∈ a :: gs, ∀ lim, 0 ≤ lim → ∀ pt : Timeline.Beam, (pt = b.beam ∨ pt ∈ b.ghosts) →
      Mo.signal s.w.x interp nside (dictSpec Y nside (min Ls (c x).L) sky (c x).b lim (sy x).truthy
        ((mu x).map muOf) inputV beamV) pt t =
      plateSees Y s.w.x nside Ls sky inputV beamV interp Mo (c x) ((mu x).map plates) (sy x).truthy lim pt
        t := by
    intro x hxm lim h0 pt hpt
    have ha : RealSky (min Ls (c x).L) sky :=
      fun i hi l hl => hsky i hi l (le_trans hl (min_le_left _ _))
    have hb : RealBeam (min Ls (c x).L) (c x).b :=
      fun l hl => hreal x hxm l (le_trans hl (min_le_right _ _))
    unfold Motion.signal plateSees
    rw [signal_dictSpec Y nside _ _ _ _ h0 _ _ _ _ _ _ (sampleAt_inRange s.w.x hx interp _ nside hns _ _ _)]
    cases hm : mu x with
    | none => exact signal_old Y hY nside _ sky (c x).b ha hb _ h0 _ _ _ _ _ _
    | some k =>
      obtain ⟨hV, e1, e2⟩ := hmu x hxm k hm
      have e3 : AngleOk (pt.polang * Real.pi / 180) (plates k) inputV :=
        hpol x hxm k hm pt (by simpa using hpt)
      dsimp only [Option.map_some]
      rw [e1]
      exact signal_angle Y hY hV nside _ sky (c x).b ha hb inputV beamV _ e2 _ e3 _ _ h0 _
  have hghost : ∀ g ∈ b.ghosts, ∃ k : Nat, k < gs.length ∧ g.ghostIdx = k :=
    ScanObjects.ghost_numbers ok fewer (ScanObjects.readPair_of read) hb
  unfold detects
  refine congrArg₂ (· + ·) ?_ (congrArg List.sum (List.map_congr_left fun g hg => ?_))
  · rcases hm with ⟨rfl, rfl⟩ | ⟨rfl, rfl⟩
    · exact hsig a (by simp) _ hin0.spin0 _ (.inl rfl)
    · exact hsig a (by simp) _ (hin a (by simp)).spin0 _ (.inl rfl)
  · obtain ⟨k, hk, e⟩ := hghost g (List.mem_filter.1 hg).1
    have hgm : ghostMaps m g = dictSpec Y nside (min Ls (c gs[k]).L) sky (c gs[k]).b
        (min (M gs[k]) s.maxSpin) (sy gs[k]).truthy ((mu gs[k]).map muOf) inputV beamV := by
      have hmg : m.ghosts = gs.map fun g => some (dictSpec Y nside (min Ls (c g).L) sky (c g).b
          (min (M g) s.maxSpin) (sy g).truthy ((mu g).map muOf) inputV beamV) := by
        rcases hm with ⟨rfl, -⟩ | ⟨rfl, -⟩ <;> rfl
      unfold ghostMaps
      rw [hmg, e, ScanObjects.pyGet_map _ _ _ hk]
    have hr : (gs[g.ghostIdx.toNat]?).getD a = gs[k] := by
      rw [e, Int.toNat_natCast, List.getElem?_eq_getElem hk]
      rfl
    dsimp only
    rw [hgm, hr]
    exact hsig _ (List.mem_cons_of_mem _ (List.getElem_mem hk)) _
      (hin _ (List.mem_cons_of_mem _ (List.getElem_mem hk))).spin0 _ (.inr (List.mem_filter.1 hg).1)

/-- **C118, beams and sky.** The preparation of a pair without Mueller matrices gives spin maps with
which its detectors see the convolution of the sky with the beam of A, at its present azimuthal limit,
and with the beams of the ghosts of A: ghost number `k` of either detector sees with ghost number `k`
of A. -/
theorem C118_convolution (Y : Harmonics) (hY : Conjugation Y) (s : ObjWorld E) (hx : ExtOk s.w.x)
    (nside : Nat) (hns : 0 < nside) {Ls : Nat} {alm : List (List ℂ)} {sky : Nat → Nat → Nat → ℂ}
    {inputV beamV : Bool} (blmOf : Nat → List (List ℂ)) (muOf : Nat → Spin.Mat4)
    (hs : s.sky = skyMaker Y alm nside inputV beamV blmOf muOf) (hsky : RealSky Ls sky)
    (h : Heap ℝ) (a : Ref) (gs : List Ref) (B : Option (Ref × List Ref)) (c : Ref → Coefs)
    (M : Ref → Int) (sy : Ref → Val ℝ) (M0 : Int) (q : Pair)
    (ok : PairOk s.env h a gs B (fun x => .obj (c x).n) M sy fun _ => .none)
    (fresh : ∀ x ∈ a :: gs ++ B.elim [] Prod.snd, (h.cell x).attr .blm = none)
    (mmax : (h.cell a).attr .mmax = some (.int M0))
    (fewer : ∀ b ∈ B, b.2.length ≤ gs.length)
    (read : PairOf h (some a, B.map Prod.fst) q)
    (hreal : ∀ x ∈ a :: gs, RealBeam (c x).L (c x).b)
    (hin : ∀ x ∈ a :: gs, InputOk Ls (c x).L alm (blmOf (c x).n) sky (c x).b (min (M x) s.maxSpin)
      (sy x).truthy none inputV beamV)
    (hin0 : InputOk Ls (c a).L alm (blmOf (c a).n) sky (c a).b (min M0 s.maxSpin)
      (sy a).truthy none inputV beamV) :
    ∃ sm sm', Prepared s nside h (some a, B.map Prod.fst) q sm sm' ∧
      ∀ (Mo : Motion) (interp : Bool) (b : BinBeam), (live q.1 = some b ∨ live q.2 = some b) →
      ∀ (m : Spinmaps SpinDict) (lim : Int), ((m = sm ∧ lim = M0) ∨ (m = sm' ∧ lim = M a)) → ∀ t,
        detects Mo s.w.x interp nside m b t =
          beamSees Y s.w.x nside Ls sky inputV beamV interp Mo (c a) (sy a).truthy (min lim s.maxSpin)
            b.beam t +
          ((b.ghosts.filter fun g => !g.dead).map fun g =>
            let r := (gs[g.ghostIdx.toNat]?).getD a
            beamSees Y s.w.x nside Ls sky inputV beamV interp Mo (c r) (sy r).truthy
              (min (M r) s.maxSpin) g t).sum := by
  obtain ⟨sm, sm', h1, h2⟩ := C118_plates_partial Y hY s hx nside hns blmOf muOf hs hsky h a gs B c M sy
    (fun _ => none) (fun _ _ _ => 0) M0 q ok fresh mmax fewer read hreal hin hin0 (fun _ _ _ e => by cases e)
  exact ⟨sm, sm', h1, fun Mo interp b hb m lim hm t => h2 Mo interp b hb (fun _ _ _ e => by cases e) m lim
    hm t⟩

/-- **C118, violation: the second scan.** With a coarse main beam the second scan without MPI uses
another azimuthal limit than the first one (`sm'` instead of `sm`), and than the second scan with MPI. -/
theorem C118_second_violation (s : ObjWorld E) (hf : LimitFree s.env) (hx : ExtOk s.w.x)
    (hq : PixOk s.w.q) (hns : 0 < s.w.nsideOut) (M : Motion) (o : Opts) (hbin : o.binning = true)
    (hpre : o.preview = false) (hgr : o.ground = false) (hre : o.reuseSpinmaps = false) (N : Nat)
    (chunks : List Chunk) (hmi : Mission N chunks) (hang : ∀ c ∈ chunks, c.hwpang = none) (i : Inst E)
    (hi : Ready s.w chunks i) (hrot : Rotates N chunks i.rot M.rot)
    (hhwp : Plate s.w.fsamp N i.hwp M.alpha) (hst : Steady s.w M chunks i.el)
    (nside : Nat) (q : ObjPair → Pair) (sm sm' : ObjPair → Spinmaps SpinDict) (h : Heap ℝ)
    (beams : List ObjPair) (hp : ∀ p ∈ beams, Prepared s nside h p (q p) (sm p) (sm' p))
    (hap : Apart s.env h beams) (size : Nat) (hsize : 0 < size) :
    ∃ m1 m2 n1 n2 h1 h2,
      ScanObjects.scans s o beams [(i, false, 1), (i, false, 1)] h = .ok ([m1, m2], h1) ∧
      ScanObjects.scans s o beams [(i, true, size), (i, true, size)] h = .ok ([n1, n2], h2) ∧
      (∀ m ∈ [m1, n1, n2], Holds s.w.nsideOut m (beams.flatMap fun p => (List.range N).flatMap
        (pairObs M s.w.x s.w.q s.w.varphi s.w.nsideOut o.ctalk
          (detects M s.w.x o.interp nside (sm p)) (q p)))) ∧
      Holds s.w.nsideOut m2 (beams.flatMap fun p => (List.range N).flatMap
        (pairObs M s.w.x s.w.q s.w.varphi s.w.nsideOut o.ctalk
          (detects M s.w.x o.interp nside (sm' p)) (q p))) := by
  have hmaps := C118_maps s hf hx hq hns M o hbin hpre hgr hre N chunks hmi hang i hi hrot hhwp hst
    nside q
  obtain ⟨m1, h1, a1, a2, -, a4⟩ := hmaps sm sm' h beams hp hap false 1 one_pos fun _ => rfl
  obtain ⟨m2, h1', b1, b2, -, -⟩ := hmaps sm' sm' h1 beams (fun p hp' => (a4 rfl p hp').1)
    (C118_apart _ _ _ fun p hp' => (a4 rfl p hp').2) false 1 one_pos fun _ => rfl
  obtain ⟨n1, h2, c1, c2, c3, -⟩ := hmaps sm sm' h beams hp hap true size hsize fun e => by cases e
  obtain rfl := c3 rfl
  refine ⟨m1, m2, n1, n1, h1', h2, ?_, ?_, ?_, b2⟩
  · unfold ScanObjects.scans
    rw [a1]
    simp only [bind, Except.bind]
    unfold ScanObjects.scans
    rw [b1]
    rfl
  · unfold ScanObjects.scans
    rw [c1]
    simp only [bind, Except.bind]
    unfold ScanObjects.scans
    rw [c1]
    rfl
  · intro m hm
    simp only [List.mem_cons, List.not_mem_nil, or_false] at hm
    rcases hm with rfl | rfl | rfl
    · exact a2
    · exact c2
    · exact c2

/-! ## The hypotheses are met -/

namespace Objects

open Rec Whole Sieved

/-- Coefficients are in a file with azimuthal limit 0, or are made without limit. -/
def env : Env ℝ where
  pi := Real.pi
  loadBlm := fun a => if a .poFile = some (.str "beam.fits") then .ok (.obj 1, some 0)
    else .ok (.obj 1, none)

/-- Attributes of all beams. -/
def attrs (ghost : Bool) (file : Val ℝ) : Key → Option (Val ℝ)
  | .az => some (.num 1)
  | .el => some (.int 2)
  | .polang => some (.num 0)
  | .polangError => some (.int 0)
  | .dead => some (.bool false)
  | .ghost => some (.bool ghost)
  | .symmetric => some (.bool false)
  | .hwpMueller => some .none
  | .mmax => some (.int 4)
  | .lmax => some (.int 4)
  | .poFile => some file
  | .ghostIdx => if ghost then some (.int 0) else none
  | .ghostCount => if ghost then none else some (.int 1)
  | _ => none

/-- Beam 0 is in a FITS file and has no ghosts; beams 1 and 3 have one ghost each, 2 and 4. -/
def heap : Heap ℝ where
  size := 5
  cell := fun r =>
    if r = 0 then ⟨Function.update (attrs false (.str "beam.fits")) .ghostCount (some (.int 0)), some []⟩
    else if r = 1 then ⟨attrs false .none, some [2]⟩
    else if r = 3 then ⟨attrs false .none, some [4]⟩
    else ⟨attrs true .none, none⟩

/-- A polarized sky, of which a beam with azimuthal limit 0 sees nothing. -/
def maker : Beam.Maker ℝ SpinDict := fun _ lim _ _ =>
  if lim = .int 0 then .ok [(.s0a0, ⟨[List.replicate 12 0], [0]⟩), (.s2a4, ⟨[List.replicate 12 0], [0]⟩)]
  else .ok Sieved.sm.main

def s : ObjWorld Unit := ⟨Sieved.w, env, maker, maker, 4⟩

theorem free : LimitFree env := by
  intro a a' h
  unfold env
  dsimp only
  rw [h .poFile (by simp) (by simp)]

/-- Maps of nothing. -/
def dark : Spinmaps SpinDict :=
  ⟨[(.s0a0, ⟨[List.replicate 12 0], [0]⟩), (.s2a4, ⟨[List.replicate 12 0], [0]⟩)], none, []⟩

theorem dark_ok : DictOk (12 * 1 ^ 2) dark.main := by
  refine ⟨?_, .inl rfl, ?_, ?_, ?_, ?_⟩
  · intro x hx
    simp only [dark, List.mem_cons, List.not_mem_nil, or_false] at hx
    rcases hx with rfl | rfl <;>
      exact ⟨rfl, by simp, by intro m hm; rw [List.mem_singleton.1 hm]; simp⟩
  · intro s hs
    have hs : s ∈ [(0 : Int)] := hs
    rw [List.mem_singleton.1 hs]
  · exact List.nodup_nil
  · intro s hs
    cases hs
  · intro h
    cases h

/-- A detector without errors, at azimuth 1 and elevation 2. -/
theorem point_of (o : Obj ℝ) (hg : o.isGhost = false) (h1 : o.attr .dead = some (.bool false))
    (h2 : o.attr .az = some (.num 1)) (h3 : o.attr .el = some (.int 2))
    (h4 : o.attr .polang = some (.num 0)) (h5 : o.attr .polangError = some (.int 0)) :
    PointOf o ⟨false, false, 0, 1, 2, 0⟩ :=
  ⟨⟨_, h1, rfl⟩, hg.symm, by simp [hg], ⟨_, h2, rfl⟩, ⟨_, h3, by simp [Val.toNum]⟩,
    ⟨_, _, _, _, h4, h5, rfl, rfl, by simp⟩⟩

theorem main_prepared : Prepared s 1 heap (some 0, none) (some Sieved.b, none) Sieved.sm dark := by
  have hc : heap.cell 0 = ⟨Function.update (attrs false (.str "beam.fits")) .ghostCount (some (.int 0)),
    some []⟩ := rfl
  refine Prepared.pair (s := s) 0 [] none (fun _ => .obj 1) (fun _ => 0) (fun _ => .bool false)
    (fun _ => .none) 4 _ _ _ (fun _ => []) ⟨⟨⟨by decide, ?_, rfl⟩, ?_, by simp⟩, by simp, ?_, ?_, ?_⟩ ?_ ?_
    (by simp) ?_ one_pos ?_ ?_ (by simp) Sieved.sm_ok dark_ok (by simp)
  · simp [hc, Obj.isGhost, attrs, Val.truthy]
  · simp [hc]
  · intro x hx
    obtain rfl : x = 0 := by simpa using hx
    have := Beam.Describes.file (env := s.env) (o := heap.cell 0) (v := .obj 1) 0 4 4 (by simp [hc, attrs])
      (by simp [hc, attrs, s, env]) (by simp [hc, attrs]) (by simp [hc, attrs])
    simpa using this
  · intro x hx
    obtain rfl : x = 0 := by simpa using hx
    simp [hc, attrs]
  · intro x hx
    obtain rfl : x = 0 := by simpa using hx
    simp [hc, attrs]
  · intro x hx
    obtain rfl : x = 0 := by simpa using hx
    simp [hc, attrs]
  · simp [hc, attrs]
  · refine ⟨.some _ _ ⟨point_of _ (by simp [hc, Obj.isGhost, attrs, Val.truthy]) ?_ ?_ ?_ ?_ ?_, ?_, ?_⟩, .none⟩ <;>
      simp [hc, attrs, Val.toNum, Sieved.b]
  · simp [s, maker, Sieved.sm]
  · simp [s, maker]

/-- A detector with a ghost, as scanning sees it. -/
def ghosted : BinBeam := ⟨⟨false, false, 0, 1, 2, 0⟩, [⟨false, true, 0, 1, 2, 0⟩], 0⟩

/-- The second pair: two detectors with a ghost each. -/
theorem pair_ok (v : Ref → Val ℝ) (hv : ∀ x, v x = .obj 1) :
    PairOk env heap 1 [2] (some (3, [4])) v (fun _ => 4) (fun _ => .bool false) fun _ => .none := by
  have h1 : heap.cell 1 = ⟨attrs false .none, some [2]⟩ := rfl
  have h2 : heap.cell 2 = ⟨attrs true .none, none⟩ := rfl
  have h3 : heap.cell 3 = ⟨attrs false .none, some [4]⟩ := rfl
  have h4 : heap.cell 4 = ⟨attrs true .none, none⟩ := rfl
  have hd : ∀ x, (heap.cell x = ⟨attrs false .none, some [2]⟩ ∨ heap.cell x = ⟨attrs true .none, none⟩) →
      Beam.Describes env (heap.cell x) (v x) 4 := by
    intro x hx
    rw [hv]
    rcases hx with e | e <;> rw [e] <;> exact .made 4 rfl (by simp [env, attrs]) rfl
  refine ⟨⟨⟨by decide, ?_, rfl⟩, ?_, ?_⟩, ?_, ?_, ?_, ?_⟩
  · simp [h1, Obj.isGhost, attrs, Val.truthy]
  · simp [h1, attrs]
  · intro k g hk
    rcases k with _ | k
    · obtain rfl : 2 = g := by simpa using hk
      simp [h2, Obj.isGhost, attrs, Val.truthy]
    · simp at hk
  · intro b hb
    obtain rfl : (3, [4]) = b := by simpa using hb
    refine ⟨⟨by decide, ?_, rfl⟩, ?_, ?_⟩
    · simp [h3, Obj.isGhost, attrs, Val.truthy]
    · simp [h3, attrs]
    · intro k g hk
      rcases k with _ | k
      · obtain rfl : 4 = g := by simpa using hk
        simp [h4, Obj.isGhost, attrs, Val.truthy]
      · simp at hk
  · intro x hx
    have hx : x = 1 ∨ x = 2 ∨ x = 4 := by simpa using hx
    rcases hx with rfl | rfl | rfl
    · exact hd 1 (.inl h1)
    · exact hd 2 (.inr h2)
    · exact hd 4 (.inr h4)
  · intro x hx
    have hx : x = 1 ∨ x = 2 := by simpa using hx
    rcases hx with rfl | rfl
    · simp [h1, attrs]
    · simp [h2, attrs]
  · intro x hx
    have hx : x = 1 ∨ x = 2 := by simpa using hx
    rcases hx with rfl | rfl
    · simp [h1, attrs]
    · simp [h2, attrs]

theorem pair_fresh : ∀ x ∈ (1 : Ref) :: [2] ++ [4], (heap.cell x).attr .blm = none := by
  intro x hx
  have hx : x = 1 ∨ x = 2 ∨ x = 4 := by simpa using hx
  rcases hx with rfl | rfl | rfl <;> rfl

theorem pair_read : PairOf heap (some 1, some 3) (some ghosted, some ghosted) := by
  have h1 : heap.cell 1 = ⟨attrs false .none, some [2]⟩ := rfl
  have h2 : heap.cell 2 = ⟨attrs true .none, none⟩ := rfl
  have h3 : heap.cell 3 = ⟨attrs false .none, some [4]⟩ := rfl
  have h4 : heap.cell 4 = ⟨attrs true .none, none⟩ := rfl
  have hg : ∀ r, heap.cell r = ⟨attrs true .none, none⟩ →
      PointOf (heap.cell r) ⟨false, true, 0, 1, 2, 0⟩ := by
    intro r hr
    rw [hr]
    exact ⟨⟨_, rfl, rfl⟩, by simp [Obj.isGhost, attrs, Val.truthy],
      by simp [Obj.isGhost, attrs, Val.truthy], ⟨_, rfl, rfl⟩, ⟨_, rfl, by simp [Val.toNum]⟩,
      ⟨_, _, _, _, rfl, rfl, rfl, rfl, by simp⟩⟩
  refine ⟨.some _ _ ⟨point_of _ (by simp [h1, Obj.isGhost, attrs, Val.truthy]) ?_ ?_ ?_ ?_ ?_, ?_, ?_⟩,
    .some _ _ ⟨point_of _ (by simp [h3, Obj.isGhost, attrs, Val.truthy]) ?_ ?_ ?_ ?_ ?_, ?_, ?_⟩⟩
  all_goals first
    | simp [h1, h3, attrs, Val.toNum]; done
    | (rw [h1]; exact .cons (hg 2 h2) .nil)
    | (rw [h3]; exact .cons (hg 4 h4) .nil)
    | exact ⟨_, by rw [h1]; rfl, rfl⟩
    | exact ⟨_, by rw [h3]; rfl, rfl⟩

/-- Maps of the second pair. -/
def sm2 : Spinmaps SpinDict := ⟨Sieved.sm.main, none, [some Sieved.sm.main]⟩

theorem pair_prepared : Prepared s 1 heap (some 1, some 3) (some ghosted, some ghosted) sm2 sm2 := by
  refine Prepared.pair (s := s) 1 [2] (some (3, [4])) (fun _ => .obj 1) (fun _ => 4)
    (fun _ => .bool false) (fun _ => .none) 4 _ _ _ (fun _ => Sieved.sm.main) (pair_ok _ fun _ => rfl)
    pair_fresh rfl (by simp) pair_read one_pos ?_ ?_ ?_ Sieved.sm_ok Sieved.sm_ok (fun _ _ => Sieved.sm_ok)
  · simp [s, maker]
  · simp [s, maker]
  · simp [s, maker]

def q : ObjPair → Pair
  | (some 0, _) => (some Sieved.b, none)
  | (some _, _) => (some ghosted, some ghosted)
  | _ => (none, none)

def sms : ObjPair → Spinmaps SpinDict
  | (some 0, _) => Sieved.sm
  | _ => sm2

def sms' : ObjPair → Spinmaps SpinDict
  | (some 0, _) => dark
  | _ => sm2

def three : List ObjPair := [(some 0, none), (some 1, some 3), (none, none)]

theorem three_ok : ∀ p ∈ three, Prepared s 1 heap p (q p) (sms p) (sms' p) := by
  intro p hp
  simp only [three, List.mem_cons, List.not_mem_nil, or_false] at hp
  rcases hp with rfl | rfl | rfl
  · exact main_prepared
  · exact pair_prepared
  · exact .empty _ _

theorem fine_settled (r : Ref) (hr : (heap.cell r).attr .poFile = some .none) :
    ¬ Coarse env (heap.cell r) := by
  rintro ⟨v, f, M, h, -⟩
  simp [env, hr] at h

theorem three_apart : Apart s.env heap three := by
  refine List.Pairwise.cons ?_ (List.Pairwise.cons ?_ (List.Pairwise.cons ?_ .nil))
  · intro p' hp' a e _
    have hp' : p' = (some 1, some 3) ∨ p' = (none, none) := by simpa using hp'
    rcases hp' with rfl | rfl
    · obtain rfl : 1 = a := by simpa using e
      exact fine_settled 1 rfl
    · cases e
  · intro p' hp' a e _
    obtain rfl : p' = (none, none) := by simpa using hp'
    cases e
  · intro p' hp'
    cases hp'

/-- The hypotheses of `C118_maps` are met, by three pairs on two ranks. -/
example : ∃ m h', ScanObjects.scanAll s o three true true 2 (i, heap) = .ok (m, h') ∧
    Holds 1 m (three.flatMap fun p => (List.range 3).flatMap (pairObs M Sieved.w.x Sieved.w.q
        Sieved.w.varphi 1 o.ctalk (detects M Sieved.w.x o.interp 1 (sms p)) (q p))) := by
  obtain ⟨m, h', h1, h2, -⟩ := C118_maps s free ext_ok pix_ok one_pos M o rfl rfl rfl rfl 3 chunks
    mission_ok (by decide) i Sieved.ready rotates plate (steady _) 1 q sms sms' heap three three_ok
    three_apart true 2 two_pos (by simp)
  exact ⟨m, h', h1, h2⟩

/-- Those of `C118_again_partial`: three scans of the second pair, with and without MPI. -/
example : ∃ ms h', ScanObjects.scans s o [(some 1, some 3)] [(i, true, 2), (i, false, 1), (i, true, 3)]
    heap = .ok (ms, h') ∧ ms.length = 3 ∧ ∀ m ∈ ms,
      Holds 1 m ([(some 1, some 3)].flatMap fun p : ObjPair => (List.range 3).flatMap (pairObs M Sieved.w.x Sieved.w.q
        Sieved.w.varphi 1 o.ctalk (detects M Sieved.w.x o.interp 1 sm2) (some ghosted, some ghosted))) := by
  refine C118_again_partial s free ext_ok pix_ok one_pos M o rfl rfl rfl rfl 3 chunks mission_ok
    (by decide) 1 (fun _ => (some ghosted, some ghosted)) (fun _ => sm2) [(some 1, some 3)]
    [(i, true, 2), (i, false, 1), (i, true, 3)] ?_ heap ?_
  · intro x hx
    simp only [List.mem_cons, List.not_mem_nil, or_false] at hx
    rcases hx with rfl | rfl | rfl <;>
      exact ⟨Sieved.ready, rotates, plate, steady _, by simp, by simp⟩
  · intro p hp
    obtain rfl : p = (some 1, some 3) := by simpa using hp
    exact ⟨pair_prepared, fun a e => by cases e; exact fine_settled 1 rfl⟩

/-- The same with the maps of a sky of one E mode. -/
def sE : ObjWorld Unit := { s with
  sky := skyMaker Conv.Y (Conv.rows 4 3 (Conv.one 1)) 1 false false (fun _ => Conv.rows 4 3 Conv.symb)
    fun _ => 0 }

/-- Those of `C118_convolution`, by the second pair. -/
example : ∃ sm sm', Prepared sE 1 heap (some 1, some 3) (some ghosted, some ghosted) sm sm' := by
  have hin : InputOk 4 4 (Conv.rows 4 3 (Conv.one 1)) (Conv.rows 4 3 Conv.symb) (Conv.one 1) Conv.symb 4
      false none false false :=
    ⟨Conv.rows_ok _ _ _, Conv.rows_ok _ _ _, by simp, by simp, by simp, by simp, by simp, by simp⟩
  obtain ⟨sm, sm', h, -⟩ := C118_convolution Conv.Y Conv.Y_conj sE
    ext_ok 1 one_pos (fun _ => Conv.rows 4 3 Conv.symb) (fun _ => 0) rfl (Conv.one_real 1 4) heap 1 [2]
    (some (3, [4])) (fun _ => ⟨1, 4, Conv.symb⟩) (fun _ => 4) (fun _ => .bool false) 4
    (some ghosted, some ghosted) (pair_ok _ fun _ => rfl) pair_fresh rfl (by simp) pair_read
    (fun _ _ => Conv.symb_real _) (fun _ _ => by simpa [sE, s, Val.truthy] using hin) (by simpa [sE, s, Val.truthy] using hin)
  exact ⟨sm, sm', h⟩

/-- A detector with a Mueller matrix. -/
def plated : Heap ℝ where
  size := 1
  cell := fun _ => ⟨Function.update (Function.update (attrs false .none) .ghostCount (some (.int 0)))
    .hwpMueller (some (.obj 7)), some []⟩

def sP : ObjWorld Unit := { s with
  sky := skyMaker Conv.Y (Conv.rows 4 3 (Conv.one 1)) 1 false false (fun _ => Conv.rows 4 3 Conv.symb)
    fun _ => realMat idealMat }

/-- Those of `C118_plates_partial`: a detector with an ideal plate. -/
example : ∃ sm sm', Prepared sP 1 plated (some 0, none) (some Sieved.b, none) sm sm' := by
  have hin : InputOk 4 4 (Conv.rows 4 3 (Conv.one 1)) (Conv.rows 4 3 Conv.symb) (Conv.one 1) Conv.symb 4
      false (some (realMat idealMat)) false false :=
    ⟨Conv.rows_ok _ _ _, Conv.rows_ok _ _ _, by simp, by simp, by simp, by simp, by simp, by simp⟩
  have hc : plated.cell 0 = ⟨Function.update (Function.update (attrs false .none) .ghostCount
    (some (.int 0))) .hwpMueller (some (.obj 7)), some []⟩ := rfl
  obtain ⟨sm, sm', h, -⟩ := C118_plates_partial Conv.Y Conv.Y_conj sP ext_ok 1 one_pos
    (fun _ => Conv.rows 4 3 Conv.symb) (fun _ => realMat idealMat) rfl (Conv.one_real 1 4) plated 0 []
    none (fun _ => ⟨1, 4, Conv.symb⟩) (fun _ => 4) (fun _ => .bool false) (fun _ => some 7)
    (fun _ => idealMat) 4 (some Sieved.b, none)
    ⟨⟨⟨by decide, by simp [hc, Obj.isGhost, attrs, Val.truthy], rfl⟩, by simp [hc], by simp⟩, by simp, by
      intro x hx
      obtain rfl : x = 0 := by simpa using hx
      exact .made 4 rfl (by simp [hc, sP, s, env, attrs]) (by simp [hc, attrs]), by
      intro x hx
      obtain rfl : x = 0 := by simpa using hx
      simp [hc, attrs], by
      intro x hx
      obtain rfl : x = 0 := by simpa using hx
      simp [hc]⟩
    (by intro x hx; obtain rfl : x = 0 := by simpa using hx
        simp [hc, attrs])
    (by simp [hc, attrs]) (by simp)
    (by
      refine ⟨.some _ _ ⟨point_of _ (by simp [hc, Obj.isGhost, attrs, Val.truthy]) ?_ ?_ ?_ ?_ ?_, ?_, ?_⟩,
        .none⟩ <;> simp [hc, attrs, Val.toNum, Sieved.b])
    (fun _ _ => Conv.symb_real _) (fun _ _ => by simpa [sP, s, Val.truthy] using hin)
    (by simpa [sP, s, Val.truthy] using hin)
    (fun _ _ _ _ => ⟨Conv.Y_vanishing, rfl, ⟨by simp [idealMat], by simp⟩⟩)
  exact ⟨sm, sm', h⟩

theorem sees_dark (t : Nat) : detects M Sieved.w.x o.interp 1 dark b t = 0 := by
  unfold detects Motion.signal Timeline.signal
  have h : isOld dark.main = true := rfl
  have h1 : Timeline.part dark.main .s0a0 = ⟨[List.replicate 12 0], [0]⟩ := rfl
  have h2 : Timeline.part dark.main .s2a4 = ⟨[List.replicate 12 0], [0]⟩ := rfl
  have h3 : b.ghosts = [] := rfl
  simp [h, h1, h2, h3, spinSum, spinSumReal, see, sampleAt, ext, Sieved.w, Whole.w, o, M]

end Objects

open Objects in
/-- **C118, violation: a concrete case.** A detector whose FITS file has azimuthal limit 0, with limit 4
itself, sees a polarized sky: the first sum of pixel 0 is 2.  The second scan without MPI gives 0, with
MPI again 2. -/
theorem C118_fits_violation : ∃ m1 m2 n1 n2 h1 h2,
    ScanObjects.scans s Whole.o [(some 0, none)] [(Whole.i, false, 1), (Whole.i, false, 1)] heap =
      .ok ([m1, m2], h1) ∧
    ScanObjects.scans s Whole.o [(some 0, none)] [(Whole.i, true, 1), (Whole.i, true, 1)] heap =
      .ok ([n1, n2], h2) ∧
    (m1[0]?).map (fun c => c.vec 1) = some 2 ∧ (m2[0]?).map (fun c => c.vec 1) = some 0 ∧
    (n1[0]?).map (fun c => c.vec 1) = some 2 ∧ (n2[0]?).map (fun c => c.vec 1) = some 2 := by
  obtain ⟨m1, m2, n1, n2, h1, h2, e1, e2, e3, e4⟩ := C118_second_violation s free Rec.ext_ok Rec.pix_ok
    one_pos Whole.M Whole.o rfl rfl rfl rfl 3 Whole.chunks Whole.mission_ok (by decide) Whole.i
    Sieved.ready Whole.rotates Whole.plate (Sieved.steady _) 1 (fun _ => (some Sieved.b, none))
    (fun _ => Sieved.sm) (fun _ => dark) heap [(some 0, none)] (by
      intro p hp
      obtain rfl : p = (some 0, none) := by simpa using hp
      exact main_prepared) (List.pairwise_singleton _ _) 1 one_pos
  have hone : ∀ m, Holds 1 m ([((some 0, none) : ObjPair)].flatMap fun _ => (List.range 3).flatMap
      (pairObs Whole.M Sieved.w.x Sieved.w.q Sieved.w.varphi Sieved.w.nsideOut Whole.o.ctalk
        (detects Whole.M Sieved.w.x Whole.o.interp 1 Sieved.sm) (some Sieved.b, none))) →
      (m[0]?).map (fun c => c.vec 1) = some 2 := by
    intro m hm
    rw [Sieved.vec_of _ m hm, Sieved.sees, Sieved.sees]
    have a0 : Whole.alpha 0 = 0 := rfl
    have a2 : Whole.alpha 2 = Real.pi / 4 := rfl
    rw [a0, a2, show 4 * (Real.pi / 4) = Real.pi by ring]
    norm_num
  refine ⟨m1, m2, n1, n2, h1, h2, e1, e2, hone m1 (e3 m1 (by simp)), ?_, hone n1 (e3 n1 (by simp)),
    hone n2 (e3 n2 (by simp))⟩
  refine (Sieved.vec_of _ m2 e4).trans ?_
  refine (congrArg₂ (fun a b : ℝ => some (a - b)) (sees_dark 0) (sees_dark 2)).trans ?_
  norm_num

end Verif.Props
