import Verif.Lemmas.ObjectsGround
import Verif.Props.ScanObjects
import Verif.Props.GroundScan

/-!
# C118: whole scans with beam objects and a ground template
-/

noncomputable section

namespace Verif.Props

open Verif.Chunks Verif.Timeline Verif.Spinmaps Verif.MapMaking Verif.ScanInstrument Verif.Spec
open Verif.Beam (Heap Ref Val Obj Env Key LimitFree PairOk)
open Verif.ScanObjects (ObjPair ObjWorld Grounded Apart Settled Coarse PairOf PointOf)

variable {E : Type}

/-- **C118, with a ground template.** Detector pairs given as beam objects are scanned with a ground,
without MPI or with any number of ranks.  The maps contain exactly the observations of C110, every pair
with the spin maps of sky and ground of its own coefficients (those of the ground as `Grounded` says)
and with the pointing, angles and dead flags of its own objects.  With MPI the objects are afterwards as
before.  Without MPI they can be used for the next scan, with the azimuthal limits of their
coefficients. -/
theorem C118_ground (s : ObjWorld E) (hf : LimitFree s.env) (hx : ExtOk s.w.x) (hq : PixOk s.w.q)
    (hns : 0 < s.w.nsideOut) (M : Motion) (G : Nat → Quat.Q) (o : Opts) (hbin : o.binning = true)
    (hpre : o.preview = false) (hgr : o.ground = true) (hre : o.reuseSpinmaps = false) (N : Nat)
    (chunks : List Chunk) (hmi : Mission N chunks) (hang : ∀ c ∈ chunks, c.hwpang = none) (i : Inst E)
    (hi : Ground.Ready s.w chunks i) (hrot : Rotates N chunks i.rot M.rot)
    (hhwp : Plate s.w.fsamp N i.hwp M.alpha) (hst : Ground.Steady s.w M G chunks i.el)
    (nside : Nat) (q : ObjPair → Pair) (sm sm' : ObjPair → Spinmaps SpinDict) (h : Heap ℝ)
    (beams : List ObjPair) (hp : ∀ p ∈ beams, Grounded s nside h p (q p) (sm p) (sm' p))
    (hap : Apart s.env h beams) (mpi : Bool) (size : Nat) (hsize : 0 < size)
    (hone : mpi = false → size = 1) :
    ∃ m h', ScanObjects.scanAll s o beams mpi true size (i, h) = .ok (m, h') ∧
      Holds s.w.nsideOut m (beams.flatMap fun p => (List.range N).flatMap (pairObs M s.w.x s.w.q
        s.w.varphi s.w.nsideOut o.ctalk (Ground.detects M G s.w.x o.interp nside (sm p)) (q p))) ∧
      (mpi = true → h' = h) ∧
      (mpi = false → ∀ p ∈ beams, Grounded s nside h' p (q p) (sm' p) (sm' p) ∧ Settled s.env h' p) := by
  obtain ⟨h', h1, h2, h3⟩ := ScanObjects.ground_all s hf hx hq hns M G o hbin hpre hgr hre N chunks hmi i
    hi (moves_spec s.w.fsamp M N chunks hmi hang i.rot i.hwp hrot hhwp) hst nside q sm sm' h beams hp
    hap mpi size hsize hone
  exact ⟨_, h', h1, holds_mapsOf _ _, h2, h3⟩

/-- **C118, with a ground template (a part).** For pairs without live ghosts every observation is sky plus
ground.  Missing: ghosts, which see only the ground (C110), and whose coefficients are used for the
ground of all beams of the pair (C70). -/
theorem C118_ground_adds_partial (s : ObjWorld E) (hf : LimitFree s.env) (hx : ExtOk s.w.x) (hq : PixOk s.w.q)
    (hns : 0 < s.w.nsideOut) (M : Motion) (G : Nat → Quat.Q) (o : Opts) (hbin : o.binning = true)
    (hpre : o.preview = false) (hgr : o.ground = true) (hre : o.reuseSpinmaps = false) (N : Nat)
    (chunks : List Chunk) (hmi : Mission N chunks) (hang : ∀ c ∈ chunks, c.hwpang = none) (i : Inst E)
    (hi : Ground.Ready s.w chunks i) (hrot : Rotates N chunks i.rot M.rot)
    (hhwp : Plate s.w.fsamp N i.hwp M.alpha) (hst : Ground.Steady s.w M G chunks i.el)
    (nside : Nat) (q : ObjPair → Pair) (sm sm' : ObjPair → Spinmaps SpinDict) (h : Heap ℝ)
    (beams : List ObjPair) (hp : ∀ p ∈ beams, Grounded s nside h p (q p) (sm p) (sm' p))
    (hgh : ∀ p ∈ beams, Ground.NoGhosts (q p))
    (hap : Apart s.env h beams) (mpi : Bool) (size : Nat) (hsize : 0 < size)
    (hone : mpi = false → size = 1) :
    ∃ m h', ScanObjects.scanAll s o beams mpi true size (i, h) = .ok (m, h') ∧
      Holds s.w.nsideOut m (beams.flatMap fun p => (List.range N).flatMap (pairObs M s.w.x s.w.q
        s.w.varphi s.w.nsideOut o.ctalk (fun b t => M.signal s.w.x o.interp nside (sm p).main b.beam t +
          Ground.pickup M G s.w.x o.interp nside ((sm p).ground.getD []) b.beam t) (q p))) := by
  obtain ⟨m, h', h1, h2, -⟩ := C118_ground s hf hx hq hns M G o hbin hpre hgr hre N chunks hmi hang i hi hrot
    hhwp hst nside q sm sm' h beams hp hap mpi size hsize hone
  refine ⟨m, h', h1, ?_⟩
  convert h2 using 1
  apply flatMap_congr'
  intro p hp
  apply flatMap_congr'
  intro t _
  exact pairObs_congr (fun b hb t => (detects_alone (hgh p hp b hb) t).symm) t

/-! ## The hypotheses are met -/

namespace Objects

open Rec Whole

/-- A ground of temperature 2. -/
def sG : ObjWorld Unit := ⟨Grounded.w, env, maker, fun _ _ _ _ => .ok (Reusing.flat 2).main, 4⟩

def smG : ObjPair → Spinmaps SpinDict := fun p => { sms p with ground := some (Reusing.flat 2).main }

def smG' : ObjPair → Spinmaps SpinDict := fun p => { sms' p with ground := some (Reusing.flat 2).main }

theorem main_grounded : ScanObjects.Grounded sG 1 heap (some 0, none) (some Sieved.b, none)
    (smG (some 0, none)) (smG' (some 0, none)) := by
  have hc : heap.cell 0 = ⟨Function.update (attrs false (.str "beam.fits")) .ghostCount (some (.int 0)),
    some []⟩ := rfl
  refine ScanObjects.Grounded.pair (s := sG) 0 [] none (fun _ => .obj 1) (fun _ => 0) (fun _ => .bool false)
    (fun _ => .none) 4 _ _ _ (fun _ => []) _ _ ⟨⟨⟨by decide, ?_, rfl⟩, ?_, by simp⟩, by simp, ?_, ?_, ?_⟩
    ?_ ?_ ?_ one_pos ?_ ?_ (by simp) ⟨rfl, rfl⟩ Sieved.sm_ok dark_ok (Reusing.flat_ok _) (Reusing.flat_ok _)
  · simp [hc, Obj.isGhost, attrs, Val.truthy]
  · simp [hc]
  · intro x hx
    obtain rfl : x = 0 := by simpa using hx
    have := Beam.Describes.file (env := sG.env) (o := heap.cell 0) (v := .obj 1) 0 4 4 (by simp [hc, attrs])
      (by simp [hc, attrs, sG, env]) (by simp [hc, attrs]) (by simp [hc, attrs])
    simpa using this
  · intro x hx
    obtain rfl : x = 0 := by simpa using hx
    simp [hc, attrs]
  · intro x hx
    obtain rfl : x = 0 := by simpa using hx
    simp [hc, attrs]
  · intro x hx
    obtain rfl : x = 0 := by simpa using hx
    simp [hc, attrs]
  · simp [hc, attrs]
  · refine ⟨.some _ _ ⟨point_of _ (by simp [hc, Obj.isGhost, attrs, Val.truthy]) ?_ ?_ ?_ ?_ ?_, ?_, ?_⟩, .none⟩ <;>
      simp [hc, attrs, Val.toNum, Sieved.b]
  · simp [sG, maker, sms]
  · simp [sG, maker, sms', dark]

theorem pair_grounded : ScanObjects.Grounded sG 1 heap (some 1, some 3) (some ghosted, some ghosted)
    (smG (some 1, some 3)) (smG' (some 1, some 3)) := by
  refine ScanObjects.Grounded.pair (s := sG) 1 [2] (some (3, [4])) (fun _ => .obj 1) (fun _ => 4)
    (fun _ => .bool false) (fun _ => .none) 4 _ _ _ (fun _ => Sieved.sm.main) _ _ (pair_ok _ fun _ => rfl)
    pair_fresh rfl pair_read one_pos ?_ ?_ ?_ ⟨rfl, rfl⟩ Sieved.sm_ok Sieved.sm_ok (Reusing.flat_ok _)
    (Reusing.flat_ok _)
  · simp [sG, maker]
    rfl
  · simp [sG, maker]
    rfl
  · simp [sG, maker]

theorem three_grounded : ∀ p ∈ three, ScanObjects.Grounded sG 1 heap p (q p) (smG p) (smG' p) := by
  intro p hp
  simp only [three, List.mem_cons, List.not_mem_nil, or_false] at hp
  rcases hp with rfl | rfl | rfl
  · exact main_grounded
  · exact pair_grounded
  · exact .empty _ _

/-- The hypotheses of `C118_ground` are met, by three pairs on two ranks. -/
example : ∃ m, ScanObjects.scanAll sG Grounded.o three true true 2 (i, heap) = .ok (m, heap) := by
  obtain ⟨m, h', h1, -, h2, -⟩ := C118_ground sG free ext_ok pix_ok one_pos M Grounded.G Grounded.o rfl rfl rfl rfl
    3 chunks mission_ok (by decide) i ⟨rfl, rfl, rfl, .inl rfl, rfl⟩ rotates plate Grounded.steady' 1 q smG smG'
    heap three three_grounded three_apart true 2 two_pos (by simp)
  obtain rfl := h2 rfl
  exact ⟨m, h1⟩

/-- Those of `C118_ground_adds_partial`: the first pair, without MPI. -/
example : ∃ m h', ScanObjects.scanAll sG Grounded.o [(some 0, none)] false true 1 (i, heap) = .ok (m, h') := by
  obtain ⟨m, h', h1, -⟩ := C118_ground_adds_partial sG free ext_ok pix_ok one_pos M Grounded.G Grounded.o rfl rfl
    rfl rfl 3 chunks mission_ok (by decide) i ⟨rfl, rfl, rfl, .inl rfl, rfl⟩ rotates plate Grounded.steady' 1 q
    smG smG' heap [(some 0, none)] (fun p hp => three_grounded p (by
      obtain rfl := List.mem_singleton.1 hp
      simp [three])) (by
      intro p hp
      obtain rfl := List.mem_singleton.1 hp
      rintro b (hb | hb)
      · obtain rfl := Option.some.inj hb
        intro g hg
        cases hg
      · cases hb) (List.pairwise_singleton _ _) false 1 one_pos (by simp)
  exact ⟨m, h', h1⟩

end Objects

end Verif.Props
