import Verif.Spec.ObjectsGround
import Verif.Lemmas.ScanObjects
import Verif.Lemmas.GroundScan

/-!
# Lemmas about whole scans with beam objects and a ground template
-/

noncomputable section

namespace Verif.ScanObjects

open Verif.Beam Verif.Timeline Verif.Spinmaps Verif.MapMaking Verif.ScanInstrument Verif.Chunks

variable {E : Type}

theorem Grounded.after {s : ObjWorld E} {nside : Nat} {h h' : Heap ℝ} (hf : LimitFree s.env)
    {S T : List Ref} {M1 : Ref → Int} {v1 : Ref → Val ℝ} (ha : After S T M1 h h')
    (hT : ∀ x ∈ T, (h.cell x).attr .blm = none ∧ Describes s.env (h.cell x) (v1 x) (M1 x))
    {p : ObjPair} {q : Pair} {sm sm' : Spinmaps SpinDict} (hp : Grounded s nside h p q sm sm')
    (hc : ∀ a, p.1 = some a → a ∈ T → ¬ Coarse s.env (h.cell a)) :
    Grounded s nside h' p q sm sm' := by
  cases hp with
  | empty => exact .empty sm sm'
  | pair a gs B v M sy mu M0 q da da' d ga ga' ok fresh mmax read size main main' ghosts ground dict dict' gdict gdict' =>
    have fam : ∀ r gs, Family h r gs → Family h' r gs := fun r gs f =>
      ⟨⟨ha.size ▸ f.own.1, (isGhost_congr (ha.attr r .ghost (by simp) (by simp))).trans f.own.2.1,
        (ha.ghosts r).trans f.own.2.2⟩, (ha.attr r _ (by simp) (by simp)).trans f.count,
        fun k g hk => ⟨(isGhost_congr (ha.attr g .ghost (by simp) (by simp))).trans (f.ghost k g hk).1,
          (ha.attr g _ (by simp) (by simp)).trans (f.ghost k g hk).2⟩⟩
    have fresh' : ∀ x ∈ a :: gs ++ B.elim [] Prod.snd, (h'.cell x).attr .blm = none := by
      intro x hx
      by_cases hS : x ∈ S
      · exact ha.gone x hS
      · exact (ha.kept x hS).trans (fresh x hx)
    have desc : ∀ x ∈ a :: gs ++ B.elim [] Prod.snd, Describes s.env (h'.cell x) (v x) (M x) := by
      intro x hx
      refine describes_after hf (After.alike ha x) (fresh x hx) (fresh' x hx) ?_ (ok.blm x hx)
      by_cases hxT : x ∈ T
      · refine .inr ?_
        rw [(describes_unique (fresh x hx) (ok.blm x hx) (hT x hxT).2).2]
        exact ha.limit x hxT
      · exact .inl (ha.other x hxT)
    refine .pair a gs B v M sy mu M0 q da da' d ga ga' ⟨fam _ _ ok.famA, fun b hb => fam _ _ (ok.famB b hb),
      desc, fun x hx => (ha.attr x _ (by simp) (by simp)).trans (ok.symmetric x hx),
      fun x hx => (ha.attr x _ (by simp) (by simp)).trans (ok.mueller x hx)⟩ fresh' ?_
      (PairOf.alike (After.alike ha) read) size main main' ghosts ground dict dict' gdict gdict'
    by_cases haT : a ∈ T
    · rw [ha.limit a haT, coarse_iff (fresh a (by simp)) (hT a haT).2 mmax (hc a rfl haT)]
    · exact (ha.other a haT).trans mmax

theorem Grounded.maps {s : ObjWorld E} {nside : Nat} {h : Heap ℝ} {p : ObjPair} {q : Pair}
    {sm sm' : Spinmaps SpinDict} (hp : Grounded s nside h p q sm sm') :
    Ground.MapsOk { s.w with spinmaps := fun _ => .ok sm } nside sm q := by
  cases hp with
  | empty => exact .inl rfl
  | pair a gs B v M sy mu M0 q da da' d ga ga' ok fresh mmax read size main main' ghosts ground dict dict' gdict gdict' =>
    have read := readPair_of read
    unfold readPair at read
    obtain ⟨x, hx, read⟩ := bind_ok read
    obtain ⟨y, hy, read⟩ := bind_ok read
    cases read
    unfold readOne at hx
    obtain ⟨ba, hba, hx⟩ := bind_ok hx
    cases hx
    refine .inr ⟨ba, rfl, rfl, size, fun b hb => ⟨?_, dict, ga, rfl, gdict⟩⟩
    rcases hb with hb | hb
    · cases live_some hb
      exact (readBin_ok ok.famA hba).1
    · have := live_some hb
      subst this
      cases B with
      | none => cases hy
      | some B =>
        unfold readOne at hy
        obtain ⟨bb, hbb, hy⟩ := bind_ok hy
        cases hy
        exact (readBin_ok (ok.famB B rfl) hbb).1

theorem Grounded.init {s : ObjWorld E} {nside : Nat} {h : Heap ℝ} (hf : LimitFree s.env) {o : Opts}
    (hpre : o.preview = false) (hgr : o.ground = true)
    (hre : o.reuseSpinmaps = false) {p : ObjPair} {q : Pair} {sm sm' : Spinmaps SpinDict}
    (hp : Grounded s nside h p q sm sm') : ∃ h', (∀ i : Inst E, ∃ i',
        initPair s o p i h = .ok (i', h') ∧
        ScanInstrument.initPair { s.w with spinmaps := fun _ => .ok sm } o q i = .ok i') ∧
      readPair h' p = .ok q ∧ Grounded s nside h' p q sm' sm' ∧ Settled s.env h' p ∧
      ∃ (S : List Ref) (M1 : Ref → Int) (v1 : Ref → Val ℝ), After S (usedBy h p) M1 h h' ∧ ∀ x ∈ usedBy h p,
        (h.cell x).attr .blm = none ∧ Describes s.env (h.cell x) (v1 x) (M1 x) := by
  cases hp with
  | empty =>
    refine ⟨h, fun i => ⟨i, rfl, rfl⟩, rfl, .empty _ _, fun a ha => (by cases ha), [],
      fun _ => 0, fun _ => .none, ⟨rfl, fun _ => rfl, fun _ _ _ _ => rfl, by simp, fun _ _ => rfl,
      fun x hx => (by cases hx), fun _ _ => rfl⟩, fun x hx => (by cases hx)⟩
  | pair a gs B v M sy mu M0 q da da' d ga ga' ok fresh mmax read size main main' ghosts ground dict dict' gdict gdict' =>
    obtain ⟨h', e, ha⟩ := C117_maps s.env s.sky (some s.ground) s.maxSpin h a gs B v M sy mu ok M0 mmax da main d
      ghosts (some ga) ⟨ga, by
        cases hl : gs.getLast? with
        | none => rw [hl] at ground; exact ground.1
        | some g => rw [hl] at ground; exact ground.1, rfl⟩
    have hT : ∀ x ∈ a :: gs ++ B.elim [] Prod.snd,
        (h.cell x).attr .blm = none ∧ Describes s.env (h.cell x) (v x) (M x) :=
      fun x hx => ⟨fresh x hx, ok.blm x hx⟩
    have hread := PairOf.alike (After.alike ha) read
    refine ⟨h', fun i => ⟨{ i with
      st := { i.st with maps := ⟨da, some ga, gs.map fun g => some (d g)⟩ }
      hasMaps := true }, ?_, ?_⟩, readPair_of hread, ?_, ?_, ?_⟩
    · unfold initPair
      simp only [hpre, hre, hgr, Bool.and_false, Bool.false_eq_true, if_false, if_true]
      rw [e]
      rfl
    · obtain ⟨q1, q2⟩ := q
      have hq : ∃ b, q1 = some b := by
        have read := readPair_of read
        unfold readPair at read
        obtain ⟨x, hx, read⟩ := bind_ok read
        obtain ⟨y, hy, read⟩ := bind_ok read
        cases read
        unfold readOne at hx
        obtain ⟨ba, hba, hx⟩ := bind_ok hx
        cases hx
        exact ⟨_, rfl⟩
      obtain ⟨b, rfl⟩ := hq
      unfold ScanInstrument.initPair
      simp only [hpre, hre, Bool.and_false, Bool.false_eq_true, if_false, bind, Except.bind,
        pure, Except.pure]
    · obtain ⟨ok', fresh'⟩ := ok.after hf fresh ha
      refine .pair a gs B v M sy mu (M a) q da' da' d ga' ga' ok' fresh' (ha.limit a (by simp)) hread size
        main' main' ghosts ?_ dict' dict' gdict' gdict'
      cases hl : gs.getLast? with
      | none => rw [hl] at ground; exact ⟨ground.2, ground.2⟩
      | some g => rw [hl] at ground; exact ⟨ground.2 ▸ ground.1, rfl⟩
    · intro x hx
      cases hx
      exact not_coarse hf (After.alike ha a) (fresh a (by simp)) (ok.blm a (by simp))
        (ha.limit a (by simp))
    · rw [usedBy_pair ok]
      exact ⟨_, M, v, ha, hT⟩

theorem Grounded.pass {s : ObjWorld E} {nside : Nat} {h : Heap ℝ} (hf : LimitFree s.env) {o : Opts}
    (hpre : o.preview = false) (hgr : o.ground = true)
    (hre : o.reuseSpinmaps = false) {p : ObjPair} {q : Pair} {sm sm' : Spinmaps SpinDict}
    (hp : Grounded s nside h p q sm sm') : ∃ h', (∀ (first : Bool) (i i' : Inst E),
        ScanInstrument.scanPass { s.w with spinmaps := fun _ => .ok sm } o first q i = .ok i' →
        scanPass s o first p (i, h) = .ok (i', h')) ∧
      Grounded s nside h' p q sm' sm' ∧ Settled s.env h' p ∧
      ∃ (S : List Ref) (M1 : Ref → Int) (v1 : Ref → Val ℝ), After S (usedBy h p) M1 h h' ∧ ∀ x ∈ usedBy h p,
        (h.cell x).attr .blm = none ∧ Describes s.env (h.cell x) (v1 x) (M1 x) := by
  obtain ⟨h', h1, h2, h3, h4, h5⟩ := hp.init hf hpre hgr hre
  refine ⟨h', fun first i i' hs => ?_, h3, h4, h5⟩
  have eR : scanPass s o first p (i, h) = (if first then .ok i else resetAll s.w i).bind fun i =>
      (initPair s o p i h).bind fun x => (readPair x.2 p).bind fun pair =>
        (scanChunks s o first pair x.1).bind fun i => .ok (i, x.2) := by
    unfold scanPass
    cases first <;> rfl
  have eL : ScanInstrument.scanPass { s.w with spinmaps := fun _ => .ok sm } o first q i =
      (if first then .ok i else resetAll s.w i).bind fun i =>
      (ScanInstrument.initPair { s.w with spinmaps := fun _ => .ok sm } o q i).bind fun i =>
        scanChunks s o first q i := by
    unfold ScanInstrument.scanPass
    cases first <;> rfl
  rw [eR]
  rw [eL] at hs
  obtain ⟨i1, e1, hs⟩ := bind_ok hs
  obtain ⟨i2, e2, hs⟩ := bind_ok hs
  obtain ⟨i3, g1, g2⟩ := h1 i1
  rw [e2] at g2
  cases g2
  rw [e1]
  simp only [Except.bind]
  rw [g1]
  simp only
  rw [h2]
  simp only
  rw [hs]

theorem ground_points_maps (w : World E) (f : BinBeam → PyM (Spinmaps SpinDict)) (M : Motion) (G : Nat → Quat.Q) (pre : Bool) :
    ∀ (cs : List Chunk) (e e' : E), Ground.Points w M G pre e cs e' →
      Ground.Points { w with spinmaps := f } M G pre e cs e'
  | [], _, _, h => h
  | _ :: cs, _, e', ⟨p, e1, h1, h2, h3⟩ => ⟨p, e1, h1, h2, ground_points_maps w f M G pre cs e1 e' h3⟩

def groundObs (s : ObjWorld E) (M : Motion) (G : Nat → Quat.Q) (o : Opts) (nside N : Nat) (q : ObjPair → Pair)
    (sm : ObjPair → Spinmaps SpinDict) (p : ObjPair) : List Obs :=
  (List.range N).flatMap (pairObs M s.w.x s.w.q s.w.varphi s.w.nsideOut o.ctalk
    (Ground.detects M G s.w.x o.interp nside (sm p)) (q p))

def GroundDone (s : ObjWorld E) (nside : Nat) (q : ObjPair → Pair) (sm' : ObjPair → Spinmaps SpinDict)
    (h : Heap ℝ) (p : ObjPair) : Prop :=
  Grounded s nside h p (q p) (sm' p) (sm' p) ∧ Settled s.env h p

theorem ground_loop (s : ObjWorld E) (hf : LimitFree s.env) (hx : ExtOk s.w.x) (hq : PixOk s.w.q)
    (hns : 0 < s.w.nsideOut) (M : Motion) (G : Nat → Quat.Q) (o : Opts) (hbin : o.binning = true)
    (hpre : o.preview = false) (hgr : o.ground = true) (hre : o.reuseSpinmaps = false) (N : Nat)
    (mission : List Chunk) (hmi : Mission N mission)
    (r0 : Rot ℝ) (h0 : Hwp.State ℝ) (hr : Data.RotOk r0 0) (hr0 : r0.reset = r0)
    (hh0 : h0.reset = h0) (hmv : Moves s.w.fsamp M r0 h0 mission) (P : Bool → E → Prop)
    (hst : ∀ first e, P first e →
      ∃ e', Ground.Points s.w M G (!first) e mission e' ∧ ∃ e'', s.w.resetEl e' = .ok e'' ∧ P false e'')
    (nside : Nat) (q : ObjPair → Pair) (sm sm' : ObjPair → Spinmaps SpinDict)
    (ps : List (Option ObjPair)) : ∀ (done : List ObjPair) (first : Bool) (i : Inst E) (h : Heap ℝ)
      (os : List Obs),
      (∀ p ∈ ps.filterMap id, Grounded s nside h p (q p) (sm p) (sm' p)) →
      Apart s.env h (ps.filterMap id) →
      (∀ p ∈ done, GroundDone s nside q sm' h p) →
      (if first then i.rot = r0 ∧ i.hwp = h0 ∧ P true i.el
        else i.rot.reset = r0 ∧ i.hwp.reset = h0 ∧ ∃ e, s.w.resetEl i.el = .ok e ∧ P false e) →
      (i.chunks.map (·.1) = mission) →
      i.maps = mapsOf (12 * s.w.nsideOut ^ 2) os →
      ∃ i' h', scanLoop s o first ps (i, h) = .ok (i', h') ∧
        i'.maps = mapsOf (12 * s.w.nsideOut ^ 2) (os ++
          (ps.filterMap id).flatMap (groundObs s M G o nside N q sm)) ∧
        ∀ p ∈ done ++ ps.filterMap id, GroundDone s nside q sm' h' p := by
  induction ps with
  | nil =>
    intro done first i h os _ _ hd _ _ hm
    exact ⟨i, h, rfl, by simpa using hm, by simpa using hd⟩
  | cons p ps ih =>
    intro done first i h os hp hap hd hstart hch hm
    have hone : ∃ e0, (if first then i.rot = r0 ∧ i.hwp = h0 ∧ i.el = e0
        else i.rot.reset = r0 ∧ i.hwp.reset = h0 ∧ s.w.resetEl i.el = .ok e0) ∧ P first e0 := by
      cases first with
      | true =>
        obtain ⟨a, b, c⟩ := hstart
        exact ⟨i.el, ⟨a, b, rfl⟩, c⟩
      | false =>
        obtain ⟨a, b, e, c, d⟩ := hstart
        exact ⟨e, ⟨a, b, c⟩, d⟩
    obtain ⟨e0, hs0, hP⟩ := hone
    obtain ⟨e', q1, e'', q2, q3⟩ := hst first e0 hP
    -- the pass
    have hpp : ∃ q0 m m', Grounded s nside h (p.getD (none, none)) q0 m m' ∧
        (∀ p', p = some p' → q0 = q p' ∧ m = sm p' ∧ m' = sm' p') ∧
        (p = none → q0 = (none, none)) := by
      cases p with
      | none => exact ⟨_, sm (none, none), sm (none, none), .empty _ _, by simp, fun _ => rfl⟩
      | some p => exact ⟨_, _, _, hp p (by simp), by simp, by simp⟩
    obtain ⟨q0, m, m', hprep, hsome, hnone⟩ := hpp
    obtain ⟨h1, g1, g2, g3, S, M1, v1, ha, hT⟩ := hprep.pass hf hpre hgr hre
    obtain ⟨i1, k1, k2, k3, k4, k5, -, k6⟩ := Ground.pass_spec { s.w with spinmaps := fun _ => .ok m } hq hns M G o
      hbin hgr q0 (fun _ => True) _ N mission hmi
      (Ground.pairGood_scan { s.w with spinmaps := fun _ => .ok m } hx M G mission o hpre hre nside m q0
        hprep.maps) first i r0 h0 e0 e' hs0 hr (ground_points_maps _ _ _ _ _ _ _ _ q1) hmv hch trivial os hm
    have hmem : ∀ p' ∈ ps.filterMap id, p' ∈ (p :: ps).filterMap id := by
      intro p' hp'
      cases p with
      | none => simpa using hp'
      | some p => exact List.mem_cons_of_mem _ (by simpa using hp')
    have hap' : Apart s.env h (ps.filterMap id) := by
      cases p with
      | none => simpa using hap
      | some p =>
        have : Apart s.env h (p :: ps.filterMap id) := by simpa using hap
        exact (List.pairwise_cons.1 this).2
    have hfirst : ∀ p' ∈ ps.filterMap id, ∀ a, p'.1 = some a → a ∈ usedBy h (p.getD (none, none)) →
        ¬ Coarse s.env (h.cell a) := by
      intro p' hp' a e1 e2
      cases p with
      | none => cases e2
      | some p =>
        have : Apart s.env h (p :: ps.filterMap id) := by simpa using hap
        exact (List.pairwise_cons.1 this).1 p' hp' a e1 e2
    obtain ⟨i2, h2, f1, f2, f3⟩ := ih (done ++ p.toList) false i1 h1 _
      (fun p' hp' => (hp p' (hmem p' hp')).after hf ha hT (hfirst p' hp'))
      (hap'.imp fun {p1 p2} hh a e1 e2 => Settled.after hf ha hT
        (hh a e1 (by rwa [usedBy_alike (After.alike ha)] at e2)))
      (fun p' hp' => by
        rcases List.mem_append.1 hp' with hp' | hp'
        · obtain ⟨c1, c2⟩ := hd p' hp'
          exact ⟨c1.after hf ha hT fun a e _ => c2 a e, fun a e => Settled.after hf ha hT (c2 a e)⟩
        · cases p with
          | none => cases hp'
          | some p =>
            obtain rfl : p' = p := by simpa using hp'
            obtain ⟨rfl, rfl, rfl⟩ := hsome p' rfl
            exact ⟨g2, g3⟩)
      ⟨k2.trans hr0, k3.trans hh0, e'', by rw [k4]; exact q2, q3⟩ k5 k6
    refine ⟨i2, h2, ?_, ?_, ?_⟩
    · unfold scanLoop
      rw [g1 first i i1 k1]
      exact f1
    · rw [f2, List.append_assoc]
      congr 2
      cases p with
      | none =>
        obtain rfl := hnone rfl
        have : missionObs { s.w with spinmaps := fun _ => .ok m } M o N
            (Ground.detects M G s.w.x o.interp nside m) (none, none) = [] := by
          unfold missionObs
          rw [List.flatMap_eq_nil_iff]
          intro t _
          unfold pairObs
          simp [live]
        dsimp only at this ⊢
        rw [this]
        simp
      | some p =>
        obtain ⟨rfl, rfl, rfl⟩ := hsome p rfl
        simp only [List.filterMap_cons, id, List.flatMap_cons]
        rfl
    · intro p' hp'
      refine f3 p' ?_
      cases p with
      | none => simpa using hp'
      | some p => simpa using hp'

theorem ground_all (s : ObjWorld E) (hf : LimitFree s.env) (hx : ExtOk s.w.x) (hq : PixOk s.w.q)
    (hns : 0 < s.w.nsideOut) (M : Motion) (G : Nat → Quat.Q) (o : Opts) (hbin : o.binning = true)
    (hpre : o.preview = false) (hgr : o.ground = true) (hre : o.reuseSpinmaps = false) (N : Nat)
    (mission : List Chunk) (hmi : Mission N mission) (i : Inst E) (hi : Ground.Ready s.w mission i)
    (hmv : Moves s.w.fsamp M i.rot i.hwp mission) (hst : Ground.Steady s.w M G mission i.el)
    (nside : Nat) (q : ObjPair → Pair) (sm sm' : ObjPair → Spinmaps SpinDict) (h : Heap ℝ)
    (beams : List ObjPair) (hp : ∀ p ∈ beams, Grounded s nside h p (q p) (sm p) (sm' p))
    (hap : Apart s.env h beams) (mpi : Bool) (size : Nat) (hsize : 0 < size)
    (hone : mpi = false → size = 1) :
    ∃ h', scanAll s o beams mpi true size (i, h) = .ok (mapsOf (12 * s.w.nsideOut ^ 2)
        (beams.flatMap (groundObs s M G o nside N q sm)), h') ∧ (mpi = true → h' = h) ∧
      (mpi = false → ∀ p ∈ beams, GroundDone s nside q sm' h' p) := by
  obtain ⟨work, w1, w2, w3, -⟩ := Props.C03_every_pair_scanned_once beams size hsize
  obtain ⟨P, p1, p2⟩ := hst
  have hrot := Ground.ready_rot hi
  have hmem : ∀ l ∈ work, ∀ p ∈ l.filterMap id, p ∈ beams := by
    intro l hl p hp
    rw [← w3]
    exact List.mem_flatten.2 ⟨_, List.mem_map_of_mem hl, hp⟩
  have hapart : ∀ l ∈ work, Apart s.env h (l.filterMap id) := by
    intro l hl
    unfold Apart at hap
    rw [← w3] at hap
    exact (List.pairwise_flatten.1 hap).1 _ (List.mem_map_of_mem hl)
  have hrank : ∀ l ∈ work, ∃ i' h', scanLoop s o true l (i, h) = .ok (i', h') ∧
      i'.maps = mapsOf (12 * s.w.nsideOut ^ 2)
        ((l.filterMap id).flatMap (groundObs s M G o nside N q sm)) ∧
      ∀ p ∈ l.filterMap id, GroundDone s nside q sm' h' p := by
    intro l hl
    obtain ⟨i', h', g1, g2, g3⟩ := ground_loop s hf hx hq hns M G o hbin hpre hgr hre N mission hmi i.rot
      i.hwp hrot hi.rot hi.hwp hmv P p2 nside q sm sm' l [] true i h []
      (fun p hp' => hp p (hmem l hl p hp')) (hapart l hl) (by simp) ⟨rfl, rfl, p1⟩ hi.chunks
      (by rw [hi.maps, mapsOf_nil])
    exact ⟨i', h', g1, by simpa using g2, by simpa using g3⟩
  have hlist : ∀ rs : List Nat, (∀ r ∈ rs, r < size) → ∃ ys,
      rs.mapM (fun r => scanInstrument s o beams mpi true size r (i, h)) = Except.ok (ε := PyErr) ys ∧
      ys.map (·.1.maps) = ((rs.map fun r => (work[r]?).getD []).map fun l =>
        (l.filterMap id).flatMap (groundObs s M G o nside N q sm)).map (mapsOf (12 * s.w.nsideOut ^ 2)) ∧
      ys.length = rs.length ∧ ∀ y ∈ ys, (mpi = true → y.2 = h) ∧
        (mpi = false → ∃ r ∈ rs, ∀ p ∈ ((work[r]?).getD []).filterMap id, GroundDone s nside q sm' y.2 p) := by
    intro rs
    induction rs with
    | nil => exact fun _ => ⟨[], rfl, rfl, rfl, by simp⟩
    | cons r rs ih =>
      intro hrs
      obtain ⟨ys, e1, e2, e3, e4⟩ := ih fun r hr => hrs r (List.mem_cons_of_mem _ hr)
      have hr := hrs r List.mem_cons_self
      have hlt : r < work.length := by omega
      have hwr := w2 r hr
      rw [List.getElem?_eq_getElem hlt] at hwr
      obtain ⟨i', h', g1, g2, g3⟩ := hrank work[r] (List.getElem_mem hlt)
      have hs : scanInstrument s o beams mpi true size r (i, h) =
          .ok (i', if (mpi && true) = true then h else h') := by
        unfold scanInstrument
        rw [← Option.some.inj hwr]
        simp only [bind, Except.bind]
        rw [g1]
        rfl
      refine ⟨(i', if (mpi && true) = true then h else h') :: ys, ?_, ?_, ?_, ?_⟩
      · rw [List.mapM_cons, hs]
        simp only [bind, Except.bind]
        rw [e1]
        rfl
      · simp only [List.map_cons, List.getElem?_eq_getElem hlt, Option.getD_some]
        rw [e2, g2]
      · simp [e3]
      · intro y hy
        rcases List.mem_cons.1 hy with rfl | hy
        · refine ⟨fun hm => by simp [hm], fun hm => ⟨r, by simp, ?_⟩⟩
          simp only [List.getElem?_eq_getElem hlt, Option.getD_some, hm, Bool.false_and,
            Bool.false_eq_true, if_false]
          exact g3
        · refine ⟨(e4 y hy).1, fun hm => ?_⟩
          obtain ⟨r', c1, c2⟩ := (e4 y hy).2 hm
          exact ⟨r', List.mem_cons_of_mem _ c1, c2⟩
  obtain ⟨ys, e1, e2, e3, e4⟩ := hlist (List.range size) fun r hr => List.mem_range.1 hr
  have hw : ((List.range size).map fun r => (work[r]?).getD []) = work := by
    apply List.ext_getElem (by simp [w1])
    intro k h1 h2
    simp [h2]
  have hl : 0 < ys.length := by rw [e3, List.length_range]; exact hsize
  refine ⟨ys[0].2, ?_, (e4 _ (List.getElem_mem hl)).1, fun hm p hpb => ?_⟩
  · have hroot : pyGet ys 0 = .ok ys[0] := by
      have := pyGet_map ys id 0 hl
      simpa using this
    unfold scanAll
    rw [e1]
    simp only [bind, Except.bind, pure, Except.pure]
    rw [hroot, e2, hw, hi.maps]
    have hlen : (allocateMaps s.w.nsideOut).length = 12 * s.w.nsideOut ^ 2 := by simp [allocateMaps]
    dsimp only
    rw [hlen, reduce_mapsOf]
    congr 3
    rw [← w3]
    simp only [List.flatMap_def, List.map_flatten, List.flatten_flatten, List.map_map]
    rfl
  · obtain ⟨r, c1, c2⟩ := (e4 _ (List.getElem_mem hl)).2 hm
    have hs1 := hone hm
    subst hs1
    obtain rfl : r = 0 := by simpa using c1
    refine c2 p ?_
    obtain ⟨l, rfl⟩ : ∃ l, work = [l] := List.length_eq_one_iff.1 w1
    rw [← w3] at hpb
    simpa using hpb

end Verif.ScanObjects
