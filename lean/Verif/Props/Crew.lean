import Verif.Lemmas.Crew
import Verif.Props.Spmd
import Verif.Props.Strategies

/-!
# C133: scans with every way of pointing, by several processes that talk to each other

As C106, for the strategies of C107.  `Parallel` and `scanAndSolve` are in `Verif.Spec.Crew`.
-/

noncomputable section

namespace Verif.Props

open Verif.Chunks Verif.Timeline Verif.Spinmaps Verif.MapMaking Verif.ScanInstrument Verif.Spec
open Verif.Strategies (Strategy Att Uses GivesMaps)
open Verif.Spmd (Junk JunkOk AlwaysEnds AlwaysHangs firstOnly RunsTo)
open Verif.Crew (Parallel scanAndSolve BoreProg)

variable {A : Type}

/-- **C133.** With a function of the user, `strictly_az`, `satellite_scan` or `schedule_scan`: whenever
every rank alone, with a communicator of `size` ranks, gets through its part of the scan, the ranks
together do so whatever their relative speed.  No rank waits forever, and `solve_for_map` returns on the
first rank what a single process gets from the sum of the parts.  The others return None. -/
theorem C133_ends (w : World (Att A)) (s : Strategy A) (hw : Uses w s)
    (hg : s.extPoint = true ∨ s.useL2 = true ∨ s.useStrictlyAz = true) (o : Opts) (beams : List Pair)
    (i : Inst (Att A)) (size : Nat) (hs : 0 < size) (junk : Junk) (hj : JunkOk junk)
    (bore : Nat → BoreProg A) (hb : Parallel junk size s bore) (fill : ℝ) (m : Maps)
    (h : scanAll w o beams true size i = .ok m) :
    AlwaysEnds size (scanAndSolve w o s bore beams fill i size) (firstOnly (solveForMap w.q m fill)) :=
  Crew.alwaysEnds hs (Crew.faithful_parallel hw hg hs hj hb) beams i fill m h

/-- **C133 (maps).** A scan that gives the right maps when the ranks do not talk to each other (C107)
gives them when they compute the pointing together, whatever the schedule. -/
theorem C133_maps (w : World (Att A)) (s : Strategy A) (hw : Uses w s)
    (hg : s.extPoint = true ∨ s.useL2 = true ∨ s.useStrictlyAz = true) (M : Motion) (o : Opts) (N : Nat)
    (beams : List Pair) (i : Inst (Att A)) (size : Nat) (hs : 0 < size)
    (hm : GivesMaps w M o N beams size i) (nside : Nat) (sm : Pair → Spinmaps SpinDict)
    (hsm : ∀ p ∈ beams, MapsOk w nside (sm p) p) :
    ∃ m, Holds w.nsideOut m (beams.flatMap fun p => (List.range N).flatMap
        (pairObs M w.x w.q w.varphi w.nsideOut o.ctalk (detects M w.x o.interp nside (sm p)) p)) ∧
      ∀ (junk : Junk) (bore : Nat → BoreProg A) (fill : ℝ), JunkOk junk → Parallel junk size s bore →
        AlwaysEnds size (scanAndSolve w o s bore beams fill i size)
          (firstOnly (solveForMap w.q m fill)) := by
  obtain ⟨m, h1, h2⟩ := hm nside sm hsm
  exact ⟨m, h2, fun junk bore fill hj hb => C133_ends w s hw hg o beams i size hs junk hj bore hb fill m h1⟩

/-! ## L2 -/

theorem first_pass (beams : List Pair) (hb : beams ≠ []) (size : Nat) (hs : 0 < size) (r : Nat)
    (hr : r < size) : ∃ l p ps, Mpi.scatterList beams size r = .ok l ∧
      Mpi.passes l (Mpi.nmax beams.length size) = p :: ps ∧
      (p.getD (none, none) = (none, none) ∨ p.getD (none, none) ∈ beams) := by
  obtain ⟨work, hwl, hw1, hw2, hw3⟩ := C03_every_pair_scanned_once beams size hs
  have hw0 := hw1 r hr
  rw [List.getElem?_eq_getElem (by omega)] at hw0
  have hmem := List.getElem_mem (l := work) (n := r) (show r < work.length by omega)
  have hne : work[r].length ≠ 0 := by
    intro h
    apply hb
    rw [← hw2]
    simp only [List.flatten_eq_nil_iff, List.mem_map]
    rintro l ⟨v, hv, rfl⟩
    have := hw3 v hv _ hmem
    rw [h] at this
    rw [List.length_eq_zero_iff.1 this]
    rfl
  have hin : ∀ p ∈ work[r], p.getD (none, none) = (none, none) ∨ p.getD (none, none) ∈ beams := by
    intro p hp
    cases p with
    | none => exact .inl rfl
    | some p =>
      right
      rw [← hw2]
      simp only [List.mem_flatten, List.mem_map]
      exact ⟨_, ⟨_, hmem, rfl⟩, List.mem_filterMap.2 ⟨some p, hp, rfl⟩⟩
  generalize hg : work[r] = l at hw0 hne hin
  rw [Option.map_some] at hw0
  rcases l with _ | ⟨p, ps⟩
  · exact absurd rfl hne
  · obtain ⟨l, h1, h2⟩ := bind_ok (Option.some.inj hw0).symm
    exact ⟨l, p, ps, h1, Except.ok.inj h2, hin p List.mem_cons_self⟩

theorem begins {E : Type} (w : World E) (o : Opts) (i : Inst E)
    (hidx : ∀ d ∈ i.chunks, d.1.cidx.isSome = true) (beams : List Pair)
    (hm : ∀ p ∈ beams, ∃ nside sm, MapsOk w nside sm p) (p : Pair) (hp : p = (none, none) ∨ p ∈ beams) :
    ∃ j, Spmd.begin w o true p i = .ok j ∧ j.chunks = i.chunks ∧ j.el = i.el := by
  have hinit : ∃ j, initPair w o p i = .ok j ∧ j.chunks = i.chunks ∧ j.el = i.el := by
    have h0 : ∃ j, initPair w o (none, none) i = .ok j ∧ j.chunks = i.chunks ∧ j.el = i.el :=
      ⟨i, rfl, rfl, rfl⟩
    rcases hp with rfl | hp
    · exact h0
    · obtain ⟨nside, sm, rfl | ⟨a, ha, hsm, -⟩⟩ := hm p hp
      · exact h0
      · obtain ⟨a', b⟩ := p
        obtain rfl : a' = some a := ha
        unfold initPair
        dsimp only
        split
        · exact ⟨i, rfl, rfl, rfl⟩
        · split
          · exact ⟨i, rfl, rfl, rfl⟩
          · rw [hsm]
            exact ⟨_, rfl, rfl, rfl⟩
  obtain ⟨j, hj, hjc, hje⟩ := hinit
  refine ⟨j, ?_, hjc, hje⟩
  unfold Spmd.begin Spmd.resetIf
  simp only [if_true, bind, Except.bind, hj]
  rw [if_pos (by rw [hjc]; simpa using hidx)]

theorem pass_eq {E : Type} (w : World E) (o : Opts)
    (impl : E → Chunk → Bool → Bool → Spmd.Prog (Pointing × E)) (i : Inst E) (c : Chunk)
    (rest : List (Chunk × Bool)) (hc : i.chunks = (c, false) :: rest) (p : Option Pair)
    (ps : List (Option Pair))
    (hb : ∃ j, Spmd.begin w o true (p.getD (none, none)) i = .ok j ∧ j.chunks = i.chunks ∧ j.el = i.el) :
    ∃ K, Crew.passLoop ⟨w, o, impl⟩ true (p :: ps) i = (impl i.el c o.ground false).andThen K := by
  obtain ⟨j, hj, hjc, hje⟩ := hb
  unfold Crew.passLoop
  simp only [hj]
  show ∃ K, (Crew.chunkLoop _ _ _ (List.range j.chunks.length) j).andThen _ = _
  rw [hjc, hc, List.length_cons, List.range_succ_eq_map]
  unfold Crew.chunkLoop Crew.stepChunk
  have h : pyGet j.chunks ((0 : Nat) : Int) = .ok (c, false) := by
    rw [hjc, hc]
    rfl
  rw [h]
  show ∃ K, Spmd.Prog.andThen (Spmd.Prog.andThen (Spmd.Prog.andThen
    (impl j.el c (false || o.ground) (!true)) _) _) _ = _
  rw [andThen_assoc, andThen_assoc, hje, Bool.false_or, Bool.not_true]
  exact ⟨_, rfl⟩

/-- Samples on rank `r`. -/
theorem mine_length {α : Type} (l : List α) {n size r : Nat} (hl : l.length = n) (hr : r < size) :
    (pySlice l (Mpi.subStart n size r : Int) (Mpi.subStart n size (r + 1) : Int)).length =
      n / size + (if r < n % size then 1 else 0) := by
  have h1 := Mpi.subStart_eq n size r (by omega)
  have h2 := Mpi.subStart_eq n size (r + 1) (by omega)
  have h3 := Mpi.subStart_mono n size (r + 1) size (by omega)
  rw [Mpi.subStart_size n size (by omega)] at h3
  rw [pySlice_nat, List.length_drop, List.length_take, hl]
  rw [Nat.min_eq_left h3, h1, h2, Nat.add_mul, Nat.one_mul]
  clear h1 h2 h3
  generalize r * (n / size) = y
  generalize n / size = z
  generalize n % size = v
  split <;> omega

theorem l2_rank (s : Strategy A) (hl2 : s.useL2 = true)
    (hfs : s.so.fsamp ≠ 0) (hct : s.ctimeFunc = Strategies.plainCtime s.so.fsamp s.so.ctime0)
    (radecpa2quat : ℝ → ℝ → ℝ → Quat.Q) (a b fa fb sr jit : ℝ) (junk : Junk) (size r : Nat)
    (hr : r < size) (e : Att A) (c : Chunk) (g : Bool) (n : Nat) (hn : (c.stop - c.start).toNat = n) :
    (n / size + (if r < n % size then 1 else 0) = 1 → Calls
      (Crew.implement s (Crew.l2Scan junk size r radecpa2quat a b fa fb sr jit) e c g)) ∧
    (n / size + (if r < n % size then 1 else 0) ≠ 1 →
      Crew.implement s (Crew.l2Scan junk size r radecpa2quat a b fa fb sr jit) e c g =
        .done (.error .nameError)) := by
  obtain ⟨t, ht, hl⟩ : ∃ t, s.ctimeFunc c.start c.stop none = .ok t ∧ t.length = n := by
    rw [hct]
    unfold Strategies.plainCtime Data.ctimes
    rw [if_neg hfs]
    exact ⟨_, rfl, by simp [intRange, hn]⟩
  have hrun : Crew.implement s (Crew.l2Scan junk size r radecpa2quat a b fa fb sr jit) e c g =
      ((Crew.l2Scan junk size r radecpa2quat a b fa fb sr jit c.start c.stop none none
        (Strategies.setCtime t e)).andThen fun (q, e) => Spmd.ret (Strategies.setBore q e)).andThen fun e =>
          Spmd.ret (⟨e.st.ctime, e.st.qBore, e.st.qGround, e.st.flag⟩, e) := by
    unfold Crew.implement Crew.implementScan
    simp only [hl2, Bool.or_true, if_true, ht]
    rfl
  rw [hrun]
  have hm := mine_length t hl hr
  have hd : ∀ x : PyM (List (ℝ × ℝ × ℝ)), Angles.l2Scan a b fa fb sr jit
      (pySlice t (Mpi.subStart n size r : Int) (Mpi.subStart n size (r + 1) : Int)) = x →
      Crew.l2Scan junk size r radecpa2quat a b fa fb sr jit c.start c.stop none none
        (Strategies.setCtime t e) = (Spmd.run x).andThen fun l =>
          (Spmd.Prog.call (.allgatherv ((l.map fun (ra, dec, psi) => radecpa2quat ra dec psi).flatMap
              Spmd.flat)
            (junk r (n * 4)) (fun r => 4 * ((Mpi.subSize n size)[r]?.getD 0))
            (fun r => (((Mpi.subSize n size).map fun k => 4 * k).take r).sum)) Spmd.Reply.toRows).andThen
              fun q => Spmd.ret (q, { Strategies.setCtime t e with
                st := { (Strategies.setCtime t e).st with flag := some (q.map fun _ => false) } }) := by
    intro x hx
    unfold Crew.l2Scan
    simp only [Strategies.setCtime, hl, Mpi.subEnd_eq n size r hr]
    subst hx
    rfl
  constructor
  · intro h1
    rw [h1] at hm
    obtain ⟨u, hu⟩ := List.length_eq_one_iff.1 hm
    obtain ⟨x, hx⟩ := ctime2bore_ok u 45 50 192.348 0.05 (by norm_num)
    rw [hu] at hd
    rw [hd (.ok [x]) hx]
    exact Calls.andThen (Calls.andThen (Calls.andThen ⟨_, _, rfl⟩ _) _) _
  · intro h1
    rw [hd (.error .nameError) (C34_array_violation _ _ _ _ _ (by norm_num) (by rw [hm]; exact h1))]
    rfl

/-- Every rank begins its first pass by pointing the first chunk. -/
theorem all_first {E : Type} (w : World E) (o : Opts) (N : Nat) (c : Chunk) (rest : List Chunk)
    (hm : Mission N (c :: rest)) (i : Inst E) (hi : i.chunks = (c :: rest).map fun c => (c, false))
    (beams : List Pair) (hb : beams ≠ []) (hmaps : ∀ p ∈ beams, ∃ nside sm, MapsOk w nside sm p)
    (size : Nat) (hs : 0 < size) (impl : Nat → E → Chunk → Bool → Bool → Spmd.Prog (Pointing × E)) (r : Nat) :
    ∃ l, r < size → Mpi.scatterList beams size r = .ok l ∧
      ∃ K, Crew.passLoop ⟨w, o, impl r⟩ true (Mpi.passes l (Mpi.nmax beams.length size)) i =
        (impl r i.el c o.ground false).andThen K := by
  have hidx : ∀ d ∈ i.chunks, d.1.cidx.isSome = true := by
    rw [hi]
    intro d hd
    obtain ⟨d, hd', rfl⟩ := List.mem_map.1 hd
    obtain ⟨k, hk⟩ := List.getElem?_of_mem hd'
    dsimp only
    rw [hm.numbered k d hk]
    rfl
  by_cases hr : r < size
  · obtain ⟨l, p, ps, e1, e2, e3⟩ := first_pass beams hb size hs r hr
    refine ⟨l, fun _ => ⟨e1, ?_⟩⟩
    rw [e2]
    exact pass_eq w o (impl r) i c (rest.map fun c => (c, false)) hi p ps
      (begins w o i hidx beams hmaps _ e3)
  · exact ⟨[], fun h => absurd h hr⟩

/-- **C133 is false for L2 scans.**  If the first chunk has fewer than two samples per rank, but not
exactly one, then some ranks have one sample to point and the others none or two.  The latter raise
NameError, and one with one sample waits for them forever, whatever the schedule. -/
theorem C133_l2_violation (w : World (Att A)) (s : Strategy A) (hl2 : s.useL2 = true)
    (hfs : s.so.fsamp ≠ 0) (hct : s.ctimeFunc = Strategies.plainCtime s.so.fsamp s.so.ctime0)
    (radecpa2quat : ℝ → ℝ → ℝ → Quat.Q) (a b fa fb sr jit : ℝ)
    (o : Opts) (N : Nat) (c : Chunk) (rest : List Chunk) (hm : Mission N (c :: rest))
    (i : Inst (Att A)) (hi : i.chunks = (c :: rest).map fun c => (c, false))
    (beams : List Pair) (hb : beams ≠ []) (hmaps : ∀ p ∈ beams, ∃ nside sm, MapsOk w nside sm p)
    (size : Nat) (hc : c.stop - c.start < 2 * size) (hne : c.stop - c.start ≠ size)
    (junk : Junk) (fill : ℝ) :
    ∃ r, r < size ∧ AlwaysHangs size (scanAndSolve w o s
      (fun r => Crew.l2Scan junk size r radecpa2quat a b fa fb sr jit) beams fill i size) r := by
  have hpos := (Strategies.Mission.start_nonneg hm List.mem_cons_self).2.1
  have hs : 0 < size := by omega
  obtain ⟨n, hn⟩ : ∃ n, (c.stop - c.start).toNat = n := ⟨_, rfl⟩
  -- a rank with one sample, and one without
  obtain ⟨r, hr, h1, r', hr', h1'⟩ : ∃ r, r < size ∧ n / size + (if r < n % size then 1 else 0) = 1 ∧
      ∃ r', r' < size ∧ n / size + (if r' < n % size then 1 else 0) ≠ 1 := by
    rcases Nat.lt_or_ge n size with h | h
    · have e1 : n / size = 0 := Nat.div_eq_of_lt h
      have e2 : n % size = n := Nat.mod_eq_of_lt h
      refine ⟨0, hs, ?_, size - 1, by omega, ?_⟩
      · rw [e1, e2, if_pos (by omega)]
      · rw [e1, e2, if_neg (by omega)]
        decide
    · have e1 : n / size = 1 := Nat.div_eq_of_lt_le (by omega) (by omega)
      have e2 : n % size = n - size := by
        rw [Nat.mod_eq_sub_mod h, Nat.mod_eq_of_lt (by omega)]
      refine ⟨size - 1, by omega, ?_, 0, hs, ?_⟩
      · rw [e1, e2, if_neg (by omega)]
      · rw [e1, e2, if_pos (by omega)]
        decide
  refine ⟨r, hr, ?_⟩
  let impl : Nat → Att A → Chunk → Bool → Bool → Spmd.Prog (Pointing × Att A) := fun r e c g _ =>
    Crew.implement s (Crew.l2Scan junk size r radecpa2quat a b fa fb sr jit) e c g
  choose l hl using all_first w o N c rest hm i hi beams hb hmaps size hs impl
  have hfin : Spmd.Blocks size r 0 (fun r => (Crew.passLoop ⟨w, o, impl r⟩ true
      (Mpi.passes (l r) (Mpi.nmax beams.length size)) i).andThen (Crew.solveForMap w.q fill)) := by
    obtain ⟨K, hK⟩ := (hl r hr).2
    obtain ⟨K', hK'⟩ := (hl r' hr').2
    obtain ⟨c0, k0, h0⟩ := ((l2_rank s hl2 hfs hct radecpa2quat a b fa fb sr jit junk size r hr i.el c
      o.ground n hn).1 h1).andThen K
    have h2 := (l2_rank s hl2 hfs hct radecpa2quat a b fa fb sr jit junk size r' hr' i.el c
      o.ground n hn).2 h1'
    refine .now c0 (fun x => (k0 x).andThen (Crew.solveForMap w.q fill)) ?_ r' hr' (.error .nameError) ?_
    · rw [hK]
      exact congrArg (fun P => Spmd.Prog.andThen P (Crew.solveForMap w.q fill)) h0
    · rw [hK']
      show Spmd.Prog.andThen (Spmd.Prog.andThen (Crew.implement _ _ _ _ _) _) _ = _
      rw [h2]
      rfl
  obtain ⟨n1, b1⟩ := Spmd.runsTo_barrier (size := size)
  obtain ⟨n2, b2⟩ := Spmd.runsTo_scatterList (size := size) hs beams l fun r hr => (hl r hr).1
  obtain ⟨m2, hm2⟩ := Spmd.Runs.blocks (Q := fun r l => (Crew.passLoop ⟨w, o, impl r⟩ true
      (Mpi.passes l (Mpi.nmax beams.length size)) i).andThen (Crew.solveForMap w.q fill)) hr b2 hfin
  obtain ⟨m1, hm1⟩ := Spmd.Runs.blocks (Q := fun r _ => (Spmd.scatterList size r beams).andThen fun l =>
      (Crew.passLoop ⟨w, o, impl r⟩ true (Mpi.passes l (Mpi.nmax beams.length size)) i).andThen
        (Crew.solveForMap w.q fill)) hr b1 hm2
  refine Spmd.Blocks.alwaysHangs hr (n := m1) (hm1.congr hr fun r _ => ?_)
  unfold scanAndSolve Crew.program Crew.scanInstrument
  rw [andThen_assoc]
  congr 1
  funext _
  rw [andThen_assoc]

/-- **C133 is false for L2 scans (longer chunks).**  If the first chunk has two samples or more for every
rank, then all ranks raise NameError, whatever the schedule: nothing is ever mapped. -/
theorem C133_l2_fails_violation (w : World (Att A)) (s : Strategy A) (hl2 : s.useL2 = true)
    (hfs : s.so.fsamp ≠ 0) (hct : s.ctimeFunc = Strategies.plainCtime s.so.fsamp s.so.ctime0)
    (radecpa2quat : ℝ → ℝ → ℝ → Quat.Q) (a b fa fb sr jit : ℝ)
    (o : Opts) (N : Nat) (c : Chunk) (rest : List Chunk) (hm : Mission N (c :: rest))
    (i : Inst (Att A)) (hi : i.chunks = (c :: rest).map fun c => (c, false))
    (beams : List Pair) (hb : beams ≠ []) (hmaps : ∀ p ∈ beams, ∃ nside sm, MapsOk w nside sm p)
    (size : Nat) (hs : 0 < size) (hc : 2 * size ≤ c.stop - c.start) (junk : Junk) (fill : ℝ) :
    AlwaysEnds size (scanAndSolve w o s
      (fun r => Crew.l2Scan junk size r radecpa2quat a b fa fb sr jit) beams fill i size)
      fun _ => .error .nameError := by
  obtain ⟨n, hn⟩ : ∃ n, (c.stop - c.start).toNat = n := ⟨_, rfl⟩
  have h2 : 2 ≤ n / size := (Nat.le_div_iff_mul_le hs).2 (by omega)
  let impl : Nat → Att A → Chunk → Bool → Bool → Spmd.Prog (Pointing × Att A) := fun r e c g _ =>
    Crew.implement s (Crew.l2Scan junk size r radecpa2quat a b fa fb sr jit) e c g
  choose l hl using all_first w o N c rest hm i hi beams hb hmaps size hs impl
  have hfin : Spmd.RunsTo size (fun r => (Crew.passLoop ⟨w, o, impl r⟩ true
      (Mpi.passes (l r) (Mpi.nmax beams.length size)) i).andThen (Crew.solveForMap w.q fill))
      fun _ => .error .nameError := by
    refine (Spmd.RunsTo.run (x := fun _ => .error .nameError)).congr (fun r hr => ?_) fun _ _ => rfl
    obtain ⟨K, hK⟩ := (hl r hr).2
    have h3 := (l2_rank s hl2 hfs hct radecpa2quat a b fa fb sr jit junk size r hr i.el c
      o.ground n hn).2 (by omega)
    rw [hK]
    show _ = Spmd.Prog.andThen (Spmd.Prog.andThen (Crew.implement _ _ _ _ _) _) _
    rw [h3]
    rfl
  refine Spmd.RunsTo.alwaysEnds hs ((Spmd.RunsTo.andThen (Q := fun r _ =>
    (Spmd.scatterList size r beams).andThen fun l => (Crew.passLoop ⟨w, o, impl r⟩ true
      (Mpi.passes l (Mpi.nmax beams.length size)) i).andThen (Crew.solveForMap w.q fill))
    Spmd.runsTo_barrier (Spmd.RunsTo.andThen
      (Spmd.runsTo_scatterList hs beams l fun r hr => (hl r hr).1) hfin)).congr (fun r _ => ?_)
        fun _ _ => rfl)
  unfold scanAndSolve Crew.program Crew.scanInstrument
  rw [andThen_assoc]
  congr 1
  funext _
  rw [andThen_assoc]

/-- **C133 for L2 scans (a part).** If there are exactly as many samples in a chunk as ranks, the ranks
together point every sample as a single process points this sample alone (`C107_l2_single_partial`), and
end whatever the schedule, although a single process cannot point the chunk (`C107_l2_violation`).
Missing: any other number of samples. -/
theorem C133_l2_one_each_partial (s : Strategy A) (hl2 : s.useL2 = true)
    (hfs : s.so.fsamp ≠ 0) (hct : s.ctimeFunc = Strategies.plainCtime s.so.fsamp s.so.ctime0)
    (radecpa2quat : ℝ → ℝ → ℝ → Quat.Q) (a b fa fb sr jit : ℝ)
    (hq : s.boreFunc = Strategies.l2Scan radecpa2quat a b fa fb sr jit) (size : Nat) (hs : 0 < size)
    (junk : Junk) (hj : JunkOk junk) (e : Att A) (c : Chunk) (hc : c.stop = c.start + size) (g pre : Bool) :
    ∃ (q : List Quat.Q) (e' : Att A),
      (∀ k : Nat, k < size → ∃ qk ek, q[k]? = some qk ∧
        Strategies.implement s e { c with start := c.start + k, stop := c.start + k + 1 } g pre =
          .ok (⟨[((c.start + k : Int) : ℝ) / s.so.fsamp + s.so.ctime0], [qk], e.st.qGround,
            some [false]⟩, ek)) ∧
      AlwaysEnds size (fun r => Crew.implement s
          (Crew.l2Scan junk size r radecpa2quat a b fa fb sr jit) e c g)
        fun _ => .ok (⟨(List.range size).map fun (k : Nat) =>
            ((c.start + k : Int) : ℝ) / s.so.fsamp + s.so.ctime0, q, e.st.qGround,
          some (List.replicate size false)⟩, e') := by
  choose x hx using fun u : ℝ => ctime2bore_ok u 45 50 192.348 0.05 (by norm_num)
  let f : ℝ → Quat.Q := fun u => radecpa2quat (x u).1 (x u).2.1 (x u).2.2
  let t : Nat → ℝ := fun k => ((c.start + k : Int) : ℝ) / s.so.fsamp + s.so.ctime0
  have ht : s.ctimeFunc c.start c.stop none = .ok ((List.range size).map t) := by
    rw [hct]
    unfold Strategies.plainCtime Data.ctimes
    rw [if_neg hfs, hc]
    unfold intRange
    rw [show (c.start + size - c.start).toNat = size by omega]
    simp [t, Function.comp_def]
  have hsub : ∀ r, r ≤ size → Mpi.subStart size size r = r := by
    intro r hr
    rw [Mpi.subStart_eq _ _ _ hr, Nat.div_self hs, Nat.mod_self]
    omega
  have hmine : ∀ r, r < size → pySlice ((List.range size).map t) (Mpi.subStart size size r : Int)
      (Mpi.subStart size size (r + 1) : Int) = [t r] := by
    intro r hr
    rw [hsub r hr.le, hsub (r + 1) hr, pySlice_nat]
    apply List.ext_getElem?
    intro j
    rw [List.getElem?_drop, List.getElem?_take]
    rcases j with _ | j
    · simp [hr]
    · rw [if_neg (by omega)]
      simp
  refine ⟨(List.range size).map fun k => f (t k), { e with
    st := { e.st with
      ctime := (List.range size).map t
      flag := some (List.replicate size false)
      qBore := (List.range size).map fun k => f (t k) } }, ?_, ?_⟩
  · intro k hk
    refine ⟨f (t k), { e with
      st := { e.st with
        ctime := [t k]
        flag := some [false]
        qBore := [f (t k)] } }, by simp [hk], ?_⟩
    have ht1 : s.ctimeFunc (c.start + k) (c.start + k + 1) none = .ok [t k] := by
      rw [hct]
      unfold Strategies.plainCtime Data.ctimes
      rw [if_neg hfs]
      unfold intRange
      rw [show (c.start + k + 1 - (c.start + k)).toNat = 1 by omega]
      simp [t]
    unfold Strategies.implement Strategies.implementScan Strategies.external
    rw [hl2]
    simp only [Bool.not_true, Bool.and_false, Bool.false_eq_true, if_false, if_true]
    rw [ht1]
    simp only [bind, Except.bind]
    rw [hq]
    unfold Strategies.l2Scan Angles.l2Scan
    dsimp only [Strategies.setCtime]
    rw [hx (t k)]
    rfl
  · refine RunsTo.alwaysEnds hs ?_
    have hgat := Spmd.runsTo_gather hs junk hj size f ((List.range size).map t) (by simp)
    refine (RunsTo.andThen (Q := fun _ (q : List Quat.Q) => Spmd.ret (⟨(List.range size).map t, q,
        e.st.qGround, some (q.map fun _ => false)⟩, ({ e with
          st := { e.st with
            ctime := (List.range size).map t
            flag := some (q.map fun _ => false)
            qBore := q } } : Att A))) hgat RunsTo.ret).congr (fun r hr => ?_) fun r hr => ?_
    · unfold Crew.implement Crew.implementScan
      simp only [hl2, Bool.or_true, if_true, ht]
      show _ = ((Crew.l2Scan junk size r radecpa2quat a b fa fb sr jit c.start c.stop none none
        (Strategies.setCtime ((List.range size).map t) e)).andThen _).andThen _
      unfold Crew.l2Scan
      simp only [Strategies.setCtime, List.length_map, List.length_range, Mpi.subEnd_eq size size r hr]
      show _ = (((Spmd.run (Angles.l2Scan a b fa fb sr jit (pySlice ((List.range size).map t)
        (Mpi.subStart size size r : Int) (Mpi.subStart size size (r + 1) : Int)))).andThen _).andThen
          _).andThen _
      rw [hmine r hr]
      have : Angles.l2Scan a b fa fb sr jit [t r] = .ok [x (t r)] := hx (t r)
      rw [this]
      have hsend : Mpi.rankSend (fun x => Spmd.flat (f x)) ((List.range size).map t) size r =
          ([x (t r)].map fun (ra, dec, psi) => radecpa2quat ra dec psi).flatMap Spmd.flat := by
        unfold Mpi.rankSend
        rw [List.length_map, List.length_range, Mpi.subEnd_eq size size r hr]
        dsimp only
        rw [hmine r hr]
        rfl
      unfold Spmd.gather
      rw [hsend]
      simp only [andThen_assoc]
      rfl
    · simp only [List.map_map, Function.comp_def, List.map_const', List.length_range, t]

/-! ## examples -/

namespace Ways

open Rec Whole

/-- What is found in memory does not matter. -/
def junk : Junk := fun r n => List.replicate n r

theorem junk_ok : JunkOk junk := fun _ _ => List.length_replicate

theorem maps_ok : ∃ sm : Pair → Spinmaps SpinDict, ∀ p ∈ beams, MapsOk Whole.w 1 (sm p) p := by
  have h : ∀ p, ∃ sm, p ∈ beams → MapsOk Whole.w 1 sm p := by
    intro p
    by_cases hp : p ∈ beams
    · obtain ⟨sm, h⟩ := ideal_maps Whole.w one_pos Conv.Y (Whole.ideal p hp)
      exact ⟨sm, fun _ => h.1⟩
    · exact ⟨Whole.i.st.maps, fun h => absurd h hp⟩
  choose sm h using h
  exact ⟨sm, h⟩

/-- The hypotheses of `C133_ends` and `C133_maps` are met: functions of the user. -/
example (size : Nat) (hs : 0 < size) (fill : ℝ) : ∃ sky, AlwaysEnds size
    (scanAndSolve (world own) Whole.o own (fun _ => Crew.alone own.boreFunc) beams fill (inst ()) size)
    (firstOnly sky) := by
  obtain ⟨sm, hsm⟩ := maps_ok
  obtain ⟨m, -, h⟩ := C133_maps (world own) own ⟨rfl, rfl⟩ (.inl rfl) _ Whole.o 3 beams (inst ()) size hs
    (C107_external (world own) own ⟨rfl, rfl⟩ rfl rfl
      ⟨fun t => t, fun t => ![1, (t : ℝ), 0, 0], fun _ => 0, alpha, fun _ => false⟩ _ _ _ _
      (prepared own () _ _) rfl rfl (fun _ => rfl) (fun _ _ => rfl) (fun _ _ _ => rfl) beams size hs)
    1 sm hsm
  exact ⟨_, h junk _ fill junk_ok .own⟩

/-- The same for a schedule with two scans. -/
example (size : Nat) (hs : 0 < size) (fill : ℝ) : ∃ sky, AlwaysEnds size
    (scanAndSolve (world scheduled) Whole.o scheduled (fun r => Crew.scheduleScan junk size r
      site.azel2bore 1 5 (Schedule.partitionSchedule 3 1 none ces)) beams fill (inst ()) size)
    (firstOnly sky) := by
  obtain ⟨sm, hsm⟩ := maps_ok
  obtain ⟨time, bore, -, h⟩ := C107_schedule_partial (world scheduled) scheduled ⟨rfl, rfl⟩ rfl rfl 3 1 5
    none ces one_pos (by norm_num) (by norm_num) (by decide +kernel) site.azel2bore rfl rfl Whole.o 3
    (inst ()) rfl (fun _ => 0) alpha (by rw [ces_chunks]; exact fun _ _ => prepared scheduled () _ _)
  obtain ⟨m, -, h⟩ := C133_maps (world scheduled) scheduled ⟨rfl, rfl⟩ (.inl rfl) _ Whole.o 3 beams
    (inst ()) size hs (h beams size hs) 1 sm hsm
  exact ⟨_, h junk _ fill junk_ok (.schedule rfl)⟩

/-- The same for an azimuth scan. -/
example (size : Nat) (hs : 0 < size) (fill : ℝ) :
    ∃ sky, AlwaysEnds size (scanAndSolve (world turning) Whole.o turning (fun r =>
      Crew.strictlyAz junk size r site 1 45 10 3) beams fill (inst ()) size) (firstOnly sky) := by
  obtain ⟨sm, hsm⟩ := maps_ok
  obtain ⟨m, -, h⟩ := C133_maps (world turning) turning ⟨rfl, rfl⟩ (.inr (.inr rfl)) _ Whole.o 3 beams
    (inst ()) size hs (turning_maps size hs) 1 sm hsm
  exact ⟨_, h junk _ fill junk_ok (.strictlyAz rfl rfl rfl)⟩

/-- The same for a satellite, with a detector on each of two ranks. -/
example (fill : ℝ) : ∃ sky, AlwaysEnds 2 (scanAndSolve (world flying) Whole.o flying (fun r =>
    Crew.satelliteScan junk 2 r (fun a _ l la _ => ![1, a, l, la]) slow) beams fill
      (inst ⟨none, none⟩) 2) (firstOnly sky) := by
  obtain ⟨sm, hsm⟩ := maps_ok
  obtain ⟨bore, h⟩ := flying_maps
  obtain ⟨m, -, h⟩ := C133_maps (world flying) flying ⟨rfl, rfl⟩ (.inl rfl) _ Whole.o 3 beams
    (inst ⟨none, none⟩) 2 two_pos h 1 sm hsm
  exact ⟨_, h junk _ fill junk_ok (.satellite rfl)⟩

/-- The hypotheses of `C133_l2_violation` are met: two samples and three ranks. -/
example (fill : ℝ) : ∃ r, r < 3 ∧ AlwaysHangs 3 (scanAndSolve (world far) Whole.o far
    (fun r => Crew.l2Scan junk 3 r (fun ra dec psi => ![1, ra, dec, psi]) 45 50 1 1 1 0) beams fill
    (inst ()) 3) r := by
  refine C133_l2_violation (world far) far rfl one_ne_zero rfl
    (fun ra dec psi => ![1, ra, dec, psi]) 45 50 1 1 1 0 _ 3 _ _ mission_ok _ rfl beams (by decide) ?_ 3
    (by decide) (by decide) junk fill
  obtain ⟨sm, hsm⟩ := maps_ok
  exact fun p hp => ⟨1, _, hsm p hp⟩

/-- The hypotheses of `C133_l2_fails_violation` are met: two samples and one rank. -/
example (fill : ℝ) : AlwaysEnds 1 (scanAndSolve (world far) Whole.o far
    (fun r => Crew.l2Scan junk 1 r (fun ra dec psi => ![1, ra, dec, psi]) 45 50 1 1 1 0) beams fill
    (inst ()) 1) fun _ => .error .nameError := by
  refine C133_l2_fails_violation (world far) far rfl one_ne_zero rfl
    (fun ra dec psi => ![1, ra, dec, psi]) 45 50 1 1 1 0 _ 3 _ _ mission_ok _ rfl beams (by decide) ?_ 1
    one_pos (by decide) junk fill
  obtain ⟨sm, hsm⟩ := maps_ok
  exact fun p hp => ⟨1, _, hsm p hp⟩

/-- The hypotheses of `C133_l2_one_each_partial` are met: two samples and two ranks. -/
example : ∃ q e', AlwaysEnds 2 (fun r => Crew.implement far (Crew.l2Scan junk 2 r
      (fun ra dec psi => ![1, ra, dec, psi]) 45 50 1 1 1 0) (inst ()).el { start := 0, stop := 2 } false)
    fun _ => .ok (⟨(List.range 2).map fun (k : Nat) => (((0 + k : Int) : ℝ)) / 1 + 0, q, none,
      some (List.replicate 2 false)⟩, e') := by
  obtain ⟨q, e', -, h⟩ := C133_l2_one_each_partial far rfl one_ne_zero rfl
    (fun ra dec psi => ![1, ra, dec, psi]) 45 50 1 1 1 0 rfl 2 two_pos junk junk_ok (inst ()).el
    { start := 0, stop := 2 } rfl false false
  exact ⟨q, e', h⟩

end Ways

end Verif.Props
