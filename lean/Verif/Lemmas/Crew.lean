import Verif.Model.Crew
import Verif.Lemmas.SpmdLoop
import Verif.Spec.Crew
import Verif.Lemmas.Schedule

/-! # Lemmas: scans with strategies that are not generic, by ranks that run together -/

noncomputable section

namespace Verif.Crew

open Verif.Chunks Verif.Timeline Verif.Spinmaps Verif.MapMaking Verif.Spmd Verif.Strategies
open Verif.ScanInstrument (World Inst Pair Pointing)

variable {A E : Type} {size : Nat}

/-! ### loops -/

/-- `implement_scan` by all ranks together does what one process does. -/
def Faithful (size : Nat) (w : World E) (impl : Nat → E → Chunk → Bool → Bool → Prog (Pointing × E)) :
    Prop :=
  ∀ e c g pre p, w.implement e c g pre = .ok p →
    RunsTo size (fun r => impl r e c g pre) fun _ => .ok p

variable {w : World E} {o : ScanInstrument.Opts}
  {impl : Nat → E → Chunk → Bool → Bool → Prog (Pointing × E)}

theorem stepChunk_rank {pair : Pair} {first : Bool} {k : Nat} {i i' : Inst E}
    (h : ScanInstrument.stepChunk w o pair first i k = .ok i') :
    ∃ c g p, pyGet i.chunks k = .ok (c, g) ∧ w.implement i.el c (g || o.ground) (!first) = .ok p
      ∧ ∀ f, ScanInstrument.stepChunk ((⟨w, o, f⟩ : Setup E).world p) o pair first i k = .ok i' := by
  obtain ⟨⟨c, g⟩, h1, h⟩ := bind_ok h
  obtain ⟨⟨q, e⟩, h2, h⟩ := bind_ok h
  obtain ⟨⟨subs, rot⟩, h3, h⟩ := bind_ok h
  refine ⟨c, g, _, h1, h2, fun f => ?_⟩
  unfold ScanInstrument.stepChunk
  rw [h1]
  simp only [bind, Except.bind, Setup.world, h3]
  exact h

theorem runsTo_stepChunk (hs : 0 < size) (hf : Faithful size w impl) {pair : Nat → Pair} {first : Bool}
    {k : Nat} {i i' : Nat → Inst E} (ha : ∀ r, r < size → Alike (i r) (i 0))
    (h : ∀ r, r < size → ScanInstrument.stepChunk w o (pair r) first (i r) k = .ok (i' r)) :
    RunsTo size (fun r => stepChunk ⟨w, o, impl r⟩ (pair r) first (i r) k) fun r => .ok (i' r) := by
  obtain ⟨c, g, p, h1, h2, _⟩ := stepChunk_rank (h 0 hs)
  unfold stepChunk
  refine RunsTo.andThen (a := fun _ => (c, g)) (RunsTo.run' fun r hr => ?_) ?_
  · rw [(ha r hr).chunks]
    exact h1
  refine RunsTo.andThen (a := fun _ => p) ?_ ?_
  · refine (hf _ _ _ _ _ h2).congr (fun r hr => ?_) fun _ _ => rfl
    simp only [(ha r hr).el]
  · refine RunsTo.run' fun r hr => ?_
    obtain ⟨c', g', p', h1', h2', h3'⟩ := stepChunk_rank (h r hr)
    rw [(ha r hr).chunks, h1] at h1'
    cases h1'
    rw [(ha r hr).el, h2] at h2'
    cases h2'
    exact h3' _

theorem runsTo_chunkLoop (hs : 0 < size) (hf : Faithful size w impl) {pair : Nat → Pair} {first : Bool}
    (ks : List Nat) :
    ∀ {i i' : Nat → Inst E}, (∀ r, r < size → Alike (i r) (i 0)) →
      (∀ r, r < size → ks.foldlM (ScanInstrument.stepChunk w o (pair r) first) (i r) = .ok (i' r)) →
      RunsTo size (fun r => chunkLoop ⟨w, o, impl r⟩ (pair r) first ks (i r))
        (fun r => .ok (i' r)) ∧ ∀ r, r < size → Alike (i' r) (i' 0) := by
  induction ks with
  | nil =>
    intro i i' ha h
    have e : ∀ r, r < size → i r = i' r := fun r hr => Except.ok.inj (h r hr)
    refine ⟨RunsTo.ret.congr (fun _ _ => rfl) fun r hr => by rw [e r hr], fun r hr => ?_⟩
    rw [← e r hr, ← e 0 hs]
    exact ha r hr
  | cons k ks ih =>
    intro i i' ha h
    have h1 : ∀ r, ∃ j, r < size → ScanInstrument.stepChunk w o (pair r) first (i r) k = .ok j
        ∧ ks.foldlM (ScanInstrument.stepChunk w o (pair r) first) j = .ok (i' r) := by
      intro r
      by_cases hr : r < size
      · have := h r hr
        rw [List.foldlM_cons] at this
        obtain ⟨j, h1, h2⟩ := bind_ok this
        exact ⟨j, fun _ => ⟨h1, h2⟩⟩
      · exact ⟨i r, fun x => absurd x hr⟩
    choose j hj1 using h1
    have haj : ∀ r, r < size → Alike (j r) (j 0) := fun r hr =>
      stepChunk_alike (ha r hr) (hj1 r hr).1 (hj1 0 hs).1
    have := ih haj fun r hr => (hj1 r hr).2
    refine ⟨?_, this.2⟩
    unfold chunkLoop
    exact RunsTo.andThen (runsTo_stepChunk hs hf ha fun r hr => (hj1 r hr).1) this.1

theorem runsTo_passLoop (hs : 0 < size) (hf : Faithful size w impl) (n : Nat) :
    ∀ (first : Bool) (ps : Nat → List (Option Pair)) {i i' : Nat → Inst E},
      (∀ r, r < size → (ps r).length = n) → (∀ r, r < size → Alike (i r) (i 0)) →
      (∀ r, r < size → ScanInstrument.scanLoop w o first (ps r) (i r) = .ok (i' r)) →
      RunsTo size (fun r => passLoop ⟨w, o, impl r⟩ first (ps r) (i r)) fun r => .ok (i' r) := by
  induction n with
  | zero =>
    intro first ps i i' hl ha h
    refine (RunsTo.ret (a := fun r => i r)).congr (fun r hr => ?_) fun r hr => ?_
    · rw [List.eq_nil_of_length_eq_zero (hl r hr)]
      rfl
    · have := h r hr
      rw [List.eq_nil_of_length_eq_zero (hl r hr)] at this
      exact this
  | succ n ih =>
    intro first ps i i' hl ha h
    have h1 : ∀ r, ∃ p ps' j k, r < size → ps r = p :: ps'
        ∧ begin w o first (p.getD (none, none)) (i r) = .ok j
        ∧ (List.range j.chunks.length).foldlM
          (ScanInstrument.stepChunk w o (p.getD (none, none)) first) j = .ok k
        ∧ ScanInstrument.scanLoop w o false ps' k = .ok (i' r) := by
      intro r
      by_cases hr : r < size
      · have h2 := hl r hr
        have h3 := h r hr
        cases hp : ps r with
        | nil =>
          rw [hp] at h2
          simp at h2
        | cons p ps' =>
          rw [hp] at h3
          obtain ⟨k, h4, h5⟩ := bind_ok h3
          rw [scanPass_eq] at h4
          obtain ⟨j, h6, h7⟩ := bind_ok h4
          exact ⟨p, ps', j, k, fun _ => ⟨rfl, h6, h7, h5⟩⟩
      · exact ⟨none, [], i r, i r, fun x => absurd x hr⟩
    choose p ps' j k hk using h1
    have haj : ∀ r, r < size → Alike (j r) (j 0) := fun r hr =>
      begin_alike (ha r hr) (hk r hr).2.1 (hk 0 hs).2.1
    obtain ⟨hc1, hc2⟩ := runsTo_chunkLoop hs hf (pair := fun r => (p r).getD (none, none))
      (first := first) (List.range (j 0).chunks.length) haj (i' := k) fun r hr => by
        rw [← (haj r hr).chunks]
        exact (hk r hr).2.2.1
    have h3 := ih false ps' (fun r hr => by
      have := hl r hr
      rw [(hk r hr).1] at this
      simpa using this) hc2 fun r hr => (hk r hr).2.2.2
    have h4 : RunsTo size (fun r => (run (begin w o first
        ((p r).getD (none, none)) (i r))).andThen fun i =>
        (chunkLoop ⟨w, o, impl r⟩ ((p r).getD (none, none)) first (List.range i.chunks.length) i).andThen
          (passLoop ⟨w, o, impl r⟩ false (ps' r))) fun r => .ok (i' r) := by
      refine RunsTo.andThen (a := j) (RunsTo.run' fun r hr => (hk r hr).2.1) ?_
      refine RunsTo.andThen (hc1.congr (fun r hr => ?_) fun _ _ => rfl) h3
      rw [(haj r hr).chunks]
    refine h4.congr (fun r hr => ?_) fun _ _ => rfl
    rw [(hk r hr).1]
    rfl

theorem runsTo_scanInstrument (hs : 0 < size) (hf : Faithful size w impl) (beams : List Pair)
    (i : Inst E) (i' : Nat → Inst E)
    (h : ∀ r, r < size → ScanInstrument.scanInstrument w o beams true size r i = .ok (i' r)) :
    RunsTo size (fun r => scanInstrument size r ⟨w, o, impl r⟩ beams i) fun r => .ok (i' r) := by
  have h1 : ∀ r, ∃ l, r < size → Mpi.scatterList beams size r = .ok l
      ∧ ScanInstrument.scanLoop w o true (Mpi.passes l (Mpi.nmax beams.length size)) i
        = .ok (i' r) := by
    intro r
    by_cases hr : r < size
    · obtain ⟨ps, h1, h2⟩ := bind_ok (h r hr)
      obtain ⟨l, h3, h4⟩ := bind_ok h1
      cases h4
      exact ⟨l, fun _ => ⟨h3, h2⟩⟩
    · exact ⟨[], fun x => absurd x hr⟩
  choose l hl using h1
  unfold scanInstrument
  refine RunsTo.andThen runsTo_barrier ?_
  refine RunsTo.andThen (runsTo_scatterList hs beams l fun r hr => (hl r hr).1) ?_
  exact runsTo_passLoop hs hf (Mpi.nmax beams.length size) true
    (fun r => Mpi.passes (l r) (Mpi.nmax beams.length size)) (i := fun _ => i) (i' := i')
    (fun r _ => length_passes _ _) (fun _ _ => ⟨rfl, rfl, rfl⟩) fun r hr => (hl r hr).2

theorem runsTo_solveForMap (hs : 0 < size) (q : QExt) (fill : ℝ) (n : Nat)
    (i : Nat → Inst E) (h : ∀ r, r < size → (i r).maps.length = n) :
    RunsTo size (fun r => solveForMap q fill (i r))
      (firstOnly (MapMaking.solveForMap q
        (ScanInstrument.reduceMaps n ((List.range size).map fun r => (i r).maps)) fill)) := by
  refine .call (fun r => .reduce (i r).maps) (fun _ => Reply.toSolved q fill)
    (fun r => .maps (if r = 0 then
        some (ScanInstrument.reduceMaps n ((List.range size).map fun s => (i s).maps)) else none))
    (fun _ _ => rfl) ?_ ?_
  · simp only [exchange, Call.loc, h 0 hs]
    exact if_pos fun r hr => ⟨_, rfl, (h r hr).trans (h 0 hs).symm⟩
  · refine RunsTo.ret.congr (fun _ _ => rfl) fun r _ => ?_
    unfold firstOnly
    split <;> rfl

theorem alwaysEnds (hs : 0 < size) (hf : Faithful size w impl) (beams : List Pair) (i : Inst E)
    (fill : ℝ) (m : Maps) (h : ScanInstrument.scanAll w o beams true size i = .ok m) :
    AlwaysEnds size (fun r => program size r ⟨w, o, impl r⟩ beams fill i)
      (firstOnly (MapMaking.solveForMap w.q m fill)) := by
  obtain ⟨i', h1, rfl⟩ := Spmd.scanAll_inv h
  refine RunsTo.alwaysEnds hs ?_
  have h2 := runsTo_scanInstrument hs hf beams i i' h1
  have h3 := runsTo_solveForMap hs w.q fill i.maps.length i' fun r hr => Spmd.scan_length (h1 r hr)
  exact RunsTo.andThen h2 h3

/-! ### `q_bore_func` -/

/-- `q_bore_func` by all ranks together does what one process does; with `b`, if there are as many times
as samples. -/
def Computes (b : Bool) (size : Nat) (f : BoreFunc A) (bore : Nat → BoreProg A) : Prop :=
  ∀ start stop cidx ground e x, (b = true → e.st.ctime.length = (stop - start).toNat) →
    f start stop cidx ground e = .ok x →
    RunsTo size (fun r => bore r start stop cidx ground e) fun _ => .ok x

theorem computes_alone (f : BoreFunc A) : Computes false size f fun _ => alone f := fun _ _ _ _ _ _ _ h =>
  RunsTo.run' fun _ _ => h

theorem computes_strictlyAz (hs : 0 < size) (junk : Junk) (hj : JunkOk junk) (site : Scan.Site ℝ Quat.Q)
    (fsamp el0 az0 speed : ℝ) : Computes (A := A) true size (Strategies.strictlyAz site fsamp el0 az0 speed)
      fun r => strictlyAz junk size r site fsamp el0 az0 speed := by
  intro start stop cidx ground e x hc h
  unfold Strategies.strictlyAz at h
  dsimp only at h
  obtain rfl := Except.ok.inj h
  unfold strictlyAz
  dsimp only
  refine RunsTo.andThen (runsTo_groundQuats hs junk hj _ site _ _ _ e.st.qGround (by simp) (by simp)) ?_
  refine RunsTo.andThen (runsTo_gather hs junk hj _ _ _ (by simp [hc rfl])) ?_
  exact RunsTo.ret

theorem computes_satellite (hs : 0 < size) (junk : Junk) (hj : JunkOk junk)
    (azel2bore : ℝ → ℝ → ℝ → ℝ → ℝ → Quat.Q) (o : Satellite.Opts) :
    Computes false size (Strategies.satelliteScan azel2bore o)
      fun r => satelliteScan junk size r azel2bore o := by
  intro start stop cidx ground e x hc h
  obtain ⟨⟨⟨az, el, lon, lat⟩, own⟩, h1, h⟩ := bind_ok h
  obtain rfl := Except.ok.inj h
  unfold satelliteScan
  refine RunsTo.andThen (RunsTo.run' fun _ _ => h1) ?_
  have hl : az.length = e.st.ctime.length ∧ el.length = e.st.ctime.length
      ∧ lon.length = e.st.ctime.length ∧ lat.length = e.st.ctime.length := by
    obtain ⟨_, _, h1⟩ := bind_ok h1
    obtain ⟨_, _, h1⟩ := bind_ok h1
    cases h1
    simp [Satellite.az, Satellite.lon, Satellite.lat, Satellite.linspaceClosed, Hwp.linspace]
  refine RunsTo.andThen (runsTo_gather hs junk hj _ _ _ (by simp [hl])) ?_
  refine RunsTo.ret.congr (fun _ _ => rfl) fun r _ => ?_
  simp [List.zip, List.map_zipWith]

theorem owner_eq {n k r : Nat} (hr : r < size) (h1 : Mpi.subStart n size r ≤ k)
    (h2 : k < Mpi.subStart n size (r + 1)) : owner size n k = r := by
  rw [Mpi.subStart_eq _ _ _ hr.le] at h1
  rw [Mpi.subStart_eq _ _ _ hr] at h2
  unfold owner
  generalize n % size = m at *
  generalize n / size = q at *
  rcases Nat.lt_or_ge r m with h | h
  · rw [Nat.min_eq_left h.le] at h1
    rw [Nat.min_eq_left h] at h2
    have e1 : r * (q + 1) ≤ k := by rw [Nat.mul_add, Nat.mul_one]; exact h1
    have e2 : k < (r + 1) * (q + 1) := by rw [Nat.mul_add, Nat.mul_one]; exact h2
    rw [if_pos (lt_of_lt_of_le e2 (Nat.mul_le_mul_right _ h))]
    exact Nat.div_eq_of_lt_le e1 e2
  · rw [Nat.min_eq_right h] at h1
    rw [Nat.min_eq_right (by omega)] at h2
    obtain ⟨d, rfl⟩ := Nat.exists_eq_add_of_le h
    rw [Nat.add_mul] at h1
    have e3 : (m + d + 1) * q = m * q + (d + 1) * q := by ring
    rw [e3] at h2
    have e4 : m * (q + 1) = m * q + m := by ring
    rw [e4, if_neg (by omega)]
    congr 1
    exact Nat.div_eq_of_lt_le (by omega) (by omega)

theorem runsTo_gather_mixed {α : Type} (hs : 0 < size) (junk : Junk) (hj : JunkOk junk) (n : Nat)
    (f : α → Quat.Q) (inputs : Nat → List α) (whole : List α) (hl : ∀ r, (inputs r).length = n)
    (hn : whole.length = n)
    (h : ∀ r k, r < size → k < n → owner size n k = r → (inputs r)[k]? = whole[k]?) :
    RunsTo size (fun r => gather (junk r) size r n f (inputs r)) fun _ => .ok (whole.map f) := by
  refine (runsTo_gather hs junk hj n f whole hn).congr (fun r hr => ?_) fun _ _ => rfl
  unfold gather
  congr 2
  unfold Mpi.rankSend
  rw [hl, hn, Mpi.subEnd_eq n size r hr]
  dsimp only
  congr 1
  rw [pySlice_nat, pySlice_nat]
  have h3 := Mpi.subStart_mono n size (r + 1) size (by omega)
  rw [Mpi.subStart_size n size hs] at h3
  apply List.ext_getElem?
  intro j
  rw [List.getElem?_drop, List.getElem?_drop, List.getElem?_take, List.getElem?_take]
  split
  · rename_i hj
    exact (h r _ hr (by omega) (owner_eq hr (by omega) hj)).symm
  · rfl

theorem computes_jitter (hs : 0 < size) (junk : Junk) (hj : JunkOk junk)
    (azel2bore : ℝ → ℝ → ℝ → ℝ → ℝ → Quat.Q) (o : Satellite.Opts) (amp : ℝ) (rng : Nat → Nat → ℝ) :
    Computes false size (Strategies.satelliteJitter azel2bore o amp (mixed size rng))
      fun r => satelliteJitter junk size r azel2bore o amp (rng r) := by
  intro start stop cidx ground e x hc h
  obtain ⟨⟨⟨az, el, lon, lat⟩, own⟩, h1, h⟩ := bind_ok h
  obtain rfl := Except.ok.inj h
  obtain ⟨lo, h2, h1⟩ := bind_ok h1
  obtain ⟨la, h3, h1⟩ := bind_ok h1
  have hrun : ∀ r, Satellite.scanJitter o amp (rng r) e.own.1 e.own.2 e.st.ctime.length =
      .ok ((az, Satellite.elJitter o amp (rng r) e.own.2 e.st.ctime.length, lon, lat), own) := by
    intro r
    unfold Satellite.scanJitter
    rw [h2, h3]
    cases h1
    rfl
  unfold satelliteJitter
  refine RunsTo.andThen (RunsTo.run' fun r _ => hrun r) ?_
  cases h1
  refine RunsTo.andThen (runsTo_gather_mixed hs junk hj _ _ _
    (((Satellite.az o e.st.ctime.length).zip ((Satellite.elJitter o amp (mixed size rng e.st.ctime.length
      e.own.2) e.own.2 e.st.ctime.length).zip ((Satellite.lon o e.own.1 e.st.ctime.length).zip
        (Satellite.lat o e.own.1 e.st.ctime.length)))).zip e.st.ctime) (fun r => ?_) ?_ ?_) ?_
  · simp [Satellite.az, Satellite.lon, Satellite.lat, Satellite.linspaceClosed, Hwp.linspace,
      Satellite.elJitter, apply_ite List.length]
  · simp [Satellite.az, Satellite.lon, Satellite.lat, Satellite.linspaceClosed, Hwp.linspace,
      Satellite.elJitter, apply_ite List.length]
  · intro r k hr hk hown
    have : (Satellite.elJitter o amp (rng r) e.own.2 e.st.ctime.length)[k]? =
        (Satellite.elJitter o amp (mixed size rng e.st.ctime.length e.own.2) e.own.2
          e.st.ctime.length)[k]? := by
      unfold Satellite.elJitter
      split
      · rw [List.getElem?_map, List.getElem?_map]
        simp [hk, mixed, hown]
      · rfl
    simp only [List.getElem?_zip_eq_some, List.zip, List.getElem?_zipWith, this]
  · refine RunsTo.ret.congr (fun _ _ => rfl) fun r _ => ?_
    simp [List.zip, List.map_zipWith]

theorem azimuths_length {fsamp speed : ℚ} {x : Schedule.Ces} {t : List ℚ} {az : List ℚ}
    (h : Schedule.azimuths fsamp speed x t = .ok az) : az.length = t.length := by
  have h0 := h
  unfold Schedule.azimuths at h
  obtain ⟨t0, h1, h⟩ := bind_ok h
  dsimp only at h
  split at h
  case isFalse => cases h
  rename_i hth
  split at h
  case isTrue => cases h
  rename_i hsp
  split at h
  case isFalse => cases h
  rename_i hn
  cases t with
  | nil => cases h1
  | cons t ts =>
    obtain ⟨az', h2, h3, _⟩ := Schedule.azimuths_spec fsamp speed x t ts
      (Schedule.perScan fsamp speed x).toNat hth hsp (by omega) (by omega)
    rw [h0] at h2
    cases h2
    exact h3

theorem computes_schedule (hs : 0 < size) (junk : Junk) (hj : JunkOk junk)
    (azel2bore : ℝ → ℝ → ℝ → Quat.Q) (fsamp speed : ℚ) (entries : List Schedule.Entry) :
    Computes (A := A) false size (Strategies.scheduleScan azel2bore fsamp speed entries)
      fun r => scheduleScan junk size r azel2bore fsamp speed entries := by
  intro start stop cidx ground e x hc h
  obtain ⟨t, h1, h⟩ := bind_ok h
  obtain ⟨q, h2, h⟩ := bind_ok h
  obtain rfl := Except.ok.inj h
  obtain ⟨en, h3, h2⟩ := bind_ok h2
  obtain ⟨az, h4, h2⟩ := bind_ok h2
  obtain rfl := Except.ok.inj h2
  unfold scheduleScan
  refine RunsTo.andThen (RunsTo.run' fun _ _ => h1) ?_
  refine RunsTo.andThen (a := fun _ => (az, en.ces.el)) (RunsTo.run' fun _ _ => ?_) ?_
  · unfold scheduleAz
    rw [h3]
    simp only [bind, Except.bind, h4]
    rfl
  refine RunsTo.andThen (runsTo_gather hs junk hj _ _ _ (by simp [azimuths_length h4])) ?_
  exact RunsTo.ret

/-! ### `implement_scan` -/

theorem ctimes_length {fsamp ctime0 : ℝ} {start stop : Int} {t : List ℝ}
    (h : Data.ctimes fsamp ctime0 start stop = .ok t) : t.length = (stop - start).toNat := by
  unfold Data.ctimes at h
  split at h
  · cases h
  · cases h
    simp [intRange]

theorem faithful {w : World (Att A)} {s : Strategy A} (hw : Strategies.Uses w s)
    (hg : s.extPoint = true ∨ s.useL2 = true ∨ s.useStrictlyAz = true) {b : Bool}
    (ht : b = true → s.extPoint = false ∧ s.useL2 = false)
    {bore : Nat → BoreProg A} (hb : Computes b size s.boreFunc bore) :
    Faithful size w fun r e c g _ => implement s (bore r) e c g := by
  intro e c g pre p h
  rw [hw.1] at h
  obtain ⟨e', h1, h⟩ := bind_ok h
  obtain rfl := Except.ok.inj h
  unfold implement
  refine RunsTo.andThen (a := fun _ => e') ?_ RunsTo.ret
  have ext : b = false → ∀ cidx, Strategies.external s c.start c.stop cidx e = .ok e' →
      RunsTo size (fun r => (run (s.ctimeFunc c.start c.stop cidx)).andThen fun t =>
        (bore r c.start c.stop cidx none (setCtime t e)).andThen fun (q, e) => ret (setBore q e))
        fun _ => .ok e' := by
    intro hb0 cidx h
    obtain ⟨t, h2, h⟩ := bind_ok h
    obtain ⟨⟨q, e1⟩, h3, h⟩ := bind_ok h
    obtain rfl := Except.ok.inj h
    refine RunsTo.andThen (RunsTo.run' fun _ _ => h2) ?_
    exact RunsTo.andThen (hb _ _ _ _ _ _ (by rw [hb0]; exact fun h => absurd h (by decide)) h3) RunsTo.ret
  unfold implementScan
  unfold Strategies.implementScan at h1
  rcases hl : s.useL2 with _ | _
  · rcases hx : s.extPoint with _ | _
    · simp only [hl, hx, Bool.false_eq_true, false_or] at hg
      simp only [hl, hx, hg, Bool.false_and, Bool.false_eq_true, if_false, if_true] at h1
      simp only [Bool.or_self, Bool.false_eq_true, if_false]
      obtain ⟨t, h2, h⟩ := bind_ok h1
      obtain ⟨⟨q, e1⟩, h3, h⟩ := bind_ok h
      obtain rfl := Except.ok.inj h
      refine RunsTo.andThen (RunsTo.run' fun _ _ => h2) ?_
      exact RunsTo.andThen (hb _ _ _ _ _ _ (fun _ => ctimes_length h2) h3) RunsTo.ret
    · simp only [hl, hx, Bool.not_false, Bool.and_self, if_true] at h1
      simp only [Bool.or_false, if_true, Bool.false_eq_true, if_false]
      refine ext ?_ _ h1
      cases b with
      | false => rfl
      | true => exact absurd ((ht rfl).1.symm.trans hx) (by decide)
  · simp only [hl, Bool.not_true, Bool.and_false, Bool.false_eq_true, if_false, if_true] at h1
    simp only [Bool.or_true, if_true]
    refine ext ?_ _ h1
    cases b with
    | false => rfl
    | true => exact absurd ((ht rfl).2.symm.trans hl) (by decide)

theorem faithful_parallel {w : World (Att A)} {s : Strategy A} (hw : Strategies.Uses w s)
    (hg : s.extPoint = true ∨ s.useL2 = true ∨ s.useStrictlyAz = true) (hs : 0 < size) {junk : Junk}
    (hj : JunkOk junk) {bore : Nat → BoreProg A} (hb : Parallel junk size s bore) :
    Faithful size w fun r e c g _ => implement s (bore r) e c g := by
  cases hb with
  | own => exact faithful hw hg (b := false) (by simp) (computes_alone _)
  | strictlyAz hext hl2 h =>
    exact faithful hw hg (b := true) (fun _ => ⟨hext, hl2⟩) (h ▸ computes_strictlyAz hs junk hj _ _ _ _ _)
  | satellite h => exact faithful hw hg (b := false) (by simp) (h ▸ computes_satellite hs junk hj _ _)
  | jitter h => exact faithful hw hg (b := false) (by simp) (h ▸ computes_jitter hs junk hj _ _ _ _)
  | schedule h => exact faithful hw hg (b := false) (by simp) (h ▸ computes_schedule hs junk hj _ _ _ _)

end Verif.Crew
