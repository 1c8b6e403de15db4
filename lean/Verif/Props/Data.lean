import Verif.Lemmas.Data
import Verif.Props.Hwp
import Mathlib.Algebra.Field.Rat

/-!
# Properties C15-C17, C67: sample times and stored timelines
-/

namespace Verif.Data

open Verif.Chunks Verif.Signal Verif.Spec

/-! ### C15 -/

/-- **C15.** For chunks that tile `0 … N`, concatenating the times returned for each chunk gives
`i / fsamp + ctime0` for `i = 0 … N-1`: every sample has exactly one time, and none depends on how
the mission was cut.  With `fsamp = 0` no times are returned. -/
theorem C15_ctime {K : Type} [Field K] [DecidableEq K] (fsamp ctime0 : K) (hf : fsamp ≠ 0)
    (chunks : List Chunk) (N : Nat) (ht : Tiles 0 N (chunks.map fun c => (c.start, c.stop))) :
    ∃ ts, chunks.mapM (fun c => ctimes fsamp ctime0 c.start c.stop) = .ok ts ∧
      ts.flatten = (List.range N).map fun (i : Nat) => (i : K) / fsamp + ctime0 := by
  have main : ∀ (chunks : List Chunk) (a b : Int), Tiles a b (chunks.map Chunk.ivl) →
      ∃ ts, chunks.mapM (fun c => ctimes fsamp ctime0 c.start c.stop) = .ok ts ∧
        ts.flatten = (intRange a (b - a).toNat).map fun (i : Int) => (i : K) / fsamp + ctime0 := by
    intro chunks
    induction chunks with
    | nil =>
      intro a b h
      cases h
      exact ⟨[], rfl, by simp [intRange]⟩
    | cons c cs ih =>
      intro a b h
      simp only [List.map_cons] at h
      generalize hiv : Chunk.ivl c = iv at h
      cases h with
      | cons hlt h =>
      simp only [Chunk.ivl, Prod.mk.injEq] at hiv
      obtain ⟨rfl, rfl⟩ := hiv
      obtain ⟨ts, e1, e2⟩ := ih c.stop b h
      have hle := tiles_le h
      refine ⟨((intRange c.start (c.stop - c.start).toNat).map
        fun (i : Int) => (i : K) / fsamp + ctime0) :: ts, ?_, ?_⟩
      · rw [List.mapM_cons, e1]
        unfold ctimes
        rw [if_neg hf]
        rfl
      · rw [List.flatten_cons, e2, ← List.map_append]
        congr 1
        unfold intRange
        have : (b - c.start).toNat = (c.stop - c.start).toNat + (b - c.stop).toNat := by omega
        rw [this, List.range_add, List.map_append, List.map_map]
        congr 1
        apply List.map_congr_left
        intro i _
        simp only [Function.comp]
        push_cast
        omega
  obtain ⟨ts, e1, e2⟩ := main chunks 0 N ht
  refine ⟨ts, e1, ?_⟩
  rw [e2]
  unfold intRange
  simp only [sub_zero, Int.toNat_natCast, List.map_map]
  apply List.map_congr_left
  intro i _
  simp [Function.comp]

/-- Two chunks. -/
example : ((fun c : Chunk => ctimes (2 : Rat) 100 c.start c.stop) <$>
    [⟨0, 3, some 0, false, none⟩, ⟨3, 4, some 1, false, none⟩])
    = [.ok [100, 201/2, 101], .ok [203/2]] := by decide +kernel

/-- **C15 (schedule).** Sample `i` of the scheduled scan `cidx` has time `ctime_starts[cidx] +
i / fsamp`; without a partitioned schedule ValueError is raised. -/
theorem C15_schedule_ctime {K : Type} [Field K] [DecidableEq K] (fsamp : K) (hf : fsamp ≠ 0)
    (starts : List K) (cidx : Nat) (hc : cidx < starts.length) (start stop : Int) :
    scheduleCtime fsamp none cidx start stop = .error .valueError ∧
    ∃ ts, scheduleCtime fsamp (some starts) cidx start stop = .ok ts ∧
      ts.length = (stop - start).toNat ∧
      ∀ i (hi : i < ts.length), ts[i] = starts[cidx] + (i : K) / fsamp := by
  refine ⟨rfl, (List.range (stop - start).toNat).map fun (i : Nat) => starts[cidx] + (i : K) / fsamp,
    ?_, by simp, by simp⟩
  unfold scheduleCtime
  have : pyGet starts (cidx : Int) = .ok starts[cidx] := by
    unfold pyGet
    rw [if_neg (show ¬ (cidx : Int) < 0 by omega)]
    simp [hc]
  simp only [this, bind, Except.bind, pure, Except.pure, if_neg hf]

example : scheduleCtime (2 : Rat) (some [10, 20]) 1 5 8 = .ok [20, 41/2, 21] := by decide +kernel

/-! ### C16 -/

variable {A H K : Type}

/-- Detector `d` is alive and scanned in some pass, `partner` is the other slot of its pair. -/
def Scanned (pairs : List (Option Det × Option Det)) (d : Det) (partner : Option Det) : Prop :=
  d.dead = false ∧ ((some d, partner) ∈ pairs ∨ (partner, some d) ∈ pairs)

/-- All live detectors, in the order they are scanned. -/
def liveDets (pairs : List (Option Det × Option Det)) : List Det :=
  pairs.flatMap fun p => (live p.1).toList ++ (live p.2).toList

/-- Rotation as set up by `set_instr_rot` with a period of at least one sample and at least one
angle, or none. -/
def RotReady (r : Rot A) : Prop :=
  r.reset = r ∧ (r.period = true → 0 < r.rotChunkSize ∧ r.angles ≠ [])

theorem RotReady.ok {r : Rot A} (h : RotReady r) : RotOk r 0 ∧ GenOk r := by
  obtain ⟨h1, h2⟩ := h
  have e1 : r.gen = angleGen r.angles := by
    have := congrArg Rot.gen h1
    exact this.symm
  have e2 : r.remainder = 0 := by
    have := congrArg Rot.remainder h1
    exact this.symm
  constructor
  · cases hp : r.period
    · exact Or.inl hp
    · right
      refine ⟨r.rotChunkSize.toNat, by have := (h2 hp).1; omega, hp, ?_, ?_, ?_, ?_⟩
      · have := (h2 hp).1
        omega
      · omega
      · have := (h2 hp).1
        omega
      · rw [e2]
        simp
  · intro hp
    rw [e1]
    exact List.length_pos_iff.mpr (h2 hp).2

theorem scanned_cases {pairs : List (Option Det × Option Det)} {d : Det} {partner : Option Det}
    (h : Scanned pairs d partner) : ∃ pair ∈ pairs, d.idx ∈ liveIdx pair ∧
      ((live pair.1 = some d ∧ partner = pair.2) ∨ (live pair.2 = some d ∧ partner = pair.1)) := by
  obtain ⟨h0, h1 | h1⟩ := h
  · have e : live (some d) = some d := by simp [live, h0]
    exact ⟨_, h1, by simp [liveIdx, e], Or.inl ⟨e, rfl⟩⟩
  · have e : live (some d) = some d := by simp [live, h0]
    exact ⟨_, h1, by simp [liveIdx, e], Or.inr ⟨e, rfl⟩⟩

/-- **C16 (the history exists).** If the HWP can always be rotated, the sequence of observed
subchunks exists for every tiling of the mission. -/
theorem C16_history_exists (env : Env A H K) (hw : ∀ h s, ∃ h', env.rotateHwp h s = .ok h')
    (chunks : List Chunk) (N : Int) (ht : Tiles 0 N (chunks.map fun c => (c.start, c.stop)))
    (r0 : Rot A) (hr : RotReady r0) (h0 : H) :
    ∃ xss r1 h1, history env r0 h0 chunks = .ok (xss, r1, h1) ∧
      List.Forall₂ (fun (c : Chunk) xs => Tiles c.start c.stop
        (xs.map fun x => (x.1.start, x.1.stop))) chunks xss := by
  obtain ⟨xss, r1, h1, e⟩ := history_ok env hw N chunks 0 r0 h0 ht hr.ok.1 hr.ok.2
  exact ⟨xss, r1, h1, e, (history_inv env (fun _ => True) (fun _ _ _ _ _ => trivial) N chunks 0 r0
    h0 xss r1 h1 ht hr.ok.1 e trivial).2⟩

/-- C16 for any rotation state at the beginning of its cycle. -/
theorem stored_of [CommRing K] [DecidableEq K] (env : Env A H K) (hs : Sized env)
    (resetHwp : H → H) (chunks : List Chunk) (N : Int)
    (ht : Tiles 0 N (chunks.map fun c => (c.start, c.stop)))
    (hn : ∀ i (hi : i < chunks.length), chunks[i].cidx = some (i : Int)) (o : Opts K)
    (r0 : Rot A) (hr : RotOk r0 0) (hr1 : r0.reset = r0) (h0 : H) (hreset : resetHwp h0 = h0)
    (hpres : ∀ h s h', env.rotateHwp h s = .ok h' → resetHwp h' = resetHwp h)
    (pairs : List (Option Det × Option Det)) (hnd : ((liveDets pairs).map Det.idx).Nodup)
    (xss : List (List (Obs A H))) (r1 : Rot A) (h1 : H)
    (hist : history env r0 h0 chunks = .ok (xss, r1, h1)) (st : Store K) :
    ∃ st' r' h', scanPasses env resetHwp chunks o true pairs (r0, h0, st) = .ok (r', h', st') ∧
      r'.reset = r0 ∧ resetHwp h' = h0 ∧ xss.length = chunks.length ∧
      ∀ c xs, (c, xs) ∈ chunks.zip xss →
        (∀ d partner, Scanned pairs d partner →
          (o.saveTod = true → dataOf st' c (some d) .tod
            = .ok (xs.flatMap (signal env o.ctalk d partner))) ∧
          (o.savePoint = true →
            dataOf st' c (some d) .pix = .ok (xs.flatMap fun x => (env.ret x.2.1 x.2.2 d x.1).pix) ∧
            dataOf st' c (some d) .pa = .ok (xs.flatMap fun x => (env.ret x.2.1 x.2.2 d x.1).pa) ∧
            dataOf st' c none .hwpAng
              = .ok (xs.flatMap fun x => expand x.size (env.hwp x.2.2 x.1))) ∧
          (o.saveTod = false → dataOf st' c (some d) .tod = .error .keyError) ∧
          (o.savePoint = false → dataOf st' c (some d) .pix = .error .keyError ∧
            dataOf st' c (some d) .pa = .error .keyError)) ∧
        (∀ d, d.idx ∉ (liveDets pairs).map Det.idx → ∀ f,
          f ≠ .hwpAng → dataOf st' c (some d) f = dataOf st c (some d) f) := by
  have hidx : pairs.flatMap liveIdx = (liveDets pairs).map Det.idx := by
    unfold liveDets liveIdx
    rw [List.map_flatMap]
  have hinv := history_inv env (fun h => resetHwp h = h0)
    (fun h s h' e hh => (hpres h s h' e).trans hh) N chunks 0 r0 h0 xss r1 h1 ht hr hist hreset
  obtain ⟨st', r', h', e1, e2, e4, e5, e3⟩ := passes_spec env hs resetHwp chunks hn o N ht r0 hr hr1
    h0 hreset xss r1 h1 hinv.1 hist pairs true r0 h0 st rfl (fun hc => by cases hc) (hidx ▸ hnd)
  refine ⟨st', r', h', e1, e4, e5, e2, fun c xs hcx => ?_⟩
  obtain ⟨i, hi, hget⟩ := List.getElem_of_mem hcx
  rw [List.length_zip] at hi
  have hi1 : i < chunks.length := by omega
  have hi2 : i < xss.length := by omega
  rw [List.getElem_zip, Prod.mk.injEq] at hget
  obtain ⟨rfl, rfl⟩ := hget
  obtain ⟨k1, k2, k3⟩ := e3 i hi1 hi2
  refine ⟨fun d partner hd => ?_, fun d hd f hf => ?_⟩
  · obtain ⟨pair, hp, hj, hcase⟩ := scanned_cases hd
    have hpn : (liveIdx pair).Nodup := by
      have := hidx ▸ hnd
      exact (List.nodup_flatMap.mp this).1 pair hp
    have hsl := fun x => slice_det env hs o pair hpn x d partner hcase
    refine ⟨fun ho => ?_, fun ho => ⟨?_, ?_, ?_⟩, fun ho => ?_, fun ho => ⟨?_, ?_⟩⟩
    · unfold dataOf
      simp only [hn i hi1, k2 pair hp d.idx hj .tod, saved, ho, if_true, Except.ok.injEq]
      exact List.flatMap_congr fun x _ => (hsl x).1 ho
    · unfold dataOf
      simp only [hn i hi1, k2 pair hp d.idx hj .pix, saved, ho, if_true, Except.ok.injEq]
      exact List.flatMap_congr fun x _ => ((hsl x).2 ho).1
    · unfold dataOf
      simp only [hn i hi1, k2 pair hp d.idx hj .pa, saved, ho, if_true, Except.ok.injEq]
      exact List.flatMap_congr fun x _ => ((hsl x).2 ho).2
    · unfold dataOf
      have := k3 ho (xss[i].flatMap fun x => expand x.size (env.hwp x.2.2 x.1))
        (fun p _ hl => List.flatMap_congr fun x _ => slice_hwp env o ho p hl x)
        (Or.inl (by
          intro hc
          have := List.mem_flatMap.mpr ⟨pair, hp, hj⟩
          rw [hc] at this
          cases this))
      simp only [hn i hi1, this]
    · unfold dataOf
      simp only [hn i hi1, k2 pair hp d.idx hj .tod, saved, ho, Bool.false_eq_true, if_false]
    · unfold dataOf
      simp only [hn i hi1, k2 pair hp d.idx hj .pix, saved, ho, Bool.false_eq_true, if_false]
    · unfold dataOf
      simp only [hn i hi1, k2 pair hp d.idx hj .pa, saved, ho, Bool.false_eq_true, if_false]
  · unfold dataOf
    simp only [hn i hi1]
    rw [k1 d.idx f (hidx ▸ hd)]

/-- **C16.** Scanning with `save_tod` / `save_point` stores, for every chunk and every live
detector, exactly the concatenation over the subchunks of what `scan` produced for that detector
(timeline with cross-talk of a live partner; pixel numbers; position angles), and for the chunk the
HWP angles; nothing is stored or changed for any other detector; and what is not asked for is not
there, even if an earlier scan stored it.  This holds for any chunking of the mission, instrument rotation, number of detector pairs and previous content of the store. -/
theorem C16_stored [CommRing K] [DecidableEq K] (env : Env A H K) (hs : Sized env)
    (resetHwp : H → H) (chunks : List Chunk) (N : Int)
    (ht : Tiles 0 N (chunks.map fun c => (c.start, c.stop)))
    (hn : ∀ i (hi : i < chunks.length), chunks[i].cidx = some (i : Int)) (o : Opts K)
    (r0 : Rot A) (hr : RotReady r0) (h0 : H) (hreset : resetHwp h0 = h0)
    (hpres : ∀ h s h', env.rotateHwp h s = .ok h' → resetHwp h' = resetHwp h)
    (pairs : List (Option Det × Option Det)) (hnd : ((liveDets pairs).map Det.idx).Nodup)
    (xss : List (List (Obs A H))) (r1 : Rot A) (h1 : H)
    (hist : history env r0 h0 chunks = .ok (xss, r1, h1)) (st : Store K) :
    ∃ st' r' h', scanPasses env resetHwp chunks o true pairs (r0, h0, st) = .ok (r', h', st') ∧
      r'.reset = r0 ∧ resetHwp h' = h0 ∧ xss.length = chunks.length ∧
      ∀ c xs, (c, xs) ∈ chunks.zip xss →
        (∀ d partner, Scanned pairs d partner →
          (o.saveTod = true → dataOf st' c (some d) .tod
            = .ok (xs.flatMap (signal env o.ctalk d partner))) ∧
          (o.savePoint = true →
            dataOf st' c (some d) .pix = .ok (xs.flatMap fun x => (env.ret x.2.1 x.2.2 d x.1).pix) ∧
            dataOf st' c (some d) .pa = .ok (xs.flatMap fun x => (env.ret x.2.1 x.2.2 d x.1).pa) ∧
            dataOf st' c none .hwpAng
              = .ok (xs.flatMap fun x => expand x.size (env.hwp x.2.2 x.1))) ∧
          (o.saveTod = false → dataOf st' c (some d) .tod = .error .keyError) ∧
          (o.savePoint = false → dataOf st' c (some d) .pix = .error .keyError ∧
            dataOf st' c (some d) .pa = .error .keyError)) ∧
        (∀ d, d.idx ∉ (liveDets pairs).map Det.idx → ∀ f,
          f ≠ .hwpAng → dataOf st' c (some d) f = dataOf st c (some d) f) :=
  stored_of env hs resetHwp chunks N ht hn o r0 hr.ok.1 hr.1 h0 hreset hpres pairs hnd xss r1 h1 hist st

/-- `rotate_hwp(**subchunk)` on the state and the attribute `hwp_ang` (instrument.py:1942). -/
def rotateState {K : Type} [Field K] [LinearOrder K] [IsStrictOrderedRing K] [FloorRing K]
    (π fsamp : K) (h : Hwp.State K × Option (Hwp.Ang K)) (s : Chunk) :
    PyM (Hwp.State K × Option (Hwp.Ang K)) := do
  let (a, h') ← Hwp.rotateHwp π fsamp h.1 (s.hwpang.map fun (q : Rat) => (q : K)) s.start s.stop
  return (h', a)

/-- **C16 (HWP).** The hypotheses of `C16_stored` about the HWP hold for the HWP of the code, for
every setting made with `set_hwp_mod`. -/
theorem C16_hwp_hypotheses {K : Type} [Field K] [LinearOrder K] [IsStrictOrderedRing K]
    [FloorRing K] (π fsamp freq startAng varphi : K) (mode : Hwp.Mode) (angles : Option (List K))
    (h₀ : Hwp.State K) (e₀ : Hwp.setHwpMod fsamp mode freq startAng angles varphi = .ok h₀) :
    h₀.reset = h₀ ∧ ∀ h s h', rotateState π fsamp h s = .ok h' → h'.1.reset = h.1.reset := by
  constructor
  · unfold Hwp.setHwpMod at e₀
    split at e₀
    · cases e₀
    · cases e₀
      rfl
  · intro h s h' e
    unfold rotateState at e
    simp only [bind, Except.bind, pure, Except.pure] at e
    rcases e1 : Hwp.rotateHwp π fsamp h.1 (s.hwpang.map fun (q : Rat) => (q : K)) s.start s.stop
      with x | ⟨a, h1⟩
    · rw [e1] at e
      cases e
    · rw [e1] at e
      simp only [Except.ok.injEq] at e
      rw [← e]
      exact Props.rotate_reset π fsamp _ _ _ _ _ _ e1

/-- **C16 (per sample).** Every sample `t` of every chunk is stored exactly once, at position
`t - start` of the chunk's array: it is the value that the one subchunk containing `t` produced
for that sample. -/
theorem C16_sample [CommRing K] [DecidableEq K] (env : Env A H K) (hs : Sized env)
    (resetHwp : H → H) (chunks : List Chunk) (N : Int)
    (ht : Tiles 0 N (chunks.map fun c => (c.start, c.stop)))
    (hn : ∀ i (hi : i < chunks.length), chunks[i].cidx = some (i : Int)) (o : Opts K)
    (ho : o.saveTod = true) (r0 : Rot A) (hr : RotReady r0) (h0 : H) (hreset : resetHwp h0 = h0)
    (hpres : ∀ h s h', env.rotateHwp h s = .ok h' → resetHwp h' = resetHwp h)
    (pairs : List (Option Det × Option Det)) (hnd : ((liveDets pairs).map Det.idx).Nodup)
    (xss : List (List (Obs A H))) (r1 : Rot A) (h1 : H)
    (hist : history env r0 h0 chunks = .ok (xss, r1, h1)) (st : Store K) :
    ∃ st' r' h', scanPasses env resetHwp chunks o true pairs (r0, h0, st) = .ok (r', h', st') ∧
      ∀ c ∈ chunks, ∀ d partner, Scanned pairs d partner →
        ∃ tod, dataOf st' c (some d) .tod = .ok tod ∧ tod.length = (c.stop - c.start).toNat ∧
          ∀ t, c.start ≤ t → t < c.stop → ∃ xs ∈ xss, ∃ x ∈ xs, x.1.start ≤ t ∧ t < x.1.stop ∧
            tod[(t - c.start).toNat]?
              = (signal env o.ctalk d partner x)[(t - x.1.start).toNat]? := by
  obtain ⟨st', r', h', e1, -, -, e2, e3⟩ := C16_stored env hs resetHwp chunks N ht hn o r0 hr h0
    hreset hpres pairs hnd xss r1 h1 hist st
  refine ⟨st', r', h', e1, fun c hc d partner hd => ?_⟩
  obtain ⟨i, hi, rfl⟩ := List.getElem_of_mem hc
  have hi2 : i < xss.length := by omega
  have hmem : (chunks[i], xss[i]) ∈ chunks.zip xss := by
    rw [List.mem_iff_getElem]
    exact ⟨i, by rw [List.length_zip]; omega, by rw [List.getElem_zip]⟩
  have htile := (history_inv env (fun _ => True) (fun _ _ _ _ _ => trivial) N chunks 0 r0 h0 xss r1
    h1 ht hr.ok.1 hist trivial).2
  have hti : Tiles chunks[i].start chunks[i].stop (xss[i].map fun x => (x.1.start, x.1.stop)) :=
    (List.forall₂_iff_get.mp htile).2 i hi hi2
  have hg : ∀ x : Obs A H, (signal env o.ctalk d partner x).length = x.size := by
    intro x
    unfold signal Obs.size
    rcases live partner with _ | b
    · exact (hs.1 _ _ _ _).1
    · simp only [List.length_zipWith, (hs.1 x.2.1 x.2.2 _ x.1).1]
      simp
  have hlen : ∀ (xs : List (Obs A H)) (a b : Int),
      Tiles a b (xs.map fun x => (x.1.start, x.1.stop)) →
      (xs.flatMap (signal env o.ctalk d partner)).length = (b - a).toNat := by
    intro xs
    induction xs with
    | nil =>
      intro a b h
      cases h
      simp
    | cons x xs ih =>
      intro a b h
      simp only [List.map_cons] at h
      generalize hiv : (x.1.start, x.1.stop) = iv at h
      cases h with
      | cons hlt h =>
      simp only [Prod.mk.injEq] at hiv
      obtain ⟨rfl, rfl⟩ := hiv
      have hle := tiles_le h
      rw [List.flatMap_cons, List.length_append, ih _ _ h, hg]
      unfold Obs.size
      omega
  refine ⟨_, ((e3 _ _ hmem).1 d partner hd).1 ho, hlen _ _ _ hti, fun t t1 t2 => ?_⟩
  obtain ⟨x, hx, x1, x2, x3⟩ := getElem_flatMap_tiles (signal env o.ctalk d partner) hg xss[i] _ _
    hti t t1 t2
  exact ⟨xss[i], List.getElem_mem hi2, x, hx, x1, x2, x3⟩

/-- An instrument whose timeline is the boresight angle plus 10 times the detector index. -/
def demo : Env Rat Unit Rat where
  rotateHwp h _ := .ok h
  ret a _ d s :=
    let n := (s.stop - s.start).toNat
    ⟨List.replicate n (a + 10 * d.idx), List.replicate n 1, List.replicate n 2⟩
  hwp _ _ := [3]

theorem demo_sized : Sized demo :=
  ⟨fun _ _ _ _ => ⟨List.length_replicate, List.length_replicate, List.length_replicate⟩,
    fun _ _ => Or.inr ⟨3, rfl⟩⟩

def demoChunks : List Chunk := [⟨0, 3, some 0, false, none⟩, ⟨3, 5, some 1, false, none⟩]

theorem demoChunks_tile : Tiles 0 5 (demoChunks.map fun c => (c.start, c.stop)) :=
  .cons (by decide) (.cons (by decide) (.nil _))

/-- Two pairs, one dead detector, cross-talk 1/2, rotation every 2 samples: a case that meets all
hypotheses of `C16_stored`, and what is stored. -/
example :
    ((liveDets [(some ⟨0, false⟩, some ⟨1, false⟩), (some ⟨2, false⟩, some ⟨3, true⟩)]).map
      Det.idx).Nodup ∧
    (match scanPasses demo id demoChunks ⟨true, true, 1/2⟩ true
        [(some ⟨0, false⟩, some ⟨1, false⟩), (some ⟨2, false⟩, some ⟨3, true⟩)]
        (setInstrRot 2 0 [0, 1], (), fun _ _ _ => none) with
      | .ok x => demoChunks.map fun c => [dataOf x.2.2 c (some ⟨0, false⟩) .tod,
          dataOf x.2.2 c (some ⟨1, false⟩) .tod, dataOf x.2.2 c (some ⟨2, false⟩) .tod,
          dataOf x.2.2 c (some ⟨3, true⟩) .tod, dataOf x.2.2 c none .hwpAng]
      | .error _ => []) =
    [[.ok [5, 5, 13/2], .ok [10, 10, 23/2], .ok [20, 20, 21], .error .keyError, .ok [3, 3, 3]],
     [.ok [13/2, 5], .ok [23/2, 10], .ok [21, 20], .error .keyError, .ok [3, 3]]] := by
  decide +kernel

example : RotReady (setInstrRot 2 (0 : Rat) [0, 1]) := ⟨rfl, fun _ => ⟨by decide, by decide⟩⟩

/-! ### C17 -/

/-- **C17 (partial).** As long as live detectors have different indices, the timeline `data`
returns for a detector is determined by that detector and its partner alone: it does not change if
any of the other detector pairs is replaced by another.  Missing: two detectors with the same
index, see `C17_violation_collision`. -/
theorem C17_distinct_partial [CommRing K] [DecidableEq K] (env : Env A H K) (hs : Sized env)
    (resetHwp : H → H) (chunks : List Chunk) (N : Int)
    (ht : Tiles 0 N (chunks.map fun c => (c.start, c.stop)))
    (hn : ∀ i (hi : i < chunks.length), chunks[i].cidx = some (i : Int)) (o : Opts K)
    (ho : o.saveTod = true) (r0 : Rot A) (hr : RotReady r0) (h0 : H) (hreset : resetHwp h0 = h0)
    (hpres : ∀ h s h', env.rotateHwp h s = .ok h' → resetHwp h' = resetHwp h)
    (hw : ∀ h s, ∃ h', env.rotateHwp h s = .ok h')
    (pairs pairs' : List (Option Det × Option Det))
    (hnd : ((liveDets pairs).map Det.idx).Nodup) (hnd' : ((liveDets pairs').map Det.idx).Nodup)
    (d : Det) (partner : Option Det) (hd : Scanned pairs d partner) (hd' : Scanned pairs' d partner)
    (st st' : Store K) :
    ∃ x x', scanPasses env resetHwp chunks o true pairs (r0, h0, st) = .ok x ∧
      scanPasses env resetHwp chunks o true pairs' (r0, h0, st') = .ok x' ∧
      ∀ c ∈ chunks, ∃ tod, dataOf x.2.2 c (some d) .tod = .ok tod ∧
        dataOf x'.2.2 c (some d) .tod = .ok tod := by
  obtain ⟨xss, r1, h1, hist, -⟩ := C16_history_exists env hw chunks N ht r0 hr h0
  obtain ⟨s1, r', h', e1, -, -, e2, e3⟩ := C16_stored env hs resetHwp chunks N ht hn o r0 hr h0
    hreset hpres pairs hnd xss r1 h1 hist st
  obtain ⟨s2, r'', h'', f1, -, -, f2, f3⟩ := C16_stored env hs resetHwp chunks N ht hn o r0 hr h0
    hreset hpres pairs' hnd' xss r1 h1 hist st'
  refine ⟨_, _, e1, f1, fun c hc => ?_⟩
  obtain ⟨i, hi, rfl⟩ := List.getElem_of_mem hc
  have hmem : (chunks[i], xss[i]) ∈ chunks.zip xss := by
    rw [List.mem_iff_getElem]
    exact ⟨i, by rw [List.length_zip]; omega, by rw [List.getElem_zip]⟩
  exact ⟨_, ((e3 _ _ hmem).1 d partner hd).1 ho, ((f3 _ _ hmem).1 d partner hd').1 ho⟩

example : Scanned [(some ⟨0, false⟩, some ⟨1, false⟩), (some ⟨2, false⟩, none)] ⟨1, false⟩
    (some ⟨0, false⟩) := ⟨rfl, Or.inr (by simp)⟩

/-- **C17 (violation).** If the two live detectors of a pair have the same index, as all pairs made
by `input_focal_plane` have (instrument.py:610-614), `data` for the first one returns the timeline
of the second. -/
theorem C17_violation_collision [CommRing K] [DecidableEq K] (env : Env A H K) (hs : Sized env)
    (resetHwp : H → H) (chunks : List Chunk) (N : Int)
    (ht : Tiles 0 N (chunks.map fun c => (c.start, c.stop)))
    (hn : ∀ i (hi : i < chunks.length), chunks[i].cidx = some (i : Int)) (o : Opts K)
    (ho : o.saveTod = true) (r0 : Rot A) (hr : RotReady r0) (h0 : H) (a b : Det)
    (ha : a.dead = false) (hb : b.dead = false) (hidx : a.idx = b.idx)
    (xss : List (List (Obs A H))) (r1 : Rot A) (h1 : H)
    (hist : history env r0 h0 chunks = .ok (xss, r1, h1)) (st : Store K) :
    ∃ st' r' h', scanPasses env resetHwp chunks o true [(some a, some b)] (r0, h0, st)
        = .ok (r', h', st') ∧ xss.length = chunks.length ∧
      ∀ c xs, (c, xs) ∈ chunks.zip xss →
        dataOf st' c (some a) .tod = .ok (xs.flatMap (signal env o.ctalk b (some a))) := by
  obtain ⟨st1, a1, -, a3, -, a5⟩ := pass_fold env hs chunks hn o true (some a, some b) N chunks 0 0
    r0 h0 st xss r1 h1 rfl ht hr.ok.1 (fun hc => by cases hc) hist
  refine ⟨st1, r1, h1, ?_, a3, fun c xs hcx => ?_⟩
  · unfold scanPasses scanPass
    simp only [if_true, a1, bind, Except.bind]
    rfl
  · obtain ⟨i, hi, hget⟩ := List.getElem_of_mem hcx
    rw [List.length_zip] at hi
    have hi1 : i < chunks.length := by omega
    have hi2 : i < xss.length := by omega
    rw [List.getElem_zip, Prod.mk.injEq] at hget
    obtain ⟨rfl, rfl⟩ := hget
    have ea : live (some a) = some a := by simp [live, ha]
    have eb : live (some b) = some b := by simp [live, hb]
    have := (a5 i hi1 hi2).2.1 b.idx .tod (by simp [liveIdx, eb])
    rw [Nat.zero_add] at this
    unfold dataOf
    simp only [hn i hi1, hidx, this, saved, ho, if_true, Except.ok.injEq]
    exact List.flatMap_congr fun x _ => slice_same env hs o (some a, some b) a b ea eb ho x

/-- With timelines that differ, the stored timeline is the wrong one. -/
example : (match scanPasses { demo with ret := fun _ _ d s =>
        ⟨List.replicate (s.stop - s.start).toNat (if d.dead then 0 else 1), [], []⟩ } id
        demoChunks ⟨true, false, 0⟩ true [(some ⟨0, false⟩, some ⟨0, false⟩)]
        (setInstrRot 2 0 [0, 1], (), fun _ _ _ => none) with
      | .ok x => dataOf x.2.2 ⟨0, 3, some 0, false, none⟩ (some ⟨0, false⟩) .tod
      | .error e => .error e) = .ok [1, 1, 1] := by decide +kernel

/-! ### C67 -/

/-- **C67 (partial).** If rotation and HWP are reset (`reset_instr_rot`, `reset_hwp_mod`) after a
scan, scanning again stores the same timelines, pointing and HWP angles.  Missing: without the
resets this is false, see `C67_violation`. -/
theorem C67_rescan_after_reset_partial [CommRing K] [DecidableEq K] (env : Env A H K)
    (hs : Sized env) (resetHwp : H → H) (chunks : List Chunk) (N : Int)
    (ht : Tiles 0 N (chunks.map fun c => (c.start, c.stop)))
    (hn : ∀ i (hi : i < chunks.length), chunks[i].cidx = some (i : Int)) (o : Opts K)
    (r0 : Rot A) (hr : RotReady r0) (h0 : H) (hreset : resetHwp h0 = h0)
    (hpres : ∀ h s h', env.rotateHwp h s = .ok h' → resetHwp h' = resetHwp h)
    (hw : ∀ h s, ∃ h', env.rotateHwp h s = .ok h')
    (pairs : List (Option Det × Option Det)) (hnd : ((liveDets pairs).map Det.idx).Nodup)
    (st : Store K) :
    ∃ x x', scanPasses env resetHwp chunks o true pairs (r0, h0, st) = .ok x ∧
      scanPasses env resetHwp chunks o true pairs (x.1.reset, resetHwp x.2.1, x.2.2) = .ok x' ∧
      ∀ c ∈ chunks, ∀ d partner, Scanned pairs d partner →
        (o.saveTod = true → ∃ v, dataOf x.2.2 c (some d) .tod = .ok v ∧
          dataOf x'.2.2 c (some d) .tod = .ok v) ∧
        (o.savePoint = true → ∀ f, f ≠ .tod → ∃ v, dataOf x.2.2 c (some d) f = .ok v ∧
          dataOf x'.2.2 c (some d) f = .ok v) := by
  obtain ⟨xss, r1, h1, hist, -⟩ := C16_history_exists env hw chunks N ht r0 hr h0
  obtain ⟨s1, r', h', e1, k1, k2, e2, e3⟩ := C16_stored env hs resetHwp chunks N ht hn o r0 hr h0
    hreset hpres pairs hnd xss r1 h1 hist st
  obtain ⟨s2, r'', h'', f1, -, -, f2, f3⟩ := C16_stored env hs resetHwp chunks N ht hn o r0 hr h0
    hreset hpres pairs hnd xss r1 h1 hist s1
  refine ⟨_, _, e1, by rw [k1, k2]; exact f1, fun c hc d partner hd => ?_⟩
  obtain ⟨i, hi, rfl⟩ := List.getElem_of_mem hc
  have hmem : (chunks[i], xss[i]) ∈ chunks.zip xss := by
    rw [List.mem_iff_getElem]
    exact ⟨i, by rw [List.length_zip]; omega, by rw [List.getElem_zip]⟩
  have p1 := (e3 _ _ hmem).1 d partner hd
  have p2 := (f3 _ _ hmem).1 d partner hd
  refine ⟨fun ho => ⟨_, p1.1 ho, p2.1 ho⟩, fun ho f hf => ?_⟩
  obtain ⟨q1, q2, q3⟩ := p1.2.1 ho
  obtain ⟨u1, u2, u3⟩ := p2.2.1 ho
  cases f with
  | tod => exact absurd rfl hf
  | pix => exact ⟨_, q1, u1⟩
  | pa => exact ⟨_, q2, u2⟩
  | hwpAng => exact ⟨_, q3, u3⟩

/-- **C67 (violation).** Two successive calls of `scan_instrument_mpi` with the same arguments need
not store the same timeline: the state of the instrument rotation is only reset between the passes
of one call (`if bidx > 0`, instrument.py:1848-1852), not when a call begins. -/
theorem C67_violation : ∃ (chunks : List Chunk) (r0 : Rot Rat) (d : Det),
    Tiles 0 5 (chunks.map fun c => (c.start, c.stop)) ∧
    RotReady r0 ∧ ∃ x x', scanPasses demo id chunks ⟨true, false, 0⟩ true [(some d, none)]
        (r0, (), fun _ _ _ => none) = .ok x ∧
      scanPasses demo id chunks ⟨true, false, 0⟩ true [(some d, none)] x = .ok x' ∧
      ∃ c ∈ chunks, dataOf x.2.2 c (some d) .tod ≠ dataOf x'.2.2 c (some d) .tod := by
  obtain ⟨x, hx⟩ : ∃ x, scanPasses demo id demoChunks ⟨true, false, 0⟩ true
      [(some ⟨0, false⟩, none)] (setInstrRot 2 0 [0, 1], (), fun _ _ _ => none) = .ok x := ⟨_, rfl⟩
  obtain ⟨x', hx'⟩ : ∃ x', (scanPasses demo id demoChunks ⟨true, false, 0⟩ true
      [(some ⟨0, false⟩, none)] (setInstrRot 2 0 [0, 1], (), fun _ _ _ => none)).bind
      (scanPasses demo id demoChunks ⟨true, false, 0⟩ true [(some ⟨0, false⟩, none)]) = .ok x' :=
    ⟨_, rfl⟩
  have v : ((scanPasses demo id demoChunks ⟨true, false, 0⟩ true
      [(some ⟨0, false⟩, none)] (setInstrRot 2 0 [0, 1], (), fun _ _ _ => none)).bind
        fun x => dataOf x.2.2 ⟨0, 3, some 0, false, none⟩ (some ⟨0, false⟩) .tod)
      = .ok [0, 0, 1] := by decide +kernel
  have v' : (((scanPasses demo id demoChunks ⟨true, false, 0⟩ true
      [(some ⟨0, false⟩, none)] (setInstrRot 2 0 [0, 1], (), fun _ _ _ => none)).bind
      (scanPasses demo id demoChunks ⟨true, false, 0⟩ true [(some ⟨0, false⟩, none)])).bind
        fun x => dataOf x.2.2 ⟨0, 3, some 0, false, none⟩ (some ⟨0, false⟩) .tod)
      = .ok [0, 1, 1] := by decide +kernel
  refine ⟨demoChunks, setInstrRot 2 0 [0, 1], ⟨0, false⟩, demoChunks_tile,
    ⟨rfl, fun _ => ⟨by decide, by decide⟩⟩, x, x', hx, ?_, ⟨0, 3, some 0, false, none⟩,
    by simp [demoChunks], ?_⟩
  · rw [hx] at hx'
    exact hx'
  · rw [hx] at v
    rw [hx'] at v'
    simp only [Except.bind] at v v'
    rw [v, v']
    decide +kernel

end Verif.Data
