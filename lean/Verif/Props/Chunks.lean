import Verif.Lemmas.Chunks

/-!
# Properties C07 - C09: mission chunks and instrument rotation
-/

namespace Verif.Props

open Verif.Chunks Verif.Spec

/-- **C07.** For every mission with at least one sample and every chunk size that is absent, zero
or at least one, `partition_mission` returns chunks that tile the mission in order; chunk number
`i` carries `cidx = i`; with an explicit chunk size every chunk has (the integer part of) that
size, except possibly the last one, which is not larger. -/
theorem C07_partition_mission_tiles (nsamp : Int) (h : 0 < nsamp) (chunksize : Option Rat)
    (hc : ∀ c, chunksize = some c → c = 0 ∨ 1 ≤ c) :
    ∃ chunks, partitionMission nsamp chunksize = .ok chunks ∧
      Tiles 0 nsamp (chunks.map fun c => (c.start, c.stop)) ∧
      (∀ i (hi : i < chunks.length), chunks[i].cidx = some (i : Int)) ∧
      (∀ k : Int, 1 ≤ k → chunksize = some (k : Rat) →
        ∀ c ∈ chunks, c.stop - c.start ≤ k ∧ (c.stop ≠ nsamp → c.stop - c.start = k)) ∧
      (chunksize = none → chunks.length = 1) := by
  -- effective chunk size
  generalize hcsdef : effChunksize nsamp chunksize = cs
  have hcs : 0 < cs ∧ cs ≤ nsamp := by
    subst hcsdef
    unfold effChunksize
    cases hcz : chunksize with
    | none => simp; omega
    | some c =>
      simp only
      split
      · omega
      · rename_i hn
        rw [not_or] at hn
        have h1 : 1 ≤ c := by
          rcases hc c hcz with h | h
          · exact absurd h hn.1
          · exact h
        have h0 : (0:Rat) ≤ c := by linarith
        unfold pyInt
        rw [if_pos h0]
        constructor
        · have : (1:Int) ≤ c.floor := Rat.le_floor_iff.2 (by simpa using h1)
          omega
        · have h2 : (c.floor : Rat) ≤ c := Rat.floor_le c
          have h3 : (c.floor : Rat) ≤ (nsamp : Rat) := by
            have : c < (nsamp:Rat) := not_le.1 hn.2
            linarith
          exact_mod_cast h3
  have hdef : partitionMission nsamp chunksize
      = .ok (partitionLoop nsamp cs (ceilDiv nsamp cs).toNat 0 0) := by
    unfold partitionMission
    simp only
    rw [hcsdef, if_neg (by omega)]
  have hge := ceilDiv_mul_ge nsamp cs hcs.1
  have hlt := ceilDiv_mul_lt nsamp cs hcs.1
  have hqpos : 0 < ceilDiv nsamp cs := by
    by_contra hneg
    have := Int.mul_le_mul_of_nonneg_right (show ceilDiv nsamp cs ≤ 0 by omega)
      (show 0 ≤ cs by omega)
    omega
  obtain ⟨k, hk⟩ : ∃ k : Nat, (ceilDiv nsamp cs).toNat = k + 1 :=
    ⟨(ceilDiv nsamp cs).toNat - 1, by omega⟩
  have hkq : ceilDiv nsamp cs = (k:Int) + 1 := by omega
  rw [hkq] at hge hlt
  have e : ((k:Int) + 1 - 1) * cs = k * cs := by ring
  obtain ⟨s1, s2, s3⟩ := partitionLoop_spec nsamp cs hcs.1 k 0 0 (by omega) (by omega)
  refine ⟨_, hdef, ?_, ?_, ?_, ?_⟩
  · rw [hk]; exact s1
  · rw [hk]
    intro i hi
    have hlen : (partitionLoop nsamp cs (k + 1) 0 0).length = k + 1 := by
      have := congrArg List.length s3
      simpa [intRange] using this
    have h1 : ((partitionLoop nsamp cs (k + 1) 0 0).map Chunk.cidx)[i]?
        = ((intRange 0 (k + 1)).map some)[i]? := by rw [s3]
    rw [List.getElem?_map, List.getElem?_eq_getElem hi] at h1
    simp only [intRange, List.map_map, List.getElem?_map, Option.map_some] at h1
    rw [List.getElem?_range (by omega)] at h1
    simpa using h1
  · rw [hk]
    intro j hj hjc c hc'
    obtain ⟨b1, b2, _⟩ := s2 c hc'
    have hcsj : cs ≤ j ∧ (cs = j ∨ cs = nsamp) := by
      rw [← hcsdef, hjc]
      unfold effChunksize
      simp only
      split
      · rename_i h0
        rcases h0 with h0 | h0
        · have : j = 0 := by exact_mod_cast h0
          omega
        · have : nsamp ≤ j := by exact_mod_cast h0
          omega
      · have : pyInt (j : Rat) = j := by
          unfold pyInt
          rw [if_pos (by exact_mod_cast (by omega : (0:Int) ≤ j))]
          exact Rat.floor_intCast j
        omega
    refine ⟨by omega, fun hne => ?_⟩
    rcases hcsj.2 with h2 | h2
    · rw [← h2]; exact b2 hne
    · -- a single chunk covers everything
      have hm := tiles_mem s1 (c.start, c.stop) (List.mem_map.2 ⟨c, hc', rfl⟩)
      have := b2 hne
      simp only at hm
      omega
  · intro hnone
    rw [hk]
    have hcsn : cs = nsamp := by
      rw [← hcsdef, hnone]
      rfl
    have hk0 : k = 0 := by
      rw [hcsn] at hlt
      by_contra hne
      have := Int.mul_le_mul_of_nonneg_right (show (1:Int) ≤ k by omega) (show 0 ≤ nsamp by omega)
      have e : ((k:Int) + 1 - 1) * nsamp = k * nsamp := by ring
      omega
    subst hk0
    have := congrArg List.length s3
    simpa [intRange] using this

/-- A mission of 25 samples in chunks of 10. -/
example : partitionMission 25 (some 10) = .ok [⟨0, 10, some 0, false, none⟩,
    ⟨10, 20, some 1, false, none⟩, ⟨20, 25, some 2, false, none⟩] := by decide +kernel

/-- **C07 (edge cases).** An empty mission, and a chunk size strictly between 0 and 1, raise
ZeroDivisionError; a negative chunk size yields no chunks at all. -/
theorem C07_partition_mission_edge_cases (nsamp : Int) :
    (∀ cz, nsamp = 0 → (∀ c, cz = some c → 0 ≤ c) →
      partitionMission nsamp cz = .error .zeroDivisionError) ∧
    (∀ c : Rat, 0 < nsamp → 0 < c → c < 1 →
      partitionMission nsamp (some c) = .error .zeroDivisionError) ∧
    (∀ c : Int, 0 < nsamp → c < 0 → partitionMission nsamp (some (c : Rat)) = .ok []) := by
  refine ⟨?_, ?_, ?_⟩
  · intro cz h0 hcz
    subst h0
    unfold partitionMission effChunksize
    cases cz with
    | none => simp
    | some c =>
      have := hcz c rfl
      simp [this]
  · intro c hn h0 h1
    unfold partitionMission effChunksize
    have hlt : ¬ (c = 0 ∨ c ≥ (nsamp : Rat)) := by
      rw [not_or]
      refine ⟨by linarith, ?_⟩
      have : (1:Rat) ≤ nsamp := by exact_mod_cast (by omega : (1:Int) ≤ nsamp)
      linarith
    simp only [if_neg hlt]
    have : pyInt c = 0 := by
      unfold pyInt
      rw [if_pos (by linarith)]
      have a1 : (0:Int) ≤ c.floor := Rat.le_floor_iff.2 (by simpa using h0.le)
      have a2 : c.floor < 1 := Rat.floor_lt_iff.2 (by simpa using h1)
      omega
    rw [this]; simp
  · intro c hn h0
    unfold partitionMission effChunksize
    have hc0 : (c : Rat) < 0 := by exact_mod_cast h0
    have hlt : ¬ ((c : Rat) = 0 ∨ (c : Rat) ≥ (nsamp : Rat)) := by
      rw [not_or]
      refine ⟨by linarith, ?_⟩
      have : (1:Rat) ≤ nsamp := by exact_mod_cast (by omega : (1:Int) ≤ nsamp)
      linarith
    simp only [if_neg hlt]
    have hp : pyInt (c : Rat) = c := by
      unfold pyInt
      rw [if_neg (by linarith)]
      have : (-(c:Rat)).floor = -c := by
        have : (-(c:Rat)) = ((-c : Int) : Rat) := by push_cast; rfl
        rw [this, Rat.floor_intCast]
      omega
    rw [hp, if_neg (by omega)]
    have hneg : ceilDiv nsamp c ≤ 0 := by
      unfold ceilDiv
      have : 0 ≤ Int.fdiv (-nsamp) c := by
        rw [← Int.neg_fdiv_neg, Int.neg_neg]
        exact Int.fdiv_nonneg (by omega) (by omega)
      omega
    have : (ceilDiv nsamp c).toNat = 0 := by omega
    rw [this]
    rfl

/-- **C08.** For every rotation period of `n ≥ 1` samples and every sequence of contiguous chunks
starting at the first sample of the mission, `subpart_chunk` splits each chunk into subchunks that
tile it, carry its chunk index, begin at the start of the chunk or at a multiple of `n`, and have
no multiple of `n` strictly inside. -/
theorem C08_subchunks_tile_and_align {K : Type} (n : Nat) (hn : 0 < n) (startAng : K)
    (angles : List K) (chunks : List Chunk) (N : Int)
    (ht : Tiles 0 N (chunks.map fun c => (c.start, c.stop))) :
    ∃ subs r', subpartAll (setInstrRot n startAng angles) chunks = .ok (subs, r') ∧
      List.Forall₂ (fun c ss =>
        Tiles c.start c.stop (ss.map fun s => (s.start, s.stop)) ∧
        ∀ s ∈ ss, s.cidx = c.cidx ∧ (s.start = c.start ∨ (n:Int) ∣ s.start) ∧
          ∀ t, s.start < t → t < s.stop → ¬ (n:Int) ∣ t) chunks subs := by
  have main : ∀ (chunks : List Chunk) (a : Int) (r : Rot K), RemInv n r a →
      Tiles a N (chunks.map Chunk.ivl) →
      ∃ subs r', subpartAll r chunks = .ok (subs, r') ∧
      List.Forall₂ (fun c ss =>
        Tiles c.start c.stop (ss.map fun s => (s.start, s.stop)) ∧
        ∀ s ∈ ss, s.cidx = c.cidx ∧ (s.start = c.start ∨ (n:Int) ∣ s.start) ∧
          ∀ t, s.start < t → t < s.stop → ¬ (n:Int) ∣ t) chunks subs := by
    intro chunks
    induction chunks with
    | nil => intro a r _ _; exact ⟨[], r, rfl, .nil⟩
    | cons c rest ih =>
      intro a r hr ht
      rw [List.map_cons] at ht
      obtain ⟨c0, c1, ccidx, crot, chwp⟩ := c
      cases ht with
      | cons hab ht' =>
      obtain ⟨subs, rem', e, hr', ht1, hs⟩ :=
        subpartChunk_spec n hn r ⟨c0, c1, ccidx, crot, chwp⟩ hr hab
      obtain ⟨subs2, r2, e2, hF⟩ := ih c1 _ hr' ht'
      refine ⟨subs :: subs2, r2, ?_, .cons ⟨ht1, fun s hs' => ?_⟩ hF⟩
      · simp [subpartAll, e, e2, bind, Except.bind, pure, Except.pure]
      · exact ⟨(hs s hs').1, (hs s hs').2.1, (hs s hs').2.2.1⟩
  exact main chunks 0 _ ⟨rfl, rfl, by simp [setInstrRot], by simp [setInstrRot]; omega,
    by simp [setInstrRot]⟩ ht

/-- Period 10, chunks of 4, 14 and 7 samples: the hypotheses hold and the split is as expected. -/
example : Tiles 0 25 ([(⟨0, 4, some 0, false, none⟩ : Chunk), ⟨4, 18, some 1, false, none⟩,
    ⟨18, 25, some 2, false, none⟩].map fun c => (c.start, c.stop)) :=
  .cons (by decide) (.cons (by decide) (.cons (by decide) (.nil _)))
example : (subpartAll (setInstrRot 10 0 [0, 45]) [⟨0, 4, some 0, false, none⟩,
    ⟨4, 18, some 1, false, none⟩, ⟨18, 25, some 2, false, none⟩]).toOption.map
      (fun p => p.1.map (fun ss => ss.map (fun s => (s.start, s.stop, s.norot))))
    = some [[(0, 4, false)], [(4, 10, true), (10, 18, false)],
      [(18, 20, true), (20, 25, false)]] := by decide

/-- **C08.** A rotation period shorter than one sample (`int(period * fsamp) = 0`) raises. -/
theorem C08_zero_period_raises {K : Type} (startAng : K) (angles : List K) (c : Chunk) :
    subpartChunk (setInstrRot 0 startAng angles) c = .error .zeroDivisionError := by
  rfl

/-- **C09 (partial).** If every chunk extends beyond the end of the rotation period in which it
starts (`(-start) mod n < length`, true in particular when chunk boundaries are multiples of the
period, or the chunk is at least one period long), each sample `t` is observed at boresight angle
`angles[(t div n) mod len]`.  Missing: chunks that lie inside one rotation period and do not start
on a period boundary, for which the claim is false, see `C09_violation`. -/
theorem C09_boresight_angle_partial {K : Type} (n : Nat) (hn : 0 < n) (startAng : K)
    (angles : List K) (hA : angles ≠ []) (chunks : List Chunk) (N : Int)
    (ht : Tiles 0 N (chunks.map fun c => (c.start, c.stop)))
    (hlong : ∀ c ∈ chunks, (-c.start) % (n:Int) < c.stop - c.start) :
    ∃ out r', chunkLoop (setInstrRot n startAng angles) chunks = .ok (out, r') ∧
      Tiles 0 N (out.map fun p => (p.1.start, p.1.stop)) ∧
      ∀ p ∈ out, ∀ t : Nat, p.1.start ≤ t → (t:Int) < p.1.stop →
        scheduled n angles t = some p.2 := by
  refine chunkLoop_spec n hn angles hA chunks 0 N _ ?_ ?_ ht hlong
  · exact ⟨rfl, rfl, rfl, 0, by simp, by simp; omega, by simp [setInstrRot, angleGen], by simp⟩
  · exact ⟨rfl, rfl, by simp [setInstrRot], by simp [setInstrRot]; omega, by simp [setInstrRot]⟩

/-- The hypotheses hold e.g. for period 10 and chunks [0,14), [14,28), [28,31). -/
example : ∀ c ∈ [(⟨0, 14, some 0, false, none⟩ : Chunk), ⟨14, 28, some 1, false, none⟩,
    ⟨28, 31, some 2, false, none⟩], (-c.start) % ((10 : Nat) : Int) < c.stop - c.start := by decide
example : (chunkLoop (setInstrRot 10 0 [0, 45, 90]) [⟨0, 14, some 0, false, none⟩,
    ⟨14, 28, some 1, false, none⟩, ⟨28, 31, some 2, false, none⟩]).toOption.map
      (fun p => p.1.map (fun s => (s.1.start, s.1.stop, s.2)))
    = some [(0, 10, 0), (10, 14, 45), (14, 20, 45), (20, 28, 90), (28, 30, 90), (30, 31, 0)] := by
  decide

/-- **C09 (violation).** For every period of at least two samples and every list of at least two
angles whose first two differ, cutting the first period of the mission in two chunks makes the
instrument rotate in the middle of the period: the last sample of the period is observed at the
second angle instead of the first. -/
theorem C09_violation {K : Type} (n : Nat) (hn : 2 ≤ n) (startAng a₀ a₁ : K) (rest : List K)
    (hne : a₀ ≠ a₁) :
    ∃ (chunks : List Chunk), Tiles 0 n (chunks.map fun c => (c.start, c.stop)) ∧
      ∃ out r', chunkLoop (setInstrRot n startAng (a₀ :: a₁ :: rest)) chunks = .ok (out, r') ∧
        ∃ p ∈ out, ∃ t : Nat, p.1.start ≤ t ∧ (t:Int) < p.1.stop ∧
          scheduled n (a₀ :: a₁ :: rest) t ≠ some p.2 := by
  have hn' : (0:Int) < n := by omega
  refine ⟨[⟨0, n - 1, some 0, false, none⟩, ⟨n - 1, n, some 1, false, none⟩],
    .cons (by simp; omega) (.cons (by simp) (.nil _)), ?_⟩
  have c1 : ceilDiv ((n:Int) - 1 - 0 - 0) n = 1 := by
    have h1 := ceilDiv_mul_ge ((n:Int) - 1 - 0 - 0) n hn'
    have h2 := ceilDiv_mul_lt ((n:Int) - 1 - 0 - 0) n hn'
    generalize ceilDiv ((n:Int) - 1 - 0 - 0) n = q at *
    have hq1 : 0 < q := by
      by_contra h
      have := Int.mul_le_mul_of_nonneg_right (show q ≤ 0 by omega) (show (0:Int) ≤ n by omega)
      omega
    by_contra h
    have := Int.mul_le_mul_of_nonneg_right (show 1 ≤ q - 1 by omega) (show (0:Int) ≤ n by omega)
    omega
  have s1 : subpartCore n 0 ⟨0, n - 1, some 0, false, none⟩
      = .ok ([⟨0, n - 1, none, false, none⟩], 1) := by
    unfold subpartCore
    rw [if_neg (by omega)]
    simp only
    rw [c1]
    simp only [Int.lt_irrefl, if_false, if_true]
    rw [if_neg (by omega)]
    simp
  have c2 : (if ceilDiv ((n:Int) - (n - 1) - 1) n < 1 then (1:Int)
      else ceilDiv ((n:Int) - (n - 1) - 1) n) = 1 := by
    have e : (n:Int) - (n - 1) - 1 = 0 := by omega
    rw [e]
    simp [ceilDiv]
  have s2 : subpartCore n 1 ⟨n - 1, n, some 1, false, none⟩
      = .ok ([⟨n - 1, n, none, false, none⟩], 0) := by
    unfold subpartCore
    rw [if_neg (by omega)]
    simp only
    rw [c2]
    simp only [if_true]
    rw [if_pos (by omega)]
    simp
  refine ⟨[(⟨0, n - 1, some 0, false, none⟩, a₀), (⟨n - 1, n, some 1, false, none⟩, a₁)], ?r, ?eq,
    (⟨n - 1, n, some 1, false, none⟩, a₁), by simp, n - 1, by simp; omega, by simp; omega, ?_⟩
  case eq =>
    simp only [chunkLoop, subpartChunk, setInstrRot, if_true, s1, bind, Except.bind, pure,
      Except.pure, rotLoop, Rot.rotate, Gen.next, angleGen, List.map_cons, List.map_nil]
    simp only [Bool.false_eq_true, if_false, List.getElem?_cons_zero, List.length_cons, s2,
      List.map_cons, List.map_nil, rotLoop, Rot.rotate, if_true, Gen.next, bind, Except.bind, pure,
      Except.pure]
    have e1 : (0 + 1) % (rest.length + 1 + 1) = 1 := Nat.mod_eq_of_lt (by omega)
    simp only [e1, List.getElem?_cons_succ, List.getElem?_cons_zero, List.cons_append,
      List.nil_append]
    rfl
  unfold scheduled
  rw [Nat.div_eq_of_lt (by omega)]
  simp [hne]

/-- The violation on concrete numbers: period 10, chunks of 4: the instrument rotates at samples
4, 8, 12, ... instead of 10, 20, ... -/
example : (chunkLoop (setInstrRot 10 0 [0, 45, 90]) [⟨0, 4, some 0, false, none⟩,
    ⟨4, 8, some 1, false, none⟩, ⟨8, 12, some 2, false, none⟩]).toOption.map
      (fun p => p.1.map (fun s => (s.1.start, s.1.stop, s.2)))
    = some [(0, 4, 0), (4, 8, 45), (8, 10, 45), (10, 12, 90)] := by decide

/-- **C11 (rotation).** `reset_instr_rot` restores the freshly configured state, whatever was
scanned before. -/
theorem C11_reset_instr_rot {K : Type} (n : Int) (startAng : K) (angles : List K)
    (chunks : List Chunk) (out : List (Chunk × K)) (r' : Rot K)
    (h : chunkLoop (setInstrRot n startAng angles) chunks = .ok (out, r')) :
    r'.reset = setInstrRot n startAng angles := by
  -- the configuration is never changed by scanning
  have hrot : ∀ (r r1 : Rot K), r.rotate = .ok r1 → r1.reset = r.reset := by
    intro r r1 h
    unfold Rot.rotate at h
    split at h
    · cases hg : r.gen.next with
      | error e => simp [hg, bind, Except.bind] at h
      | ok p =>
        simp [hg, bind, Except.bind, pure, Except.pure] at h
        subst h; rfl
    · cases h; rfl
  have hloop : ∀ (subs : List Chunk) (r r1 : Rot K) (o), rotLoop r subs = .ok (o, r1) →
      r1.reset = r.reset := by
    intro subs
    induction subs with
    | nil => intro r r1 o h; simp [rotLoop] at h; rw [h.2]
    | cons s rest ih =>
      intro r r1 o h
      simp only [rotLoop, bind, Except.bind, pure, Except.pure] at h
      cases hn : s.norot with
      | true =>
        simp only [hn, if_true] at h
        cases hr : rotLoop r rest with
        | error e => simp [hr] at h
        | ok p =>
          simp [hr] at h
          rw [← h.2]; exact ih _ _ _ hr
      | false =>
        simp only [hn, Bool.false_eq_true, if_false] at h
        cases hq : r.rotate with
        | error e => simp [hq] at h
        | ok r2 =>
          simp only [hq] at h
          cases hr : rotLoop r2 rest with
          | error e => simp [hr] at h
          | ok p =>
            simp [hr] at h
            rw [← h.2, ih _ _ _ hr, hrot _ _ hq]
  have hsub : ∀ (r r1 : Rot K) (c : Chunk) (o), subpartChunk r c = .ok (o, r1) →
      r1.reset = r.reset := by
    intro r r1 c o h
    unfold subpartChunk at h
    split at h
    · cases hs : subpartCore r.rotChunkSize r.remainder c with
      | error e => simp [hs, bind, Except.bind] at h
      | ok p =>
        simp [hs, bind, Except.bind, pure, Except.pure] at h
        rw [← h.2]; rfl
    · simp at h; rw [h.2]
  have hall : ∀ (chunks : List Chunk) (r r1 : Rot K) (o), chunkLoop r chunks = .ok (o, r1) →
      r1.reset = r.reset := by
    intro chunks
    induction chunks with
    | nil => intro r r1 o h; simp [chunkLoop] at h; rw [h.2]
    | cons c rest ih =>
      intro r r1 o h
      simp only [chunkLoop, bind, Except.bind, pure, Except.pure] at h
      cases h1 : subpartChunk r c with
      | error e => simp [h1] at h
      | ok p =>
        simp only [h1] at h
        cases h2 : rotLoop p.2 p.1 with
        | error e => simp [h2] at h
        | ok p2 =>
          simp only [h2] at h
          cases h3 : chunkLoop p2.2 rest with
          | error e => simp [h3] at h
          | ok p3 =>
            simp [h3] at h
            rw [← h.2, ih _ _ _ h3, hloop _ _ _ _ h2, hsub _ _ _ _ h1]
  rw [hall _ _ _ _ h]
  rfl

/-- **C58 (HWP angle, violation with boresight rotation).** A chunk's own plate angle `hwpang` is kept
as long as the boresight does not rotate.  With rotation no subchunk has it any more, so that the
chunk is scanned with the angle of the strategy. -/
theorem C58_hwpang_rotating_violation {K : Type} (r : Rot K) (c : Chunk) :
    (r.period = false → subpartChunk r c = .ok ([c], r)) ∧
    (r.period = true → ∀ subs r', subpartChunk r c = .ok (subs, r') →
      subs ≠ [] ∧ ∀ s ∈ subs, s.hwpang = none) := by
  have hfull : ∀ n k a, ∀ s ∈ (fullSubchunks n k a).1, s.hwpang = none := by
    intro n k
    induction k with
    | zero =>
      intro a s hs
      cases hs
    | succ k ih =>
      intro a s hs
      rcases List.mem_cons.1 hs with rfl | hs
      · rfl
      · exact ih _ _ hs
  have hcore : ∀ n rem l rem', subpartCore n rem c = .ok (l, rem') →
      l ≠ [] ∧ ∀ s ∈ l, s.hwpang = none := by
    intro n rem l rem' h
    have hpre : ∀ s ∈ (if rem ≠ 0 then [{ start := c.start, stop := rem + c.start, norot := true }] else
        [] : List Chunk), s.hwpang = none := by
      intro s hs
      split at hs
      · rw [List.mem_singleton.1 hs]
      · cases hs
    unfold subpartCore at h
    split at h
    · cases h
    · dsimp only at h
      generalize (if ceilDiv (c.stop - c.start - rem) n < 1 then 1
        else ceilDiv (c.stop - c.start - rem) n) = m at h
      split at h
      · split at h
        · cases h
          refine ⟨by simp, fun s hs => ?_⟩
          rw [List.mem_singleton.1 hs]
        · cases h
          refine ⟨by simp, fun s hs => ?_⟩
          rcases List.mem_append.1 hs with hs | hs
          · exact hpre s hs
          · rw [List.mem_singleton.1 hs]
      · cases h
        refine ⟨by simp, fun s hs => ?_⟩
        rcases List.mem_append.1 hs with hs | hs
        · rcases List.mem_append.1 hs with hs | hs
          · exact hpre s hs
          · exact hfull _ _ _ s hs
        · rw [List.mem_singleton.1 hs]
  constructor
  · intro hr
    unfold subpartChunk
    rw [hr]
    rfl
  · intro hr subs r' h
    unfold subpartChunk at h
    rw [if_pos hr] at h
    cases hc : subpartCore r.rotChunkSize r.remainder c with
    | error e => simp [hc, bind, Except.bind] at h
    | ok p =>
      obtain ⟨h1, h2⟩ := hcore _ _ _ _ hc
      simp only [hc, bind, Except.bind, pure, Except.pure] at h
      cases h
      cases c.cidx with
      | none => exact ⟨h1, h2⟩
      | some i =>
        refine ⟨by simpa using h1, fun s hs => ?_⟩
        obtain ⟨s', hs', rfl⟩ := List.mem_map.1 hs
        exact h2 s' hs'

/-- A chunk with plate angle 30, with a rotation every 10 samples. -/
example : (subpartChunk (setInstrRot 10 (0 : Rat) [0, 45])
    { start := 0, stop := 15, cidx := some 0, hwpang := some 30 }).map (·.1) =
    .ok [{ start := 0, stop := 10, cidx := some 0 }, { start := 10, stop := 15, cidx := some 0 }] := by
  decide +kernel

end Verif.Props
