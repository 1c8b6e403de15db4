import Verif.Spec.Schedule
import Mathlib.Tactic.Linarith
import Mathlib.Tactic.Ring
import Mathlib.Tactic.FieldSimp
import Mathlib.Algebra.Order.Floor.Semiring

/-!
# Lemmas: observing schedules
-/

namespace Verif.Schedule

open Verif.Spec

theorem pyInt_floor {q : Rat} (h : 0 ≤ q) : pyInt q = ⌊q⌋ := by
  unfold pyInt
  rw [if_pos h]
  rfl

theorem covers_append {a b c : Int} {l l' : List (Int × Int)} (h : Covers a b l)
    (h' : Covers b c l') : Covers a c (l ++ l') := by
  induction h with
  | nil => exact h'
  | cons h1 _ ih => exact .cons h1 (ih h')

theorem covers_tiles {a b : Int} {l : List (Int × Int)} (h : Covers a b l)
    (hs : ∀ p ∈ l, p.1 < p.2) : Tiles a b l := by
  induction h with
  | nil => exact .nil _
  | cons _ _ ih => exact .cons (hs _ List.mem_cons_self) (ih fun p hp => hs p (List.mem_cons_of_mem _ hp))

/-- What holds for the parameters of the loop over the chunks of a scan. -/
structure Scan.Good (s : Scan) : Prop where
  fs : 0 < s.fsamp
  s0 : 0 ≤ s.samplenum
  n0 : 0 < s.full
  c0 : 0 ≤ s.size
  k0 : 1 ≤ s.nchunks
  c1 : 2 ≤ s.nchunks → 1 ≤ s.size
  lt : ((s.nchunks : Rat) - 1) * s.size < s.full

/-- What holds for the entries of a scan. -/
structure EntryOk (s : Scan) (e : Entry) : Prop where
  ces : e.ces = s.ces
  lo : ⌊s.samplenum⌋ ≤ e.chunk.start
  hi : e.chunk.stop ≤ ⌊s.samplenum + s.full⌋
  time : e.chunk.start = ⌊s.samplenum + (e.ctimeStart - s.ces.t0) * s.fsamp⌋
  size : ∀ c : Nat, s.size ≤ c → s.full ≤ ((s.nchunks : Rat) - 1) * s.size + c →
    e.chunk.stop - e.chunk.start ≤ c
  pos : ∀ a b : Int, s.samplenum = a → s.full = b → e.chunk.start < e.chunk.stop

/-- What the loop over the chunks of a scan does. -/
structure RunSpec (s : Scan) (k : Nat) (cidx : Int) (r : List Entry × Rat × Bool) (start : Rat) :
    Prop where
  cov : Covers ⌊start⌋ ⌊r.2.1⌋ (spans r.1)
  idx : ∀ (i : Nat) e, r.1[i]? = some e → e.chunk.cidx = some (s.chunknum + cidx + (i : Int))
  ok : ∀ e ∈ r.1, EntryOk s e
  top : r.2.1 ≤ s.nsamp
  low : 0 ≤ r.2.1
  le : r.2.1 ≤ s.samplenum + s.full
  goOn : r.2.2 = false → r.2.1 = min (s.samplenum + s.full) s.nsamp ∧ r.1.length = k + 1
  done : r.2.2 = true → r.2.1 = s.nsamp ∨
    (r.2.1 = s.samplenum + s.full ∧ (s.nsamp : Rat) - s.size < r.2.1)
  exact_ : (s.nchunks : Rat) * s.size ≤ s.full → r.2.2 = true → r.2.1 = s.nsamp

/-- The facts about one pass. -/
theorem pass (s : Scan) (g : s.Good) (k : Nat) (cidx : Int) (start : Rat)
    (hc : 0 ≤ cidx) (hk : cidx + k = s.nchunks - 1) (hs : start = s.samplenum + cidx * s.size)
    (hn : start < s.nsamp) :
    start < s.stop cidx start ∧ s.stop cidx start ≤ s.nsamp ∧
    s.stop cidx start ≤ s.samplenum + s.full ∧ 0 ≤ start ∧
    (k = 0 → s.stop cidx start = min (s.samplenum + s.full) s.nsamp) ∧
    (k ≠ 0 → s.stop cidx start = min (start + s.size) s.nsamp) := by
  have hck : (cidx : Rat) + (k : Rat) = (s.nchunks : Rat) - 1 := by exact_mod_cast hk
  have hcq : (0 : Rat) ≤ (cidx : Rat) := by exact_mod_cast hc
  have hsz : (0 : Rat) ≤ (s.size : Rat) := by exact_mod_cast g.c0
  have h0 : 0 ≤ start := by
    rw [hs]
    have := mul_nonneg hcq hsz
    linarith [g.s0]
  have hlt := g.lt
  rw [← hck] at hlt
  have e : ∀ x : Rat, (if x ≥ (s.nsamp : Rat) then (s.nsamp : Rat) else x) = min x s.nsamp := by
    intro x
    split
    · rename_i h
      rw [min_eq_right h]
    · rename_i h
      rw [min_eq_left (le_of_lt (not_le.1 h))]
  by_cases hk0 : k = 0
  · subst hk0
    have e1 : s.stop cidx start = min (s.samplenum + s.full) s.nsamp := by
      unfold Scan.stop
      dsimp only
      rw [e, if_pos (by omega)]
    rw [e1]
    refine ⟨lt_min ?_ hn, min_le_right _ _, min_le_left _ _, h0, fun _ => rfl, fun h => absurd rfl h⟩
    rw [hs]
    push_cast at hlt
    linarith
  · have e1 : s.stop cidx start = min (start + s.size) s.nsamp := by
      unfold Scan.stop
      dsimp only
      rw [e, if_neg (by omega)]
    have h1 : (1 : Rat) ≤ (s.size : Rat) := by exact_mod_cast g.c1 (by omega)
    have hk1 : (1 : Rat) ≤ (k : Rat) := by exact_mod_cast Nat.one_le_iff_ne_zero.2 hk0
    rw [e1]
    refine ⟨lt_min (by linarith) hn, min_le_right _ _, le_trans (min_le_left _ _) ?_, h0,
      fun h => absurd h hk0, fun _ => rfl⟩
    rw [hs]
    nlinarith

theorem entry_ok (s : Scan) (g : s.Good) (k : Nat) (cidx : Int) (start tstart : Rat)
    (hc : 0 ≤ cidx) (hk : cidx + k = s.nchunks - 1) (hs : start = s.samplenum + cidx * s.size)
    (ht : tstart = s.ces.t0 + cidx * s.size / s.fsamp) (hn : start < s.nsamp) :
    EntryOk s (s.entry cidx start tstart) := by
  obtain ⟨p1, p2, p3, p0, p4, p5⟩ := pass s g k cidx start hc hk hs hn
  have hck : (cidx : Rat) + (k : Rat) = (s.nchunks : Rat) - 1 := by exact_mod_cast hk
  have hcq : (0 : Rat) ≤ (cidx : Rat) := by exact_mod_cast hc
  have hsz : (0 : Rat) ≤ (s.size : Rat) := by exact_mod_cast g.c0
  have e1 : (s.entry cidx start tstart).chunk.start = ⌊start⌋ := pyInt_floor p0
  have e2 : (s.entry cidx start tstart).chunk.stop = ⌊s.stop cidx start⌋ :=
    pyInt_floor (p0.trans p1.le)
  refine ⟨rfl, ?_, ?_, ?_, ?_, ?_⟩
  · rw [e1, hs]
    exact Int.floor_le_floor (by have := mul_nonneg hcq hsz; linarith)
  · rw [e2]
    exact Int.floor_le_floor p3
  · rw [e1, hs]
    show _ = ⌊s.samplenum + (tstart - s.ces.t0) * s.fsamp⌋
    have := g.fs.ne'
    rw [ht]
    congr 1
    field_simp
    ring
  · intro c h1 h2
    have h1' : (s.size : Rat) ≤ (c : Rat) := by exact_mod_cast h1
    have h3 : s.stop cidx start ≤ start + ((c : Int) : Rat) := by
      rw [Int.cast_natCast]
      by_cases hk0 : k = 0
      · rw [p4 hk0]
        refine (min_le_left _ _).trans ?_
        rw [← hck, hk0] at h2
        rw [hs]
        push_cast at h2
        linarith
      · rw [p5 hk0]
        exact (min_le_left _ _).trans (by linarith)
    have h4 := Int.floor_le_floor h3
    rw [Int.floor_add_intCast] at h4
    rw [e1, e2]
    omega
  · intro a b ha hb
    rw [e1, e2]
    obtain ⟨st, hst⟩ : ∃ st : Int, start = st := ⟨a + cidx * s.size, by rw [hs, ha]; push_cast; ring⟩
    obtain ⟨en, hen⟩ : ∃ en : Int, s.stop cidx start = en := by
      by_cases hk0 : k = 0
      · exact ⟨min (a + b) s.nsamp, by rw [p4 hk0, ha, hb]; push_cast; rfl⟩
      · exact ⟨min (st + s.size) s.nsamp, by rw [p5 hk0, hst]; push_cast; rfl⟩
    rw [hen, hst] at p1
    rw [hen, hst, Int.floor_intCast, Int.floor_intCast]
    exact_mod_cast p1

theorem run_zero (s : Scan) (cidx : Int) (start tstart : Rat) :
    s.run 0 cidx start tstart =
      (s.out cidx start tstart, s.stop cidx start, decide (s.next cidx start ≥ s.nsamp)) := rfl

theorem run_succ (s : Scan) (k : Nat) (cidx : Int) (start tstart : Rat) :
    s.run (k + 1) cidx start tstart =
      if s.next cidx start ≥ s.nsamp then (s.out cidx start tstart, s.stop cidx start, true)
      else (s.out cidx start tstart ++
          (s.run k (cidx + 1) (s.next cidx start) (s.tnext cidx start tstart)).1,
        (s.run k (cidx + 1) (s.next cidx start) (s.tnext cidx start tstart)).2) := rfl

theorem run_spec (s : Scan) (g : s.Good) (k : Nat) (cidx : Int) (start tstart : Rat)
    (hc : 0 ≤ cidx) (hk : cidx + k = s.nchunks - 1) (hs : start = s.samplenum + cidx * s.size)
    (ht : tstart = s.ces.t0 + cidx * s.size / s.fsamp) (hn : start < s.nsamp) :
    RunSpec s k cidx (s.run k cidx start tstart) start := by
  induction k generalizing cidx start tstart with
  | zero =>
    obtain ⟨p1, p2, p3, p0, p4, -⟩ := pass s g 0 cidx start hc hk hs hn
    have ho : s.out cidx start tstart = [s.entry cidx start tstart] := by
      unfold Scan.out; rw [if_pos p1.ne']
    have hnx : s.next cidx start = start + s.size := by
      unfold Scan.next; rw [if_pos p1.ne']
    have hcov : Covers ⌊start⌋ ⌊s.stop cidx start⌋ (spans [s.entry cidx start tstart]) := by
      have e1 : (s.entry cidx start tstart).chunk.start = ⌊start⌋ := pyInt_floor p0
      have e2 : (s.entry cidx start tstart).chunk.stop = ⌊s.stop cidx start⌋ :=
        pyInt_floor (p0.trans p1.le)
      unfold spans
      rw [List.map_cons, List.map_nil, e1, e2]
      exact .cons (Int.floor_le_floor p1.le) (.nil _)
    have hidx : ∀ (i : Nat) e, [s.entry cidx start tstart][i]? = some e →
        e.chunk.cidx = some (s.chunknum + cidx + (i : Int)) := by
      intro i e he
      match i, he with
      | 0, he =>
        obtain rfl : s.entry cidx start tstart = e := Option.some.inj he
        simp [Scan.entry]
      | i + 1, he => simp at he
    have hok : ∀ e ∈ [s.entry cidx start tstart], EntryOk s e := by
      intro e he
      rw [List.mem_singleton.1 he]
      exact entry_ok s g 0 cidx start tstart hc hk hs ht hn
    have h4 := p4 rfl
    rw [run_zero, ho, hnx]
    by_cases hd : start + (s.size : Rat) ≥ s.nsamp
    · rw [decide_eq_true hd]
      refine ⟨hcov, hidx, hok, p2, p0.trans p1.le, p3, fun h => by simp at h, fun _ => ?_, fun hx _ => ?_⟩
      · dsimp only
        rcases min_choice (s.samplenum + s.full) (s.nsamp : Rat) with h | h
        · right
          rw [h] at h4
          exact ⟨h4, by linarith⟩
        · left
          rw [h4, h]
      · dsimp only
        rw [h4]
        apply min_eq_right
        have : (s.nchunks : Rat) = cidx + 1 := by
          have : s.nchunks = cidx + 1 := by omega
          exact_mod_cast this
        rw [this] at hx
        rw [hs] at hd
        linarith
    · rw [decide_eq_false hd]
      exact ⟨hcov, hidx, hok, p2, p0.trans p1.le, p3, fun _ => ⟨h4, rfl⟩, fun h => by simp at h,
        fun _ h => by simp at h⟩
  | succ k ih =>
    obtain ⟨p1, p2, p3, p0, -, p5⟩ := pass s g (k + 1) cidx start hc hk hs hn
    have ho : s.out cidx start tstart = [s.entry cidx start tstart] := by
      unfold Scan.out; rw [if_pos p1.ne']
    have hnx : s.next cidx start = start + s.size := by
      unfold Scan.next; rw [if_pos p1.ne']
    have htx : s.tnext cidx start tstart = tstart + s.size / s.fsamp := by
      unfold Scan.tnext; rw [if_pos p1.ne']
    have e1 : (s.entry cidx start tstart).chunk.start = ⌊start⌋ := pyInt_floor p0
    have e2 : (s.entry cidx start tstart).chunk.stop = ⌊s.stop cidx start⌋ :=
      pyInt_floor (p0.trans p1.le)
    have hok := entry_ok s g (k + 1) cidx start tstart hc hk hs ht hn
    have h5 := p5 (by omega)
    rw [run_succ, ho, hnx, htx]
    by_cases hd : start + (s.size : Rat) ≥ s.nsamp
    · rw [if_pos hd]
      rw [min_eq_right hd] at h5
      refine ⟨?_, ?_, ?_, p2, p0.trans p1.le, p3, fun h => by simp at h, fun _ => Or.inl h5, fun _ _ => h5⟩
      · unfold spans
        dsimp only
        rw [List.map_cons, List.map_nil, e1, e2]
        exact .cons (Int.floor_le_floor p1.le) (.nil _)
      · intro i e he
        match i, he with
        | 0, he =>
          obtain rfl : s.entry cidx start tstart = e := Option.some.inj he
          simp [Scan.entry]
        | i + 1, he => simp at he
      · intro e he
        rw [List.mem_singleton.1 he]
        exact hok
    · rw [if_neg hd]
      rw [min_eq_left (le_of_lt (not_le.1 hd))] at h5
      have r := ih (cidx + 1) (start + s.size) (tstart + s.size / s.fsamp) (by omega)
        (by push_cast at hk; omega) (by rw [hs]; push_cast; ring) (by rw [ht]; push_cast; ring)
        (not_le.1 hd)
      refine ⟨?_, ?_, ?_, r.top, r.low, r.le, fun h => ⟨(r.goOn h).1, ?_⟩, r.done, r.exact_⟩
      · unfold spans
        dsimp only
        rw [List.singleton_append, List.map_cons, e1, e2, h5]
        exact .cons (Int.floor_le_floor (by rw [← h5]; exact p1.le)) r.cov
      · intro i e he
        dsimp only at he
        match i, he with
        | 0, he =>
          obtain rfl : s.entry cidx start tstart = e := Option.some.inj he
          simp [Scan.entry]
        | i + 1, he =>
          rw [List.singleton_append, List.getElem?_cons_succ] at he
          rw [r.idx i e he]
          push_cast
          congr 1
          ring
      · intro e he
        dsimp only at he
        rw [List.singleton_append, List.mem_cons] at he
        rcases he with rfl | he
        · exact hok
        · exact r.ok e he
      · dsimp only
        rw [List.singleton_append, List.length_cons, (r.goOn h).2]

theorem cesChunks_good {nsamp : Int} {fsamp S : Rat} {x : Ces} {cn : Int} (cs : Option Nat)
    (hf : 0 < fsamp) (hS : 0 ≤ S) (hx : x.t0 < x.t1) :
    Scan.Good { nsamp := nsamp, fsamp := fsamp, ces := x, samplenum := S, full := fullSamp fsamp x,
                size := (cesChunks (fullSamp fsamp x) cs).1,
                nchunks := (cesChunks (fullSamp fsamp x) cs).2, chunknum := cn } := by
  have hn : 0 < fullSamp fsamp x := mul_pos (by linarith) hf
  have h1 : Scan.Good ⟨nsamp, fsamp, x, S, fullSamp fsamp x, pyInt (fullSamp fsamp x), 1, cn⟩ := by
    refine ⟨hf, hS, hn, ?_, le_rfl, fun h => absurd h (by norm_num), by simpa using hn⟩
    show 0 ≤ pyInt (fullSamp fsamp x)
    rw [pyInt_floor hn.le]
    exact Int.floor_nonneg.2 hn.le
  cases cs with
  | none => exact h1
  | some c =>
    unfold cesChunks
    dsimp only
    split
    · exact h1
    · rename_i hc
      push Not at hc
      have hc1 : 1 ≤ c := Nat.one_le_iff_ne_zero.2 hc.1
      have hcq : (0 : Rat) < (c : Rat) := by exact_mod_cast hc1
      have hq : 0 < fullSamp fsamp x / (c : Rat) := div_pos hn hcq
      refine ⟨hf, hS, hn, by simp, ?_, fun _ => ?_, ?_⟩
      · show 1 ≤ ⌈fullSamp fsamp x / (c : Rat)⌉
        exact Int.one_le_ceil_iff.2 hq
      · show (1 : Int) ≤ (c : Int)
        exact_mod_cast hc1
      · show ((⌈fullSamp fsamp x / (c : Rat)⌉ : Rat) - 1) * ((c : Int) : Rat) < fullSamp fsamp x
        have := Int.ceil_lt_add_one (fullSamp fsamp x / (c : Rat))
        rw [Int.cast_natCast, ← lt_div_iff₀ hcq]
        linarith

theorem cesChunks_size {n : Rat} {c : Nat} (hc : 1 ≤ c) (hn : 0 < n) :
    (cesChunks n (some c)).1 ≤ c ∧
    n ≤ (((cesChunks n (some c)).2 : Rat) - 1) * (cesChunks n (some c)).1 + c := by
  have hcq : (0 : Rat) < (c : Rat) := by exact_mod_cast hc
  unfold cesChunks
  dsimp only
  split
  · rename_i h
    have hle : n ≤ (c : Rat) := h.resolve_left (by omega)
    constructor
    · show pyInt n ≤ (c : Int)
      rw [pyInt_floor hn.le]
      have := Int.floor_le_floor hle
      simpa using this
    · show n ≤ ((1 : Int) - 1 : Rat) * _ + c
      simpa using hle
  · constructor
    · exact le_rfl
    · show n ≤ ((⌈n / (c : Rat)⌉ : Rat) - 1) * ((c : Int) : Rat) + c
      have := Int.le_ceil (n / (c : Rat))
      rw [div_le_iff₀ hcq] at this
      rw [Int.cast_natCast]
      linarith

theorem run_full (s : Scan) (g : s.Good) (k : Nat) (t : Rat) (h : s.samplenum = s.nsamp) :
    s.run k 0 s.samplenum t = ([], (s.nsamp : Rat), true) := by
  have hsz : (0 : Rat) ≤ (s.size : Rat) := by exact_mod_cast g.c0
  have hst : s.stop 0 s.samplenum = s.nsamp := by
    unfold Scan.stop
    dsimp only
    rw [if_pos]
    split
    · linarith [g.n0]
    · linarith
  have ho : s.out 0 s.samplenum t = [] := by
    unfold Scan.out
    rw [hst, h, if_neg (by simp)]
  have hnx : s.next 0 s.samplenum = s.nsamp := by
    unfold Scan.next
    rw [hst, h, if_neg (by simp)]
  cases k with
  | zero => rw [run_zero, ho, hnx, hst, decide_eq_true (le_refl _)]
  | succ k => rw [run_succ, ho, hnx, hst, if_pos (le_refl _)]

theorem loop_full (nsamp : Int) (fsamp : Rat) (cs : Option Nat) (ces : List Ces) (cn : Int)
    (hf : 0 < fsamp) (hn : 0 ≤ nsamp) (hx : ∀ x ∈ ces, x.t0 < x.t1) :
    partitionLoop nsamp fsamp cs ces nsamp cn = [] := by
  cases ces with
  | nil => rfl
  | cons x rest =>
    have g := cesChunks_good (nsamp := nsamp) (S := nsamp) (cn := cn) cs hf (by exact_mod_cast hn)
      (hx x List.mem_cons_self)
    unfold partitionLoop
    dsimp only
    rw [run_full _ g _ _ rfl]
    rfl

/-- What holds for the entries that the loop over the scans makes. -/
structure LoopSpec (nsamp : Int) (fsamp : Rat) (cs : Option Nat) (ces : List Ces) (S : Rat)
    (cn : Int) (l : List Entry) (E : Int) : Prop where
  cov : Covers ⌊S⌋ E (spans l)
  idx : ∀ (i : Nat) e, l[i]? = some e → e.chunk.cidx = some (cn + (i : Int))
  bel : ∀ e ∈ l, ∃ i, ces[i]? = some e.ces ∧ ⌊S + offset fsamp ces i⌋ ≤ e.chunk.start ∧
    e.chunk.stop ≤ ⌊S + offset fsamp ces (i + 1)⌋ ∧
    e.chunk.start = ⌊S + offset fsamp ces i + (e.ctimeStart - e.ces.t0) * fsamp⌋
  le : E ≤ min nsamp ⌊S + offset fsamp ces ces.length⌋
  exact_ : (∀ x ∈ ces, ((cesChunks (fullSamp fsamp x) cs).2 : Rat)
      * (cesChunks (fullSamp fsamp x) cs).1 ≤ fullSamp fsamp x) →
    E = min nsamp ⌊S + offset fsamp ces ces.length⌋
  miss : ∀ c : Nat, 1 ≤ c → cs = some c → min nsamp ⌊S + offset fsamp ces ces.length⌋ - E ≤ c
  size : ∀ c : Nat, 1 ≤ c → cs = some c → ∀ e ∈ l, e.chunk.stop - e.chunk.start ≤ c
  pos : (∃ a : Int, S = a) → (∀ x ∈ ces, ∃ b : Int, fullSamp fsamp x = b) →
    ∀ e ∈ l, e.chunk.start < e.chunk.stop

theorem offset_cons (fsamp : Rat) (x : Ces) (rest : List Ces) (i : Nat) :
    offset fsamp (x :: rest) (i + 1) = fullSamp fsamp x + offset fsamp rest i := by
  simp [offset, fullSamp]

theorem offset_zero (fsamp : Rat) (ces : List Ces) : offset fsamp ces 0 = 0 := by simp [offset]

theorem offset_nonneg {fsamp : Rat} (hf : 0 < fsamp) {ces : List Ces}
    (hx : ∀ x ∈ ces, x.t0 < x.t1) (i : Nat) : 0 ≤ offset fsamp ces i := by
  induction ces generalizing i with
  | nil => simp [offset]
  | cons x rest ih =>
    cases i with
    | zero => rw [offset_zero]
    | succ i =>
      rw [offset_cons]
      have h1 := ih (fun y hy => hx y (List.mem_cons_of_mem _ hy)) i
      have h2 : 0 ≤ fullSamp fsamp x :=
        mul_nonneg (by linarith [hx x List.mem_cons_self]) hf.le
      linarith

theorem loop_spec (nsamp : Int) (fsamp : Rat) (cs : Option Nat) (hf : 0 < fsamp) (hn : 0 ≤ nsamp)
    (ces : List Ces) (hx : ∀ x ∈ ces, x.t0 < x.t1) (S : Rat) (hS : 0 ≤ S) (hSn : S ≤ nsamp)
    (cn : Int) :
    ∃ E, LoopSpec nsamp fsamp cs ces S cn (partitionLoop nsamp fsamp cs ces S cn) E := by
  induction ces generalizing S cn with
  | nil =>
    have h1 : ⌊S⌋ ≤ nsamp := by
      have := Int.floor_le_floor hSn
      simpa using this
    have h2 : min nsamp ⌊S + offset fsamp [] ([] : List Ces).length⌋ = ⌊S⌋ := by
      simp [offset, h1]
    refine ⟨⌊S⌋, .nil _, fun i e h => by simp [partitionLoop] at h, fun e h => by
      simp [partitionLoop] at h, h2.ge, fun _ => h2.symm, fun c _ _ => ?_, fun c _ _ e h => by
      simp [partitionLoop] at h, fun _ _ e h => by simp [partitionLoop] at h⟩
    rw [h2]
    omega
  | cons x rest ih =>
    have hx0 := hx x List.mem_cons_self
    have hxr : ∀ y ∈ rest, y.t0 < y.t1 := fun y hy => hx y (List.mem_cons_of_mem _ hy)
    have hN : 0 < fullSamp fsamp x := mul_pos (by linarith) hf
    have hT : S + fullSamp fsamp x ≤ S + offset fsamp (x :: rest) (x :: rest).length := by
      rw [List.length_cons, offset_cons]
      linarith [offset_nonneg hf hxr rest.length]
    rcases hSn.eq_or_lt with hfull | hlt
    · subst hfull
      rw [loop_full nsamp fsamp cs _ cn hf hn hx]
      have h2 : min nsamp ⌊(nsamp : Rat) + offset fsamp (x :: rest) (x :: rest).length⌋ = nsamp := by
        rw [Int.floor_intCast_add]
        have := Int.floor_nonneg.2 (offset_nonneg hf hx (x :: rest).length)
        omega
      refine ⟨nsamp, ?_, fun i e h => by simp at h, fun e h => by simp at h, h2.ge,
        fun _ => h2.symm, fun c _ _ => by rw [h2]; omega, fun c _ _ e h => by simp at h,
        fun _ _ e h => by simp at h⟩
      rw [Int.floor_intCast]
      exact .nil _
    · have g := cesChunks_good (nsamp := nsamp) (S := S) (cn := cn) cs hf hS hx0
      have r := run_spec _ g ((cesChunks (fullSamp fsamp x) cs).2 - 1).toNat 0 S x.t0 le_rfl
        (by have := g.k0; dsimp only at this ⊢; omega) (by simp) (by simp) hlt
      unfold partitionLoop
      dsimp only
      revert r
      generalize hrun : Scan.run _ _ _ _ _ = q
      intro r
      have hb : ∀ e ∈ q.1, ∃ i, (x :: rest)[i]? = some e.ces ∧
          ⌊S + offset fsamp (x :: rest) i⌋ ≤ e.chunk.start ∧
          e.chunk.stop ≤ ⌊S + offset fsamp (x :: rest) (i + 1)⌋ ∧
          e.chunk.start
            = ⌊S + offset fsamp (x :: rest) i + (e.ctimeStart - e.ces.t0) * fsamp⌋ := by
        intro e he
        have o := r.ok e he
        have oc : e.ces = x := o.ces
        refine ⟨0, by rw [oc]; rfl, ?_, ?_, ?_⟩
        · rw [offset_zero, add_zero]
          exact o.lo
        · rw [offset_cons, offset_zero, add_zero]
          exact o.hi
        · rw [offset_zero, add_zero, oc]
          exact o.time
      have hi : ∀ (i : Nat) e, q.1[i]? = some e → e.chunk.cidx = some (cn + (i : Int)) := by
        intro i e he
        have := r.idx i e he
        simpa using this
      have hz : ∀ c : Nat, 1 ≤ c → cs = some c → ∀ e ∈ q.1, e.chunk.stop - e.chunk.start ≤ c := by
        intro c hc hcs e he
        subst hcs
        have := cesChunks_size hc hN
        exact (r.ok e he).size c this.1 this.2
      have hp : (∃ a : Int, S = a) → (∀ y ∈ x :: rest, ∃ b : Int, fullSamp fsamp y = b) →
          ∀ e ∈ q.1, e.chunk.start < e.chunk.stop := by
        rintro ⟨a, ha⟩ hy e he
        obtain ⟨b, hb⟩ := hy x List.mem_cons_self
        exact (r.ok e he).pos a b ha hb
      have hle : ⌊q.2.1⌋ ≤ min nsamp ⌊S + offset fsamp (x :: rest) (x :: rest).length⌋ := by
        refine le_min ?_ (Int.floor_le_floor (r.le.trans hT))
        have := Int.floor_le_floor r.top
        simpa using this
      have hend : q.2.1 = nsamp →
          ⌊q.2.1⌋ = min nsamp ⌊S + offset fsamp (x :: rest) (x :: rest).length⌋ := by
        intro h
        refine le_antisymm hle ?_
        rw [h, Int.floor_intCast]
        exact min_le_left _ _
      by_cases hd : q.2.2 = true
      · rw [if_pos hd]
        refine ⟨⌊q.2.1⌋, r.cov, hi, hb, hle, fun h => hend (r.exact_ (h x List.mem_cons_self) hd), ?_,
          hz, hp⟩
        intro c hc hcs
        rcases r.done hd with h | ⟨-, h⟩
        · rw [← hend h]
          omega
        · subst hcs
          have h1 := (cesChunks_size hc hN).1
          have h2 : nsamp - (cesChunks (fullSamp fsamp x) (some c)).1 ≤ ⌊q.2.1⌋ := by
            apply Int.le_floor.2
            push_cast
            exact h.le
          have h3 := min_le_left nsamp ⌊S + offset fsamp (x :: rest) (x :: rest).length⌋
          omega
      · rw [if_neg hd]
        obtain ⟨h1, h2⟩ := r.goOn (by simpa using hd)
        dsimp only at h1
        rcases le_or_gt (nsamp : Rat) (S + fullSamp fsamp x) with hge | hlt2
        · rw [min_eq_right hge] at h1
          rw [h1, loop_full nsamp fsamp cs rest _ hf hn hxr, List.append_nil]
          exact ⟨⌊q.2.1⌋, r.cov, hi, hb, hle, fun _ => hend h1,
            fun c _ _ => by rw [← hend h1]; omega, hz, hp⟩
        · rw [min_eq_left hlt2.le] at h1
          have hoff : ∀ i, S + offset fsamp (x :: rest) (i + 1) = q.2.1 + offset fsamp rest i := by
            intro i
            rw [offset_cons, h1]
            ring
          obtain ⟨E, L⟩ := ih hxr q.2.1 r.low r.top (cn + (cesChunks (fullSamp fsamp x) cs).2)
          have hlen : (q.1.length : Int) = (cesChunks (fullSamp fsamp x) cs).2 := by
            have := g.k0
            dsimp only at this
            omega
          refine ⟨E, ?_, ?_, ?_, ?_, ?_, ?_, ?_, ?_⟩
          · unfold spans
            rw [List.map_append]
            exact covers_append r.cov L.cov
          · intro i e he
            rw [List.getElem?_append] at he
            split at he
            · exact hi i e he
            · rename_i hil
              rw [L.idx _ e he]
              congr 1
              omega
          · intro e he
            rcases List.mem_append.1 he with he | he
            · exact hb e he
            · obtain ⟨i, a1, a2, a3, a4⟩ := L.bel e he
              exact ⟨i + 1, by simpa using a1, by rw [hoff]; exact a2, by rw [hoff]; exact a3,
                by rw [hoff]; exact a4⟩
          · rw [List.length_cons, hoff]
            exact L.le
          · intro h
            rw [List.length_cons, hoff]
            exact L.exact_ fun y hy => h y (List.mem_cons_of_mem _ hy)
          · intro c hc hcs
            rw [List.length_cons, hoff]
            exact L.miss c hc hcs
          · intro c hc hcs e he
            rcases List.mem_append.1 he with he | he
            · exact hz c hc hcs e he
            · exact L.size c hc hcs e he
          · intro ha hy e he
            rcases List.mem_append.1 he with he | he
            · exact hp ha hy e he
            · refine L.pos ?_ (fun y h => hy y (List.mem_cons_of_mem _ h)) e he
              obtain ⟨a, rfl⟩ := ha
              obtain ⟨b, hb⟩ := hy x List.mem_cons_self
              exact ⟨a + b, by rw [h1, hb]; push_cast; rfl⟩

/-! ### Azimuths -/

theorem linspaceOpen_length (a b : Rat) (n : Nat) : (linspaceOpen a b n).length = n := by
  simp [linspaceOpen]

theorem linspaceClosed_length (a b : Rat) (n : Nat) : (linspaceClosed a b n).length = n := by
  simp [linspaceClosed]

theorem azSingle_length (x : Ces) (n : Nat) (hn : 1 ≤ n) : (azSingle x n).length = 2 * n - 1 := by
  unfold azSingle
  rw [List.length_append, linspaceOpen_length, linspaceClosed_length]
  omega

theorem azSingle_get (x : Ces) (n j : Nat) (hn : 1 ≤ n) (hj : j < 2 * n - 1) :
    (azSingle x n)[j]? = some (triangle x.az0 x.az1 n j) := by
  unfold azSingle triangle
  rw [List.getElem?_append, linspaceOpen_length]
  have h1 : ((n : Int) - 1).toNat = n - 1 := by omega
  rw [h1]
  split
  · rename_i h
    unfold linspaceOpen
    rw [List.getElem?_map, List.getElem?_range h]
    rfl
  · rename_i h
    unfold linspaceClosed
    rw [List.getElem?_map, List.getElem?_range (by omega)]
    simp only [Option.map_some, Int.toNat_natCast]
    split
    · rfl
    · congr 1
      have : ((n : Rat) - 1) = ((n - 1 : Nat) : Rat) := by
        rw [Nat.cast_sub hn]
        simp
      rw [this]
      ring

theorem tile_length (a : List Rat) (k : Nat) : (tile a k).length = k * a.length := by
  simp [tile]

theorem tile_get (a : List Rat) (k i : Nat) (h : i < k * a.length) :
    (tile a k)[i]? = a[i % a.length]? := by
  induction k generalizing i with
  | zero => simp at h
  | succ k ih =>
    have e : tile a (k + 1) = a ++ tile a k := by simp [tile, List.replicate_succ]
    rw [e, List.getElem?_append]
    split
    · rename_i h1
      rw [Nat.mod_eq_of_lt h1]
    · rename_i h1
      rw [ih _ (by rw [Nat.add_mul, one_mul] at h; omega)]
      congr 1
      exact (Nat.mod_eq_sub_mod (not_lt.1 h1)).symm

theorem azimuths_spec (fsamp speed : Rat) (x : Ces) (t : Rat) (ts : List Rat) (n : Nat)
    (hth : 0 < azThrow x) (hs : speed ≠ 0) (hn : perScan fsamp speed x = n) (hn1 : 1 ≤ n) :
    ∃ az, azimuths fsamp speed x (t :: ts) = .ok az ∧ az.length = (t :: ts).length ∧
      ∀ i, i < (t :: ts).length → az[i]? = some (triangle x.az0 x.az1 n
        (((i : Int) - phaseIdx fsamp (t - x.t0) (2 * n - 1)) % (2 * (n : Int) - 1)).toNat) := by
  unfold azimuths
  have e0 : pyGet (t :: ts) 0 = .ok t := rfl
  simp only [e0, bind, Except.bind, pure, Except.pure]
  rw [if_pos hth, if_neg hs, hn, if_pos (by omega)]
  generalize hph : phaseIdx fsamp (t - x.t0) (2 * n - 1) = ph
  set N := (t :: ts).length with hN
  set m := (⌈(N : Rat) / ((2 * (n : Int) - 1 : Int) : Rat)⌉).toNat with hm
  have hper : (0 : Rat) < ((2 * (n : Int) - 1 : Int) : Rat) := by
    have : (0 : Int) < 2 * (n : Int) - 1 := by omega
    exact_mod_cast this
  have hlen : (tile (azSingle x n) m).length = m * (2 * n - 1) := by
    rw [tile_length, azSingle_length x n hn1]
  have hNm : N ≤ m * (2 * n - 1) := by
    have h1 := Int.le_ceil ((N : Rat) / ((2 * (n : Int) - 1 : Int) : Rat))
    rw [div_le_iff₀ hper] at h1
    have h2 : (N : Int) ≤ ⌈(N : Rat) / ((2 * (n : Int) - 1 : Int) : Rat)⌉ * (2 * (n : Int) - 1) := by
      exact_mod_cast h1
    have h3 : 0 ≤ ⌈(N : Rat) / ((2 * (n : Int) - 1 : Int) : Rat)⌉ :=
      Int.ceil_nonneg (div_nonneg (Nat.cast_nonneg _) hper.le)
    have h4 : ((m : Nat) : Int) = ⌈(N : Rat) / ((2 * (n : Int) - 1 : Int) : Rat)⌉ := by omega
    have h5 : ((2 * n - 1 : Nat) : Int) = 2 * (n : Int) - 1 := by omega
    have : (N : Int) ≤ ((m * (2 * n - 1) : Nat) : Int) := by
      rw [Nat.cast_mul, h4, h5]
      exact h2
    exact_mod_cast this
  have hN1 : 1 ≤ N := by simp [hN]
  have hrl : (npRoll (tile (azSingle x n) m) ph).length = m * (2 * n - 1) := by
    unfold npRoll
    rw [List.length_map, List.length_range, hlen]
  have hsl : pySlice (npRoll (tile (azSingle x n) m) ph) 0 N
      = (npRoll (tile (azSingle x n) m) ph).take N := by
    unfold pySlice pyClip
    rw [if_neg (by omega), if_neg (by omega), hrl]
    simp only [Int.toNat_zero, Int.toNat_natCast, Nat.zero_min, List.drop_zero, Nat.sub_zero]
    rw [Nat.min_eq_left hNm]
  refine ⟨_, rfl, ?_, fun i hi => ?_⟩
  · rw [hsl, List.length_take, hrl, Nat.min_eq_left hNm]
  · rw [hsl, List.getElem?_take_of_lt hi]
    unfold npRoll
    rw [List.getElem?_map, List.getElem?_range (by rw [hlen]; omega), Option.map_some]
    congr 1
    rw [List.getD_eq_getElem?_getD, hlen]
    have hpos : (0 : Int) < ((m * (2 * n - 1) : Nat) : Int) := by
      have : 0 < m * (2 * n - 1) := by omega
      exact_mod_cast this
    have hr1 := Int.emod_nonneg ((i : Int) - ph) hpos.ne'
    have hr2 := Int.emod_lt_of_pos ((i : Int) - ph) hpos
    rw [tile_get _ _ _ (by rw [azSingle_length x n hn1]; omega), azSingle_length x n hn1]
    have hmod : (((i : Int) - ph) % ((m * (2 * n - 1) : Nat) : Int)).toNat % (2 * n - 1)
        = (((i : Int) - ph) % (2 * (n : Int) - 1)).toNat := by
      have h5 : ((2 * n - 1 : Nat) : Int) = 2 * (n : Int) - 1 := by omega
      have hq := Int.emod_nonneg ((i : Int) - ph) (show (2 * (n : Int) - 1) ≠ 0 by omega)
      apply Int.ofNat.inj
      show (((((i : Int) - ph) % ((m * (2 * n - 1) : Nat) : Int)).toNat % (2 * n - 1) : Nat) : Int)
        = ((((i : Int) - ph) % (2 * (n : Int) - 1)).toNat : Int)
      rw [Int.natCast_mod, Int.toNat_of_nonneg hr1, Int.toNat_of_nonneg hq, Nat.cast_mul, h5,
        Int.emod_emod_of_dvd _ (Dvd.intro_left _ rfl)]
    rw [hmod, azSingle_get x n _ hn1]
    · rfl
    · have := Int.emod_lt_of_pos ((i : Int) - ph) (show (0 : Int) < 2 * (n : Int) - 1 by omega)
      omega

theorem triangle_between {a b : Rat} (h : a ≤ b) (n j : Nat) (hn : 1 ≤ n) (hj : j < 2 * n - 1) :
    a ≤ triangle a b n j ∧ triangle a b n j ≤ b := by
  unfold triangle
  have hd : 0 ≤ b - a := by linarith
  have key : ∀ k : Nat, k ≤ n - 1 → n ≠ 1 → 0 ≤ (k : Rat) * ((b - a) / ((n - 1 : Nat) : Rat)) ∧
      (k : Rat) * ((b - a) / ((n - 1 : Nat) : Rat)) ≤ b - a := by
    intro k hk h1
    have hp : (0 : Rat) < ((n - 1 : Nat) : Rat) := by
      have : 0 < n - 1 := by omega
      exact_mod_cast this
    have hk' : (k : Rat) ≤ ((n - 1 : Nat) : Rat) := by exact_mod_cast hk
    refine ⟨mul_nonneg (Nat.cast_nonneg _) (div_nonneg hd hp.le), ?_⟩
    rw [← mul_div_assoc, div_le_iff₀ hp, mul_comm]
    exact mul_le_mul_of_nonneg_left hk' hd
  split
  · rename_i h1
    have := key j h1.le (by omega)
    constructor <;> linarith
  · split
    · exact ⟨h, le_rfl⟩
    · rename_i h1 h2
      have := key (j - (n - 1)) (by omega) h2
      constructor <;> linarith

end Verif.Schedule
