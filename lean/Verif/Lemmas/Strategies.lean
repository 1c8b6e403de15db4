import Verif.Spec.Strategies
import Verif.Props.ScanInstrument
import Verif.Lemmas.SpmdLoop

/-! # Lemmas: strategies -/

noncomputable section

namespace Verif.Strategies

open Verif.Chunks Verif.Timeline Verif.Spinmaps Verif.MapMaking Verif.ScanInstrument Verif.Spec

variable {E A : Type}

theorem Prepared.gives {w : World E} {M : Motion} {o : ScanInstrument.Opts} {N : Nat}
    {chunks : List Chunk} {i : Inst E} (h : Prepared w M o N chunks i) (hs : Steady w M chunks i.el)
    (beams : List Pair) (size : Nat) (hsize : 0 < size) : GivesMaps w M o N beams size i :=
  fun nside sm hm => Props.C96_maps w h.ext h.pix h.nside M o h.binning h.preview h.ground h.reuse N chunks
    h.mission h.hwpang i h.ready h.rotates h.plate hs beams nside sm hm size hsize

theorem points_of {w : World E} {M : Motion} {chunks : List Chunk} {I : E → Prop}
    (h : ∀ c ∈ chunks, ∀ e pre, I e → ∃ p e', w.implement e c false pre = .ok (p, e') ∧
      PointsAt M c p ∧ I e') (pre : Bool) (e : E) (he : I e) :
    ∃ e', Points w M pre e chunks e' ∧ I e' := by
  induction chunks generalizing e with
  | nil => exact ⟨e, rfl, he⟩
  | cons c cs ih =>
    obtain ⟨p, e1, h1, h2, h3⟩ := h c List.mem_cons_self e pre he
    obtain ⟨e', h4, h5⟩ := ih (fun c hc => h c (List.mem_cons_of_mem _ hc)) e1 h3
    exact ⟨e', ⟨p, e1, h1, h2, h4⟩, h5⟩

/-- A strategy whose pointing does not depend on what it has done before. -/
theorem repeats_of {w : World E} {M : Motion} {chunks : List Chunk} {I : E → Prop} {e0 : E} (h0 : I e0)
    (h : ∀ c ∈ chunks, ∀ e pre, I e → ∃ p e', w.implement e c false pre = .ok (p, e') ∧
      PointsAt M c p ∧ I e') (hr : ∀ e, I e → ∃ e', w.resetEl e = .ok e' ∧ I e') :
    Repeats w M chunks e0 := by
  refine ⟨I, h0, fun first e he => ?_⟩
  obtain ⟨e', h1, h2⟩ := points_of h (!first) e he
  obtain ⟨e'', h3, h4⟩ := hr e' h2
  exact ⟨e', h1, e'', h3, h4⟩

/-- Values for the samples of each chunk are values for the samples of the mission. -/
theorem glue {α β : Type} [Inhabited α] {a b : Int} {l : List β} (ch : β → Chunk) (ha : 0 ≤ a)
    (ht : Tiles a b (l.map fun e => ((ch e).start, (ch e).stop))) (L : β → Nat → α) :
    ∃ f : Nat → α, ∀ e ∈ l, ∀ k, k < ((ch e).stop - (ch e).start).toNat →
      f ((ch e).start.toNat + k) = L e k := by
  induction l generalizing a with
  | nil => exact ⟨fun _ => default, fun _ h => by cases h⟩
  | cons c cs ih =>
    simp only [List.map_cons] at ht
    cases ht with
    | cons hlt ht =>
      obtain ⟨f, hf⟩ := ih (a := (ch c).stop) (by omega) ht
      refine ⟨fun t => if (t : Int) < (ch c).stop then L c (t - (ch c).start.toNat) else f t,
        fun d hd k hk => ?_⟩
      rcases List.mem_cons.1 hd with rfl | hd
      · dsimp only
        rw [if_pos (by omega), Nat.add_sub_cancel_left]
      · have := tiles_mem ht ((ch d).start, (ch d).stop) (List.mem_map.2 ⟨d, hd, rfl⟩)
        dsimp only at this ⊢
        rw [if_neg (by omega), hf d hd k hk]

theorem ctimes_eq {fsamp ctime0 : ℝ} (hf : fsamp ≠ 0) {M : Motion} (hM : Clock fsamp ctime0 M)
    {start stop : Int} (h0 : 0 ≤ start) : Data.ctimes fsamp ctime0 start stop =
      .ok ((List.range (stop - start).toNat).map fun k => M.time (start.toNat + k)) := by
  unfold Data.ctimes
  rw [if_neg hf]
  congr 1
  unfold intRange
  rw [List.map_map]
  refine List.map_congr_left fun k _ => ?_
  rw [hM]
  have : (start : ℝ) = (start.toNat : ℝ) := by
    have : start = (start.toNat : Int) := by omega
    exact_mod_cast congrArg (fun (z : Int) => (z : ℝ)) this
  simp [this]

theorem Mission.start_nonneg {N : Nat} {chunks : List Chunk} (h : Mission N chunks) {c : Chunk}
    (hc : c ∈ chunks) : 0 ≤ c.start ∧ c.start < c.stop ∧ c.stop ≤ N := by
  have := tiles_mem h.tiles (c.start, c.stop) (List.mem_map.2 ⟨c, hc, rfl⟩)
  dsimp only at this
  omega

theorem reset_none {e : Att A} (h : e.st.el = none) : reset e = .ok e := by
  obtain ⟨⟨_, _, _, _, _, el⟩, _⟩ := e
  dsimp only at h
  subst h
  rfl

/-! ### one pair per rank -/

theorem points_resetEl {w : World E} (r : E → PyM E) {M : Motion} {pre : Bool} {e e' : E}
    {chunks : List Chunk} (h : Points w M pre e chunks e') :
    Points { w with resetEl := r } M pre e chunks e' := by
  induction chunks generalizing e with
  | nil => exact h
  | cons c cs ih =>
    obtain ⟨p, e1, h1, h2, h3⟩ := h
    exact ⟨p, e1, h1, h2, ih h3⟩

theorem scanAll_resetEl (w : World E) (r : E → PyM E) (o : ScanInstrument.Opts) (beams : List Pair)
    (size : Nat) (hs : beams.length ≤ size) (hs0 : 0 < size) (i : Inst E) :
    scanAll { w with resetEl := r } o beams true size i = scanAll w o beams true size i := by
  have hpass : ∀ (p : Pair) (j : Inst E), scanPass { w with resetEl := r } o true p j = scanPass w o true p j := by
    intro p j
    rfl
  have hone : ∀ rank, ScanInstrument.scanInstrument { w with resetEl := r } o beams true size rank i
      = ScanInstrument.scanInstrument w o beams true size rank i := by
    intro rank
    unfold ScanInstrument.scanInstrument
    have : Mpi.nmax beams.length size = 0 ∨ Mpi.nmax beams.length size = 1 := by
      unfold Mpi.nmax
      have h1 := ceilDiv_mul_lt (beams.length : Int) (size : Int) (by exact_mod_cast hs0)
      have h2 : ((size : Int)) ≠ 0 := by omega
      by_contra hc
      have h3 : 2 ≤ ceilDiv (beams.length : Int) (size : Int) := by omega
      nlinarith
    have hl : ∀ ps : List (Option Pair), ps.length ≤ 1 →
        scanLoop { w with resetEl := r } o true ps i = scanLoop w o true ps i := by
      intro ps h
      rcases ps with _ | ⟨p, _ | ⟨q, ps⟩⟩
      · rfl
      · rfl
      · simp at h
    unfold Mpi.scanPasses
    cases Mpi.localBeams beams true size rank with
    | error => rfl
    | ok l =>
      exact hl (Mpi.passes l (Mpi.nmax beams.length size)) (by
        rw [Spmd.length_passes]; omega)
  unfold scanAll
  simp only [hone]

end Verif.Strategies
