import Verif.Model.ScanStored
import Verif.Lemmas.ScanInstrument
import Verif.Props.Data
import Verif.Props.ScanApi

/-! # Lemmas: a whole scan with stored data -/

noncomputable section

namespace Verif.ScanStored

open Verif.Chunks Verif.Timeline Verif.Spinmaps Verif.MapMaking Verif.Spec Verif.Props
open Verif.ScanInstrument (World Inst Pair Motion At Same PairGood Gives PointsAt Points Turns Moves
  Mission Ready Steady todOfState binOne newAng cidxOf resetAll initPair detects mapsOf_perm angAt)

variable {E : Type}

theorem ok_bind {α β : Type} {x : PyM α} {f : α → PyM β} {b : β} (h : x >>= f = .ok b) :
    ∃ a, x = .ok a ∧ f a = .ok b := by
  cases x with
  | error e => cases h
  | ok a => exact ⟨a, rfl, h⟩

theorem live_plain (b : Option SBeam) :
    ScanInstrument.live (b.map (·.bin)) = (live b).map (·.bin) := by
  rcases b with _ | b
  · rfl
  · simp only [Option.map_some, live, ScanInstrument.live]
    split <;> rfl

theorem live_det (b : Option SBeam) : Data.live (b.map SBeam.det) = (live b).map SBeam.det := by
  rcases b with _ | b
  · rfl
  · simp only [Option.map_some, live, Data.live, SBeam.det]
    split <;> rfl

theorem live_dead {b : Option SBeam} {c : SBeam} (h : live b = some c) :
    b = some c ∧ c.bin.beam.dead = false := by
  unfold live at h
  split at h
  · split at h
    · cases h
    · obtain rfl := Option.some.inj h
      exact ⟨rfl, eq_false_of_ne_true ‹_›⟩
  · cases h

/-! ### saving changes nothing else -/

theorem detector_point {x : Ext} {mission : List Chunk} {b : Timeline.Beam}
    {gs : List Timeline.Beam} {s : Sub} {g interp sp : Bool} {st : State} {r : Timeline.Ret × State}
    (h : scanDetector x mission b gs s g interp sp st = .ok r) :
    scanDetector x mission b gs s g interp false st = .ok r := by
  unfold scanDetector at h ⊢
  split at h
  · cases h
  rename_i hb
  rw [if_neg hb]
  obtain ⟨⟨n, st1⟩, h1, h⟩ := ok_bind h
  rw [h1]
  simp only [bind, Except.bind] at h ⊢
  split at h
  · rw [if_pos ‹_›]
    split at h
    · cases h
    · split at h
      · cases h
      · rw [if_neg (by simp)]
        exact h
  · rw [if_neg ‹_›]
    exact h

theorem scanOne_erase {x : Ext} {mission : List Chunk} {o : SOpts} {b : SBeam} {s : Sub} {g : Bool}
    {st st' : State} {store store' : Store}
    (h : scanOne x mission o b s g st store = .ok (st', store')) :
    ScanInstrument.scanOne x mission o.toOpts b.bin s g st = .ok st' := by
  unfold scanOne at h
  split at h
  · split at h
    · cases h
    · split at h
      · cases h
      · obtain ⟨st1, h1, h⟩ := ok_bind h
        cases h
        exact h1
  · rename_i hp
    obtain ⟨⟨r, st1⟩, h1, h⟩ := ok_bind h
    obtain ⟨store1, h2, h⟩ := ok_bind h
    cases h
    unfold ScanInstrument.scanOne
    rw [if_neg hp, detector_point h1]
    rfl

theorem scanBinOne_erase {w : World E} {mission : List Chunk} {o : SOpts} {flag : Option (List Bool)}
    {b : SBeam} {s : Sub} {g : Bool} {st : State} {maps : Maps} {store : Store}
    {r : State × Maps × Store}
    (h : scanBinOne w mission o flag s g b st maps store = .ok r) :
    ScanInstrument.scanBinOne w mission o.toOpts flag s g b.bin st maps = .ok (r.1, r.2.1) := by
  unfold scanBinOne at h
  obtain ⟨⟨st1, store1⟩, h1, h⟩ := ok_bind h
  obtain ⟨tod, h2, h⟩ := ok_bind h
  obtain ⟨maps1, h3, h⟩ := ok_bind h
  cases h
  unfold ScanInstrument.scanBinOne
  rw [scanOne_erase h1]
  simp only [bind, Except.bind]
  rw [h2]
  dsimp only
  rw [h3]
  rfl

theorem scanMix_erase {w : World E} {mission : List Chunk} {o : SOpts} {flag : Option (List Bool)}
    {a b : SBeam} {s : Sub} {g : Bool} {st : State} {maps : Maps} {store : Store}
    {r : State × Maps × Store}
    (h : scanMix w mission o flag s g a b st maps store = .ok r) :
    ScanInstrument.scanMix w mission o.toOpts flag s g a.bin b.bin st maps = .ok (r.1, r.2.1) := by
  unfold scanMix at h
  obtain ⟨⟨st1, store1⟩, h1, h⟩ := ok_bind h
  obtain ⟨todA, h2, h⟩ := ok_bind h
  obtain ⟨⟨st2, store2⟩, h3, h⟩ := ok_bind h
  obtain ⟨todB, h4, h⟩ := ok_bind h
  obtain ⟨⟨ta, tb⟩, h5, h⟩ := ok_bind h
  obtain ⟨store3, h6, h⟩ := ok_bind h
  obtain ⟨maps1, h7, h⟩ := ok_bind h
  obtain ⟨maps2, h8, h⟩ := ok_bind h
  cases h
  unfold ScanInstrument.scanMix
  rw [scanOne_erase h1]
  simp only [bind, Except.bind]
  rw [h2]
  dsimp only
  rw [scanOne_erase h3]
  dsimp only
  rw [h4]
  dsimp only
  rw [h5]
  dsimp only
  rw [h7]
  dsimp only
  rw [h8]
  rfl

theorem scanPair_erase {w : World E} {mission : List Chunk} {o : SOpts} {flag : Option (List Bool)}
    {p : SPair} {s : Sub} {g : Bool} {st : State} {maps : Maps} {store : Store}
    {r : State × Maps × Store}
    (h : scanPair w mission o flag p s g st maps store = .ok r) :
    ScanInstrument.scanPair w mission o.toOpts flag (plain p) s g st maps = .ok (r.1, r.2.1) := by
  unfold scanPair at h
  unfold ScanInstrument.scanPair plain
  rw [live_plain, live_plain]
  rcases ha : live p.1 with _ | a <;> rcases hb : live p.2 with _ | b <;> rw [ha, hb] at h <;>
    dsimp only at h <;> simp only [Option.map_some, Option.map_none]
  · cases h
    rfl
  · exact scanBinOne_erase h
  · exact scanBinOne_erase h
  · split at h
    · rw [if_pos ‹_›]
      exact scanMix_erase h
    · rw [if_neg ‹_›]
      obtain ⟨⟨st1, maps1, store1⟩, h1, h⟩ := ok_bind h
      rw [scanBinOne_erase h1]
      exact scanBinOne_erase h

theorem stepSub_erase {w : World E} {o : SOpts} {p : SPair} {g : Bool} {s : Chunk}
    {i i' : Inst E × Store} (h : stepSub w o p g s i = .ok i') :
    ScanInstrument.stepSub w o.toOpts (plain p) g s i.1 = .ok i'.1 := by
  unfold stepSub at h
  obtain ⟨rot, h1, h⟩ := ok_bind h
  obtain ⟨⟨ang, hwp⟩, h2, h⟩ := ok_bind h
  obtain ⟨cidx, h3, h⟩ := ok_bind h
  obtain ⟨⟨st, maps, store⟩, h4, h⟩ := ok_bind h
  cases h
  unfold ScanInstrument.stepSub
  rw [h1]
  simp only [bind, Except.bind]
  rw [h2]
  dsimp only
  rw [h3]
  dsimp only
  have := scanPair_erase h4
  dsimp only at this
  rw [this]
  rfl

/-- Folds that agree step by step. -/
theorem foldlM_erase {α β γ : Type} (f : β × γ → α → PyM (β × γ)) (f' : β → α → PyM β)
    (hf : ∀ x a x', f x a = .ok x' → f' x.1 a = .ok x'.1) (l : List α) :
    ∀ x x', l.foldlM f x = .ok x' → l.foldlM f' x.1 = .ok x'.1 := by
  induction l with
  | nil =>
    intro x x' h
    cases h
    rfl
  | cons a l ih =>
    intro x x' h
    rw [List.foldlM_cons] at h ⊢
    obtain ⟨x1, h1, h⟩ := ok_bind h
    rw [hf _ _ _ h1]
    exact ih _ _ h

theorem stepChunk_erase {w : World E} {o : SOpts} {p : SPair} {first : Bool} {k : Nat}
    {i i' : Inst E × Store} (h : stepChunk w o p first i k = .ok i') :
    ScanInstrument.stepChunk w o.toOpts (plain p) first i.1 k = .ok i'.1 := by
  unfold stepChunk at h
  obtain ⟨⟨c, g⟩, h1, h⟩ := ok_bind h
  obtain ⟨⟨pt, el⟩, h2, h⟩ := ok_bind h
  obtain ⟨cidx, h3, h⟩ := ok_bind h
  obtain ⟨⟨subs, rot⟩, h4, h⟩ := ok_bind h
  unfold ScanInstrument.stepChunk
  rw [h1]
  simp only [bind, Except.bind]
  rw [h2]
  dsimp only
  rw [h4]
  exact foldlM_erase _ _ (fun x s x' hx => stepSub_erase hx) subs _ _ h

theorem scanPass_erase {w : World E} {o : SOpts} {p : SPair} {first : Bool}
    {i i' : Inst E × Store} (h : scanPass w o first p i = .ok i') :
    ScanInstrument.scanPass w o.toOpts first (plain p) i.1 = .ok i'.1 := by
  unfold scanPass at h
  have h' : ∃ j, (if first then .ok i.1 else resetAll w i.1) = Except.ok (ε := PyErr) j ∧
      ((initPair w o.toOpts (plain p) j).bind fun j =>
        if j.chunks.all fun c => c.1.cidx.isSome then
          (List.range j.chunks.length).foldlM (stepChunk w o p first) (j, i.2)
        else .error .keyError) = .ok i' := by
    cases first
    · exact ok_bind h
    · exact ⟨i.1, rfl, h⟩
  obtain ⟨j, h1, h2⟩ := h'
  obtain ⟨j1, h3, h2⟩ := ok_bind h2
  have hb : ScanInstrument.scanPass w o.toOpts first (plain p) i.1 =
      (if first then .ok i.1 else resetAll w i.1).bind fun i =>
        (initPair w o.toOpts (plain p) i).bind fun i =>
          if i.chunks.all fun c => c.1.cidx.isSome then
            (List.range i.chunks.length).foldlM (ScanInstrument.stepChunk w o.toOpts (plain p) first) i
          else .error .keyError := by
    unfold ScanInstrument.scanPass
    cases first <;> rfl
  rw [hb, h1]
  simp only [Except.bind]
  rw [h3]
  dsimp only
  split at h2
  · rw [if_pos ‹_›]
    exact foldlM_erase _ _ (fun x k x' hx => stepChunk_erase hx) _ _ _ h2
  · cases h2

theorem scanLoop_erase {w : World E} {o : SOpts} (ps : List (Option SPair)) :
    ∀ {first : Bool} {i i' : Inst E × Store}, scanLoop w o first ps i = .ok i' →
      ScanInstrument.scanLoop w o.toOpts first (ps.map (Option.map plain)) i.1 = .ok i'.1 := by
  induction ps with
  | nil =>
    intro first i i' h
    cases h
    rfl
  | cons p ps ih =>
    intro first i i' h
    unfold scanLoop at h
    obtain ⟨i1, h1, h⟩ := ok_bind h
    rw [List.map_cons]
    unfold ScanInstrument.scanLoop
    have : (p.map plain).getD (none, none) = plain (p.getD (none, none)) := by
      cases p <;> rfl
    rw [this, scanPass_erase h1]
    exact ih h

theorem go_map {α β : Type} (f : α → β) (ks : List Nat) : ∀ xs : List α,
    Mpi.arraySplit.go (xs.map f) ks = (Mpi.arraySplit.go xs ks).map (List.map f) := by
  induction ks with
  | nil => intro xs; rfl
  | cons k ks ih =>
    intro xs
    unfold Mpi.arraySplit.go
    rw [← List.map_drop, ih, ← List.map_take, List.map_cons]

theorem passes_map {α β : Type} (f : α → β) (l : List α) (scatter : Bool) (size rank : Nat) :
    Mpi.scanPasses (l.map f) scatter size rank =
      (Mpi.scanPasses l scatter size rank).map (List.map (Option.map f)) := by
  have hp : ∀ (l : List α) n, Mpi.passes (l.map f) n = (Mpi.passes l n).map (Option.map f) := by
    intro l n
    unfold Mpi.passes
    simp
  unfold Mpi.scanPasses Mpi.localBeams
  cases scatter with
  | false =>
    simp only [Bool.false_eq_true, if_false, bind, Except.bind, pure, Except.pure, List.length_map]
    rw [hp]
    rfl
  | true =>
    simp only [if_true, List.length_map]
    unfold Mpi.scatterList Mpi.arraySplit
    rw [go_map, List.getElem?_map, List.length_map]
    rcases (Mpi.arraySplit.go l _)[rank]? with _ | y
    · rfl
    · simp only [Option.map_some, bind, Except.bind, pure, Except.pure]
      rw [hp]
      rfl

end Verif.ScanStored
