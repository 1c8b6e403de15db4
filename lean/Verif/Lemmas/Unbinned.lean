import Verif.Lemmas.ScanStored

/-! # Lemmas: scans without binning -/

noncomputable section

namespace Verif.ScanStored

open Verif.Chunks Verif.Timeline Verif.Spinmaps Verif.MapMaking
open Verif.ScanInstrument hiding live scanOne scanBinOne scanMix scanPair stepSub stepChunk scanPass scanLoop scanInstrument

variable {E : Type}

/-- The same arguments with `binning=False`. -/
abbrev nb (o : SOpts) : SOpts := { o with binning := false }

/-- The same state with other maps. -/
def wm (mp : Maps) (i : Inst E × Store) : Inst E × Store := ({ i.1 with maps := mp }, i.2)

theorem scanOne_nb (x : Ext) (mission : List Chunk) (o : SOpts) (b : SBeam) (s : Sub) (g : Bool)
    (st : State) (store : Store) :
    scanOne x mission (nb o) b s g st store = scanOne x mission o b s g st store := rfl

theorem scanBinOne_nb {w : World E} {mission : List Chunk} {o : SOpts} {flag : Option (List Bool)}
    {b : SBeam} {s : Sub} {g : Bool} {st : State} {maps : Maps} {store : Store}
    {r : State × Maps × Store} (mp : Maps)
    (h : scanBinOne w mission o flag s g b st maps store = .ok r) :
    scanBinOne w mission (nb o) flag s g b st mp store = .ok (r.1, mp, r.2.2) := by
  unfold scanBinOne at h
  obtain ⟨⟨st1, store1⟩, h1, h⟩ := ok_bind h
  obtain ⟨tod, h2, h⟩ := ok_bind h
  obtain ⟨maps1, h3, h⟩ := ok_bind h
  cases h
  unfold scanBinOne
  rw [scanOne_nb, h1]
  simp only [bind, Except.bind]
  rw [h2]
  rfl

theorem scanMix_nb {w : World E} {mission : List Chunk} {o : SOpts} {flag : Option (List Bool)}
    {a b : SBeam} {s : Sub} {g : Bool} {st : State} {maps : Maps} {store : Store}
    {r : State × Maps × Store} (mp : Maps)
    (h : scanMix w mission o flag s g a b st maps store = .ok r) :
    scanMix w mission (nb o) flag s g a b st mp store = .ok (r.1, mp, r.2.2) := by
  unfold scanMix at h
  obtain ⟨⟨st1, store1⟩, h1, h⟩ := ok_bind h
  obtain ⟨todA, h2, h⟩ := ok_bind h
  obtain ⟨⟨st2, store2⟩, h3, h⟩ := ok_bind h
  obtain ⟨todB, h4, h⟩ := ok_bind h
  obtain ⟨⟨ta, tb⟩, h5, h⟩ := ok_bind h
  obtain ⟨store3, h6, h⟩ := ok_bind h
  obtain ⟨maps1, h7, h⟩ := ok_bind h
  obtain ⟨maps2, h8, h⟩ := ok_bind h
  cases h
  unfold scanMix
  rw [scanOne_nb, h1]
  simp only [bind, Except.bind]
  rw [h2]
  dsimp only
  rw [scanOne_nb, h3]
  dsimp only
  rw [h4]
  dsimp only
  rw [h5]
  dsimp only
  have : updateBoth mission (nb o) s a b ta tb store2 = updateBoth mission o s a b ta tb store2 := rfl
  rw [this, h6]
  rfl

theorem scanPair_nb {w : World E} {mission : List Chunk} {o : SOpts} {flag : Option (List Bool)}
    {p : SPair} {s : Sub} {g : Bool} {st : State} {maps : Maps} {store : Store}
    {r : State × Maps × Store} (mp : Maps)
    (h : scanPair w mission o flag p s g st maps store = .ok r) :
    scanPair w mission (nb o) flag p s g st mp store = .ok (r.1, mp, r.2.2) := by
  unfold scanPair at h ⊢
  rcases ha : live p.1 with _ | a <;> rcases hb : live p.2 with _ | b <;> rw [ha, hb] at h <;>
    dsimp only at h ⊢
  · cases h
    rfl
  · exact scanBinOne_nb mp h
  · exact scanBinOne_nb mp h
  · split at h
    · rw [if_pos ‹_›]
      exact scanMix_nb mp h
    · rw [if_neg ‹_›]
      obtain ⟨⟨st1, maps1, store1⟩, h1, h⟩ := ok_bind h
      rw [scanBinOne_nb mp h1]
      exact scanBinOne_nb mp h

theorem stepSub_nb {w : World E} {o : SOpts} {p : SPair} {g : Bool} {s : Chunk}
    {i i' : Inst E × Store} (mp : Maps) (h : stepSub w o p g s i = .ok i') :
    stepSub w (nb o) p g s (wm mp i) = .ok (wm mp i') := by
  unfold stepSub at h
  obtain ⟨rot, h1, h⟩ := ok_bind h
  obtain ⟨⟨ang, hwp⟩, h2, h⟩ := ok_bind h
  obtain ⟨cidx, h3, h⟩ := ok_bind h
  obtain ⟨⟨st, maps, store⟩, h4, h⟩ := ok_bind h
  cases h
  unfold stepSub wm
  dsimp only
  rw [h1]
  simp only [bind, Except.bind]
  rw [h2]
  dsimp only
  rw [h3]
  dsimp only
  have := scanPair_nb mp h4
  dsimp only at this
  rw [this]
  rfl

theorem foldlM_nb {α : Type} (mp : Maps) (f f' : Inst E × Store → α → PyM (Inst E × Store))
    (hf : ∀ x a x', f x a = .ok x' → f' (wm mp x) a = .ok (wm mp x')) (l : List α) :
    ∀ x x', l.foldlM f x = .ok x' → l.foldlM f' (wm mp x) = .ok (wm mp x') := by
  induction l with
  | nil =>
    intro x x' h
    cases h
    rfl
  | cons a l ih =>
    intro x x' h
    rw [List.foldlM_cons] at h ⊢
    obtain ⟨x1, h1, h⟩ := ok_bind h
    rw [hf _ _ _ h1]
    exact ih _ _ h

theorem stepChunk_nb {w : World E} {o : SOpts} {p : SPair} {first : Bool} {k : Nat}
    {i i' : Inst E × Store} (mp : Maps) (h : stepChunk w o p first i k = .ok i') :
    stepChunk w (nb o) p first (wm mp i) k = .ok (wm mp i') := by
  unfold stepChunk at h
  obtain ⟨⟨c, g⟩, h1, h⟩ := ok_bind h
  obtain ⟨⟨pt, el⟩, h2, h⟩ := ok_bind h
  obtain ⟨cidx, h3, h⟩ := ok_bind h
  obtain ⟨⟨subs, rot⟩, h4, h⟩ := ok_bind h
  unfold stepChunk
  have e1 : (wm mp i).1.chunks = i.1.chunks := rfl
  have e2 : (wm mp i).1.el = i.1.el := rfl
  have e3 : (wm mp i).1.rot = i.1.rot := rfl
  rw [e1, h1]
  simp only [bind, Except.bind]
  rw [e2, h2]
  dsimp only
  rw [h3]
  dsimp only
  rw [e3, h4]
  exact foldlM_nb mp _ _ (fun x s x' hx => stepSub_nb mp hx) subs _ _ h

theorem initPair_wm {w : World E} {o : Opts} {p : Pair} {i j : Inst E} (mp : Maps)
    (h : initPair w o p i = .ok j) :
    initPair w { o with binning := false } p { i with maps := mp } = .ok { j with maps := mp } := by
  obtain ⟨a, b⟩ := p
  rcases a with _ | a
  · rcases b with _ | b
    · cases h
      rfl
    · unfold initPair at h ⊢
      dsimp only at h ⊢
      split at h
      · rw [if_pos ‹_›]
        cases h
        rfl
      · rw [if_neg ‹_›]
        split at h
        · rw [if_pos ‹_›]
          cases h
          rfl
        · cases h
  · unfold initPair at h ⊢
    dsimp only at h ⊢
    split at h
    · rw [if_pos ‹_›]
      cases h
      rfl
    · rw [if_neg ‹_›]
      split at h
      · rw [if_pos ‹_›]
        cases h
        rfl
      · rw [if_neg ‹_›]
        obtain ⟨sm, h1, h⟩ := ok_bind h
        cases h
        rw [h1]
        rfl

theorem resetAll_wm {w : World E} {i j : Inst E} (mp : Maps) (h : resetAll w i = .ok j) :
    resetAll w { i with maps := mp } = .ok { j with maps := mp } := by
  obtain ⟨el, h1, h⟩ := ok_bind h
  cases h
  unfold resetAll
  dsimp only
  rw [h1]
  rfl

theorem scanPass_nb {w : World E} {o : SOpts} {p : SPair} {first : Bool}
    {i i' : Inst E × Store} (mp : Maps) (h : scanPass w o first p i = .ok i') :
    scanPass w (nb o) first p (wm mp i) = .ok (wm mp i') := by
  have key : ∀ j : Inst E, (initPair w o.toOpts (plain p) j).bind (fun j =>
        if j.chunks.all fun c => c.1.cidx.isSome then
          (List.range j.chunks.length).foldlM (stepChunk w o p first) (j, i.2)
        else .error .keyError) = .ok i' →
      (initPair w (nb o).toOpts (plain p) { j with maps := mp }).bind (fun j =>
        if j.chunks.all fun c => c.1.cidx.isSome then
          (List.range j.chunks.length).foldlM (stepChunk w (nb o) p first) (j, i.2)
        else .error .keyError) = .ok (wm mp i') := by
    intro j h
    obtain ⟨k, h1, h⟩ := ok_bind h
    have h2 := initPair_wm mp h1
    have e : initPair w (nb o).toOpts (plain p) { j with maps := mp } = .ok { k with maps := mp } := h2
    rw [e]
    show (if _ then _ else _) = _
    split at h
    · rw [if_pos ‹_›]
      exact foldlM_nb mp _ _ (fun x s x' hx => stepChunk_nb mp hx) _ (k, i.2) _ h
    · cases h
  unfold scanPass at h ⊢
  cases first with
  | true => exact key i.1 h
  | false =>
    obtain ⟨j, h1, h⟩ := ok_bind h
    have := key j h
    show (resetAll w { i.1 with maps := mp }).bind _ = _
    rw [resetAll_wm mp h1]
    exact this

theorem scanLoop_nb {w : World E} {o : SOpts} (mp : Maps) (ps : List (Option SPair)) :
    ∀ {first : Bool} {i i' : Inst E × Store}, scanLoop w o first ps i = .ok i' →
      scanLoop w (nb o) first ps (wm mp i) = .ok (wm mp i') := by
  induction ps with
  | nil =>
    intro first i i' h
    cases h
    rfl
  | cons p ps ih =>
    intro first i i' h
    obtain ⟨j, h1, h⟩ := ok_bind h
    show (scanPass w (nb o) first (p.getD (none, none)) (wm mp i)).bind _ = _
    rw [scanPass_nb mp h1]
    exact ih h

theorem scanInstrument_nb {w : World E} {o : SOpts} {beams : List SPair} {scatter : Bool}
    {size rank : Nat} {i i' : Inst E × Store} (mp : Maps)
    (h : scanInstrument w o beams scatter size rank i = .ok i') :
    scanInstrument w (nb o) beams scatter size rank (wm mp i) = .ok (wm mp i') := by
  unfold scanInstrument at h ⊢
  split at h
  · cases h
  split at h
  · cases h
  rw [if_neg ‹_›, if_neg ‹_›]
  obtain ⟨ps, h1, h⟩ := ok_bind h
  rw [h1]
  exact scanLoop_nb mp ps h

end Verif.ScanStored
