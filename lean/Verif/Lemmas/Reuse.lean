import Verif.Lemmas.ScanInstrument
import Verif.Spec.Reuse

/-!
# Lemmas: scans that reuse spin maps
-/

noncomputable section

namespace Verif.ScanInstrument

open Verif.Chunks Verif.Timeline Verif.Spinmaps Verif.MapMaking

variable {E : Type}

theorem scan_maps {x : Ext} {mission : List Chunk} {st : State} {b : Timeline.Beam} {s : Sub}
    {ground interp add : Bool} {r : Ret × State} (h : scan x mission st b s ground interp add = .ok r) :
    r.2.maps = st.maps := by
  unfold scan at h
  split at h
  · cases h
  · obtain ⟨d, _, h⟩ := bind_ok h
    obtain ⟨ns, _, h⟩ := bind_ok h
    obtain ⟨⟨i, j⟩, _, h⟩ := bind_ok h
    have key : ∀ (q : Quat.Q) (n : Nat) (bore : List Quat.Q),
        (match pointing x interp q n (pySlice st.ctime i j) (pySlice bore i j) with
        | (look, pa, pix) => (todOf (s.stop - s.start).toNat look pa d b.polang
            (st.hwpAng.getD (.fixed 0)) >>= fun tod => addTod add st.tod tod >>= fun tod =>
            pure ((⟨tod, pix, pa.map degrees, match st.hwpAng.getD (.fixed 0) with
              | .fixed a => .fixed (degrees a)
              | .array a => .array (a.map degrees)⟩ : Ret), { st with tod := some tod }))) = .ok r →
        r.2.maps = st.maps := by
      intro q n bore h
      obtain ⟨t, _, h⟩ := bind_ok h
      obtain ⟨t, _, h⟩ := bind_ok h
      rw [← Except.ok.inj h]
    cases ground
    · cases ns
      · cases interp <;> cases h
      · exact key _ _ _ h
    · cases hg : st.qGround with
      | none => rw [hg] at h; cases h
      | some g =>
        rw [hg] at h
        cases ns
        · cases interp <;> cases h
        · rw [hg] at key
          exact key _ _ _ h

theorem ghostScans_maps {x : Ext} {mission : List Chunk} {s : Sub} {g interp : Bool}
    (gs : List Timeline.Beam) : ∀ (n : Nat) (st : State) r,
    ghostScans x mission s g interp gs n st = .ok r → r.2.maps = st.maps := by
  induction gs with
  | nil =>
    intro n st r h
    simp only [ghostScans, Except.ok.injEq] at h
    rw [← h]
  | cons b gs ih =>
    intro n st r h
    unfold ghostScans at h
    split at h
    · exact ih n st r h
    · obtain ⟨y, h1, h2⟩ := bind_ok h
      exact (ih _ _ _ h2).trans (scan_maps h1)

theorem detector_maps {x : Ext} {mission : List Chunk} {st : State} {b : Timeline.Beam}
    {gs : List Timeline.Beam} {s : Sub} {g interp sp : Bool} {r : Ret × State}
    (h : scanDetector x mission b gs s g interp sp st = .ok r) : r.2.maps = st.maps := by
  unfold scanDetector at h
  split at h
  · cases h
  · obtain ⟨⟨n, st'⟩, h1, h⟩ := bind_ok h
    have h1' := ghostScans_maps _ _ _ _ h1
    cases g
    · exact (scan_maps h).trans h1'
    · obtain ⟨y, h2, h⟩ := bind_ok h
      cases sp
      · exact ((scan_maps h).trans (scan_maps h2)).trans h1'
      · cases h

theorem skip_maps {s : Sub} {b : Timeline.Beam} {add : Bool} {st st' : State}
    (h : scanSkip s b add st = .ok st') : st'.maps = st.maps := by
  unfold scanSkip at h
  split at h
  · cases h
  · obtain ⟨t, _, h⟩ := bind_ok h
    rw [← Except.ok.inj h]

theorem ghostSkips_maps {s : Sub} (gs : List Timeline.Beam) : ∀ (n : Nat) (st : State) r,
    ghostSkips s gs n st = .ok r → r.2.maps = st.maps := by
  induction gs with
  | nil =>
    intro n st r h
    simp only [ghostSkips, Except.ok.injEq] at h
    rw [← h]
  | cons b gs ih =>
    intro n st r h
    unfold ghostSkips at h
    split at h
    · exact ih n st r h
    · obtain ⟨y, h1, h2⟩ := bind_ok h
      exact (ih _ _ _ h2).trans (skip_maps h1)

theorem scanOne_maps {x : Ext} {mission : List Chunk} {o : Opts} {b : BinBeam} {s : Sub} {g : Bool}
    {st st' : State} (h : scanOne x mission o b s g st = .ok st') : st'.maps = st.maps := by
  unfold scanOne at h
  split at h
  · split at h
    · split at h
      · cases h
      · obtain ⟨⟨n, s1⟩, h1, h⟩ := bind_ok h
        obtain ⟨⟨n, s2⟩, h2, h⟩ := bind_ok h
        exact ((skip_maps h).trans (scan_maps h2)).trans (ghostSkips_maps _ _ _ _ h1)
    · unfold previewDetector at h
      split at h
      · cases h
      · obtain ⟨⟨n, s1⟩, h1, h⟩ := bind_ok h
        exact (skip_maps h).trans (ghostSkips_maps _ _ _ _ h1)
  · obtain ⟨r, h1, h⟩ := bind_ok h
    rw [← Except.ok.inj h]
    exact detector_maps h1

theorem scanBinOne_maps {w : World E} {mission : List Chunk} {o : Opts} {flag : Option (List Bool)}
    {s : Sub} {g : Bool} {b : BinBeam} {st : State} {maps : Maps} {r : State × Maps}
    (h : scanBinOne w mission o flag s g b st maps = .ok r) : r.1.maps = st.maps := by
  unfold scanBinOne at h
  obtain ⟨s1, h1, h⟩ := bind_ok h
  obtain ⟨t, _, h⟩ := bind_ok h
  obtain ⟨m, _, h⟩ := bind_ok h
  rw [← Except.ok.inj h]
  exact scanOne_maps h1

theorem scanPair_maps {w : World E} {mission : List Chunk} {o : Opts} {flag : Option (List Bool)}
    {p : Pair} {s : Sub} {g : Bool} {st : State} {maps : Maps} {r : State × Maps}
    (h : scanPair w mission o flag p s g st maps = .ok r) : r.1.maps = st.maps := by
  unfold scanPair at h
  split at h
  · split at h
    · unfold scanMix at h
      obtain ⟨s1, h1, h⟩ := bind_ok h
      obtain ⟨t, _, h⟩ := bind_ok h
      obtain ⟨s2, h2, h⟩ := bind_ok h
      obtain ⟨t, _, h⟩ := bind_ok h
      obtain ⟨t, _, h⟩ := bind_ok h
      obtain ⟨m, _, h⟩ := bind_ok h
      obtain ⟨m, _, h⟩ := bind_ok h
      rw [← Except.ok.inj h]
      exact (scanOne_maps h2).trans (scanOne_maps h1)
    · obtain ⟨⟨s1, m⟩, h1, h⟩ := bind_ok h
      exact (scanBinOne_maps h).trans (scanBinOne_maps h1)
  · exact scanBinOne_maps h
  · exact scanBinOne_maps h
  · rw [← Except.ok.inj h]

/-- Spin maps stay as they are. -/
def SameMaps (i i' : Inst E) : Prop := i'.hasMaps = i.hasMaps ∧ i'.st.maps = i.st.maps

theorem stepSub_spin {w : World E} {o : Opts} {p : Pair} {g : Bool} {s : Chunk} {i i' : Inst E}
    (h : stepSub w o p g s i = .ok i') : SameMaps i i' := by
  unfold stepSub at h
  obtain ⟨r, h1, h⟩ := bind_ok h
  obtain ⟨⟨a, hw⟩, _, h⟩ := bind_ok h
  obtain ⟨c, _, h⟩ := bind_ok h
  obtain ⟨⟨st, m⟩, h2, h⟩ := bind_ok h
  rw [← Except.ok.inj h]
  exact ⟨rfl, scanPair_maps h2⟩

theorem stepChunk_spin {w : World E} {o : Opts} {p : Pair} {first : Bool} {k : Nat} {i i' : Inst E}
    (h : stepChunk w o p first i k = .ok i') : SameMaps i i' := by
  unfold stepChunk at h
  obtain ⟨⟨c, g⟩, _, h⟩ := bind_ok h
  obtain ⟨⟨pt, el⟩, _, h⟩ := bind_ok h
  obtain ⟨⟨subs, rot⟩, _, h⟩ := bind_ok h
  refine foldlM_inv (SameMaps i) _ subs (fun s _ b b' hb hs => ?_) _ _ ?_ h
  · have := stepSub_spin hs
    exact ⟨this.1.trans hb.1, this.2.trans hb.2⟩
  · exact ⟨rfl, rfl⟩

/-- The loop over chunks, after spin maps have been made. -/
def chunksOf (w : World E) (o : Opts) (first : Bool) (p : Pair) (i : Inst E) : PyM (Inst E) :=
  if i.chunks.all fun c => c.1.cidx.isSome then
    (List.range i.chunks.length).foldlM (stepChunk w o p first) i
  else .error .keyError

theorem chunksOf_spin {w : World E} {o : Opts} {p : Pair} {first : Bool} {i i' : Inst E}
    (h : chunksOf w o first p i = .ok i') : SameMaps i i' := by
  unfold chunksOf at h
  split at h
  · refine foldlM_inv (SameMaps i) _ _ (fun s _ b b' hb hs => ?_) _ _ ⟨rfl, rfl⟩ h
    have := stepChunk_spin hs
    exact ⟨this.1.trans hb.1, this.2.trans hb.2⟩
  · cases h

/-- The resets before a pass. -/
def before (w : World E) (first : Bool) (i : Inst E) : PyM (Inst E) :=
  if first then .ok i else resetAll w i

theorem before_spin {w : World E} {first : Bool} {i i' : Inst E} (h : before w first i = .ok i') :
    SameMaps i i' := by
  unfold before at h
  split at h
  · rw [← Except.ok.inj h]
    exact ⟨rfl, rfl⟩
  · unfold resetAll at h
    obtain ⟨e, _, h⟩ := bind_ok h
    rw [← Except.ok.inj h]
    exact ⟨rfl, rfl⟩

theorem scanPass_eq (w : World E) (o : Opts) (first : Bool) (p : Pair) (i : Inst E) :
    scanPass w o first p i = before w first i >>= fun i => initPair w o p i >>= chunksOf w o first p := by
  unfold scanPass before
  cases first <;> rfl

/-- The options with and without reuse. -/
abbrev Opts.reuse (o : Opts) (b : Bool) : Opts := { o with reuseSpinmaps := b }

/-- Making the maps again gives the maps that are used. -/
def Matches (w : World E) (sm : PyM (Spinmaps SpinDict)) (i : Inst E) (ps : List (Option Pair)) : Prop :=
  (i.hasMaps = true ∧ sm = .ok i.st.maps) ∨
    i.hasMaps = false ∧ ∀ a, firstDet ps = some a → w.spinmaps a = sm

theorem Matches.same {w : World E} {sm : PyM (Spinmaps SpinDict)} {i i' : Inst E}
    {ps : List (Option Pair)} (h : Matches w sm i ps) (hs : SameMaps i i') : Matches w sm i' ps := by
  unfold Matches
  rw [hs.1, hs.2]
  exact h

theorem init_reuse (w : World E) (o : Opts) (hpre : o.preview = false) (sm : PyM (Spinmaps SpinDict))
    (p : Option Pair) (ps : List (Option Pair)) (i : Inst E)
    (hp : ∀ q, p = some q → q.2.isSome → q.1.isSome) (h : Matches w sm i (p :: ps)) :
    initPair w (o.reuse true) (p.getD (none, none)) i
        = initPair (w.always sm) (o.reuse false) (p.getD (none, none)) i ∧
      ∀ i', initPair w (o.reuse true) (p.getD (none, none)) i = .ok i' → Matches w sm i' ps := by
  have hnone : Matches w sm i ps ∨ ∃ a b, p = some (some a, b) := by
    cases p with
    | none => exact .inl h
    | some q =>
      obtain ⟨a, b⟩ := q
      cases a with
      | none => exact .inl h
      | some a => exact .inr ⟨a, b, rfl⟩
  cases p with
  | none =>
    refine ⟨rfl, fun i' hi' => ?_⟩
    obtain rfl := Except.ok.inj hi'
    exact h
  | some q =>
    obtain ⟨a, b⟩ := q
    cases a with
    | none =>
      cases b with
      | some b => exact absurd (hp _ rfl rfl) (by simp)
      | none =>
        refine ⟨rfl, fun i' hi' => ?_⟩
        obtain rfl := Except.ok.inj hi'
        exact h
    | some a =>
      have hl : initPair w (o.reuse true) (some a, b) i = if i.hasMaps then .ok i else
          w.spinmaps a >>= fun s => .ok { i with st := { i.st with maps := s }, hasMaps := true } := by
        unfold initPair
        simp only [hpre, Bool.and_true, Bool.false_eq_true, if_false]
        rfl
      have hr : initPair (w.always sm) (o.reuse false) (some a, b) i =
          sm >>= fun s => .ok { i with st := { i.st with maps := s }, hasMaps := true } := by
        unfold initPair
        simp only [hpre, Bool.and_false, Bool.false_eq_true, if_false]
        rfl
      show initPair w (o.reuse true) (some a, b) i = initPair (w.always sm) (o.reuse false) (some a, b) i ∧
        ∀ i', initPair w (o.reuse true) (some a, b) i = .ok i' → _
      rw [hl, hr]
      rcases h with ⟨h1, h2⟩ | ⟨h1, h2⟩
      · rw [if_pos h1, h2]
        refine ⟨?_, fun i' hi' => ?_⟩
        · show Except.ok i = .ok _
          rw [← h1]
        · obtain rfl := Except.ok.inj hi'
          exact .inl ⟨h1, rfl⟩
      · rw [if_neg (by rw [h1]; decide), h2 a rfl]
        refine ⟨rfl, fun i' hi' => ?_⟩
        obtain ⟨s, h3, h4⟩ := bind_ok hi'
        obtain rfl := Except.ok.inj h4
        exact .inl ⟨rfl, h3⟩

theorem init_preview (w : World E) (o : Opts) (hpre : o.preview = true) (b : Bool) (p : Pair) (i : Inst E) :
    initPair w (o.reuse b) p i = .ok i := by
  unfold initPair
  obtain ⟨a, c⟩ := p
  cases a <;> cases c <;> simp [hpre]

theorem loop_reuse (w : World E) (o : Opts) (sm : PyM (Spinmaps SpinDict)) (ps : List (Option Pair)) :
    ∀ (first : Bool) (i : Inst E), (∀ q, some q ∈ ps → q.2.isSome → q.1.isSome) →
      (o.preview = true ∨ Matches w sm i ps) →
      scanLoop w (o.reuse true) first ps i = scanLoop (w.always sm) (o.reuse false) first ps i := by
  induction ps with
  | nil => intros; rfl
  | cons p ps ih =>
    intro first i hp h
    have hpass : scanPass w (o.reuse true) first (p.getD (none, none)) i
        = scanPass (w.always sm) (o.reuse false) first (p.getD (none, none)) i ∧
        ∀ i', scanPass w (o.reuse true) first (p.getD (none, none)) i = .ok i' →
          (o.preview = true ∨ Matches w sm i' ps) := by
      rw [scanPass_eq, scanPass_eq]
      have hb : before (w.always sm) first i = before w first i := rfl
      rw [hb]
      cases hbi : before w first i with
      | error x => exact ⟨rfl, fun i' hi' => by cases hi'⟩
      | ok i1 =>
        have hs := before_spin hbi
        show (initPair w (o.reuse true) (p.getD (none, none)) i1 >>=
            chunksOf w (o.reuse true) first (p.getD (none, none)))
          = (initPair (w.always sm) (o.reuse false) (p.getD (none, none)) i1 >>=
            chunksOf (w.always sm) (o.reuse false) first (p.getD (none, none))) ∧ ∀ i',
          (initPair w (o.reuse true) (p.getD (none, none)) i1 >>=
            chunksOf w (o.reuse true) first (p.getD (none, none))) = .ok i' → _
        have hc : chunksOf (w.always sm) (o.reuse false) first (p.getD (none, none))
            = chunksOf w (o.reuse true) first (p.getD (none, none)) := rfl
        rw [hc]
        rcases h with h | h
        · rw [init_preview _ _ h, init_preview _ _ h]
          exact ⟨rfl, fun _ _ => .inl h⟩
        · by_cases hpre : o.preview = true
          · rw [init_preview _ _ hpre, init_preview _ _ hpre]
            exact ⟨rfl, fun _ _ => .inl hpre⟩
          · obtain ⟨h1, h2⟩ := init_reuse w o (by simpa using hpre) sm p ps i1
              (fun q hq => hp q (by rw [hq]; exact List.mem_cons_self)) (h.same hs)
            rw [h1] at h2 ⊢
            refine ⟨rfl, fun i' hi' => .inr ?_⟩
            obtain ⟨i2, h3, h4⟩ := bind_ok hi'
            exact (h2 i2 h3).same (chunksOf_spin h4)
    unfold scanLoop
    rw [hpass.1]
    cases hi : scanPass (w.always sm) (o.reuse false) first (p.getD (none, none)) i with
    | error x => rfl
    | ok i' =>
      exact ih false i' (fun q hq => hp q (List.mem_cons_of_mem _ hq)) (hpass.2 i' (hpass.1.trans hi))

theorem go_mem {α : Type} (ks : List Nat) : ∀ (l : List α), ∀ s ∈ Mpi.arraySplit.go l ks, ∀ a ∈ s, a ∈ l := by
  induction ks with
  | nil =>
    intro l s hs
    simp [Mpi.arraySplit.go] at hs
  | cons k ks ih =>
    intro l s hs a ha
    rw [Mpi.arraySplit.go] at hs
    rcases List.mem_cons.1 hs with rfl | hs
    · exact List.mem_of_mem_take ha
    · exact List.mem_of_mem_drop (ih _ s hs a ha)

theorem passes_mem {α : Type} {beams : List α} {scatter : Bool} {size rank : Nat} {ps : List (Option α)}
    (h : Mpi.scanPasses beams scatter size rank = .ok ps) :
    (∀ q, some q ∈ ps → q ∈ beams) ∧ ps.length = Mpi.nmax beams.length size := by
  unfold Mpi.scanPasses at h
  obtain ⟨loc, h1, h⟩ := bind_ok h
  obtain rfl := Except.ok.inj h
  have hloc : ∀ a ∈ loc, a ∈ beams := by
    unfold Mpi.localBeams at h1
    split at h1
    · unfold Mpi.scatterList at h1
      split at h1
      · rename_i s hs
        obtain rfl := Except.ok.inj h1
        exact go_mem _ _ _ (List.mem_of_getElem? hs)
      · cases h1
    · obtain rfl := Except.ok.inj h1
      exact fun _ ha => ha
  refine ⟨fun q hq => ?_, by simp [Mpi.passes]⟩
  obtain ⟨k, _, hk⟩ := List.mem_map.1 hq
  exact hloc q (List.mem_of_getElem? hk)

theorem nmax_one {n size : Nat} (hs : 0 < size) (h : n ≤ size) : Mpi.nmax n size ≤ 1 := by
  have h1 := ceilDiv_mul_lt (n : Int) size (by omega)
  unfold Mpi.nmax
  by_contra hc
  have h2 : (1 : Int) ≤ ceilDiv (n : Int) size - 1 := by omega
  have := Int.mul_le_mul_of_nonneg_right h2 (show (0 : Int) ≤ size by omega)
  omega

/-- The pairs of a rank have the maps `sm`. -/
theorem loop_always (w : World E) (o : Opts) (sm : PyM (Spinmaps SpinDict)) (ps : List (Option Pair)) :
    ∀ (first : Bool) (i : Inst E), (∀ q a, some q ∈ ps → q.1 = some a → w.spinmaps a = sm) →
      scanLoop (w.always sm) o first ps i = scanLoop w o first ps i := by
  induction ps with
  | nil => intros; rfl
  | cons p ps ih =>
    intro first i h
    have hinit : ∀ i, initPair (w.always sm) o (p.getD (none, none)) i
        = initPair w o (p.getD (none, none)) i := by
      intro i
      cases p with
      | none => rfl
      | some q =>
        obtain ⟨a, b⟩ := q
        cases a with
        | none => cases b <;> rfl
        | some a =>
          have hsm := h _ a List.mem_cons_self rfl
          show initPair _ _ (some a, b) _ = initPair _ _ (some a, b) _
          unfold initPair World.always
          simp only [hsm]
    have hpass : scanPass (w.always sm) o first (p.getD (none, none)) i
        = scanPass w o first (p.getD (none, none)) i := by
      rw [scanPass_eq, scanPass_eq]
      have hb : before (w.always sm) first i = before w first i := rfl
      have hc : chunksOf (w.always sm) o first (p.getD (none, none))
            = chunksOf w o first (p.getD (none, none)) := rfl
      rw [hb, hc]
      simp only [hinit]
    unfold scanLoop
    rw [hpass]
    cases scanPass w o first (p.getD (none, none)) i with
    | error x => rfl
    | ok i' => exact ih false i' fun q a hq => h q a (List.mem_cons_of_mem _ hq)

theorem points_always {w : World E} {sm : PyM (Spinmaps SpinDict)} {M : Motion} {pre : Bool} {e' : E}
    (cs : List Chunk) : ∀ {e : E}, Points w M pre e cs e' → Points (w.always sm) M pre e cs e' := by
  induction cs with
  | nil => exact fun h => h
  | cons c cs ih => exact fun ⟨p, e1, h1, h2, h3⟩ => ⟨p, e1, h1, h2, ih h3⟩

theorem steady_always {w : World E} {sm : PyM (Spinmaps SpinDict)} {M : Motion} {chunks : List Chunk}
    {e : E} (h : Steady w M chunks e) : Steady (w.always sm) M chunks e := by
  obtain ⟨P, h1, h2⟩ := h
  refine ⟨P, h1, fun first e he => ?_⟩
  obtain ⟨e', h3, h4⟩ := h2 first e he
  exact ⟨e', points_always _ h3, h4⟩

theorem repeats_always {w : World E} {sm : PyM (Spinmaps SpinDict)} {M : Motion} {chunks : List Chunk}
    {e : E} (h : Repeats w M chunks e) : Repeats (w.always sm) M chunks e := by
  obtain ⟨P, h1, h2⟩ := h
  refine ⟨P, h1, fun first e he => ?_⟩
  obtain ⟨e', h3, h4⟩ := h2 first e he
  exact ⟨e', points_always _ h3, h4⟩

theorem passes_two {α : Type} (a b : α) : Mpi.scanPasses [a, b] true 1 0 = .ok [some a, some b] := by
  simp [Mpi.scanPasses, Mpi.localBeams, Mpi.scatterList, Mpi.arraySplit, Mpi.arraySplit.go, Mpi.passes,
    Mpi.nmax, ceilDiv, bind, Except.bind, pure, Except.pure]
  rfl

/-- Maps that are there stay. -/
theorem loop_kept (w : World E) (o : Opts) (ps : List (Option Pair)) :
    ∀ (first : Bool) (i i' : Inst E), i.hasMaps = true →
      scanLoop w (o.reuse true) first ps i = .ok i' → SameMaps i i' := by
  induction ps with
  | nil =>
    intro first i i' _ h
    rw [← Except.ok.inj h]
    exact ⟨rfl, rfl⟩
  | cons p ps ih =>
    intro first i i' hm h
    unfold scanLoop at h
    obtain ⟨i1, h0, hl⟩ := bind_ok h
    rw [scanPass_eq] at h0
    obtain ⟨i2, h2, h0'⟩ := bind_ok h0
    obtain ⟨i3, h3, h1⟩ := bind_ok h0'
    have e2 := before_spin h2
    have e3 : i3 = i2 := by
      unfold initPair at h3
      rw [e2.1, hm] at h3
      simp only [Bool.and_true, if_true] at h3
      repeat' split at h3
      all_goals exact (Except.ok.inj h3).symm
    subst e3
    have e1 := chunksOf_spin h1
    have e : SameMaps i i1 := ⟨e1.1.trans e2.1, e1.2.trans e2.2⟩
    have := ih false i1 i' (e.1.trans hm) hl
    exact ⟨this.1.trans e.1, this.2.trans e.2⟩

/-- The maps of the first detector stay. -/
theorem loop_first (w : World E) (o : Opts) (hpre : o.preview = false) (ps : List (Option Pair)) :
    ∀ (first : Bool) (i i' : Inst E) (a : BinBeam), (∀ q, some q ∈ ps → q.2.isSome → q.1.isSome) →
      i.hasMaps = false → firstDet ps = some a →
      scanLoop w (o.reuse true) first ps i = .ok i' →
      i'.hasMaps = true ∧ w.spinmaps a = .ok i'.st.maps := by
  induction ps with
  | nil =>
    intro first i i' a _ _ hf
    cases hf
  | cons p ps ih =>
    intro first i i' a hp hm hf h
    unfold scanLoop at h
    obtain ⟨i1, h0, hl⟩ := bind_ok h
    rw [scanPass_eq] at h0
    obtain ⟨i2, h2, h0'⟩ := bind_ok h0
    obtain ⟨i3, h3, h1⟩ := bind_ok h0'
    have e2 := before_spin h2
    have e1 := chunksOf_spin h1
    by_cases hA : ∃ a b, p = some (some a, b)
    · obtain ⟨a', b, rfl⟩ := hA
      obtain rfl : a' = a := Option.some.inj hf
      have h5 : initPair w (o.reuse true) (some a', b) i2 = .ok i3 := h3
      unfold initPair at h5
      simp only [hpre, e2.1, hm, Bool.false_and, Bool.false_eq_true, if_false] at h5
      obtain ⟨s, h4, h6⟩ := bind_ok h5
      obtain rfl := Except.ok.inj h6
      have e3 := loop_kept w o ps false i1 i' (e1.1.trans rfl) hl
      exact ⟨e3.1.trans e1.1, by rw [h4, e3.2, e1.2]⟩
    · have hN : firstDet ps = some a ∧ i3 = i2 := by
        cases p with
        | none => exact ⟨hf, (Except.ok.inj h3).symm⟩
        | some q =>
          obtain ⟨a', b⟩ := q
          cases a' with
          | some a' => exact absurd ⟨a', b, rfl⟩ hA
          | none =>
            cases b with
            | some b => exact absurd (hp _ List.mem_cons_self rfl) (by simp)
            | none => exact ⟨hf, (Except.ok.inj h3).symm⟩
      obtain ⟨hf', rfl⟩ := hN
      exact ih false i1 i' a (fun q hq => hp q (List.mem_cons_of_mem _ hq)) ((e1.1.trans e2.1).trans hm)
        hf' hl

end Verif.ScanInstrument
