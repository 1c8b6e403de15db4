import Verif.Props.Timeline

/-!
# Properties of single scans

C102 (the pointing that a scan returns), C103 (inconsistent spin maps are refused).
-/

noncomputable section

namespace Verif.Timeline

open Verif.Spinmaps

/-! ### specification -/

/-- Pixel and position angle [deg] of a beam with offset `q` at time `t` when the boresight is `bore`;
with interpolation, the pixel that contains the direction. The code's position angle is 180 degrees
minus that of qpoint. -/
def looksAt (x : Ext) (interp : Bool) (q : Quat.Q) (nside : Nat) (t : ℝ) (bore : Quat.Q) :
    Int × ℝ :=
  if interp then
    let r := x.bore2radec q t bore
    let c := Angles.radec2colatlong1 r.1 r.2.1
    (x.ang2pix nside c.2 c.1, 180 - r.2.2)
  else
    let r := x.bore2pix q t bore nside
    (r.1, 180 - r.2)

/-- The spin maps are consistent: in every entry there are as many maps as spins, and the (first)
maps of all entries have the same `nside`. -/
def Consistent (d : SpinDict) : Prop :=
  ∃ nside : Nat, ∀ x ∈ d, x.2.maps.length = x.2.sVals.length ∧
    ∀ m, x.2.maps[0]? = some m → m.length = 12 * nside ^ 2

/-- A scan of beam `b` uses the maps `d`: those of the ground template, of the ghost with the index of
`b` (a negative one counts from the end), or of the main beam. -/
def Uses (m : Spinmaps SpinDict) (b : Beam) (ground : Bool) (d : SpinDict) : Prop :=
  if ground then m.ground = some d
  else if b.ghost then
    ∃ k : Nat, m.ghosts[k]? = some (some d) ∧ (b.ghostIdx = k ∨ b.ghostIdx = k - m.ghosts.length)
  else m.main = d

/-! ### what a successful scan implies -/

private theorem ok_bind {α β : Type} {x : PyM α} {f : α → PyM β} {b : β} (h : x >>= f = .ok b) :
    ∃ a, x = .ok a ∧ f a = .ok b := by
  cases x with
  | error e => cases h
  | ok a => exact ⟨a, rfl, h⟩

/-- The HWP angle in degrees, 0 if there is no HWP. -/
def hwpDeg : Option HwpAng → HwpAng
  | none => .fixed 0
  | some (.fixed a) => .fixed (a * 180 / Real.pi)
  | some (.array a) => .array (a.map fun y => y * 180 / Real.pi)

theorem scan_inv {x : Ext} {mission : List Chunks.Chunk} {st : State} {b : Beam} {s : Sub}
    {ground interp add : Bool} {r : Ret × State}
    (h : scan x mission st b s ground interp add = .ok r) :
    ∃ d ns i j bore, mapsFor st.maps b ground = .ok d ∧ checkMaps d none = .ok (some ns) ∧
      Chunks.chunk2idx mission s.start s.stop s.cidx = .ok (i, j) ∧
      (if ground then st.qGround = some bore else st.qBore = bore) ∧
      r.1.pix = (pointing x interp (qOff x st.rotAngle b) ns (pySlice st.ctime i j)
        (pySlice bore i j)).2.2 ∧
      r.1.pa = (pointing x interp (qOff x st.rotAngle b) ns (pySlice st.ctime i j)
        (pySlice bore i j)).2.1.map degrees ∧
      r.1.hwp = hwpDeg st.hwpAng ∧ r.2 = { st with tod := some r.1.tod } := by
  unfold scan at h
  split_ifs at h
  all_goals
    obtain ⟨d, hd, h⟩ := ok_bind h
    obtain ⟨ns, hns, h⟩ := ok_bind h
    obtain ⟨⟨i, j⟩, hij, h⟩ := ok_bind h
    obtain ⟨bore, hbore, h⟩ := ok_bind h
    rcases ns with _ | n
    · obtain ⟨_, h', _⟩ := ok_bind h
      cases h'
    · dsimp only at h
      obtain ⟨nside, hn, h⟩ := ok_bind h
      cases hn
      obtain ⟨t, _, h⟩ := ok_bind h
      obtain ⟨t', _, h⟩ := ok_bind h
      simp only [pure, Except.pure, Except.ok.injEq] at h
      subst h
      refine ⟨d, n, i, j, bore, hd, hns, hij, ?_, rfl, rfl, ?_, rfl⟩
      · simp only [*, if_true, if_false, Bool.false_eq_true]
        first
        | cases hbore; rfl
        | rcases hq : st.qGround with _ | g
          · rw [hq] at hbore; cases hbore
          · rw [hq] at hbore; cases hbore; rfl
      · rcases st.hwpAng with _ | (a | a)
        · simp [hwpDeg, degrees]
        · rfl
        · rfl

theorem npix2nside_inv {n k : Nat} (h : npix2nside n = .ok k) : n = 12 * k ^ 2 := by
  unfold npix2nside at h
  split at h
  · rename_i h'
    cases h
    exact h'.symm
  · cases h

theorem npix2nside_err {n : Nat} {e : PyErr} (h : npix2nside n = .error e) : e = .valueError := by
  unfold npix2nside at h
  split at h
  · cases h
  · cases h; rfl

/-- `checkMaps` succeeds exactly on consistent maps. -/
theorem checkMaps_inv (d : SpinDict) (prev : Option Nat) {r : Option Nat}
    (h : checkMaps d prev = .ok r) :
    (∀ k, prev = some k → r = some k) ∧ (d ≠ [] → r ≠ none) ∧
    ∀ k, r = some k → ∀ x ∈ d, x.2.maps.length = x.2.sVals.length ∧
      ∀ m, x.2.maps[0]? = some m → m.length = 12 * k ^ 2 := by
  induction d generalizing prev with
  | nil => cases h; simp
  | cons x d ih =>
    obtain ⟨mode, e⟩ := x
    unfold checkMaps at h
    split at h
    · cases h
    rename_i hlen
    obtain ⟨m0, hm0, h⟩ := ok_bind h
    obtain ⟨ns, hns, h⟩ := ok_bind h
    split at h
    · cases h
    rename_i hp
    obtain ⟨h1, h2, h3⟩ := ih _ h
    have hr := h1 ns rfl
    have hm : e.maps[0]? = some m0 := by
      unfold pyGet at hm0
      simp only [show ¬ (0 : Int) < 0 by omega, if_false] at hm0
      split at hm0
      · cases hm0; assumption
      · cases hm0
    refine ⟨fun k hk => ?_, fun _ => by simp [hr], fun k hk y hy => ?_⟩
    · rw [hk] at hp
      rw [hr]
      simp only [Option.any_some, decide_not, Bool.not_eq_true', decide_eq_false_iff_not,
        not_not] at hp
      rw [hp]
    · rcases List.mem_cons.1 hy with rfl | hy
      · refine ⟨not_not.1 hlen, fun m hm' => ?_⟩
        rw [hm] at hm'
        cases hm'
        rw [hr] at hk
        cases hk
        exact npix2nside_inv hns
      · exact h3 k hk y hy

theorem checkMaps_err (d : SpinDict) (prev : Option Nat) (hne : ∀ x ∈ d, x.2.maps ≠ []) {e : PyErr}
    (h : checkMaps d prev = .error e) : e = .valueError := by
  induction d generalizing prev with
  | nil => cases h
  | cons x d ih =>
    obtain ⟨mode, en⟩ := x
    have hm := hne _ List.mem_cons_self
    unfold checkMaps at h
    split at h
    · cases h; rfl
    obtain ⟨m0, ms, hms⟩ := List.exists_cons_of_ne_nil hm
    dsimp only at hms
    rw [hms] at h
    have e0 : pyGet (m0 :: ms) (0 : Int) = .ok m0 := rfl
    rw [e0] at h
    simp only [bind, Except.bind] at h
    rcases hn : npix2nside m0.length with e' | k
    · rw [hn] at h
      cases h
      exact npix2nside_err hn
    · rw [hn] at h
      dsimp only at h
      split at h
      · cases h; rfl
      · exact ih _ (fun y hy => hne y (List.mem_cons_of_mem _ hy)) h

/-! ## C102 -/

private theorem pointing_returned (x : Ext) (interp : Bool) (q : Quat.Q) (nside i n : Nat)
    (ct : List ℝ) (bore : List Quat.Q) (ht : i + n ≤ ct.length) (hb : i + n ≤ bore.length) :
    (pointing x interp q nside (pySlice ct (i : Int) ((i + n : Nat) : Int))
      (pySlice bore (i : Int) ((i + n : Nat) : Int))).2.2 =
      (List.range n).map (fun k => (looksAt x interp q nside ((ct[i + k]?).getD 0)
        ((bore[i + k]?).getD 0)).1) ∧
    (pointing x interp q nside (pySlice ct (i : Int) ((i + n : Nat) : Int))
      (pySlice bore (i : Int) ((i + n : Nat) : Int))).2.1.map degrees =
      (List.range n).map (fun k => (looksAt x interp q nside ((ct[i + k]?).getD 0)
        ((bore[i + k]?).getD 0)).2) := by
  have hpi := Real.pi_ne_zero
  rw [slice_get _ 0 _ _ ht, slice_get _ 0 _ _ hb]
  have hd : ∀ p, degrees (convPa p) = 180 - p := by
    intro p
    rw [convPa_eq]
    unfold degrees
    field_simp
  unfold pointing looksAt
  cases interp with
  | false =>
    simp only [Bool.false_eq_true, if_false, List.zipWith_map, List.zipWith_self, List.map_map,
      Function.comp_def, hd]
    trivial
  | true =>
    simp only [if_true, List.zipWith_map, List.zipWith_self, List.map_map,
      Function.comp_def, hd]
    trivial

/-- **C102.** Whenever scanning a detector succeeds, whatever its ghosts and whatever the state held
before, the returned pixels and position angles are those of the main beam (turned with the
instrument), one for each sample of the subchunk, at the resolution of the main beam's spin maps; the
HWP angle is returned in degrees; and the returned timeline is the one kept by the object. -/
theorem C102_returned {x : Ext} {mission : List Chunks.Chunk} {b : Beam} {ghosts : List Beam}
    {s : Sub} {interp savePoint : Bool} {st st' : State} {ret : Ret} {i n : Nat}
    (h : scanDetector x mission b ghosts s false interp savePoint st = .ok (ret, st'))
    (hs : SubOk mission st st.qBore s i n) :
    ∃ nside, (∀ e ∈ st.maps.main, ∀ m, e.2.maps[0]? = some m → m.length = 12 * nside ^ 2) ∧
      ret.pix = (List.range n).map (fun k => (looksAt x interp (offset x st.rotAngle b) nside
        ((st.ctime[i + k]?).getD 0) ((st.qBore[i + k]?).getD 0)).1) ∧
      ret.pa = (List.range n).map (fun k => (looksAt x interp (offset x st.rotAngle b) nside
        ((st.ctime[i + k]?).getD 0) ((st.qBore[i + k]?).getD 0)).2) ∧
      ret.hwp = hwpDeg st.hwpAng ∧ st'.tod = some ret.tod := by
  unfold scanDetector at h
  split at h
  · cases h
  rename_i hbg
  obtain ⟨⟨k, st1⟩, h1, h⟩ := ok_bind h
  dsimp only at h
  rw [if_neg (by simp)] at h
  -- ghosts change the timeline only
  have hst : ∀ gs m st2 (p : Nat × State), ghostScans x mission s false interp gs m st2 = .ok p →
      ∃ t, p.2 = { st2 with tod := t } := by
    intro gs
    induction gs with
    | nil => intro m st2 p hp; cases hp; exact ⟨_, rfl⟩
    | cons g gs ih =>
      intro m st2 p hp
      unfold ghostScans at hp
      split at hp
      · exact ih _ _ _ hp
      · obtain ⟨⟨r, st3⟩, hr, hp⟩ := ok_bind hp
        obtain ⟨_, _, _, _, _, _, _, _, _, _, _, _, e⟩ := scan_inv hr
        dsimp only at e
        rw [e] at hp
        obtain ⟨t, ht⟩ := ih _ _ _ hp
        exact ⟨t, ht⟩
  obtain ⟨t, ht⟩ := hst _ _ _ _ h1
  dsimp only at ht
  subst ht
  obtain ⟨d, ns, i', j', bore, a1, a2, a3, a4, a5, a6, a7, a8⟩ := scan_inv h
  have hd : st.maps.main = d := by
    unfold mapsFor at a1
    rw [if_neg (by simp), if_neg hbg] at a1
    cases a1
    rfl
  subst hd
  have hbo : st.qBore = bore := by simpa using a4
  subst hbo
  obtain ⟨c, c1, c2, c3⟩ := hs.chunk
  unfold Chunks.chunk2idx at a3
  rw [c1] at a3
  simp only [bind, Except.bind, pure, Except.pure, Except.ok.injEq, Prod.mk.injEq] at a3
  have e1 : i' = (i : Int) := by omega
  have e2 : j' = ((i + n : Nat) : Int) := by push_cast; omega
  subst e1 e2
  obtain ⟨p1, p2⟩ := pointing_returned x interp (offset x st.rotAngle b) ns i n st.ctime st.qBore
    hs.times hs.bore
  refine ⟨ns, fun e he m hm => ((checkMaps_inv _ _ a2).2.2 ns rfl e he).2 m hm, a5.trans p1,
    a6.trans p2, a7, ?_⟩
  dsimp only at a8
  rw [a8]

/-- The hypotheses of `C102_returned` are met: a detector with a live and a dead ghost, the subchunk
[1, 3) of a chunk that begins at 0. -/
example : ∃ ret st', scanDetector Demo.ext Demo.mission Demo.main [Demo.ghost, Demo.dead] Demo.sub
    false true true Demo.st = .ok (ret, st') ∧ SubOk Demo.mission Demo.st Demo.st.qBore Demo.sub 1 2 ∧
    ret.pix = [3, 3] ∧ ret.pa = [180, 180] := by
  obtain ⟨ret, tod, h1, -⟩ := C46_detector_timeline Demo.ext Demo.ext_ok Demo.mission
    Demo.main [Demo.ghost, Demo.dead] Demo.sub true true Demo.st 1 1 2 one_pos Demo.sub_ok rfl rfl
    (Demo.dict_ok 1) (fun _ => Demo.dict 10) (by
      intro g hg hd
      simp only [List.mem_cons, List.not_mem_nil, or_false] at hg
      rcases hg with rfl | rfl
      · exact ⟨rfl, rfl, Demo.dict_ok 10⟩
      · cases hd)
  obtain ⟨ns, -, p1, p2, -⟩ := C102_returned h1 Demo.sub_ok
  refine ⟨ret, _, h1, Demo.sub_ok, ?_, ?_⟩
  · rw [p1]
    rfl
  · rw [p2]
    simp [looksAt, Demo.ext, List.range_succ]

/-! ## C103 -/

theorem uses_mapsFor {m : Spinmaps SpinDict} {b : Beam} {ground : Bool} {d : SpinDict}
    (h : Uses m b ground d) : mapsFor m b ground = .ok d := by
  unfold Uses at h
  unfold mapsFor
  split_ifs at h ⊢
  · rw [h]
    rfl
  · obtain ⟨k, hk, hi⟩ := h
    have hlt : k < m.ghosts.length := by
      by_contra hge
      rw [List.getElem?_eq_none (by omega)] at hk
      cases hk
    have : pyGet m.ghosts b.ghostIdx = .ok (some d) := by
      unfold pyGet
      have hn : (if b.ghostIdx < 0 then b.ghostIdx + m.ghosts.length else b.ghostIdx) = (k : Int) := by
        split_ifs <;> omega
      dsimp only
      rw [hn, if_neg (by omega), Int.toNat_natCast, hk]
    rw [this]
    rfl
  · rw [h]

theorem mapsFor_uses {m : Spinmaps SpinDict} {b : Beam} {ground : Bool} {d : SpinDict} (hd : d ≠ [])
    (h : mapsFor m b ground = .ok d) : Uses m b ground d := by
  unfold mapsFor at h
  unfold Uses
  split_ifs at h ⊢
  · rcases hg : m.ground with _ | g
    · rw [hg] at h
      cases h
      exact absurd rfl hd
    · rw [hg] at h
      cases h
      rfl
  · obtain ⟨g, hg, h⟩ := ok_bind h
    cases h
    rcases g with _ | g
    · exact absurd rfl hd
    · unfold pyGet at hg
      dsimp only at hg
      split_ifs at hg with h1 h2 h2
      all_goals
        split at hg
        on_goal 2 => cases hg
        rename_i hk
        cases hg
        exact ⟨_, hk, by omega⟩
  · cases h
    rfl

/-- **C103.** If a scan of a beam succeeds, the beam was alive, and the spin maps of the beam (of its
ghost, of the ground) were there and consistent. -/
theorem C103_consistent {x : Ext} {mission : List Chunks.Chunk} {st : State} {b : Beam} {s : Sub}
    {ground interp add : Bool} {r : Ret × State}
    (h : scan x mission st b s ground interp add = .ok r) :
    b.dead = false ∧ ∃ d, Uses st.maps b ground d ∧ Consistent d ∧ d ≠ [] := by
  obtain ⟨d, ns, _, _, _, a1, a2, _⟩ := scan_inv h
  have hne : d ≠ [] := by
    rintro rfl
    cases a2
  refine ⟨?_, d, mapsFor_uses hne a1, ⟨ns, (checkMaps_inv _ _ a2).2.2 ns rfl⟩, hne⟩
  cases hb : b.dead
  · rfl
  · rw [C39_dead_beam x mission b s ground interp add st hb] at h
    cases h

/-- **C103.** Inconsistent spin maps — a different number of maps and spins, maps of another resolution,
or a size that is no number of pixels — are refused with a ValueError before anything is scanned. -/
theorem C103_refused (x : Ext) (mission : List Chunks.Chunk) (st : State) (b : Beam) (s : Sub)
    (ground interp add : Bool) (d : SpinDict) (hd : Uses st.maps b ground d)
    (hne : ∀ e ∈ d, e.2.maps ≠ []) (hbad : ¬ Consistent d) :
    scan x mission st b s ground interp add = .error .valueError := by
  unfold scan
  split
  · rfl
  rw [uses_mapsFor hd]
  simp only [bind, Except.bind]
  rcases hc : checkMaps d none with e | r
  · rw [checkMaps_err d none hne hc]
  · exfalso
    obtain ⟨h1, h2, h3⟩ := checkMaps_inv d none hc
    rcases r with _ | k
    · rcases d with _ | ⟨y, d⟩
      · exact hbad ⟨0, by simp⟩
      · exact h2 (by simp) rfl
    · exact hbad ⟨k, h3 k rfl⟩

/-- **C103.** Without any spin maps for the beam nothing is scanned either. -/
theorem C103_missing (x : Ext) (mission : List Chunks.Chunk) (st : State) (b : Beam) (s : Sub)
    (ground interp add : Bool) (hd : ∀ d, d ≠ [] → ¬ Uses st.maps b ground d) :
    ∃ e, scan x mission st b s ground interp add = .error e := by
  rcases h : scan x mission st b s ground interp add with e | r
  · exact ⟨e, rfl⟩
  · obtain ⟨-, d, h1, -, h2⟩ := C103_consistent h
    exact absurd h1 (hd d h2)

/-- A ghost with index 1 uses the second maps of ghosts; one with index 2 has none. -/
example (d : SpinDict) (g : Bool → Int → Beam) (hg : ∀ b i, (g b i).ghost = b ∧ (g b i).ghostIdx = i) :
    Uses ⟨[], none, [none, some d]⟩ (g true 1) false d ∧
    ∀ d', ¬ Uses ⟨[], none, [none, some d]⟩ (g true 2) false d' := by
  refine ⟨?_, fun d' h => ?_⟩
  · simp only [Uses, (hg true 1).1, (hg true 1).2]
    exact ⟨1, rfl, .inl rfl⟩
  · simp only [Uses, (hg true 2).1, (hg true 2).2] at h
    obtain ⟨k, hk, hi⟩ := h
    have : k = 2 ∨ (k : Int) = 4 := by
      simp only [List.length_cons, List.length_nil] at hi
      omega
    rcases this with rfl | h4
    · cases hk
    · obtain rfl : k = 4 := by omega
      cases hk

/-- The hypotheses of `C103_refused` are met: maps with nside 1 and 2. -/
example : ¬ Consistent [(.s0a0, ⟨[List.replicate 12 0], [0]⟩), (.s2a4, ⟨[List.replicate 48 0], [2]⟩)]
    := by
  rintro ⟨n, h⟩
  have h1 := (h _ List.mem_cons_self).2 _ rfl
  have h2 := (h _ (List.mem_cons_of_mem _ List.mem_cons_self)).2 _ rfl
  simp only [List.length_replicate] at h1 h2
  omega

/-- The same for an entry with two spins but one map. -/
example : ¬ Consistent [(.s0a0, ⟨[List.replicate 12 0], [0, 1]⟩)] := by
  rintro ⟨n, h⟩
  have h1 := (h _ List.mem_cons_self).1
  simp at h1

end Verif.Timeline
