import Verif.Lemmas.Timeline

/-!
# Properties of timelines

C46 (main beam plus live ghosts), C47 (modulation by the position angle), C39 (dead ghosts do not
contribute), C70 (ground pickup).
-/

noncomputable section

namespace Verif.Timeline

open Verif.Spinmaps Complex

/-! ## C47 -/

/-- C47: without `reality` the modulation adds `sum_s f_s(pix) exp(-i s psi)` to whatever the
timeline holds, for any list of spins (consecutive, where the phase is updated recursively, or
not) and for pixels as well as interpolation. -/
theorem C47_modulation {n : Nat} {look : Look} {pa : List ℝ} {S : List Smp}
    (h : Sees n look pa S) {e : Entry} (he : EntryOk n e) (tod : List ℂ)
    (ht : tod.length = S.length) :
    modulateC tod look pa e.maps e.sVals =
      .ok (List.zipWith (fun y x => y + spinSum e x) tod S) :=
  modulateC_add h he tod ht

/-- C47: with `reality` it adds `Re f_0 + 2 Re sum_{s>0} f_s exp(-i s psi)`. -/
theorem C47_modulation_real {n : Nat} {look : Look} {pa : List ℝ} {S : List Smp}
    (h : Sees n look pa S) {e : Entry} (he : EntryOk n e) (hs : ∀ s ∈ e.sVals, 0 ≤ s)
    (tod : List ℝ) (ht : tod.length = S.length) :
    modulateR tod look pa e.maps e.sVals =
      .ok (List.zipWith (fun y x => y + spinSumReal e x) tod S) :=
  modulateR_add h he hs tod ht

theorem see_conj (x : Smp) (m : List ℂ) : see x (m.map star) = star (see x m) := by
  unfold see
  induction x.w with
  | nil => simp
  | cons iw w ih =>
    simp only [List.map_cons, List.sum_cons, star_add]
    rw [ih]
    congr 1
    rw [List.getElem?_map]
    rcases m[iw.1.toNat]? with _ | z
    · simp
    · simp [mul_comm]

/-- C47: for maps `F s` with `F (-s) = conj (F s)` the half `s = 0 .. S` with `reality` is the full
sum over `s = -S .. S`. -/
theorem C47_reality (F : Int → List ℂ) (hF : ∀ s, F (-s) = (F s).map star) (S : Nat) (x : Smp) :
    ((spinSumReal ⟨(intRange 0 (S + 1)).map F, intRange 0 (S + 1)⟩ x : ℝ) : ℂ) =
      ∑ s ∈ Finset.Icc (-(S : Int)) S, see x (F s) * exp (-I * (s : ℂ) * (x.pa : ℂ)) := by
  have hconj : ∀ s : Int, see x (F (-s)) * exp (-I * ((-s : Int) : ℂ) * (x.pa : ℂ)) =
      star (see x (F s) * exp (-I * (s : ℂ) * (x.pa : ℂ))) := by
    intro s
    rw [hF, see_conj, star_mul, mul_comm (star _)]
    congr 1
    show exp _ = (starRingEnd ℂ) (exp _)
    rw [← Complex.exp_conj]
    congr 1
    simp only [map_mul, map_neg, conj_I, conj_ofReal, map_intCast]
    push_cast
    ring
  unfold spinSumReal
  dsimp only
  rw [List.zipWith_map_right, List.zipWith_self]
  induction S with
  | zero =>
    have h0 := hconj 0
    rw [neg_zero] at h0
    have : ((0 : ℕ) : Int) = 0 := rfl
    simp only [intRange, List.range_succ, List.range_zero, List.nil_append, List.map_cons,
      List.map_nil, List.sum_cons, List.sum_nil, this, neg_zero, Finset.Icc_self,
      Finset.sum_singleton]
    simp only [add_zero, if_true, one_mul]
    exact (conj_eq_iff_re).1 (h0.symm)
  | succ S ih =>
    have e1 : intRange 0 (S + 1 + 1) = intRange 0 (S + 1) ++ [((S : Int) + 1)] := by
      unfold intRange
      rw [List.range_succ (n := S + 1)]
      simp
    have e2 : Finset.Icc (-((S + 1 : Nat) : Int)) ((S + 1 : Nat) : Int) =
        insert (-((S : Int) + 1)) (insert ((S : Int) + 1) (Finset.Icc (-(S : Int)) S)) := by
      ext z
      simp only [Finset.mem_Icc, Finset.mem_insert]
      omega
    rw [e1, List.map_append, List.sum_append, e2, Finset.sum_insert, Finset.sum_insert,
      ofReal_add, ih, hconj]
    · simp only [List.map_cons, List.map_nil, List.sum_cons, List.sum_nil, add_zero]
      rw [if_neg (by omega)]
      generalize ∑ s ∈ Finset.Icc (-(S : Int)) S,
        see x (F s) * exp (-I * (s : ℂ) * (x.pa : ℂ)) = A
      generalize see x (F ((S : Int) + 1)) * exp (-I * (((S : Int) + 1 : Int) : ℂ) * (x.pa : ℂ)) = z
      have : ((2 * z.re : ℝ) : ℂ) = star z + z := by
        have := Complex.add_conj z
        rw [show star z = (starRingEnd ℂ) z from rfl, add_comm, this]
      rw [this]
      ring
    · simp only [Finset.mem_Icc]; omega
    · simp only [Finset.mem_Icc, Finset.mem_insert]; omega

/-- C47: negative spins with `reality` are rejected. -/
theorem C47_negative_rejected (tod : List ℝ) (look : Look) (pa : List ℝ) (maps : List (List ℂ))
    (sVals : List Int) (s : Int) (hs : s ∈ sVals) (h0 : s < 0) :
    modulateR tod look pa maps sVals = .error .valueError := by
  unfold modulateR
  rw [if_pos]
  right
  exact List.any_eq_true.2 ⟨s, hs, by simpa using h0⟩

/-- The hypotheses of `C47_modulation` are met: two samples, spins 1, 2 (recursive) and 0, 3. -/
example : Sees 12 (.pix [3, 5]) [1, 2] [⟨[(3, 1)], 1, 0⟩, ⟨[(5, 1)], 2, 0⟩] ∧
    EntryOk 12 ⟨[List.replicate 12 1, List.replicate 12 I], [1, 2]⟩ ∧
    EntryOk 12 ⟨[List.replicate 12 1, List.replicate 12 I], [0, 3]⟩ :=
  ⟨⟨rfl, rfl, by simp⟩, ⟨rfl, by simp, by simp⟩, ⟨rfl, by simp, by simp⟩⟩

/-- And for `C47_reality`: `f_s = s i`. -/
example : ∀ s : Int, (fun s : Int => [(s : ℂ) * I]) (-s) =
    ((fun s : Int => [(s : ℂ) * I]) s).map star := by
  intro s
  simp

/-! ## C46 -/

/-- C46: the timeline of a detector is, sample by sample, what the main beam measures plus what
each of its live ghosts measures, whatever `tod` held before. -/
theorem C46_detector_timeline (x : Ext) (hx : ExtOk x) (mission : List Chunks.Chunk) (b : Beam)
    (ghosts : List Beam) (s : Sub) (interp savePoint : Bool) (st : State) (nside i n : Nat)
    (hns : 0 < nside) (hs : SubOk mission st st.qBore s i n) (hb : b.dead = false)
    (hbg : b.ghost = false) (hmain : DictOk (12 * nside ^ 2) st.maps.main)
    (dict : Beam → SpinDict)
    (hghost : ∀ g ∈ ghosts, g.dead = false → g.ghost = true ∧
      pyGet st.maps.ghosts g.ghostIdx = .ok (some (dict g)) ∧ DictOk (12 * nside ^ 2) (dict g)) :
    ∃ ret tod, scanDetector x mission b ghosts s false interp savePoint st =
        .ok (ret, { st with tod := some tod }) ∧ ret.tod = tod ∧
      tod = (List.range n).map fun k =>
        measures x st interp nside i st.qBore st.maps.main b k +
        ((ghosts.filter fun g => !g.dead).map fun g =>
          measures x st interp nside i st.qBore (dict g) g k).sum := by
  obtain ⟨t, h1, h2, h3⟩ := ghostScans_spec x hx mission s false interp nside i n hns st.qBore dict
    ghosts 0 st hs (by simp) (by
      intro g hg hd
      obtain ⟨a, b, c⟩ := hghost g hg hd
      refine ⟨?_, c⟩
      unfold mapsFor
      rw [if_neg (by simp), if_pos a, b]
      rfl) (fun _ => 0) (by simp)
  unfold scanDetector
  rw [if_neg (by simp [hbg]), h1]
  simp only [bind, Except.bind]
  rw [if_neg (by simp), Nat.zero_add]
  rw [Nat.zero_add] at h2 h3
  obtain ⟨ret, hr1, hr2⟩ := scan_spec x hx mission { st with tod := t } b s false interp
    (decide (0 < (ghosts.filter fun g => !g.dead).length)) nside i n hns st.qBore (hs.tod t)
    st.maps.main hmain (by simp) (by simp [mapsFor, hbg]) hb (by
      intro hm t' ht'
      have := h2 (by simpa using hm)
      rw [this] at ht'
      cases ht'
      simp)
  refine ⟨ret, _, hr1, hr2, ?_⟩
  unfold added
  by_cases hg : (ghosts.filter fun g => !g.dead).length = 0
  · have : ghosts.filter (fun g => !g.dead) = [] := List.length_eq_zero_iff.1 hg
    simp only [this, List.length_nil, lt_self_iff_false, decide_false, List.map_nil, List.sum_nil,
      add_zero]
    rfl
  · rw [h2 hg]
    have : decide (0 < (ghosts.filter fun g => !g.dead).length) = true := by
      simpa using Nat.pos_of_ne_zero hg
    rw [this]
    dsimp only
    rw [List.zipWith_map, List.zipWith_self]
    apply List.map_congr_left
    intro k _
    rw [measures_tod]
    simp only [if_true]
    ring

/-- C46: the order of the ghosts does not matter. -/
theorem C46_order (x : Ext) (hx : ExtOk x) (mission : List Chunks.Chunk) (b : Beam)
    (ghosts ghosts' : List Beam) (hp : ghosts.Perm ghosts') (s : Sub) (interp savePoint : Bool)
    (st st' : State) (nside i n : Nat)
    (hst : ∃ t, st' = { st with tod := t })
    (hns : 0 < nside) (hs : SubOk mission st st.qBore s i n) (hb : b.dead = false)
    (hbg : b.ghost = false) (hmain : DictOk (12 * nside ^ 2) st.maps.main)
    (dict : Beam → SpinDict)
    (hghost : ∀ g ∈ ghosts, g.dead = false → g.ghost = true ∧
      pyGet st.maps.ghosts g.ghostIdx = .ok (some (dict g)) ∧ DictOk (12 * nside ^ 2) (dict g)) :
    (scanDetector x mission b ghosts s false interp savePoint st).map (fun r => r.1.tod) =
      (scanDetector x mission b ghosts' s false interp savePoint st').map (fun r => r.1.tod) := by
  obtain ⟨t, rfl⟩ := hst
  obtain ⟨r1, t1, a1, a2, a3⟩ := C46_detector_timeline x hx mission b ghosts s interp savePoint st
    nside i n hns hs hb hbg hmain dict hghost
  obtain ⟨r2, t2, b1, b2, b3⟩ := C46_detector_timeline x hx mission b ghosts' s interp savePoint
    { st with tod := t } nside i n hns (hs.tod t) hb hbg hmain dict
    (fun g hg => hghost g (hp.mem_iff.2 hg))
  rw [a1, b1]
  simp only [Except.map]
  rw [a2, b2, a3, b3]
  congr 1
  apply List.map_congr_left
  intro k _
  simp only [measures_tod]
  congr 1
  exact ((hp.filter _).map _).sum_eq

/-! ## C39 -/

theorem ghostScans_filter (x : Ext) (mission : List Chunks.Chunk) (s : Sub)
    (ground interp : Bool) (gs : List Beam) (m : Nat) (st : State) :
    ghostScans x mission s ground interp gs m st =
      ghostScans x mission s ground interp (gs.filter fun g => !g.dead) m st := by
  induction gs generalizing m st with
  | nil => rfl
  | cons g gs ih =>
    cases hg : g.dead with
    | true =>
      rw [List.filter_cons_of_neg (by simp [hg]), ← ih, ghostScans, if_pos hg]
    | false =>
      rw [List.filter_cons_of_pos (by simp [hg]), ghostScans, ghostScans, if_neg (by simp [hg]),
        if_neg (by simp [hg])]
      simp only [bind, Except.bind, ih]

/-- C39: dead ghosts never contribute: the result is the same as without them, for any state,
including ones where an error occurs. -/
theorem C39_dead_ghosts (x : Ext) (mission : List Chunks.Chunk) (b : Beam) (ghosts : List Beam)
    (s : Sub) (ground interp savePoint : Bool) (st : State) :
    scanDetector x mission b ghosts s ground interp savePoint st =
      scanDetector x mission b (ghosts.filter fun g => !g.dead) s ground interp savePoint st := by
  unfold scanDetector
  rw [← ghostScans_filter]

/-- C39: scanning a dead beam is refused. -/
theorem C39_dead_beam (x : Ext) (mission : List Chunks.Chunk) (b : Beam) (s : Sub)
    (ground interp add : Bool) (st : State) (h : b.dead = true) :
    scan x mission st b s ground interp add = .error .valueError := by
  unfold scan
  rw [if_pos h]

/-! ## C70 -/

/-- What the code computes with a ground signal (pointing not saved): sky and ground as seen by the
main beam, but ghosts see the ground only. -/
theorem C70_ground_actual (x : Ext) (hx : ExtOk x) (mission : List Chunks.Chunk) (b : Beam)
    (ghosts : List Beam) (s : Sub) (interp : Bool) (st : State) (nside i n : Nat)
    (hns : 0 < nside) (hs : SubOk mission st st.qBore s i n) (boreg : List Quat.Q)
    (hboreg : st.qGround = some boreg) (hsg : SubOk mission st boreg s i n)
    (hb : b.dead = false) (hbg : b.ghost = false)
    (hmain : DictOk (12 * nside ^ 2) st.maps.main) (dg : SpinDict)
    (hdg : st.maps.ground = some dg) (hground : DictOk (12 * nside ^ 2) dg) :
    ∃ ret st', scanDetector x mission b ghosts s true interp false st = .ok (ret, st') ∧
      ret.tod = (List.range n).map fun k =>
        measures x st interp nside i st.qBore st.maps.main b k +
        measures x st interp nside i boreg dg b k +
        ((ghosts.filter fun g => !g.dead).map fun g =>
          measures x st interp nside i boreg dg g k).sum := by
  obtain ⟨t, h1, h2, h3⟩ := ghostScans_spec x hx mission s true interp nside i n hns boreg
    (fun _ => dg) ghosts 0 st hsg (by simpa using hboreg) (by
      intro g hg hd
      refine ⟨?_, hground⟩
      simp [mapsFor, hdg]) (fun _ => 0) (by simp)
  unfold scanDetector
  rw [if_neg (by simp [hbg]), h1]
  simp only [bind, Except.bind]
  rw [if_pos trivial, Nat.zero_add]
  rw [Nat.zero_add] at h2 h3
  obtain ⟨ret, hr1, -⟩ := scan_spec x hx mission { st with tod := t } b s true interp
    (decide (0 < (ghosts.filter fun g => !g.dead).length)) nside i n hns boreg (hsg.tod t)
    dg hground (by simpa using hboreg) (by simp [mapsFor, hdg]) hb (by
      intro hm t' ht'
      have := h2 (by simpa using hm)
      rw [this] at ht'
      cases ht'
      simp)
  rw [hr1]
  dsimp only
  rw [if_neg (by simp)]
  have hadd : added (decide (0 < (ghosts.filter fun g => !g.dead).length)) t n
      (measures x { st with tod := t } interp nside i boreg dg b) = (List.range n).map fun k =>
        measures x st interp nside i boreg dg b k +
        ((ghosts.filter fun g => !g.dead).map fun g =>
          measures x st interp nside i boreg dg g k).sum := by
    unfold added
    by_cases hg : (ghosts.filter fun g => !g.dead).length = 0
    · have : ghosts.filter (fun g => !g.dead) = [] := List.length_eq_zero_iff.1 hg
      simp only [this, List.length_nil, lt_self_iff_false, decide_false, List.map_nil,
        List.sum_nil, add_zero]
      rfl
    · rw [h2 hg]
      have : decide (0 < (ghosts.filter fun g => !g.dead).length) = true := by
        simpa using Nat.pos_of_ne_zero hg
      rw [this]
      dsimp only
      rw [List.zipWith_map, List.zipWith_self]
      apply List.map_congr_left
      intro k _
      rw [measures_tod]
      simp only [if_true]
      ring
  obtain ⟨ret2, hr3, hr4⟩ := scan_spec x hx mission
    { st with tod := some (added (decide (0 < (ghosts.filter fun g => !g.dead).length)) t n
      (measures x { st with tod := t } interp nside i boreg dg b)) } b s false interp
    true nside i n hns st.qBore (hs.tod _)
    st.maps.main hmain (by simp) (by simp [mapsFor, hbg]) hb (by
      intro _ t' ht'
      rw [← Option.some.inj ht', hadd]
      simp)
  refine ⟨ret2, _, hr3, ?_⟩
  rw [hr4, hadd]
  unfold added
  dsimp only
  rw [List.zipWith_map, List.zipWith_self]
  apply List.map_congr_left
  intro k _
  show _ + measures x st interp nside i st.qBore st.maps.main b k = _
  ring

/-- C70: with a ground signal and no live ghosts, the timeline is the sum of ground and sky as seen
by the main beam.  Missing: live ghosts (`C70_ghost_violation`) and saving the pointing
(`C70_save_point_violation`). -/
theorem C70_ground_partial (x : Ext) (hx : ExtOk x) (mission : List Chunks.Chunk) (b : Beam)
    (ghosts : List Beam) (hdead : ∀ g ∈ ghosts, g.dead = true)
    (s : Sub) (interp : Bool) (st : State) (nside i n : Nat)
    (hns : 0 < nside) (hs : SubOk mission st st.qBore s i n) (boreg : List Quat.Q)
    (hboreg : st.qGround = some boreg) (hsg : SubOk mission st boreg s i n)
    (hb : b.dead = false) (hbg : b.ghost = false)
    (hmain : DictOk (12 * nside ^ 2) st.maps.main) (dg : SpinDict)
    (hdg : st.maps.ground = some dg) (hground : DictOk (12 * nside ^ 2) dg) :
    ∃ ret st', scanDetector x mission b ghosts s true interp false st = .ok (ret, st') ∧
      ret.tod = (List.range n).map fun k =>
        measures x st interp nside i st.qBore st.maps.main b k +
        measures x st interp nside i boreg dg b k := by
  obtain ⟨ret, st', h1, h2⟩ := C70_ground_actual x hx mission b ghosts s interp st nside i n hns hs
    boreg hboreg hsg hb hbg hmain dg hdg hground
  refine ⟨ret, st', h1, ?_⟩
  have : ghosts.filter (fun g => !g.dead) = [] := by
    rw [List.filter_eq_nil_iff]
    intro g hg
    simp [hdead g hg]
  rw [h2, this]
  simp

/-! A concrete detector: nside 1, two samples, a ghost. -/

namespace Demo

/-- Maps with the constant `c` for the unpolarized spin 0 and nothing else. -/
def dict (c : ℝ) : SpinDict :=
  [(.s0a0, ⟨[List.replicate 12 (c : ℂ)], [0]⟩), (.s2a4, ⟨[List.replicate 12 0], [2]⟩)]

theorem dict_ok (c : ℝ) : DictOk (12 * 1 ^ 2) (dict c) := by
  refine ⟨?_, Or.inl rfl, ?_, ?_, ?_, ?_⟩
  · intro e he
    simp only [dict, List.mem_cons, List.not_mem_nil, or_false] at he
    rcases he with rfl | rfl <;> exact ⟨rfl, by simp, by simp⟩
  · intro s hs
    have : s ∈ [(0 : Int)] := hs
    simp at this
    omega
  · exact List.nodup_nil
  · intro s hs
    exact absurd hs List.not_mem_nil
  · intro h
    cases h

def ext : Ext where
  detOffset := fun _ _ _ => ![1, 0, 0, 0]
  bore2pix := fun _ _ _ _ => (3, 0)
  bore2radec := fun _ _ _ => (0, 0, 0)
  weights := fun _ _ _ => [(3, 1)]
  ang2pix := fun _ _ _ => 3

theorem ext_ok : ExtOk ext := by
  constructor
  · intro q t b n hn
    have : (1 : Int) ≤ (n : Int) ^ 2 := by
      have : (1 : Int) ≤ n := by exact_mod_cast hn
      nlinarith
    show (0 : Int) ≤ 3 ∧ (3 : Int) < _
    omega
  · intro n th ph hn iw hiw
    have : (1 : Int) ≤ (n : Int) ^ 2 := by
      have : (1 : Int) ≤ n := by exact_mod_cast hn
      nlinarith
    have h : iw = (3, 1) := by simpa [ext] using hiw
    rw [h]
    show (0 : Int) ≤ 3 ∧ (3 : Int) < _
    omega

def mission : List Chunks.Chunk := [{ start := 0, stop := 5, cidx := some 0 }]

def main : Beam := ⟨false, false, 0, 0, 0, 0⟩

def ghost : Beam := ⟨false, true, 0, 1, 1, 30⟩

def dead : Beam := ⟨true, true, 0, 1, 1, 30⟩

/-- Main beam 1, ghost 10, ground 100. -/
def st : State where
  ctime := [0, 1, 2, 3, 4]
  qBore := List.replicate 5 ![1, 0, 0, 0]
  qGround := some (List.replicate 5 ![1, 0, 0, 0])
  rotAngle := 0
  hwpAng := some (.array [0, 1])
  maps := ⟨dict 1, some (dict 100), [some (dict 10)]⟩
  tod := some [7]

def sub : Sub := ⟨1, 3, 0⟩

theorem sub_ok : SubOk mission st st.qBore sub 1 2 :=
  ⟨⟨_, rfl, rfl, rfl⟩, by simp [st], by simp [st], by
    intro a ha
    have : some (HwpAng.array [0, 1]) = some (.array a) := ha
    cases this
    rfl⟩

theorem measures_eq (interp : Bool) (c : ℝ) (b : Beam) (k : Nat) :
    measures ext st interp 1 1 st.qBore (dict c) b k = c := by
  have h : ∀ x : Smp, x.w = [(3, 1)] → ∀ p, signal (dict c) p x = c := by
    intro x hx p
    have e1 : part (dict c) .s2a4 = ⟨[List.replicate 12 0], [2]⟩ := rfl
    have e2 : part (dict c) .s0a0 = ⟨[List.replicate 12 (c : ℂ)], [0]⟩ := rfl
    have e3 : isOld (dict c) = true := rfl
    unfold signal
    rw [e1, e2, e3]
    simp [spinSum, spinSumReal, see, hx]
  apply h
  cases interp <;> rfl

end Demo

/-- The hypotheses of `C46_detector_timeline` are met, with a live and a dead ghost; the timeline is
1 + 10 in both samples although `tod` held something of another length. -/
example : ∃ ret tod, scanDetector Demo.ext Demo.mission Demo.main [Demo.ghost, Demo.dead] Demo.sub
    false true true Demo.st = .ok (ret, { Demo.st with tod := some tod }) ∧ ret.tod = tod ∧
      tod = [11, 11] := by
  obtain ⟨ret, tod, h1, h2, h3⟩ := C46_detector_timeline Demo.ext Demo.ext_ok Demo.mission
    Demo.main [Demo.ghost, Demo.dead] Demo.sub true true Demo.st 1 1 2 one_pos Demo.sub_ok rfl rfl
    (Demo.dict_ok 1) (fun _ => Demo.dict 10) (by
      intro g hg hd
      simp only [List.mem_cons, List.not_mem_nil, or_false] at hg
      rcases hg with rfl | rfl
      · exact ⟨rfl, rfl, Demo.dict_ok 10⟩
      · cases hd)
  refine ⟨ret, tod, h1, h2, ?_⟩
  have e : [Demo.ghost, Demo.dead].filter (fun g => !g.dead) = [Demo.ghost] := rfl
  have em : Demo.st.maps.main = Demo.dict 1 := rfl
  rw [h3, e, em]
  simp only [List.map_cons, List.map_nil, List.sum_cons, List.sum_nil, add_zero,
    Demo.measures_eq]
  norm_num [List.range_succ]

/-- The hypotheses of `C70_ground_partial` are met: 1 + 100. -/
example : ∃ ret st', scanDetector Demo.ext Demo.mission Demo.main [Demo.dead] Demo.sub
    true false false Demo.st = .ok (ret, st') ∧ ret.tod = [101, 101] := by
  obtain ⟨ret, st', h1, h2⟩ := C70_ground_partial Demo.ext Demo.ext_ok Demo.mission
    Demo.main [Demo.dead] (by simp [Demo.dead]) Demo.sub false Demo.st 1 1 2 one_pos Demo.sub_ok
    _ rfl Demo.sub_ok rfl rfl (Demo.dict_ok 1) _ rfl (Demo.dict_ok 100)
  refine ⟨ret, st', h1, ?_⟩
  rw [h2]
  have em : Demo.st.maps.main = Demo.dict 1 := rfl
  have eb : List.replicate 5 (![1, 0, 0, 0] : Quat.Q) = Demo.st.qBore := rfl
  rw [em, eb]
  simp only [Demo.measures_eq]
  norm_num [List.range_succ]

/-- C70, violation: with a ground signal a live ghost measures the ground instead of the sky: the
timeline is 1 + 100 + 100 and not 1 + 100 + 10 (or 1 + 100 + 10 + 100). -/
theorem C70_ghost_violation :
    ∃ ret st', scanDetector Demo.ext Demo.mission Demo.main [Demo.ghost] Demo.sub
      true false false Demo.st = .ok (ret, st') ∧ ret.tod = [201, 201] ∧
      ∀ k, measures Demo.ext Demo.st false 1 1 Demo.st.qBore Demo.st.maps.main Demo.main k = 1 ∧
        measures Demo.ext Demo.st false 1 1 Demo.st.qBore (Demo.dict 10) Demo.ghost k = 10 ∧
        measures Demo.ext Demo.st false 1 1 Demo.st.qBore (Demo.dict 100) Demo.main k = 100 := by
  obtain ⟨ret, st', h1, h2⟩ := C70_ground_actual Demo.ext Demo.ext_ok Demo.mission
    Demo.main [Demo.ghost] Demo.sub false Demo.st 1 1 2 one_pos Demo.sub_ok
    _ rfl Demo.sub_ok rfl rfl (Demo.dict_ok 1) _ rfl (Demo.dict_ok 100)
  refine ⟨ret, st', h1, ?_, fun k => ⟨Demo.measures_eq _ _ _ _, Demo.measures_eq _ _ _ _,
    Demo.measures_eq _ _ _ _⟩⟩
  rw [h2]
  have em : Demo.st.maps.main = Demo.dict 1 := rfl
  have eb : List.replicate 5 (![1, 0, 0, 0] : Quat.Q) = Demo.st.qBore := rfl
  have e : [Demo.ghost].filter (fun g => !g.dead) = [Demo.ghost] := rfl
  rw [em, eb, e]
  simp only [List.map_cons, List.map_nil, List.sum_cons, List.sum_nil, Demo.measures_eq]
  norm_num [List.range_succ]

/-- C70, violation: with a ground signal, saving the pointing never succeeds. -/
theorem C70_save_point_violation (x : Ext) (mission : List Chunks.Chunk) (b : Beam)
    (ghosts : List Beam) (s : Sub) (interp : Bool) (st : State) (r : Ret × State) :
    scanDetector x mission b ghosts s true interp true st ≠ .ok r := by
  unfold scanDetector
  split
  · intro h; cases h
  · simp only [bind, Except.bind]
    split
    · intro h; cases h
    · rw [if_pos trivial]
      split
      · intro h; cases h
      · simp

end Verif.Timeline
