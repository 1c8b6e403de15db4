import Verif.Lemmas.Recovery

/-!
# Properties of binned maps (C86 - C90)
-/

noncomputable section

namespace Verif.Props

open Verif.Chunks Verif.Timeline Verif.Spinmaps Verif.MapMaking Complex

/-! ## C86: every sample that is not flagged enters the maps exactly once -/

/-- **C86.** After any sequence of `bin_tod` calls the maps contain exactly the samples that are not
flagged, each of them once. -/
theorem C86_binning (q : QExt) (hq : PixOk q) (mission : List Chunk) (nside : Nat)
    (hns : 0 < nside) (cs : List Call) (h : ∀ c ∈ cs, CallOk mission nside c) :
    ∃ m, binCalls q mission nside cs = .ok m ∧
      Holds nside m (cs.flatMap fun c => c.obs q) :=
  ⟨_, binCalls_spec q hq mission nside hns cs h, holds_mapsOf _ _⟩

/-- **C86.** The order of the calls does not matter. -/
theorem C86_order (q : QExt) (hq : PixOk q) (mission : List Chunk) (nside : Nat)
    (hns : 0 < nside) (cs cs' : List Call) (hp : cs.Perm cs')
    (h : ∀ c ∈ cs, CallOk mission nside c) :
    binCalls q mission nside cs = binCalls q mission nside cs' := by
  rw [binCalls_spec q hq mission nside hns cs h,
    binCalls_spec q hq mission nside hns cs' fun c hc => h c (hp.mem_iff.2 hc)]
  congr 1
  unfold mapsOf
  apply List.map_congr_left
  intro p _
  exact cellAt_perm (hp.flatMap_right _) p

/-- **C86.** Cutting a subchunk into two does not change the maps. -/
theorem C86_cut (q : QExt) (hq : PixOk q) (mission : List Chunk) (nside : Nat)
    (hns : 0 < nside) (cs cs' : List Call) (c c1 c2 : Call) (hcut : Cut c c1 c2)
    (h : ∀ c' ∈ cs ++ c :: cs', CallOk mission nside c') (h1 : CallOk mission nside c1)
    (h2 : CallOk mission nside c2) :
    binCalls q mission nside (cs ++ c :: cs') =
      binCalls q mission nside (cs ++ c1 :: c2 :: cs') := by
  have hmem : ∀ c' ∈ cs ++ c1 :: c2 :: cs', CallOk mission nside c' := by
    intro c' hc'
    simp only [List.mem_append, List.mem_cons] at hc'
    rcases hc' with hc' | rfl | rfl | hc'
    · exact h c' (by simp [hc'])
    · exact h1
    · exact h2
    · exact h c' (by simp [hc'])
  rw [binCalls_spec q hq mission nside hns _ h, binCalls_spec q hq mission nside hns _ hmem]
  have key : c.obs q = c1.obs q ++ c2.obs q := by
    unfold Call.obs observations
    rw [hcut.n, List.range_add, List.filter_append, List.map_append]
    obtain ⟨s1, s2⟩ := hcut.su
    obtain ⟨o1, o2⟩ := hcut.off
    obtain ⟨p1, p2⟩ := hcut.polang
    obtain ⟨b1, b2⟩ := hcut.bore
    obtain ⟨t1, t2⟩ := hcut.times
    rw [s1, s2, o1, o2, p1, p2, b1, b2, t1, t2, hcut.i1, hcut.i2, hcut.tod]
    congr 1
    · apply List.map_congr_left
      intro k hk
      have hk := List.mem_range.1 (List.mem_filter.1 hk).1
      dsimp only
      rw [hcut.hwp1 k hk, List.getElem?_append_left (by rw [h1.tod]; exact hk)]
    · rw [List.filter_map, List.map_map]
      have : (fun k => !flagged c.su c.i k) ∘ (fun x => c1.n + x) =
          fun k => !flagged c.su (c.i + c1.n) k := by
        funext k
        simp only [Function.comp_apply, flagged, Nat.add_assoc]
      rw [this]
      apply List.map_congr_left
      intro k hk
      have hk := List.mem_range.1 (List.mem_filter.1 hk).1
      simp only [Function.comp_apply]
      rw [hcut.hwp2 k hk, List.getElem?_append_right (by rw [h1.tod]; omega), h1.tod,
        Nat.add_sub_cancel_left, Nat.add_assoc]
  simp only [List.flatMap_append, List.flatMap_cons, key, List.append_assoc]

/-! ## C88: which pixels can be solved -/

/-- **C88.** The first row of `proj` counts the hits. -/
theorem C88_hits {nside : Nat} {m : Maps} {os : List Obs} (h : Holds nside m os) {p : Nat}
    {c : Cell} (hc : m[p]? = some c) : c.proj 0 = (here p os).length := by
  have := congrFun (congrFun (h.cells p c hc).2 0) 0
  rw [projAt_zero] at this
  exact this

/-- **C88.** A pixel can be solved exactly when it has been observed under three different
polarization angles. -/
theorem C88_regular {nside : Nat} {m : Maps} {os : List Obs} (h : Holds nside m os)
    (hunit : ∀ o ∈ os, o.c ^ 2 + o.s ^ 2 = 1) {p : Nat} {c : Cell} (hc : m[p]? = some c) :
    (sym c.proj).det ≠ 0 ↔ ThreeAngles (here p os) := by
  rw [(h.cells p c hc).2]
  have hunit' : ∀ o ∈ here p os, o.c ^ 2 + o.s ^ 2 = 1 := fun o ho =>
    hunit o (List.mem_filter.1 ho).1
  unfold projAt
  generalize here p os = l at hunit'
  constructor
  · intro hd
    by_contra hn
    obtain ⟨v, hv, hz⟩ := not_three hn
    apply hd
    apply Matrix.exists_mulVec_eq_zero_iff.1
    refine ⟨v, hv, ?_⟩
    clear hd hn hunit'
    induction l with
    | nil => simp
    | cons o l ih =>
      rw [List.map_cons, List.sum_cons, Matrix.add_mulVec,
        ih fun o ho => hz o (List.mem_cons_of_mem _ ho), add_zero]
      have e := hz o List.mem_cons_self
      funext i
      have : (Matrix.vecMulVec o.w o.w).mulVec v i =
          o.w i * (o.w 0 * v 0 + o.w 1 * v 1 + o.w 2 * v 2) := by
        simp only [dotProduct, Matrix.mulVec, Matrix.vecMulVec, Matrix.of_apply,
          Fin.sum_univ_three]
        ring
      rw [this, e, mul_zero]
      rfl
  · rintro ⟨o1, m1, o2, m2, o3, m3, h12, h13, h23⟩ hd
    obtain ⟨v, hv, hz⟩ := Matrix.exists_mulVec_eq_zero_iff.2 hd
    have hq := quad l v
    rw [hz, dotProduct_zero] at hq
    have hall := sum_sq_zero l (fun o => o.w 0 * v 0 + o.w 1 * v 1 + o.w 2 * v 2) hq.symm
    have e : ∀ o ∈ l, v 0 + o.c * v 1 + o.s * v 2 = 0 := by
      intro o ho
      have := hall o ho
      simpa [Obs.w] using this
    obtain ⟨a, b, c⟩ := line_circle (hunit' o1 m1) (hunit' o2 m2) (hunit' o3 m3) h12 h13 h23
      (e o1 m1) (e o2 m2) (e o3 m3)
    apply hv
    funext i
    fin_cases i <;> assumption

/-- A pixel seen under 0, 45 and 90 degrees can be solved, one seen under two angles cannot. -/
example : ∃ m, Holds 1 m [⟨4, 1, 0, 2⟩, ⟨4, 0, 1, 3⟩, ⟨4, -1, 0, 5⟩, ⟨7, 1, 0, 1⟩, ⟨7, 0, 1, 1⟩] ∧
    (∃ c, m[4]? = some c ∧ (sym c.proj).det ≠ 0) ∧ ∃ c, m[7]? = some c ∧ (sym c.proj).det = 0 := by
  have h := holds_mapsOf 1 [⟨4, 1, 0, 2⟩, ⟨4, 0, 1, 3⟩, ⟨4, -1, 0, 5⟩, ⟨7, 1, 0, 1⟩, ⟨7, 0, 1, 1⟩]
  have hu : ∀ o ∈ ([⟨4, 1, 0, 2⟩, ⟨4, 0, 1, 3⟩, ⟨4, -1, 0, 5⟩, ⟨7, 1, 0, 1⟩, ⟨7, 0, 1, 1⟩] : List Obs),
      o.c ^ 2 + o.s ^ 2 = 1 := by simp
  have hl : ∀ p, p < 12 → ∃ c, (mapsOf (12 * 1 ^ 2) [⟨4, 1, 0, 2⟩, ⟨4, 0, 1, 3⟩, ⟨4, -1, 0, 5⟩,
      ⟨7, 1, 0, 1⟩, ⟨7, 0, 1, 1⟩])[p]? = some c := by
    intro p hp
    exact ⟨_, List.getElem?_eq_getElem (by rw [h.npix]; omega)⟩
  obtain ⟨c, hc⟩ := hl 4 (by omega)
  obtain ⟨c', hc'⟩ := hl 7 (by omega)
  refine ⟨_, h, ⟨c, hc, (C88_regular h hu hc).2 ?_⟩, c', hc', ?_⟩
  · refine ⟨⟨4, 1, 0, 2⟩, by simp [here], ⟨4, 0, 1, 3⟩, by simp [here], ⟨4, -1, 0, 5⟩,
      by simp [here], ?_, ?_, ?_⟩ <;> norm_num
  · by_contra hd
    obtain ⟨o1, h1, o2, h2, o3, h3, d1, d2, d3⟩ := (C88_regular h hu hc').1 hd
    simp [here] at h1 h2 h3
    rcases h1 with rfl | rfl <;> rcases h2 with rfl | rfl <;> rcases h3 with rfl | rfl <;>
      simp at d1 d2 d3

/-! ## C87: map-making recovers the sky -/

/-- **C87.** Detectors with the same symmetric beam and no non-ideal plate observe a sky, each in any
number of subchunks, with any boresight, boresight rotation, detector angles, HWP angles and flags.
Scanning uses detector angles that differ by `err` from those used for binning, and binning corrects
for an HWP phase `varphi`.  In every pixel that was seen under three angles the solution is then the
sky seen through the beam, exactly, with the polarization `Q + iU` rotated by
`2 (err + 2 varphi)`; pixels that were not seen are filled. -/
theorem C87_recovery (Y : Harmonics) (hY : Conjugation Y) (x : Ext) (hx : ExtOk x) (q : QExt)
    (hq : PixOk q) (hs : SolveOk q) (iau : Bool) (hxq : Agree x q iau) (mission : List Chunk)
    {Ls L : Nat} {alm : List (List ℂ)} {a : Nat → Nat → Nat → ℂ} {maxSpin : Int}
    {inputV beamV : Bool} {b : Nat → Nat → Nat → ℂ} (ha : RealSky Ls a) (hb : RealBeam L b)
    (nside : Nat) (hns : 0 < nside) (err varphi : ℝ) (js : List Job) (i n : Job → Nat)
    (hdet : ∀ j ∈ js, DetectorOk Ls alm a maxSpin inputV beamV j.det [] (fun _ => L) (fun _ => b))
    (hideal : ∀ j ∈ js, j.det.data.symmetric = true ∧ j.det.data.mueller = none)
    (hset : ∀ j ∈ js, j.su.nsideOut = nside ∧ j.su.varphi = varphi ∧
      j.det.point.polang = j.polangBin + err)
    (hrot : ∀ j ∈ js, (∀ r ∈ j.st.qBore, IsRot r) ∧
      IsRot (x.detOffset j.det.point.az j.det.point.el 0))
    (hbin : ∀ j ∈ js, BinOk mission j.su j.st j.s (i j) (n j)) (fill : ℝ) :
    ∃ m, observeAll Y x q mission alm maxSpin nside inputV beamV js (allocateMaps nside) = .ok m ∧
      ∀ p, p < 12 * nside ^ 2 →
        (ThreeAngles (here p (seen x q i n js)) →
          (solveForMap q m fill)[p]? = some (stokes iau
            (smoothI Y nside (min Ls L) (skyOf inputV a) (beamOf beamV b) p)
            (smoothP Y nside (min Ls L) (skyOf inputV a) (beamOf beamV b) p *
              exp (2 * ((err + 2 * varphi) * Real.pi / 180 : ℝ) * I)))) ∧
        (here p (seen x q i n js) = [] → (solveForMap q m fill)[p]? = some fun _ => fill) := by
  let X : Nat → Fin 3 → ℝ := fun p => stokes iau
    (smoothI Y nside (min Ls L) (skyOf inputV a) (beamOf beamV b) p)
    (smoothP Y nside (min Ls L) (skyOf inputV a) (beamOf beamV b) p *
      exp (2 * ((err + 2 * varphi) * Real.pi / 180 : ℝ) * I))
  have hone : ∀ j ∈ js, ∃ os', (∀ os, observeBin Y x q mission alm maxSpin nside inputV beamV j
      (mapsOf (12 * nside ^ 2) os) = .ok (mapsOf (12 * nside ^ 2) (os ++ os'))) ∧
      os'.map blank = seen x q i n [j] ∧
      ∀ o ∈ os', o.c ^ 2 + o.s ^ 2 = 1 ∧
        o.d = X o.pix.toNat 0 + o.c * X o.pix.toNat 1 + o.s * X o.pix.toNat 2 := by
    intro j hj
    obtain ⟨hsy, hmu⟩ := hideal j hj
    obtain ⟨hn1, hn2, hn3⟩ := hset j hj
    obtain ⟨hr1, hr2⟩ := hrot j hj
    have hB := hbin j hj
    have hobs := C71_convolution Y hY x hx mission (hdet j hj) ha (by
      intro g _; exact hb) (by
      intro g hg
      have : g = j.det := by simpa using hg
      rw [this]; exact hmu) nside hns j.s false false j.st (i j) (n j) hB.sub _ (fun _ _ => rfl)
    refine ⟨_, fun os => observeBin_spec Y x q hq mission alm maxSpin nside hns inputV beamV j (i j)
      (n j) hn1 hB _ (by simp) hobs os, ?_, ?_⟩
    · rw [observations_blank]
      unfold seen
      rw [List.flatMap_singleton]
      rfl
    intro o ho
    unfold observations at ho
    obtain ⟨k, hk, rfl⟩ := List.mem_map.1 ho
    have hk := List.mem_range.1 (List.mem_filter.1 hk).1
    have hrb : IsRot ((j.st.qBore[i j + k]?).getD 0) := by
      have hlt : i j + k < j.st.qBore.length := by
        have := hB.sub.bore
        omega
      rw [List.getElem?_eq_getElem hlt]
      exact hr1 _ (List.getElem_mem hlt)
    dsimp only
    rw [hxq _ _ _ _ _ _ hrb (qOff_rot x _ _ hr2)]
    dsimp only
    refine ⟨by
      rw [mul_pow]
      have h1 : ((if iau = true then 1 else -1 : ℝ)) ^ 2 = 1 := by cases iau <;> norm_num
      rw [h1, one_mul]
      exact Real.cos_sq_add_sin_sq _, ?_⟩
    rw [List.getElem?_map, List.getElem?_range hk]
    simp only [Option.map_some, Option.getD_some, List.filter_nil, List.map_nil, List.sum_nil,
      add_zero, hsy]
    unfold sampleOf sampleAt spinsI spinsP
    simp only [if_true, Bool.false_eq_true, if_false]
    rw [convolved_sym]
    have eo : offset x j.st.rotAngle j.det.point = qOff x j.st.rotAngle j.det.point := rfl
    rw [eo, hn1, hn2, hn3]
    set r := x.bore2pix (qOff x j.st.rotAngle j.det.point) ((j.st.ctime[i j + k]?).getD 0)
      ((j.st.qBore[i j + k]?).getD 0) nside with hr
    set P := smoothP Y nside (min Ls L) (skyOf inputV a) (beamOf beamV b) r.1.toNat with hP
    set al := alphaAt j.st.hwpAng k with hal
    have hpi : (Real.pi : ℝ) ≠ 0 := Real.pi_ne_zero
    have e : P * exp (2 * (((2 * al + (j.polangBin + err) * Real.pi / 180 : ℝ) : ℂ) +
        ((r.2 * Real.pi / 180 : ℝ) : ℂ)) * I) =
        (P * exp (2 * ((err + 2 * varphi) * Real.pi / 180 : ℝ) * I)) *
        exp (2 * (((r.2 + j.polangBin + 2 * (al * 180 / Real.pi - varphi)) * Real.pi / 180 : ℝ) : ℂ)
          * I) := by
      rw [mul_assoc P, ← exp_add]
      congr 2
      rw [← add_mul, ← mul_add]
      congr 2
      norm_cast
      field_simp
      ring
    rw [e, re_mul_exp]
    show _ = smoothI _ _ _ _ _ _ + _ * (_ : ℂ).re + _ * (_ * (_ : ℂ).im)
    rw [← hP]
    cases iau <;> simp <;> ring
  have hall : ∀ os, (∀ o ∈ os, o.c ^ 2 + o.s ^ 2 = 1 ∧
      o.d = X o.pix.toNat 0 + o.c * X o.pix.toNat 1 + o.s * X o.pix.toNat 2) →
      ∃ os', observeAll Y x q mission alm maxSpin nside inputV beamV js
        (mapsOf (12 * nside ^ 2) os) = .ok (mapsOf (12 * nside ^ 2) (os ++ os')) ∧
      os'.map blank = seen x q i n js ∧
      ∀ o ∈ os', o.c ^ 2 + o.s ^ 2 = 1 ∧
        o.d = X o.pix.toNat 0 + o.c * X o.pix.toNat 1 + o.s * X o.pix.toNat 2 := by
    clear hdet hideal hset hrot hbin
    unfold observeAll
    induction js with
    | nil =>
      intro os ho
      exact ⟨[], by simp [pure, Except.pure], rfl, by simp⟩
    | cons j js ih =>
      intro os ho
      obtain ⟨o1, h1, h2, h3⟩ := hone j List.mem_cons_self
      obtain ⟨o2, g1, g2, g3⟩ := ih (fun j hj => hone j (List.mem_cons_of_mem _ hj)) (os ++ o1) (by
        intro o h
        rcases List.mem_append.1 h with h | h
        · exact ho o h
        · exact h3 o h)
      refine ⟨o1 ++ o2, ?_, ?_, ?_⟩
      · rw [List.foldlM_cons, h1 os, ← List.append_assoc]
        exact g1
      · rw [List.map_append, h2, g2]
        simp [seen]
      · intro o h
        rcases List.mem_append.1 h with h | h
        · exact h3 o h
        · exact g3 o h
  obtain ⟨os, h1, h2, h3⟩ := hall [] (by simp)
  rw [mapsOf_nil, List.nil_append] at h1
  have hH := holds_mapsOf nside os
  refine ⟨_, h1, ?_⟩
  intro p hp
  obtain ⟨c, hc⟩ : ∃ c, (mapsOf (12 * nside ^ 2) os)[p]? = some c :=
    ⟨_, List.getElem?_eq_getElem (by rw [hH.npix]; exact hp)⟩
  obtain ⟨c1, c2⟩ := hH.cells p c hc
  rw [← h2, here_blank, three_blank]
  unfold solveForMap
  rw [List.getElem?_map, hc, Option.map_some]
  constructor
  · intro h3a
    have hd := (C88_regular hH (fun o ho => (h3 o ho).1) hc).2 h3a
    congr 1
    apply solve_unique q hs _ _ _ (X p) (hits_ne c2 hd) hd
    rw [c1, c2]
    exact vec_proj os X p fun o ho => (h3 o ho).2
  · intro he
    congr 1
    apply hs.empty
    rw [C88_hits hH hc, List.map_eq_nil_iff.1 he]
    simp

/-! ## C89: `preview_pointing` gives the hits and angles of the real scan -/

/-- **C89.** For every sequence of live detectors and subchunks that can be scanned: with
`preview_pointing` the hits and the matrices of all pixels are those of the real scan, and the
signal is zero. -/
theorem C89_preview (x : Ext) (q : QExt) (hq : PixOk q) (mission : List Chunk) (interp : Bool)
    (nside : Nat) (hns : 0 < nside) (ts : List Task)
    (hok : ∀ t ∈ ts, t.su.nsideOut = nside ∧ BinOk mission t.su t.st t.s t.i t.n)
    (hlive : ∀ t ∈ ts, t.det.beam.dead = false ∧ t.det.beam.ghost = false)
    (hscan : ∀ t ∈ ts, ∃ r, scanDetector x mission t.det.beam t.det.ghosts t.s false interp false
      t.st = .ok r ∧ r.1.tod.length = t.n) :
    ∃ m m', runTasks x q mission interp false ts (allocateMaps nside) = .ok m ∧
      runTasks x q mission interp true ts (allocateMaps nside) = .ok m' ∧
      m'.map (·.proj) = m.map (·.proj) ∧ ∀ c ∈ m', c.vec = 0 := by
  suffices H : ∀ os os', os.map blank = os'.map blank → (∀ o ∈ os', o.d = 0) →
      ∃ a a', runTasks x q mission interp false ts (mapsOf (12 * nside ^ 2) os) =
          .ok (mapsOf (12 * nside ^ 2) a) ∧
        runTasks x q mission interp true ts (mapsOf (12 * nside ^ 2) os') =
          .ok (mapsOf (12 * nside ^ 2) a') ∧ a.map blank = a'.map blank ∧ ∀ o ∈ a', o.d = 0 by
    obtain ⟨a, a', h1, h2, h3, h4⟩ := H [] [] rfl (by simp)
    rw [mapsOf_nil] at h1 h2
    refine ⟨_, _, h1, h2, mapsOf_proj h3.symm, ?_⟩
    intro c hc
    unfold mapsOf at hc
    obtain ⟨p, _, rfl⟩ := List.mem_map.1 hc
    rw [cellAt_vec, vec_zero h4]
  unfold runTasks
  induction ts with
  | nil =>
    intro os os' h h0
    exact ⟨os, os', rfl, rfl, h, h0⟩
  | cons t ts ih =>
    intro os os' h h0
    obtain ⟨hn, hB⟩ := hok t List.mem_cons_self
    obtain ⟨hl1, hl2⟩ := hlive t List.mem_cons_self
    obtain ⟨r, hr1, hr2⟩ := hscan t List.mem_cons_self
    have hst := scanDetector_state hr1
    obtain ⟨c, hc1, hc2, hc3⟩ := hB.sub.chunk
    have hB' : ∀ tod, BinOk mission t.su { t.st with tod := tod } t.s t.i t.n := fun tod =>
      ⟨⟨hB.sub.chunk, hB.sub.times, hB.sub.bore, hB.sub.hwp⟩, hB.hwp, hB.flags⟩
    have e1 : (scanBin x q mission t.su t.det t.s false interp false t.st
        (mapsOf (12 * nside ^ 2) os)).map (·.2) = .ok (mapsOf (12 * nside ^ 2) (os ++
          observations q t.su t.st (qOff x t.st.rotAngle t.det.beam) t.det.polangBin t.i t.n
            fun k => (r.1.tod[k]?).getD 0)) := by
      unfold scanBin
      rw [hr1]
      simp only [bind, Except.bind]
      rw [hst]
      have := binTod_spec q hq mission t.su (by rw [hn]; exact hns)
        { t.st with tod := some r.1.tod } (qOff x t.st.rotAngle t.det.beam) t.det.polangBin t.s t.i
        t.n (hB' _) r.1.tod hr2 os
      rw [hn] at this
      rw [this]
      rfl
    have e2 : (previewBin x q mission t.su t.det t.s t.st
        (mapsOf (12 * nside ^ 2) os')).map (·.2) = .ok (mapsOf (12 * nside ^ 2) (os' ++
          observations q t.su t.st (qOff x t.st.rotAngle t.det.beam) t.det.polangBin t.i t.n
            fun k => ((List.replicate t.n (0 : ℝ))[k]?).getD 0)) := by
      unfold previewBin
      rw [previewDetector_spec t.s t.n hc3 _ _ _ hl1 hl2]
      simp only [bind, Except.bind, Option.getD_some]
      have := binTod_spec q hq mission t.su (by rw [hn]; exact hns)
        { t.st with tod := some (List.replicate t.n 0) } (qOff x t.st.rotAngle t.det.beam)
        t.det.polangBin t.s t.i t.n (hB' _) (List.replicate t.n 0) (by simp) os'
      rw [hn] at this
      rw [this]
      rfl
    simp only [List.foldlM_cons, Bool.false_eq_true, if_false, if_true] at ih ⊢
    rw [e1, e2]
    simp only [bind, Except.bind]
    apply ih (fun t ht => hok t (List.mem_cons_of_mem _ ht))
      (fun t ht => hlive t (List.mem_cons_of_mem _ ht))
      (fun t ht => hscan t (List.mem_cons_of_mem _ ht))
    · rw [List.map_append, List.map_append, h, observations_blank, observations_blank]
    · intro o ho
      rcases List.mem_append.1 ho with ho | ho
      · exact h0 o ho
      · unfold observations at ho
        obtain ⟨k, _, rfl⟩ := List.mem_map.1 ho
        dsimp only
        rw [List.getElem?_replicate]
        split <;> rfl

/-! ## C90: flags -/

/-- **C90.** The values of flagged samples do not matter.  Missing: an explicit array
of more than one flag, which is refused (`C90_violation`). -/
theorem C90_flagged_partial (q : QExt) (hq : PixOk q) (mission : List Chunk) (su : Setup)
    (hns : 0 < su.nsideOut) (st : State) (off : Quat.Q) (polang : ℝ) (s : Sub) (i n : Nat)
    (h : BinOk mission su st s i n) (tod tod' : List ℝ) (ht : tod.length = n)
    (ht' : tod'.length = n)
    (hsame : ∀ k, k < n → flagged su i k = false → tod[k]? = tod'[k]?) (maps : Maps) :
    binTod q mission su st off polang tod .none s maps =
      binTod q mission su st off polang tod' .none s maps := by
  unfold binTod
  rw [binLocal_spec q hq mission su hns st off polang s i n h tod ht,
    binLocal_spec q hq mission su hns st off polang s i n h tod' ht']
  have : observations q su st off polang i n (fun k => (tod[k]?).getD 0) =
      observations q su st off polang i n fun k => (tod'[k]?).getD 0 := by
    unfold observations
    apply List.map_congr_left
    intro k hk
    obtain ⟨h1, h2⟩ := List.mem_filter.1 hk
    dsimp only
    rw [hsame k (List.mem_range.1 h1) (by simpa using h2)]
  rw [this]

/-- **C90.** If all samples are flagged, the maps stay as they are. -/
theorem C90_all_flagged (q : QExt) (hq : PixOk q) (mission : List Chunk) (su : Setup)
    (hns : 0 < su.nsideOut) (st : State) (off : Quat.Q) (polang : ℝ) (s : Sub) (i n : Nat)
    (h : BinOk mission su st s i n) (tod : List ℝ) (ht : tod.length = n)
    (hall : ∀ k, k < n → flagged su i k = true) (maps : Maps)
    (hm : maps.length = 12 * su.nsideOut ^ 2) :
    binTod q mission su st off polang tod .none s maps = .ok maps := by
  unfold binTod
  rw [binLocal_spec q hq mission su hns st off polang s i n h tod ht]
  have : observations q su st off polang i n (fun k => (tod[k]?).getD 0) = [] := by
    unfold observations
    rw [List.filter_eq_nil_iff.2, List.map_nil]
    intro k hk
    simp [hall k (List.mem_range.1 hk)]
  rw [this, mapsOf_nil]
  simp only [bind, Except.bind]
  unfold iadd allocateMaps
  rw [if_pos (by simp [hm])]
  congr 1
  apply List.ext_getElem (by simp [hm])
  intro k h1 h2
  simp

/-- **C90.** With `flag=False` the attribute `flag` is ignored. -/
theorem C90_flag_false (q : QExt) (mission : List Chunk) (su : Setup) (st : State) (off : Quat.Q)
    (polang : ℝ) (tod : List ℝ) (s : Sub) (maps : Maps) :
    binTod q mission su st off polang tod (.bool false) s maps =
      binTod q mission { su with flag := none } st off polang tod .none s maps := rfl

/-- **C90, violated.** Flags that are given as an array of more than one element are rejected,
although the argument is documented as an array of the size of `tod`. -/
theorem C90_violation (q : QExt) (mission : List Chunk) (su : Setup) (st : State) (off : Quat.Q)
    (polang : ℝ) (s : Sub) (i n : Nat) (h : BinOk mission su st s i n) (hn : 1 < n)
    (tod : List ℝ) (flag : List Bool) (hf : flag.length = n) (maps : Maps) :
    binTod q mission su st off polang tod (.array flag) s maps = .error .valueError := by
  obtain ⟨c, hc1, hc2, hc3⟩ := h.sub.chunk
  obtain ⟨hw, hhw⟩ := Option.ne_none_iff_exists'.1 h.hwp
  unfold binTod binLocal
  rw [hhw]
  simp only [bind, Except.bind]
  unfold Chunks.chunk2idx
  rw [hc1]
  simp only [bind, Except.bind, pure, Except.pure]
  have e : flagOf su.flag (s.start - c.start) (s.stop - c.start) (.array flag) =
      .error .valueError := by
    show (if 1 < flag.length then _ else _) = _
    rw [if_pos (by omega)]
  rw [e]

/-! ### A concrete case -/

namespace Rec

/-- For a rotation, a number that turns by half the angle of rotations around the z axis. -/
def zc (q : Quat.Q) : ℂ :=
  if (q 0 : ℂ) + q 3 * I = 0 then q 1 - q 2 * I else q 0 + q 3 * I

/-- Rotation around the z axis. -/
def rz (th : ℝ) : Quat.Q := ![Real.cos (th / 2), 0, 0, Real.sin (th / 2)]

theorem zc_rz (q : Quat.Q) (th : ℝ) : zc (Quat.quatLeftMult q (rz th)) = zc q * exp (th / 2 * I) := by
  have e : exp (th / 2 * I) = (Real.cos (th / 2) : ℂ) + (Real.sin (th / 2) : ℂ) * I := by
    rw [show (th / 2 * I : ℂ) = ((th / 2 : ℝ) : ℂ) * I by push_cast; ring, exp_mul_I]
    push_cast
    rfl
  have h03 : ((Quat.quatLeftMult q (rz th) 0 : ℝ) : ℂ) + (Quat.quatLeftMult q (rz th) 3 : ℝ) * I =
      ((q 0 : ℂ) + q 3 * I) * exp (th / 2 * I) := by
    rw [e]
    simp [Quat.quatLeftMult, rz]
    linear_combination (-(q 3 : ℂ) * sin ((th : ℂ) / 2)) * I_mul_I
  have h12 : ((Quat.quatLeftMult q (rz th) 1 : ℝ) : ℂ) - (Quat.quatLeftMult q (rz th) 2 : ℝ) * I =
      ((q 1 : ℂ) - q 2 * I) * exp (th / 2 * I) := by
    rw [e]
    simp [Quat.quatLeftMult, rz]
    linear_combination ((q 2 : ℂ) * sin ((th : ℂ) / 2)) * I_mul_I
  unfold zc
  rw [h03, h12]
  by_cases h : (q 0 : ℂ) + q 3 * I = 0
  · rw [if_pos h, if_pos (by rw [h, zero_mul])]
  · rw [if_neg h, if_neg (mul_ne_zero h (exp_ne_zero _))]

theorem zc_ne (q : Quat.Q) (h : IsRot q) : zc q ≠ 0 := by
  intro h0
  have key : ∀ a b : ℝ, (a : ℂ) + b * I = 0 → a = 0 ∧ b = 0 := by
    intro a b h
    have h1 := congrArg Complex.re h
    have h2 := congrArg Complex.im h
    simp at h1 h2
    exact ⟨h1, h2⟩
  unfold zc at h0
  split_ifs at h0 with hc
  swap
  · exact hc h0
  obtain ⟨h1, h2⟩ := key _ _ hc
  obtain ⟨h3, h4⟩ := key (q 1) (-q 2) (by push_cast; linear_combination h0)
  unfold IsRot at h
  rw [Fin.sum_univ_four] at h
  have : q 2 = 0 := by linarith
  rw [h1, h2, h3, this] at h
  norm_num at h

theorem mult_assoc (a b c : Quat.Q) : Quat.quatLeftMult a (Quat.quatLeftMult b c) =
    Quat.quatLeftMult (Quat.quatLeftMult a b) c := by
  funext i
  fin_cases i <;> simp [Quat.quatLeftMult] <;> ring

/-- Everything is in pixel 0. -/
def ext : Ext where
  detOffset := fun _ _ _ => ![1, 0, 0, 0]
  bore2pix := fun o _ b _ => (0, -(2 * arg (zc (Quat.quatLeftMult b o))) * 180 / Real.pi)
  bore2radec := fun _ _ _ => (0, 0, 0)
  weights := fun _ _ _ => [(0, 1)]
  ang2pix := fun _ _ _ => 0

def qp : QExt where
  hwpQuat := fun h => rz (-(2 * (h * Real.pi / 180)))
  quat2pix := fun b h o _ _ =>
    let u := zc (Quat.quatLeftMult b (Quat.quatLeftMult o h))
    let w := (star u / (‖u‖ : ℂ)) ^ 4
    (0, w.re, -w.im)
  solve := fun v P fill => if P 0 = 0 then fun _ => fill else (sym P)⁻¹.mulVec v

theorem ext_ok : ExtOk ext := by
  constructor
  · intro q t b n hn
    have : (0 : Int) < (n : Int) ^ 2 := by positivity
    exact ⟨le_refl _, by show (0 : Int) < _; omega⟩
  · intro n th ph hn iw hiw
    have : (0 : Int) < (n : Int) ^ 2 := by positivity
    have h : iw = (0, 1) := by simpa [ext] using hiw
    rw [h]
    exact ⟨le_refl _, by show (0 : Int) < _; omega⟩

theorem pix_ok : PixOk qp := by
  intro b h o t n hn
  have : (0 : Int) < (n : Int) ^ 2 := by positivity
  exact ⟨le_refl _, by show (0 : Int) < _; omega⟩

theorem solve_ok : SolveOk qp := by
  constructor
  · intro v P fill h0 hd
    show (sym P).mulVec (if P 0 = 0 then _ else _) = v
    rw [if_neg h0, Matrix.mulVec_mulVec, Matrix.mul_nonsing_inv _ (isUnit_iff_ne_zero.2 hd),
      Matrix.one_mulVec]
  · intro v P fill h0
    show (if P 0 = 0 then _ else _) = _
    rw [if_pos h0]

theorem agree : Agree ext qp false := by
  intro b o t polang h nside hb ho
  have hz := zc_ne _ (isRot_mult b o hb ho)
  show (_, _, _) = (_, _, _)
  have e1 : Quat.quatLeftMult b (Quat.quatLeftMult (binOff o polang) (qp.hwpQuat h)) =
      Quat.quatLeftMult (Quat.quatLeftMult (Quat.quatLeftMult b o) (rz (-(polang * Real.pi / 180))))
        (rz (-(2 * (h * Real.pi / 180)))) := by
    rw [mult_assoc]
    congr 1
    rw [← mult_assoc]
    rfl
  set z := zc (Quat.quatLeftMult b o) with hzdef
  set th : ℝ := (polang + 2 * h) * Real.pi / 180 with hth
  have e2 : zc (Quat.quatLeftMult b (Quat.quatLeftMult (binOff o polang) (qp.hwpQuat h))) =
      z * exp (((-th / 2 : ℝ) : ℂ) * I) := by
    rw [e1, zc_rz, zc_rz, mul_assoc, ← exp_add]
    congr 2
    rw [hth]
    push_cast
    ring
  have hn : ‖z * exp (((-th / 2 : ℝ) : ℂ) * I)‖ = ‖z‖ := by
    rw [norm_mul, norm_exp_ofReal_mul_I, mul_one]
  have hw : (star (z * exp (((-th / 2 : ℝ) : ℂ) * I)) / (‖z‖ : ℂ)) ^ 4 =
      exp (((2 * (-(2 * arg z) + th) : ℝ) : ℂ) * I) := by
    have h1 : star z / (‖z‖ : ℂ) = exp (((-arg z : ℝ) : ℂ) * I) := by
      have hnz : (‖z‖ : ℂ) ≠ 0 := by simpa using hz
      rw [div_eq_iff hnz]
      conv_lhs => rw [← norm_mul_exp_arg_mul_I z]
      rw [star_mul']
      show (starRingEnd ℂ) _ * (starRingEnd ℂ) _ = _
      rw [conj_ofReal, ← exp_conj]
      simp only [map_mul, conj_ofReal, conj_I]
      push_cast
      rw [mul_comm]
      congr 2
      ring
    have h2 : star (exp (((-th / 2 : ℝ) : ℂ) * I)) = exp (((th / 2 : ℝ) : ℂ) * I) := by
      show (starRingEnd ℂ) _ = _
      rw [← exp_conj]
      simp only [map_mul, conj_ofReal, conj_I]
      push_cast
      congr 1
      ring
    rw [star_mul', mul_div_right_comm, h1, h2, ← exp_add, ← exp_nat_mul]
    congr 1
    push_cast
    ring
  have hpsi : 2 * ((-(2 * arg z) * 180 / Real.pi + polang + 2 * h) * Real.pi / 180) =
      2 * (-(2 * arg z) + th) := by
    have := Real.pi_ne_zero
    rw [hth]
    field_simp
    ring
  have ecos : (exp (((2 * (-(2 * arg z) + th) : ℝ) : ℂ) * I)).re =
      Real.cos (2 * (-(2 * arg z) + th)) := exp_ofReal_mul_I_re _
  have esin : (exp (((2 * (-(2 * arg z) + th) : ℝ) : ℂ) * I)).im =
      Real.sin (2 * (-(2 * arg z) + th)) := exp_ofReal_mul_I_im _
  refine Prod.ext rfl (Prod.ext ?_ ?_)
  · show (_ : ℂ).re = Real.cos (2 * ((-(2 * arg z) * 180 / Real.pi + polang + 2 * h) * Real.pi / 180))
    rw [hpsi, e2, hn, hw, ecos]
  · show -(_ : ℂ).im =
      -1 * Real.sin (2 * ((-(2 * arg z) * 180 / Real.pi + polang + 2 * h) * Real.pi / 180))
    rw [hpsi, e2, hn, hw, esin]
    ring

/-- A detector with a symmetric beam, angle 7 deg. -/
def det : Detector := ⟨⟨false, false, 0, 1, 2, 7⟩, ⟨Conv.rows 6 3 (Conv.bcoef 2), 4, true, none, 0⟩⟩

def mission : List Chunk := [{ start := 0, stop := 5, cidx := some 0 }]

/-- Five samples, of which the last three but one are used, while the plate turns. -/
def job : Job where
  det := det
  polangBin := 0
  su := ⟨0, 1, some [true, false, false, false, true]⟩
  st := { ctime := [0, 1, 2, 3, 4], qBore := List.replicate 5 ![1, 0, 0, 0], qGround := none,
          rotAngle := 0, hwpAng := some (.array [0, Real.pi / 8, Real.pi / 4]),
          maps := ⟨[], none, []⟩, tod := none }
  s := ⟨1, 4, 0⟩

theorem det_ok (c : Nat) : DetectorOk 5 (Conv.rows 5 3 (Conv.coef c)) (Conv.coef c) 4 false false det
    [] (fun _ => 6) (fun _ => Conv.bcoef 2) := by
  refine ⟨rfl, rfl, ?_, by simp, ⟨0, ?_⟩, by simp⟩
  · intro g hg
    have : g = det := by simpa using hg
    subst this
    exact ⟨Conv.rows_ok _ _ _, Conv.rows_ok _ _ _, by simp, by simp, by decide, by decide,
      by simp, by simp [det]⟩
  · intro n
    constructor
    · rintro ⟨g, hg, _⟩
      simp at hg
    · rintro ⟨h1, h2⟩
      exfalso
      simp at h2
      omega

theorem bin_ok : BinOk mission job.su job.st job.s 1 3 := by
  refine ⟨⟨⟨_, rfl, rfl, rfl⟩, by decide, by simp [job], ?_⟩, by simp [job], ?_⟩
  · intro a h
    have : a = [0, Real.pi / 8, Real.pi / 4] := by simpa [job] using h.symm
    rw [this]
    rfl
  · intro f h
    have : f = [true, false, false, false, true] := by simpa [job] using h.symm
    rw [this]
    decide

theorem one_rot : IsRot ![1, 0, 0, 0] := by
  unfold IsRot
  rw [Fin.sum_univ_four]
  simp

/-- The three angles: (1, 0), (0, -1), (-1, 0). -/
theorem seen_job : (seen ext qp (fun _ => 1) (fun _ => 3) [job]).map (fun o => (o.pix, o.c, o.s)) =
    [(0, 1, 0), (0, 0, -1), (0, -1, 0)] := by
  unfold seen observations
  rw [List.flatMap_singleton]
  have hf : (List.range 3).filter (fun k => !flagged job.su 1 k) = [0, 1, 2] := by decide
  rw [hf, List.map_map]
  have hq : ∀ k : Nat, k < 3 → qp.quat2pix ((job.st.qBore[1 + k]?).getD 0)
      (qp.hwpQuat (alphaAt job.st.hwpAng k * 180 / Real.pi - job.su.varphi))
      (binOff (offset ext job.st.rotAngle job.det.point) job.polangBin)
      ((job.st.ctime[1 + k]?).getD 0) job.su.nsideOut =
      (0, Real.cos (4 * alphaAt job.st.hwpAng k), -Real.sin (4 * alphaAt job.st.hwpAng k)) := by
    intro k hk
    have hb : (job.st.qBore[1 + k]?).getD 0 = ![1, 0, 0, 0] := by
      show ((List.replicate 5 ![(1 : ℝ), 0, 0, 0])[1 + k]?).getD 0 = _
      rw [List.getElem?_replicate, if_pos (by omega)]
      rfl
    have ho : offset ext job.st.rotAngle job.det.point = ![1, 0, 0, 0] := by
      show Quat.quatLeftMult ![Real.cos (0 * Real.pi / 180 / 2), 0, 0,
        Real.sin (0 * Real.pi / 180 / 2)] ![1, 0, 0, 0] = _
      simp [Quat.quatLeftMult]
    rw [hb, ho, agree _ _ _ _ _ _ one_rot one_rot]
    have hz : zc (Quat.quatLeftMult ![1, 0, 0, 0] ![1, 0, 0, 0]) = 1 := by
      simp [zc, Quat.quatLeftMult]
    show ((0 : Int), Real.cos (2 * ((-(2 * arg (zc _)) * 180 / Real.pi + 0 + 2 * _) * Real.pi / 180)),
      -1 * Real.sin (2 * ((-(2 * arg (zc _)) * 180 / Real.pi + 0 + 2 * _) * Real.pi / 180))) = _
    rw [hz, arg_one]
    have e : ∀ al : ℝ, 2 * ((-(2 * 0) * 180 / Real.pi + 0 + 2 * (al * 180 / Real.pi - 0)) *
        Real.pi / 180) = 4 * al := by
      intro al
      have := Real.pi_ne_zero
      field_simp
      ring
    have e' := e (alphaAt job.st.hwpAng k)
    have hv : job.su.varphi = 0 := rfl
    rw [hv, e']
    simp
  simp only [List.map_cons, List.map_nil, Function.comp_apply]
  rw [hq 0 (by omega), hq 1 (by omega), hq 2 (by omega)]
  have a0 : alphaAt job.st.hwpAng 0 = 0 := rfl
  have a1 : alphaAt job.st.hwpAng 1 = Real.pi / 8 := rfl
  have a2 : alphaAt job.st.hwpAng 2 = Real.pi / 4 := rfl
  rw [a0, a1, a2]
  have h1 : 4 * (Real.pi / 8) = Real.pi / 2 := by ring
  have h2 : 4 * (Real.pi / 4) = Real.pi := by ring
  rw [h1, h2]
  simp

theorem three : ThreeAngles (here 0 (seen ext qp (fun _ => 1) (fun _ => 3) [job])) := by
  have h := seen_job
  generalize seen ext qp (fun _ => 1) (fun _ => 3) [job] = l at h
  rcases l with _ | ⟨a, _ | ⟨b, _ | ⟨c, _ | ⟨d, l⟩⟩⟩⟩ <;> simp at h
  obtain ⟨⟨a1, a2, a3⟩, ⟨b1, b2, b3⟩, ⟨c1, c2, c3⟩⟩ := h
  refine ⟨a, ?_, b, ?_, c, ?_, ?_, ?_, ?_⟩
  · simp [here, a1]
  · simp [here, a1, b1]
  · simp [here, a1, b1, c1]
  · rw [a2, b2]
    norm_num
  · rw [a2, c2]
    norm_num
  · rw [b2, c2]
    norm_num

/-- The hypotheses of `C87_recovery` are met, and the pixel 0 is solved. -/
example (fill : ℝ) : ∃ m, observeAll Conv.Y ext qp mission (Conv.rows 5 3 (Conv.coef 1)) 4 1 false
      false [job] (allocateMaps 1) = .ok m ∧
    (solveForMap qp m fill)[0]? = some (stokes false
      (smoothI Conv.Y 1 5 (skyOf false (Conv.coef 1)) (beamOf false (Conv.bcoef 2)) 0)
      (smoothP Conv.Y 1 5 (skyOf false (Conv.coef 1)) (beamOf false (Conv.bcoef 2)) 0 *
        exp (2 * ((7 + 2 * 0) * Real.pi / 180 : ℝ) * I))) ∧
    (solveForMap qp m fill)[5]? = some fun _ => fill := by
  obtain ⟨m, h1, h2⟩ := C87_recovery Conv.Y Conv.Y_conj ext ext_ok qp pix_ok solve_ok false agree
    mission (Conv.coef_real 1 5) (Conv.bcoef_real 2 6) 1 one_pos 7 0 [job] (fun _ => 1) (fun _ => 3)
    (by
      intro j hj
      have : j = job := by simpa using hj
      subst this
      exact det_ok 1) (by
      intro j hj
      have : j = job := by simpa using hj
      subst this
      exact ⟨rfl, rfl⟩) (by
      intro j hj
      have : j = job := by simpa using hj
      subst this
      exact ⟨rfl, rfl, by show (7 : ℝ) = 0 + 7; norm_num⟩) (by
      intro j hj
      have : j = job := by simpa using hj
      subst this
      refine ⟨?_, one_rot⟩
      intro r hr
      have : r = ![1, 0, 0, 0] := List.eq_of_mem_replicate hr
      rw [this]
      exact one_rot) (by
      intro j hj
      have : j = job := by simpa using hj
      subst this
      exact bin_ok) fill
  refine ⟨m, h1, (h2 0 (by norm_num)).1 three, (h2 5 (by norm_num)).2 ?_⟩
  have h := seen_job
  generalize seen ext qp (fun _ => 1) (fun _ => 3) [job] = l at h
  rcases l with _ | ⟨a, _ | ⟨b, _ | ⟨c, _ | ⟨d, l⟩⟩⟩⟩ <;> simp at h
  obtain ⟨⟨a1, a2, a3⟩, ⟨b1, b2, b3⟩, ⟨c1, c2, c3⟩⟩ := h
  simp [here, a1, b1, c1]

/-- A call of `bin_tod` for this subchunk, whole and cut after the first sample. -/
def call : Call := ⟨job.su, job.st, ![1, 0, 0, 0], 0, [1, 2, 3], ⟨1, 4, 0⟩, 1, 3⟩

def call1 : Call := ⟨job.su, { job.st with hwpAng := some (.array [0]) }, ![1, 0, 0, 0], 0, [1],
  ⟨1, 2, 0⟩, 1, 1⟩

def call2 : Call := ⟨job.su, { job.st with hwpAng := some (.array [Real.pi / 8, Real.pi / 4]) },
  ![1, 0, 0, 0], 0, [2, 3], ⟨2, 4, 0⟩, 2, 2⟩

/-- The hypotheses of `C86_binning`, `C86_order` and `C86_cut` are met. -/
example : CallOk mission 1 call ∧ CallOk mission 1 call1 ∧ CallOk mission 1 call2 ∧
    Cut call call1 call2 := by
  have hfl : ∀ (k : Nat), k ≤ 5 → ∀ f, job.su.flag = some f → k ≤ f.length := by
    intro k hk f h
    have : f = [true, false, false, false, true] := by simpa [job] using h.symm
    rw [this]
    exact hk
  refine ⟨⟨rfl, bin_ok, rfl⟩, ⟨rfl, ⟨⟨⟨_, rfl, rfl, rfl⟩, by decide, by simp [call1, job], ?_⟩,
    by simp [call1], hfl _ (by decide)⟩, rfl⟩,
    ⟨rfl, ⟨⟨⟨_, rfl, rfl, rfl⟩, by decide, by simp [call2, job], ?_⟩, by simp [call2],
      hfl _ (by decide)⟩, rfl⟩, ?_⟩
  · intro a h
    have : a = [0] := by simpa [call1] using h.symm
    rw [this]
    rfl
  · intro a h
    have : a = [Real.pi / 8, Real.pi / 4] := by simpa [call2] using h.symm
    rw [this]
    rfl
  · refine ⟨rfl, rfl, rfl, ⟨rfl, rfl⟩, ⟨rfl, rfl⟩, ⟨rfl, rfl⟩, ⟨rfl, rfl⟩, ⟨rfl, rfl⟩, ?_, ?_, rfl⟩
    · intro k hk
      have : k = 0 := by
        have : k < 1 := hk
        omega
      subst this
      rfl
    · intro k hk
      have : k < 2 := hk
      interval_cases k <;> rfl

/-- The hypotheses of `C90_flagged_partial` are met by timelines that differ in a flagged sample. -/
example : BinOk mission ⟨0, 1, some [true, false, true, false, true]⟩ job.st job.s 1 3 ∧
    flagged ⟨0, 1, some [true, false, true, false, true]⟩ 1 1 = true := by
  refine ⟨⟨bin_ok.sub, bin_ok.hwp, ?_⟩, rfl⟩
  intro f h
  have : f = [true, false, true, false, true] := by simpa using h.symm
  rw [this]
  decide

/-- The hypotheses of `C89_preview` are met, by the detector with its spin maps. -/
example : ∃ t : Task, (t.su.nsideOut = 1 ∧ BinOk mission t.su t.st t.s t.i t.n) ∧
    (t.det.beam.dead = false ∧ t.det.beam.ghost = false) ∧ 0 < t.n ∧
    ∃ r, scanDetector ext mission t.det.beam t.det.ghosts t.s false false false t.st = .ok r ∧
      r.1.tod.length = t.n := by
  have hobs := C71_convolution Conv.Y Conv.Y_conj ext ext_ok mission (det_ok 1) (Conv.coef_real 1 5)
    (by intro g _; exact Conv.bcoef_real 2 6) (by
      intro g hg
      have : g = det := by simpa using hg
      rw [this]; rfl) 1 one_pos job.s false false job.st 1 3 bin_ok.sub _ (fun _ _ => rfl)
  unfold observe at hobs
  obtain ⟨sm, h1, h2⟩ := bind_ok hobs
  obtain ⟨r, h3, h4⟩ := bind_ok h2
  refine ⟨⟨⟨det.point, [], 0⟩, job.su, { job.st with maps := sm }, job.s, 1, 3⟩,
    ⟨rfl, ⟨⟨bin_ok.sub.chunk, bin_ok.sub.times, bin_ok.sub.bore, bin_ok.sub.hwp⟩, bin_ok.hwp,
      bin_ok.flags⟩⟩, ⟨rfl, rfl⟩, Nat.succ_pos 2, r, h3, ?_⟩
  have := congrArg List.length (Except.ok.inj h4)
  simpa using this

/-- The hypotheses of `C90_all_flagged` and `C90_violation` are met. -/
example : BinOk mission ⟨0, 1, some [true, true, true, true, true]⟩ job.st job.s 1 3 ∧
    (∀ k, k < 3 → flagged ⟨0, 1, some [true, true, true, true, true]⟩ 1 k = true) ∧ 1 < 3 := by
  refine ⟨⟨bin_ok.sub, bin_ok.hwp, ?_⟩, by decide, by decide⟩
  intro f h
  have : f = [true, true, true, true, true] := by simpa using h.symm
  rw [this]
  decide

end Rec

end Verif.Props
