import Verif.Lemmas.MapMaking
import Verif.Props.Convolution

/-!
# Lemmas for the properties of binned maps
-/

noncomputable section

namespace Verif.Props

open Verif.Chunks Verif.Timeline Verif.Spinmaps Verif.MapMaking Complex

theorem binCalls_spec (q : QExt) (hq : PixOk q) (mission : List Chunk) (nside : Nat)
    (hns : 0 < nside) (cs : List Call) (h : ∀ c ∈ cs, CallOk mission nside c) :
    binCalls q mission nside cs =
      .ok (mapsOf (12 * nside ^ 2) (cs.flatMap fun c => c.obs q)) := by
  unfold binCalls
  rw [← mapsOf_nil]
  suffices H : ∀ os, cs.foldlM (fun m c => binTod q mission c.su c.st c.off c.polang c.tod .none c.s m)
      (mapsOf (12 * nside ^ 2) os) =
      .ok (mapsOf (12 * nside ^ 2) (os ++ cs.flatMap fun c => c.obs q)) by
    simpa using H []
  induction cs with
  | nil => intro os; simp [pure, Except.pure]
  | cons c cs ih =>
    intro os
    have hc := h c List.mem_cons_self
    rw [List.foldlM_cons]
    have e := binTod_spec q hq mission c.su (by rw [hc.nside]; exact hns) c.st c.off c.polang c.s
      c.i c.n hc.ok c.tod hc.tod os
    rw [hc.nside] at e
    rw [e]
    simp only [bind, Except.bind]
    rw [ih (fun c hc => h c (List.mem_cons_of_mem _ hc))]
    simp [Call.obs]

theorem vec_proj (os : List Obs) (X : Nat → Fin 3 → ℝ) (p : Nat)
    (h : ∀ o ∈ os, o.d = X o.pix.toNat 0 + o.c * X o.pix.toNat 1 + o.s * X o.pix.toNat 2) :
    vecAt os p = (projAt os p).mulVec (X p) := by
  unfold vecAt projAt
  have h' : ∀ o ∈ here p os, o.d = X p 0 + o.c * X p 1 + o.s * X p 2 := by
    intro o ho
    obtain ⟨h1, h2⟩ := List.mem_filter.1 ho
    have h2 : o.pix = (p : Int) := by simpa using h2
    have := h o h1
    rw [h2] at this
    simpa using this
  generalize here p os = l at h'
  induction l with
  | nil => simp
  | cons o l ih =>
    simp only [List.map_cons, List.sum_cons, Matrix.add_mulVec]
    rw [ih fun o ho => h' o (List.mem_cons_of_mem _ ho)]
    congr 1
    rw [h' o List.mem_cons_self]
    funext i
    fin_cases i <;>
    simp [Obs.w, Matrix.vecMulVec, Matrix.mulVec, dotProduct, Fin.sum_univ_three] <;> ring

theorem projAt_zero (os : List Obs) (p : Nat) : projAt os p 0 0 = (here p os).length := by
  unfold projAt
  induction here p os with
  | nil => simp
  | cons o l ih =>
    rw [List.map_cons, List.sum_cons, Matrix.add_apply, ih]
    simp [Obs.w, Matrix.vecMulVec]
    ring

theorem hits_ne {os : List Obs} {p : Nat} {P : Fin 6 → ℝ} (e : sym P = projAt os p)
    (hd : (sym P).det ≠ 0) : P 0 ≠ 0 := by
  intro h0
  have h1 : projAt os p 0 0 = 0 := by
    rw [← e]
    exact h0
  rw [projAt_zero] at h1
  have h2 : here p os = [] := List.length_eq_zero_iff.1 (by exact_mod_cast h1)
  apply hd
  rw [e]
  unfold projAt
  rw [h2]
  simp

/-- The quadratic form of the matrix of a pixel is a sum of squares. -/
theorem quad (l : List Obs) (v : Fin 3 → ℝ) :
    dotProduct v (((l.map fun o => Matrix.vecMulVec o.w o.w).sum).mulVec v) =
      (l.map fun o => (o.w 0 * v 0 + o.w 1 * v 1 + o.w 2 * v 2) ^ 2).sum := by
  induction l with
  | nil => simp
  | cons o l ih =>
    simp only [List.map_cons, List.sum_cons, Matrix.add_mulVec, dotProduct_add, ih]
    congr 1
    simp only [dotProduct, Matrix.mulVec, Matrix.vecMulVec, Matrix.of_apply, Fin.sum_univ_three]
    ring

theorem sum_sq_zero (l : List Obs) (f : Obs → ℝ) (h : (l.map fun o => f o ^ 2).sum = 0) :
    ∀ o ∈ l, f o = 0 := by
  induction l with
  | nil => simp
  | cons a l ih =>
    have hnn : 0 ≤ (l.map fun o => f o ^ 2).sum := by
      apply List.sum_nonneg
      intro x hx
      obtain ⟨o, _, rfl⟩ := List.mem_map.1 hx
      positivity
    rw [List.map_cons, List.sum_cons] at h
    have h1 : f a ^ 2 = 0 := by
      have := sq_nonneg (f a)
      linarith
    intro o ho
    rcases List.mem_cons.1 ho with rfl | ho
    · exact pow_eq_zero_iff (two_ne_zero) |>.1 h1
    · exact ih (by linarith) o ho

/-- A line meets the circle in two points at most. -/
theorem line_circle {c1 s1 c2 s2 c3 s3 v0 v1 v2 : ℝ} (h1 : c1 ^ 2 + s1 ^ 2 = 1)
    (h2 : c2 ^ 2 + s2 ^ 2 = 1) (h3 : c3 ^ 2 + s3 ^ 2 = 1) (h12 : ¬ (c1 = c2 ∧ s1 = s2))
    (h13 : ¬ (c1 = c3 ∧ s1 = s3)) (h23 : ¬ (c2 = c3 ∧ s2 = s3))
    (e1 : v0 + c1 * v1 + s1 * v2 = 0) (e2 : v0 + c2 * v1 + s2 * v2 = 0)
    (e3 : v0 + c3 * v1 + s3 * v2 = 0) : v0 = 0 ∧ v1 = 0 ∧ v2 = 0 := by
  by_cases hv : v1 = 0 ∧ v2 = 0
  · obtain ⟨rfl, rfl⟩ := hv
    exact ⟨by linarith, rfl, rfl⟩
  exfalso
  have hn : 0 < v1 ^ 2 + v2 ^ 2 := by
    rcases not_and_or.1 hv with h | h
    · have := sq_pos_of_ne_zero h
      have := sq_nonneg v2
      linarith
    · have := sq_pos_of_ne_zero h
      have := sq_nonneg v1
      linarith
  -- position along the line
  have pos : ∀ c s : ℝ, v0 + c * v1 + s * v2 = 0 → c ^ 2 + s ^ 2 = 1 →
      (v1 * s - v2 * c) ^ 2 = v1 ^ 2 + v2 ^ 2 - v0 ^ 2 ∧
      (v1 ^ 2 + v2 ^ 2) * c = -v0 * v1 - v2 * (v1 * s - v2 * c) ∧
      (v1 ^ 2 + v2 ^ 2) * s = -v0 * v2 + v1 * (v1 * s - v2 * c) := by
    intro c s e h
    refine ⟨?_, by linear_combination v1 * e, by linear_combination v2 * e⟩
    linear_combination (v1 ^ 2 + v2 ^ 2) * h - (c * v1 + s * v2 - v0) * e
  obtain ⟨p1, q1, r1⟩ := pos _ _ e1 h1
  obtain ⟨p2, q2, r2⟩ := pos _ _ e2 h2
  obtain ⟨p3, q3, r3⟩ := pos _ _ e3 h3
  have same : ∀ c s c' s' : ℝ, v1 * s - v2 * c = v1 * s' - v2 * c' →
      (v1 ^ 2 + v2 ^ 2) * c = -v0 * v1 - v2 * (v1 * s - v2 * c) →
      (v1 ^ 2 + v2 ^ 2) * s = -v0 * v2 + v1 * (v1 * s - v2 * c) →
      (v1 ^ 2 + v2 ^ 2) * c' = -v0 * v1 - v2 * (v1 * s' - v2 * c') →
      (v1 ^ 2 + v2 ^ 2) * s' = -v0 * v2 + v1 * (v1 * s' - v2 * c') → c = c' ∧ s = s' := by
    intro c s c' s' h a1 a2 a3 a4
    constructor
    · apply mul_left_cancel₀ hn.ne'
      rw [a1, a3, h]
    · apply mul_left_cancel₀ hn.ne'
      rw [a2, a4, h]
  have d12 : v1 * s1 - v2 * c1 = -(v1 * s2 - v2 * c2) := by
    rcases sq_eq_sq_iff_eq_or_eq_neg.1 (p1.trans p2.symm) with h | h
    · exact absurd (same _ _ _ _ h q1 r1 q2 r2) h12
    · exact h
  have d13 : v1 * s1 - v2 * c1 = -(v1 * s3 - v2 * c3) := by
    rcases sq_eq_sq_iff_eq_or_eq_neg.1 (p1.trans p3.symm) with h | h
    · exact absurd (same _ _ _ _ h q1 r1 q3 r3) h13
    · exact h
  exact h23 (same _ _ _ _ (by linarith) q2 r2 q3 r3)

theorem not_three {l : List Obs} (h : ¬ ThreeAngles l) :
    ∃ v : Fin 3 → ℝ, v ≠ 0 ∧ ∀ o ∈ l, o.w 0 * v 0 + o.w 1 * v 1 + o.w 2 * v 2 = 0 := by
  rcases l with _ | ⟨a, l⟩
  · exact ⟨1, one_ne_zero, by simp⟩
  by_cases hall : ∀ o ∈ a :: l, o.c = a.c ∧ o.s = a.s
  · refine ⟨![-a.c, 1, 0], fun h => ?_, ?_⟩
    · have := congrFun h 1
      simp at this
    · intro o ho
      simp [Obs.w, (hall o ho).1]
  · push Not at hall
    obtain ⟨b, hb, hab⟩ := hall
    refine ⟨![-((a.s - b.s) * a.c + (b.c - a.c) * a.s), a.s - b.s, b.c - a.c], fun h => ?_, ?_⟩
    · have h1 := congrFun h 1
      have h2 := congrFun h 2
      simp at h1 h2
      exact hab (by linarith) (by linarith)
    · intro o ho
      have : (o.c = a.c ∧ o.s = a.s) ∨ (o.c = b.c ∧ o.s = b.s) := by
        by_contra hno
        push Not at hno
        refine h ⟨a, List.mem_cons_self, b, hb, o, ho, ?_, ?_, ?_⟩
        · rintro ⟨e1, e2⟩
          exact hab e1.symm e2.symm
        · rintro ⟨e1, e2⟩
          exact hno.1 e1.symm e2.symm
        · rintro ⟨e1, e2⟩
          exact hno.2 e1.symm e2.symm
      rcases this with ⟨e1, e2⟩ | ⟨e1, e2⟩ <;> simp [Obs.w, e1, e2] <;> ring

theorem solve_unique (q : QExt) (hs : SolveOk q) (v : Fin 3 → ℝ) (P : Fin 6 → ℝ) (fill : ℝ)
    (X : Fin 3 → ℝ) (h0 : P 0 ≠ 0) (hd : (sym P).det ≠ 0) (hv : v = (sym P).mulVec X) : q.solve v P fill = X := by
  have h := hs.regular v P fill h0 hd
  rw [hv] at h ⊢
  have hu : IsUnit (sym P) := (Matrix.isUnit_iff_isUnit_det _).2 (isUnit_iff_ne_zero.2 hd)
  exact Matrix.mulVec_injective_of_isUnit hu h

theorem look_one (p : Int) (pa al : ℝ) (f : Nat → ℂ) : look ⟨[(p, 1)], pa, al⟩ f = f p.toNat := by
  simp [look]

theorem turned_P (psi : ℝ) (b : Stokes) (l : Nat) (s : Int) :
    (turned psi b).P l s = exp (2 * psi * I) * b.P l s := by
  have e : exp (2 * psi * I) = (Real.cos (2 * psi) : ℂ) + (Real.sin (2 * psi) : ℂ) * I := by
    rw [show (2 * psi * I : ℂ) = ((2 * psi : ℝ) : ℂ) * I by push_cast; ring, exp_mul_I]
    push_cast
    rfl
  unfold turned Stokes.P
  rw [e]
  dsimp only
  linear_combination (-(Real.sin (2 * psi) : ℂ) * b.U l (s - 2)) * I_mul_I

theorem synth_mul (Y : Harmonics) (nside L : Nat) (s : Int) (z : ℂ) (A : Nat → Int → ℂ) (p : Nat) :
    synth Y nside L s (fun l m => z * A l m) p = z * synth Y nside L s A p := by
  unfold synth
  rw [Finset.mul_sum]
  apply Finset.sum_congr rfl
  intro l _
  rw [Finset.mul_sum]
  apply Finset.sum_congr rfl
  intro m _
  ring

/-- A symmetric beam without interpolation. -/
theorem convolved_sym (Y : Harmonics) (nside L : Nat) (sky : Sky) (b : Stokes) (p : Int)
    (pa al psi : ℝ) :
    convolved Y nside L {0} {2} sky (turned psi b) ⟨[(p, 1)], Real.pi - pa, al⟩ =
      smoothI Y nside L sky b p.toNat +
        (smoothP Y nside L sky b p.toNat * exp (2 * (psi + pa) * I)).re := by
  unfold convolved
  rw [Finset.sum_singleton, Finset.sum_singleton, look_one, look_one, add_re]
  congr 1
  · unfold smoothI
    simp [turned]
  · congr 1
    have : (fun l m => (turned psi b).P l 2 * sky.P l m) =
        fun l m => exp (2 * psi * I) * (b.P l 2 * sky.P l m) := by
      funext l m
      rw [turned_P, mul_assoc]
    rw [this, synth_mul]
    unfold smoothP
    have e : exp (-I * ((2 : Int) : ℂ) * ((Real.pi - pa : ℝ) : ℂ)) = exp (2 * pa * I) := by
      rw [show -I * ((2 : Int) : ℂ) * ((Real.pi - pa : ℝ) : ℂ) = 2 * pa * I - 2 * Real.pi * I by
        push_cast; ring]
      rw [exp_sub, exp_two_pi_mul_I, div_one]
    rw [e, show (2 * (psi + pa) * I : ℂ) = 2 * psi * I + 2 * pa * I by ring, exp_add]
    ring

theorem re_mul_exp (P : ℂ) (psi : ℝ) :
    (P * exp (2 * psi * I)).re = Real.cos (2 * psi) * P.re - Real.sin (2 * psi) * P.im := by
  rw [show (2 * psi * I : ℂ) = ((2 * psi : ℝ) : ℂ) * I by push_cast; ring, exp_mul_I, mul_re]
  rw [← ofReal_cos, ← ofReal_sin]
  simp only [add_re, add_im, mul_re, mul_im, ofReal_re, ofReal_im, I_re, I_im]
  ring

theorem observeBin_spec (Y : Harmonics) (x : Ext) (q : QExt) (hq : PixOk q)
    (mission : List Chunk) (alm : List (List ℂ)) (maxSpin : Int) (nside : Nat) (hns : 0 < nside)
    (inputV beamV : Bool) (j : Job) (i n : Nat) (hnside : j.su.nsideOut = nside)
    (hbin : BinOk mission j.su j.st j.s i n) (tod : List ℝ) (ht : tod.length = n)
    (hobs : observe Y x mission alm maxSpin nside inputV beamV j.det [] j.s false false j.st =
      .ok tod) (os : List Obs) :
    observeBin Y x q mission alm maxSpin nside inputV beamV j (mapsOf (12 * nside ^ 2) os) =
      .ok (mapsOf (12 * nside ^ 2) (os ++ observations q j.su j.st
        (qOff x j.st.rotAngle j.det.point) j.polangBin i n fun k => (tod[k]?).getD 0)) := by
  unfold observe at hobs
  obtain ⟨sm, h1, h2⟩ := bind_ok hobs
  obtain ⟨r, h3, h4⟩ := bind_ok h2
  obtain rfl := Except.ok.inj h4
  have hst := scanDetector_state h3
  unfold observeBin
  rw [List.map_nil] at h1 h3
  rw [h1]
  simp only [bind, Except.bind]
  unfold scanBin
  dsimp only
  rw [h3]
  simp only [bind, Except.bind]
  rw [hst]
  subst hnside
  have e := binTod_spec q hq mission j.su hns { j.st with maps := sm, tod := some r.1.tod }
    (qOff x j.st.rotAngle j.det.point) j.polangBin j.s i n
    ⟨⟨hbin.sub.chunk, hbin.sub.times, hbin.sub.bore, hbin.sub.hwp⟩, hbin.hwp, hbin.flags⟩
    r.1.tod ht os
  rw [e]
  rfl

theorem isRot_mult (a b : Quat.Q) (ha : IsRot a) (hb : IsRot b) : IsRot (Quat.quatLeftMult a b) := by
  unfold IsRot at *
  rw [Fin.sum_univ_four] at *
  simp only [Quat.quatLeftMult, Matrix.cons_val_zero, Matrix.cons_val_one, Matrix.cons_val]
  calc _ = (a 0 ^ 2 + a 1 ^ 2 + a 2 ^ 2 + a 3 ^ 2) * (b 0 ^ 2 + b 1 ^ 2 + b 2 ^ 2 + b 3 ^ 2) := by ring
    _ = 1 := by rw [ha, hb, one_mul]

theorem qOff_rot (x : Ext) (ang : ℝ) (b : Timeline.Beam) (h : IsRot (x.detOffset b.az b.el 0)) :
    IsRot (qOff x ang b) := by
  unfold qOff
  apply isRot_mult _ _ _ h
  unfold IsRot
  rw [Fin.sum_univ_four]
  simp

theorem here_blank (p : Nat) (os : List Obs) : here p (os.map blank) = (here p os).map blank := by
  unfold here
  rw [List.filter_map]
  rfl

theorem three_blank (l : List Obs) : ThreeAngles (l.map blank) ↔ ThreeAngles l := by
  constructor
  · rintro ⟨o1, h1, o2, h2, o3, h3, a, b, c⟩
    obtain ⟨p1, k1, rfl⟩ := List.mem_map.1 h1
    obtain ⟨p2, k2, rfl⟩ := List.mem_map.1 h2
    obtain ⟨p3, k3, rfl⟩ := List.mem_map.1 h3
    exact ⟨p1, k1, p2, k2, p3, k3, a, b, c⟩
  · rintro ⟨o1, h1, o2, h2, o3, h3, a, b, c⟩
    exact ⟨_, List.mem_map_of_mem h1, _, List.mem_map_of_mem h2, _, List.mem_map_of_mem h3, a, b, c⟩

theorem observations_blank (q : QExt) (su : Setup) (st : State) (off : Quat.Q) (polang : ℝ)
    (i n : Nat) (value : Nat → ℝ) : (observations q su st off polang i n value).map blank =
      observations q su st off polang i n fun _ => 0 := by
  unfold observations
  rw [List.map_map]
  rfl

theorem scanSkip_spec (s : Sub) (b : Timeline.Beam) (add : Bool) (st : State) (n : Nat)
    (hn : s.stop = s.start + n) (hb : b.dead = false)
    (hadd : add = true → st.tod = some (List.replicate n 0)) :
    scanSkip s b add st = .ok { st with tod := some (List.replicate n 0) } := by
  unfold scanSkip
  rw [if_neg (by simp [hb])]
  have e : (s.stop - s.start).toNat = n := by omega
  rw [e]
  cases add with
  | false => rfl
  | true =>
    rw [hadd rfl]
    unfold addTod iadd
    simp only [bind, Except.bind, pure, Except.pure, if_true]
    simp

theorem ghostSkips_spec (s : Sub) (n : Nat) (hn : s.stop = s.start + n) (gs : List Timeline.Beam)
    (m : Nat) (st : State) (hm : m ≠ 0 → st.tod = some (List.replicate n 0)) :
    ∃ m' t, ghostSkips s gs m st = .ok (m', { st with tod := t }) ∧
      (m' ≠ 0 → t = some (List.replicate n 0)) := by
  induction gs generalizing m st with
  | nil => exact ⟨m, st.tod, rfl, hm⟩
  | cons g gs ih =>
    unfold ghostSkips
    by_cases hg : g.dead = true
    · rw [if_pos hg]
      exact ih m st hm
    · rw [if_neg hg, scanSkip_spec s g _ st n hn (by simpa using hg) (by simpa using hm)]
      simp only [bind, Except.bind]
      obtain ⟨m', t, h1, h2⟩ := ih (m + 1) { st with tod := some (List.replicate n 0) }
        (fun _ => rfl)
      exact ⟨m', t, h1, h2⟩

theorem previewDetector_spec (s : Sub) (n : Nat) (hn : s.stop = s.start + n)
    (b : Timeline.Beam) (gs : List Timeline.Beam) (st : State) (hb : b.dead = false)
    (hg : b.ghost = false) :
    previewDetector b gs s st = .ok { st with tod := some (List.replicate n 0) } := by
  unfold previewDetector
  rw [if_neg (by simp [hg])]
  obtain ⟨m', t, h1, h2⟩ := ghostSkips_spec s n hn gs 0 st (by simp)
  rw [h1]
  simp only [bind, Except.bind]
  rw [scanSkip_spec s b _ _ n hn hb (by
    intro h
    exact h2 (by simpa using Nat.pos_iff_ne_zero.1 (by simpa using h)))]

theorem cellAt_projOnly (os : List Obs) (p : Nat) :
    (cellAt os p).proj = (cellAt (os.map blank) p).proj := by
  unfold cellAt
  rw [here_blank, List.map_map]
  induction here p os with
  | nil => rfl
  | cons o l ih =>
    simp only [List.map_cons, List.sum_cons, add_proj, ih]
    rfl

theorem mapsOf_proj {N : Nat} {os os' : List Obs} (h : os.map blank = os'.map blank) :
    (mapsOf N os).map (·.proj) = (mapsOf N os').map (·.proj) := by
  unfold mapsOf
  rw [List.map_map, List.map_map]
  apply List.map_congr_left
  intro p _
  simp only [Function.comp_apply]
  rw [cellAt_projOnly os, cellAt_projOnly os', h]

theorem vec_zero {os : List Obs} (h : ∀ o ∈ os, o.d = 0) (p : Nat) : vecAt os p = 0 := by
  unfold vecAt
  have h' : ∀ o ∈ here p os, o.d = 0 := fun o ho => h o (List.mem_filter.1 ho).1
  generalize here p os = l at h'
  induction l with
  | nil => rfl
  | cons o l ih =>
    rw [List.map_cons, List.sum_cons, ih fun o ho => h' o (List.mem_cons_of_mem _ ho),
      h' o List.mem_cons_self]
    simp

end Verif.Props
