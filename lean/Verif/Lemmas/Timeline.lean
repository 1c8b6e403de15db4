import Verif.Spec.Timeline
import Verif.Lemmas.Alm

/-! # Lemmas about scanning -/

noncomputable section

namespace Verif.Timeline

open Verif.Spin Verif.Spinmaps Complex

theorem mapM_ok {α β : Type} (l : List α) (f : α → PyM β) (g : α → β)
    (h : ∀ a ∈ l, f a = .ok (g a)) : l.mapM f = .ok (l.map g) := by
  induction l with
  | nil => rfl
  | cons a l ih =>
    rw [List.mapM_cons, h a List.mem_cons_self]
    simp only [bind, Except.bind, pure, Except.pure]
    rw [ih fun b hb => h b (List.mem_cons_of_mem _ hb)]
    rfl

theorem pyGet_nat {α : Type} (a : List α) (i : Nat) (x : α) (h : a[i]? = some x) :
    pyGet a (i : Int) = .ok x := by
  have hi : ¬ ((i : Int) < 0) := by omega
  simp only [pyGet, hi, if_false, Int.toNat_natCast, h]

theorem pyGet_int {α : Type} (a : List α) (d : α) (i : Int) (h0 : 0 ≤ i) (h1 : i < a.length) :
    pyGet a i = .ok ((a[i.toNat]?).getD d) := by
  obtain ⟨n, rfl⟩ := Int.eq_ofNat_of_zero_le h0
  have hn : n < a.length := by exact_mod_cast h1
  rw [Int.toNat_natCast]
  apply pyGet_nat
  rw [List.getElem?_eq_getElem hn]
  rfl

theorem Sees.get {n : Nat} {look : Look} {pa : List ℝ} {S : List Smp} (h : Sees n look pa S)
    (m : List ℂ) (hm : m.length = n) : look.get m = .ok (S.map fun x => see x m) := by
  have hw := h.w
  cases look with
  | pix p =>
    unfold Look.get
    dsimp only [Look.weights] at hw
    have hp : S.map (fun x => see x m) = p.map fun i => (m[i.toNat]?).getD 0 := by
      have : S.map (fun x => see x m) =
          (S.map (·.w)).map fun w => (w.map fun iw => (m[iw.1.toNat]?).getD 0 * (iw.2 : ℂ)).sum := by
        rw [List.map_map]; rfl
      rw [this, ← hw, List.map_map]
      apply List.map_congr_left
      intro i _
      simp
    rw [hp]
    apply mapM_ok
    intro i hi
    have : [(i, (1 : ℝ))] ∈ S.map (·.w) := by
      rw [← hw]; exact List.mem_map_of_mem hi
    obtain ⟨x, hx, hxw⟩ := List.mem_map.1 this
    have := h.range x hx (i, 1) (by rw [hxw]; simp)
    exact pyGet_int m 0 i this.1 (by rw [hm]; exact this.2)
  | interp w =>
    unfold Look.get
    dsimp only [Look.weights] at hw ⊢
    subst hw
    rw [show S.map (fun x => see x m) = (S.map (·.w)).map fun w =>
        (w.map fun iw => (m[iw.1.toNat]?).getD 0 * (iw.2 : ℂ)).sum by rw [List.map_map]; rfl]
    apply mapM_ok
    intro ws hws
    obtain ⟨x, hx, rfl⟩ := List.mem_map.1 hws
    rw [mapM_ok x.w _ (fun iw => (m[iw.1.toNat]?).getD 0 * (iw.2 : ℂ))]
    · rfl
    · intro iw hiw
      have := h.range x hx iw hiw
      rw [pyGet_int m 0 iw.1 this.1 (by rw [hm]; exact this.2)]
      rfl

theorem iadd_map {α β : Type} [Add α] (S : List β) (f g : β → α) :
    iadd (S.map f) (S.map g) = .ok (S.map fun x => f x + g x) := by
  unfold iadd
  rw [if_pos (by simp), List.zipWith_map, List.zipWith_self]

theorem imul_map {α : Type} [Mul α] (S : List Smp) (f g : Smp → α) :
    imul (S.map f) (S.map g) = .ok (S.map fun x => f x * g x) := by
  unfold imul
  rw [if_pos (by simp), List.zipWith_map, List.zipWith_self]

theorem imulHwp_map {α : Type} [Mul α] {S : List Smp} {hwp : HwpAng} (h : Turned hwp S)
    (g : Smp → α) (f : ℝ → α) :
    imulHwp (S.map g) f hwp = .ok (S.map fun x => g x * f x.alpha) := by
  cases hwp with
  | fixed a =>
    unfold imulHwp
    dsimp only
    rw [List.map_map]
    congr 1
    apply List.map_congr_left
    intro x hx
    rw [h x hx]
    rfl
  | array a =>
    have h : a = S.map (·.alpha) := h
    unfold imulHwp
    dsimp only
    rw [h, List.map_map, imul_map]
    rfl

/-- One term of the loop. -/
def term {R : Type} (c : Conv R) (x : Smp) (s : Int) (m : List ℂ) : R :=
  c.conv s (see x m * exp (-I * (s : ℂ) * (x.pa : ℂ)))

theorem phase_map (S : List Smp) (s : Int) :
    phase (S.map (·.pa)) s = S.map fun x => exp (-I * (s : ℂ) * (x.pa : ℂ)) := by
  unfold phase
  rw [List.map_map]
  apply List.map_congr_left
  intro x _
  dsimp only [Function.comp]
  congr 1
  ring

theorem phase_succ (S : List Smp) (s : Int) :
    List.zipWith (· * ·) (phase (S.map (·.pa)) s) (phase (S.map (·.pa)) 1) =
      phase (S.map (·.pa)) (s + 1) := by
  rw [phase_map, phase_map, phase_map, List.zipWith_map, List.zipWith_self]
  apply List.map_congr_left
  intro x _
  rw [← Complex.exp_add]
  congr 1
  push_cast
  ring

theorem zipWith_fst {α β : Type} (a : List α) (b : List β) (h : a.length = b.length) :
    List.zipWith (fun x _ => x) a b = a := by
  induction a generalizing b with
  | nil => simp
  | cons x a ih =>
    rcases b with _ | ⟨y, b⟩
    · simp at h
    · rw [List.zipWith_cons_cons, ih b (by simpa using h)]

theorem iadd_zip {α β : Type} [Add α] (a : List α) (S : List β) (f : β → α)
    (h : a.length = S.length) :
    iadd a (S.map f) = .ok (List.zipWith (fun y x => y + f x) a S) := by
  unfold iadd
  rw [if_pos (by simpa using h), List.zipWith_map_right]

theorem zipWith_zipWith_right' {α β γ δ : Type} (f : α → β → γ) (g : γ → β → δ) (a : List α)
    (b : List β) :
    List.zipWith g (List.zipWith f a b) b = List.zipWith (fun x y => g (f x y) y) a b := by
  induction a generalizing b with
  | nil => simp
  | cons x a ih =>
    rcases b with _ | ⟨y, b⟩
    · simp
    · simp [ih]

theorem modLoop_spec {R : Type} [AddMonoid R] (c : Conv R) (recursion : Bool) {n : Nat}
    {look : Look} {pa : List ℝ} {S : List Smp} (h : Sees n look pa S) (maps : List (List ℂ))
    (hm : ∀ m ∈ maps, m.length = n) (ss : List Int) (sidx : Nat) (e : List ℂ) (t : List R)
    (ht : t.length = S.length) (hlen : maps.length = sidx + ss.length)
    (hrec : recursion = true → sidx ≠ 0 → ∀ s ∈ ss.head?, e = phase pa (s - 1))
    (hchain : recursion = true → List.IsChain (fun a b => b = a + 1) ss) :
    modLoop c recursion pa look maps ss sidx e t =
      .ok (List.zipWith (fun y x => y + (List.zipWith (term c x) ss (maps.drop sidx)).sum) t S) := by
  induction ss generalizing sidx e t with
  | nil =>
    simp only [modLoop, List.zipWith_nil_left, List.sum_nil, add_zero]
    rw [zipWith_fst _ _ ht]
  | cons s ss ih =>
    unfold modLoop
    have hlt : sidx < maps.length := by rw [hlen]; simp
    have he : (if recursion = true ∧ sidx ≠ 0 then List.zipWith (· * ·) e (phase pa 1)
        else phase pa s) = phase pa s := by
      split
      · rename_i hc
        rw [hrec hc.1 hc.2 s (by simp), h.pa, phase_succ]
        congr 1
        omega
      · rfl
    rw [he]
    have hg : maps[sidx]? = some maps[sidx] := List.getElem?_eq_getElem hlt
    rw [pyGet_nat maps sidx _ hg]
    simp only [bind, Except.bind]
    rw [h.get _ (hm _ (List.getElem_mem hlt))]
    dsimp only
    have hscan : rotateScan s (S.map fun x => see x maps[sidx]) (phase pa s) =
        .ok (S.map fun x => see x maps[sidx] * exp (-I * (s : ℂ) * (x.pa : ℂ))) := by
      unfold rotateScan
      split
      · rw [h.pa, phase_map, imul_map]
      · rename_i h0
        have h0 : s = 0 := by_contra h0
        subst h0
        simp
    rw [hscan]
    dsimp only
    rw [List.map_map, iadd_zip _ _ _ ht]
    dsimp only
    rw [ih (sidx + 1) (phase pa s) _ (by simp [ht]) (by rw [hlen]; simp; omega)]
    · congr 1
      rw [zipWith_zipWith_right']
      congr 1
      funext y x
      rw [List.drop_eq_getElem_cons hlt, List.zipWith_cons_cons, List.sum_cons, add_assoc]
      rfl
    · intro hr _ s' hs'
      have := hchain hr
      rcases ss with _ | ⟨s1, ss⟩
      · simp at hs'
      · have h2 : s' = s1 := by simpa using hs'.symm
        rw [List.isChain_cons_cons] at this
        rw [h2, this.1]
        congr 1
        omega
    · intro hr
      exact (hchain hr).tail

theorem consecutive_chain {sv : List Int} {a b : Int} (h : consecutive sv a b = true) :
    List.IsChain (fun a b => b = a + 1) sv := by
  unfold consecutive at h
  have h : sv = intRange a (b + 1 - a).toNat := by simpa using h
  rw [h]
  unfold intRange
  rw [List.isChain_map, List.isChain_iff_getElem]
  intro i hi
  simp
  ring

theorem pyGet_last {α : Type} (a : List α) (h : a ≠ []) : ∃ x, pyGet a (-1) = .ok x := by
  unfold pyGet
  have hl : 0 < a.length := List.length_pos_iff.2 h
  simp only [show (-1 : Int) < 0 by decide, if_true]
  rw [if_neg (by omega)]
  have : (-1 + (a.length : Int)).toNat < a.length := by omega
  rw [List.getElem?_eq_getElem this]
  exact ⟨_, rfl⟩

theorem modulateC_add {n : Nat} {look : Look} {pa : List ℝ} {S : List Smp}
    (h : Sees n look pa S) {e : Entry} (he : EntryOk n e) (t : List ℂ)
    (ht : t.length = S.length) :
    modulateC t look pa e.maps e.sVals = .ok (List.zipWith (fun y x => y + spinSum e x) t S) := by
  obtain ⟨s0, h0⟩ : ∃ x, pyGet e.sVals 0 = .ok x :=
    ⟨_, pyGet_int e.sVals 0 0 le_rfl (by exact_mod_cast List.length_pos_iff.2 he.ne)⟩
  obtain ⟨s1, h1⟩ := pyGet_last e.sVals he.ne
  unfold modulateC
  rw [h0, h1]
  simp only [bind, Except.bind]
  rw [modLoop_spec convC _ h e.maps he.npix e.sVals 0 _ t ht (by simpa using he.len)
    (by simp) consecutive_chain]
  rfl

theorem modulateR_add {n : Nat} {look : Look} {pa : List ℝ} {S : List Smp}
    (h : Sees n look pa S) {e : Entry} (he : EntryOk n e) (hs : ∀ s ∈ e.sVals, 0 ≤ s)
    (t : List ℝ) (ht : t.length = S.length) :
    modulateR t look pa e.maps e.sVals =
      .ok (List.zipWith (fun y x => y + spinSumReal e x) t S) := by
  obtain ⟨s0, h0⟩ : ∃ x, pyGet e.sVals 0 = .ok x :=
    ⟨_, pyGet_int e.sVals 0 0 le_rfl (by exact_mod_cast List.length_pos_iff.2 he.ne)⟩
  obtain ⟨s1, h1⟩ := pyGet_last e.sVals he.ne
  unfold modulateR
  rw [if_neg, h0, h1]
  · simp only [bind, Except.bind]
    rw [modLoop_spec convR _ h e.maps he.npix e.sVals 0 _ t ht (by simpa using he.len)
      (by simp) consecutive_chain]
    congr 2
    funext y x
    unfold spinSumReal
    rw [List.drop_zero]
    congr 3
    funext s m
    unfold term convR
    dsimp only
    split <;> ring
  · rintro (h | h)
    · exact he.ne h
    · obtain ⟨s, hs1, hs2⟩ := List.any_eq_true.1 h
      have := hs s hs1
      simp at hs2
      omega

theorem modulateC_spec {n : Nat} {look : Look} {pa : List ℝ} {S : List Smp}
    (h : Sees n look pa S) {e : Entry} (he : EntryOk n e) (t : Smp → ℂ) :
    modulateC (S.map t) look pa e.maps e.sVals = .ok (S.map fun x => t x + spinSum e x) := by
  rw [modulateC_add h he _ (by simp), List.zipWith_map_left, List.zipWith_self]

theorem modulateR_spec {n : Nat} {look : Look} {pa : List ℝ} {S : List Smp}
    (h : Sees n look pa S) {e : Entry} (he : EntryOk n e) (hs : ∀ s ∈ e.sVals, 0 ≤ s)
    (t : Smp → ℝ) :
    modulateR (S.map t) look pa e.maps e.sVals = .ok (S.map fun x => t x + spinSumReal e x) := by
  rw [modulateR_add h he hs _ (by simp), List.zipWith_map_left, List.zipWith_self]

/-! ### the component s0a2 -/

theorem see_zipWith (x : Smp) (f : ℂ → ℂ → ℂ) (a b : ℂ) (hf : ∀ p q, f p q = a * p + b * star q)
    (m k : List ℂ) (h : m.length = k.length) :
    see x (List.zipWith f m k) = a * see x m + b * star (see x k) := by
  unfold see
  induction x.w with
  | nil => simp
  | cons iw w ih =>
    simp only [List.map_cons, List.sum_cons, ih, star_add, star_mul', mul_add]
    have hs : star (iw.2 : ℂ) = (iw.2 : ℂ) := Complex.conj_ofReal _
    rw [hs, List.getElem?_zipWith]
    have hn : m[iw.1.toNat]? = none ↔ k[iw.1.toNat]? = none := by
      rw [List.getElem?_eq_none_iff, List.getElem?_eq_none_iff, h]
    rcases hm : m[iw.1.toNat]? with _ | y <;> rcases hk : k[iw.1.toNat]? with _ | z
    · simp
    · rw [hm, hk] at hn; simp at hn
    · rw [hm, hk] at hn; simp at hn
    · simp only [Option.getD_some, hf]
      ring

theorem see_map_mul (x : Smp) (m : List ℂ) (c : ℂ) :
    see x (m.map fun y => y * c) = see x m * c := by
  unfold see
  induction x.w with
  | nil => simp
  | cons iw w ih =>
    rw [List.map_cons, List.sum_cons, ih, List.getElem?_map, List.map_cons, List.sum_cons]
    rcases m[iw.1.toNat]? with _ | y
    · simp
    · simp only [Option.map_some, Option.getD_some]; ring

/-- `maps_re` and `maps_im` for one spin. -/
def s0a2Pair (e : Entry) (polang : ℝ) (s : Int) : List ℂ × List ℂ :=
  let pos := (mapOf e s).map fun x => x * exp (I * 2 * (radians polang : ℂ))
  let neg := (mapOf e (-s)).map fun x => x * exp (-I * 2 * (radians polang : ℂ))
  (List.zipWith (fun p n => 1 / 2 * (p + star n)) pos neg,
    List.zipWith (fun p n => I / 2 * (p - star n)) pos neg)

theorem filter_range_get (l : List Int) (p : Int → Bool) (d : Int) (hd : p d = false) :
    ((List.range l.length).filter fun i => p ((l[i]?).getD d)).map (fun i => (l[i]?).getD d) =
      l.filter p := by
  have h : (List.range l.length).map (fun i => (l[i]?).getD d) = l := by
    apply List.ext_getElem?
    intro i
    rw [List.getElem?_map]
    by_cases hi : i < l.length
    · rw [List.getElem?_range hi, Option.map_some, List.getElem?_eq_getElem hi]; rfl
    · rw [List.getElem?_eq_none (by simpa using hi), List.getElem?_eq_none (by simpa using hi)]; rfl
  conv_rhs => rw [← h, List.filter_map]
  rfl

theorem s0a2Maps_spec {n : Nat} {e : Entry} (he : EntryOk n e) (hnd : e.sVals.Nodup)
    (hneg : ∀ s ∈ e.sVals, -s ∈ e.sVals) (polang : ℝ) :
    s0a2Maps e polang =
      .ok ((e.sVals.filter fun s => decide (0 ≤ s)).map (s0a2Pair e polang)) := by
  unfold s0a2Maps
  rw [← filter_range_get e.sVals (fun s => decide (0 ≤ s)) (-1) (by decide), List.map_map]
  apply mapM_ok
  intro i hi
  rw [List.mem_filter, List.mem_range] at hi
  obtain ⟨hi, -⟩ := hi
  have hg : e.sVals[i]? = some e.sVals[i] := List.getElem?_eq_getElem hi
  rw [pyGet_nat _ _ _ hg]
  simp only [bind, Except.bind]
  dsimp only [Function.comp]
  rw [hg]
  dsimp only [Option.getD]
  have hmap : ∀ s ∈ e.sVals, e.maps[e.sVals.idxOf s]? = some (mapOf e s) := by
    intro s hs
    have : e.sVals.idxOf s < e.maps.length := by
      rw [he.len]; exact List.idxOf_lt_length_iff.2 hs
    unfold mapOf
    rw [List.getElem?_eq_getElem this]
    rfl
  have hidx : e.sVals.idxOf e.sVals[i] = i := hnd.idxOf_getElem i hi
  have hmem : e.sVals[i] ∈ e.sVals := List.getElem_mem hi
  have hpos : pyGet e.maps (i : Int) = .ok (mapOf e e.sVals[i]) := by
    apply pyGet_nat
    have := hmap _ hmem
    rwa [hidx] at this
  have hj : pyGet e.maps ((e.sVals.idxOf (-e.sVals[i]) : Nat) : Int) =
      .ok (mapOf e (-e.sVals[i])) := pyGet_nat _ _ _ (hmap _ (hneg _ hmem))
  have hlt : e.sVals.idxOf (-e.sVals[i]) < e.sVals.length :=
    List.idxOf_lt_length_iff.2 (hneg _ hmem)
  by_cases h0 : e.sVals[i] = 0
  · rw [if_neg (by simpa using h0), hpos]
    dsimp only
    unfold s0a2Pair
    rw [h0]
    rfl
  · rw [if_pos h0, if_pos hlt]
    dsimp only
    rw [hpos]
    dsimp only
    rw [hj]
    rfl

theorem mapOf_length {n : Nat} {e : Entry} (he : EntryOk n e) {s : Int} (hs : s ∈ e.sVals) :
    (mapOf e s).length = n := by
  have : e.sVals.idxOf s < e.maps.length := by
    rw [he.len]; exact List.idxOf_lt_length_iff.2 hs
  unfold mapOf
  rw [List.getElem?_eq_getElem this]
  exact he.npix _ (List.getElem_mem this)

theorem zipWith_map_self {α β γ : Type} (f : α → β → γ) (l : List α) (g : α → β) :
    List.zipWith f l (l.map g) = l.map fun a => f a (g a) := by
  induction l with
  | nil => rfl
  | cons a l ih => simp [ih]

theorem sum_map_add_mul (l : List Int) (f g h : Int → ℝ) (a b : ℝ)
    (H : ∀ s ∈ l, f s * a + g s * b = h s) :
    (l.map f).sum * a + (l.map g).sum * b = (l.map h).sum := by
  induction l with
  | nil => simp
  | cons s l ih =>
    simp only [List.map_cons, List.sum_cons]
    rw [← ih fun s hs => H s (List.mem_cons_of_mem _ hs), ← H s List.mem_cons_self]
    ring

theorem pair_identity (P N : ℂ) (a psi t : ℝ) :
    (2 * ((1 / 2 * (P * exp (I * 2 * psi) + star (N * exp (-I * 2 * psi)))) * exp (-I * t)).re) *
        Real.cos (2 * a) +
      (2 * ((I / 2 * (P * exp (I * 2 * psi) - star (N * exp (-I * 2 * psi)))) * exp (-I * t)).re) *
        Real.sin (2 * a) =
    (exp (I * (2 * a + 2 * psi - t)) * P).re + (exp (I * (2 * a - 2 * psi + t)) * N).re := by
  apply Complex.ofReal_injective
  push_cast
  simp only [Complex.re_eq_add_conj, Complex.star_def, map_mul, map_add, map_sub, map_div₀,
    ← Complex.exp_conj, Complex.conj_I, Complex.conj_ofReal, map_neg, map_ofNat, map_one,
    Complex.conj_conj, Complex.cos, Complex.sin]
  have e1 : exp (I * (2 * a + 2 * psi - t)) = exp (I * 2 * a) * exp (I * 2 * psi) * exp (-I * t) := by
    rw [← Complex.exp_add, ← Complex.exp_add]; congr 1; ring
  have e2 : exp (I * (2 * a - 2 * psi + t)) =
      exp (I * 2 * a) * exp (-I * 2 * psi) * exp (I * t) := by
    rw [← Complex.exp_add, ← Complex.exp_add]; congr 1; ring
  have e3 : exp (-I * (2 * a + 2 * psi - t)) =
      exp (-I * 2 * a) * exp (-I * 2 * psi) * exp (I * t) := by
    rw [← Complex.exp_add, ← Complex.exp_add]; congr 1; ring
  have e4 : exp (-I * (2 * a - 2 * psi + t)) =
      exp (-I * 2 * a) * exp (I * 2 * psi) * exp (-I * t) := by
    rw [← Complex.exp_add, ← Complex.exp_add]; congr 1; ring
  rw [e1, e2, e3, e4]
  have e5 : exp (2 * (a : ℂ) * I) = exp (I * 2 * a) := by congr 1; ring
  have e6 : exp (-(2 * (a : ℂ)) * I) = exp (-I * 2 * a) := by congr 1; ring
  rw [e5, e6]
  simp only [neg_neg]
  generalize exp (I * 2 * (a : ℂ)) = E
  generalize exp (-I * 2 * (a : ℂ)) = E'
  generalize exp (I * 2 * (psi : ℂ)) = U
  generalize exp (-I * 2 * (psi : ℂ)) = U'
  generalize exp (I * (t : ℂ)) = T
  generalize exp (-I * (t : ℂ)) = T'
  generalize (starRingEnd ℂ) P = P'
  generalize (starRingEnd ℂ) N = N'
  have hI := Complex.I_sq
  ring_nf
  simp only [hI]
  ring

theorem s0a2_signal {n : Nat} {e : Entry} (he : EntryOk n e)
    (hneg : ∀ s ∈ e.sVals, -s ∈ e.sVals) (polang : ℝ) (x : Smp) :
    spinSumReal ⟨((e.sVals.filter fun s => decide (0 ≤ s)).map (s0a2Pair e polang)).map (·.1),
        e.sVals.filter fun s => decide (0 ≤ s)⟩ x * Real.cos (2 * x.alpha) +
      spinSumReal ⟨((e.sVals.filter fun s => decide (0 ≤ s)).map (s0a2Pair e polang)).map (·.2),
        e.sVals.filter fun s => decide (0 ≤ s)⟩ x * Real.sin (2 * x.alpha) =
    ((e.sVals.filter fun s => decide (0 ≤ s)).map (pairS0a2 e (radians polang) x)).sum := by
  unfold spinSumReal
  dsimp only
  rw [List.map_map, List.map_map, zipWith_map_self, zipWith_map_self]
  apply sum_map_add_mul
  intro s hs
  have hs1 := (List.mem_filter.1 hs).1
  have hl : ((mapOf e s).map fun x => x * exp (I * 2 * (radians polang : ℂ))).length =
      ((mapOf e (-s)).map fun x => x * exp (-I * 2 * (radians polang : ℂ))).length := by
    rw [List.length_map, List.length_map, mapOf_length he hs1, mapOf_length he (hneg _ hs1)]
  dsimp only [Function.comp, s0a2Pair]
  rw [see_zipWith x _ (1 / 2) (1 / 2) (fun p q => by ring) _ _ hl,
    see_zipWith x _ (I / 2) (-(I / 2)) (fun p q => by ring) _ _ hl, see_map_mul, see_map_mul]
  have key := pair_identity (see x (mapOf e s)) (see x (mapOf e (-s))) x.alpha (radians polang)
    (s * x.pa)
  rw [show (-I * (s : ℂ) * (x.pa : ℂ)) = -I * ((s * x.pa : ℝ) : ℂ) by push_cast; ring]
  rw [show ∀ a b : ℂ, 1 / 2 * a + 1 / 2 * star b = 1 / 2 * (a + star b) from fun a b => by ring]
  rw [show ∀ a b : ℂ, I / 2 * a + -(I / 2) * star b = I / 2 * (a - star b) from
    fun a b => by ring]
  unfold pairS0a2
  by_cases h0 : s = 0
  · subst h0
    rw [if_pos rfl, if_pos rfl]
    simp only [neg_zero, Int.cast_zero, zero_mul, Complex.ofReal_zero, sub_zero, add_zero] at key ⊢
    have h2 : ∀ a b : ℝ, 2 * a = b → 1 * a = b / 2 := fun a b h => by rw [← h]; ring
    have e1 : ∀ A B c d R : ℝ, 2 * A * c + 2 * B * d = R → 1 * A * c + 1 * B * d = R / 2 :=
      fun A B c d R h => by rw [← h]; ring
    rw [e1 _ _ _ _ _ key]
    apply Complex.ofReal_injective
    push_cast
    simp only [Complex.re_eq_add_conj, Complex.cos]
    have c1 : exp (I * (2 * (x.alpha : ℂ) + 2 * (radians polang : ℂ))) =
        exp (I * (2 * x.alpha)) * exp (2 * (radians polang : ℂ) * I) := by
      rw [← Complex.exp_add]; congr 1; ring
    have c2 : exp (I * (2 * (x.alpha : ℂ) - 2 * (radians polang : ℂ))) =
        exp (I * (2 * x.alpha)) * exp (-(2 * (radians polang : ℂ)) * I) := by
      rw [← Complex.exp_add]; congr 1; ring
    rw [c1, c2]
    have c3 : (starRingEnd ℂ) (exp (2 * (radians polang : ℂ) * I)) =
        exp (-(2 * (radians polang : ℂ)) * I) := by
      rw [← Complex.exp_conj]
      congr 1
      simp only [map_mul, Complex.conj_I, Complex.conj_ofReal, map_ofNat]
      ring
    have c4 : (starRingEnd ℂ) (exp (-(2 * (radians polang : ℂ)) * I)) =
        exp (2 * (radians polang : ℂ) * I) := by
      rw [← c3, Complex.conj_conj]
    simp only [map_mul, c3, c4]
    ring
  · rw [if_neg h0, if_neg h0, key]
    push_cast
    rfl

theorem lookup_eq (d : SpinDict) (m : Mode) (h : m ∈ d.map (·.1)) :
    ∃ e, List.lookup m d = some e ∧ (m, e) ∈ d := by
  induction d with
  | nil => simp at h
  | cons x d ih =>
    rcases x with ⟨k, e⟩
    rw [List.lookup_cons]
    by_cases hk : m = k
    · subst hk
      simp
    · have : (m == k) = false := by simpa using hk
      rw [this]
      have hm : m ∈ d.map (·.1) := by simpa [hk] using h
      obtain ⟨e', h1, h2⟩ := ih hm
      exact ⟨e', h1, List.mem_cons_of_mem _ h2⟩

theorem entry_part {n : Nat} {d : SpinDict} (hd : DictOk n d) (m : Mode) (h : m ∈ d.map (·.1)) :
    entry d m = .ok (part d m) ∧ EntryOk n (part d m) := by
  obtain ⟨e, h1, h2⟩ := lookup_eq d m h
  unfold entry part
  rw [h1]
  exact ⟨rfl, hd.entries _ h2⟩

theorem isOld_iff {n : Nat} {d : SpinDict} (hd : DictOk n d) :
    (isOld d = true → d.map (·.1) = [.s0a0, .s2a4]) ∧
    (isOld d = false → d.map (·.1) = [.s0a0, .s2a4, .s0a2, .s2a2, .s2a0]) := by
  rcases hd.keys with h | h <;> unfold isOld <;> rw [h] <;> simp

theorem polPart_spec {n : Nat} {look : Look} {pa : List ℝ} {S : List Smp}
    (h : Sees n look pa S) {e : Entry} (he : EntryOk n e) (f : ℝ → ℂ) {hwp : HwpAng}
    (hw : Turned hwp S) :
    polPart S.length look pa e f hwp = .ok (S.map fun x => (spinSum e x * f x.alpha).re) := by
  unfold polPart
  have : List.replicate S.length (0 : ℂ) = S.map fun _ => 0 := by simp
  rw [this, modulateC_spec h he]
  simp only [bind, Except.bind, zero_add]
  rw [imulHwp_map hw]
  simp only [pure, Except.pure, List.map_map]
  rfl

/-- The timeline is the specified signal. -/
theorem todOf_spec {n : Nat} {look : Look} {pa : List ℝ} {S : List Smp}
    (h : Sees n look pa S) {d : SpinDict} (hd : DictOk n d) {hwp : HwpAng} (hw : Turned hwp S)
    (polang : ℝ) :
    todOf S.length look pa d polang hwp = .ok (S.map (signal d (radians polang))) := by
  unfold todOf
  have h0 : Mode.s0a0 ∈ d.map (·.1) := by rcases hd.keys with h | h <;> rw [h] <;> simp
  have h4 : Mode.s2a4 ∈ d.map (·.1) := by rcases hd.keys with h | h <;> rw [h] <;> simp
  obtain ⟨a0, b0⟩ := entry_part hd _ h0
  obtain ⟨a4, b4⟩ := entry_part hd _ h4
  rcases hold : isOld d with _ | _
  · rw [if_neg (by simp)]
    have hk := (isOld_iff hd).2 hold
    obtain ⟨a2, b2⟩ := entry_part hd .s2a2 (by rw [hk]; simp)
    obtain ⟨a1, b1⟩ := entry_part hd .s2a0 (by rw [hk]; simp)
    obtain ⟨a3, b3⟩ := entry_part hd .s0a2 (by rw [hk]; simp)
    unfold todNew
    rw [a4, a2, a1, a3, a0]
    simp only [bind, Except.bind]
    rw [polPart_spec h b4 _ hw, polPart_spec h b2 _ hw]
    dsimp only
    rw [iadd_map]
    dsimp only
    have hz : List.replicate S.length (0 : ℂ) = S.map fun _ => 0 := by simp
    have hzr : List.replicate S.length (0 : ℝ) = S.map fun _ => 0 := by simp
    rw [hz, modulateC_spec h b1]
    dsimp only
    rw [List.map_map, show ((fun z : ℂ => z.re) ∘ fun x => 0 + spinSum (part d Mode.s2a0) x) =
      fun x => (spinSum (part d Mode.s2a0) x).re by funext x; simp, iadd_map]
    dsimp only
    have hm0 : 0 < (part d .s0a2).maps.length := by
      rw [b3.len]; exact List.length_pos_iff.2 b3.ne
    rw [show pyGet (part d .s0a2).maps 0 = .ok (part d .s0a2).maps[0] from
      pyGet_nat _ 0 _ (List.getElem?_eq_getElem hm0)]
    dsimp only
    rw [s0a2Maps_spec b3 hd.s0a2_nodup hd.s0a2_neg]
    dsimp only
    have hnn : ∀ s ∈ (part d .s0a2).sVals.filter (fun s => decide (0 ≤ s)), 0 ≤ s := by
      intro s hs
      simpa using (List.mem_filter.1 hs).2
    have hne : (part d .s0a2).sVals.filter (fun s => decide (0 ≤ s)) ≠ [] := by
      intro hc
      have : (0 : Int) ∈ (part d .s0a2).sVals.filter (fun s => decide (0 ≤ s)) :=
        List.mem_filter.2 ⟨hd.s0a2_zero hold, by simp⟩
      rw [hc] at this
      simp at this
    have hpix : ∀ s ∈ (part d .s0a2).sVals.filter (fun s => decide (0 ≤ s)),
        (s0a2Pair (part d .s0a2) polang s).1.length = n ∧
        (s0a2Pair (part d .s0a2) polang s).2.length = n := by
      intro s hs
      have hs1 := (List.mem_filter.1 hs).1
      unfold s0a2Pair
      simp [mapOf_length b3 hs1, mapOf_length b3 (hd.s0a2_neg _ hs1)]
    have hok1 : EntryOk n ⟨(((part d .s0a2).sVals.filter fun s => decide (0 ≤ s)).map
        (s0a2Pair (part d .s0a2) polang)).map (·.1),
        (part d .s0a2).sVals.filter fun s => decide (0 ≤ s)⟩ := by
      refine ⟨by simp, hne, ?_⟩
      intro m hm
      obtain ⟨p, hp, rfl⟩ := List.mem_map.1 hm
      obtain ⟨s, hs, rfl⟩ := List.mem_map.1 hp
      exact (hpix s hs).1
    have hok2 : EntryOk n ⟨(((part d .s0a2).sVals.filter fun s => decide (0 ≤ s)).map
        (s0a2Pair (part d .s0a2) polang)).map (·.2),
        (part d .s0a2).sVals.filter fun s => decide (0 ≤ s)⟩ := by
      refine ⟨by simp, hne, ?_⟩
      intro m hm
      obtain ⟨p, hp, rfl⟩ := List.mem_map.1 hm
      obtain ⟨s, hs, rfl⟩ := List.mem_map.1 hp
      exact (hpix s hs).2
    have r1 := modulateR_spec h hok1 hnn (fun _ => 0)
    have r2 := modulateR_spec h hok2 hnn (fun _ => 0)
    dsimp only at r1 r2
    rw [hzr, r1]
    dsimp only
    rw [imulHwp_map hw]
    dsimp only
    rw [iadd_map]
    dsimp only
    rw [r2]
    dsimp only
    rw [imulHwp_map hw]
    dsimp only
    rw [iadd_map]
    dsimp only
    rw [modulateR_spec h b0 hd.unpol]
    congr 1
    apply List.map_congr_left
    intro x _
    unfold signal
    rw [hold, if_neg (by simp), ← s0a2_signal b3 hd.s0a2_neg]
    simp only [zero_add]
    rw [mul_comm (exp _) (spinSum _ _), mul_comm (exp (I * (2 * (x.alpha : ℂ)))) (spinSum _ _)]
    ring
  · rw [if_pos rfl]
    unfold todOld
    rw [a4, a0]
    simp only [bind, Except.bind]
    rw [polPart_spec h b4 _ hw]
    dsimp only
    rw [modulateR_spec h b0 hd.unpol]
    congr 1
    apply List.map_congr_left
    intro x _
    unfold signal
    rw [hold, if_pos rfl, mul_comm (exp _) (spinSum _ _)]
    ring

/-! ### scan -/

theorem slice_get {α : Type} (a : List α) (d : α) (i n : Nat) (h : i + n ≤ a.length) :
    pySlice a (i : Int) ((i + n : Nat) : Int) = (List.range n).map fun k => (a[i + k]?).getD d := by
  rw [pySlice_nat]
  apply List.ext_getElem?
  intro k
  rw [List.getElem?_map]
  by_cases hk : k < n
  · rw [List.getElem?_range hk, List.getElem?_drop, List.getElem?_take_of_lt (by omega),
      List.getElem?_eq_getElem (by omega)]
    simp [List.getElem?_eq_getElem (show i + k < a.length by omega)]
  · rw [List.getElem?_eq_none (by simp; omega), List.getElem?_eq_none (by simp; omega)]
    rfl

theorem npix2nside_ok (n : Nat) : npix2nside (12 * n ^ 2) = .ok n := by
  unfold npix2nside
  rw [Nat.mul_div_cancel_left _ (by norm_num), Nat.sqrt_eq', if_pos rfl]

theorem checkMaps_spec (nside : Nat) (d : SpinDict)
    (h : ∀ x ∈ d, EntryOk (12 * nside ^ 2) x.2) (prev : Option Nat)
    (hp : prev = none ∨ prev = some nside) :
    checkMaps d prev = .ok (if d = [] then prev else some nside) := by
  induction d generalizing prev with
  | nil => rfl
  | cons x d ih =>
    rcases x with ⟨m, e⟩
    have he := h (m, e) List.mem_cons_self
    unfold checkMaps
    rw [if_neg (by simpa using he.len)]
    have hm0 : 0 < e.maps.length := by
      rw [he.len]; exact List.length_pos_iff.2 he.ne
    rw [show pyGet e.maps 0 = .ok e.maps[0] from pyGet_nat _ 0 _ (List.getElem?_eq_getElem hm0)]
    simp only [bind, Except.bind]
    rw [he.npix _ (List.getElem_mem hm0), npix2nside_ok]
    dsimp only
    rw [if_neg (by rcases hp with rfl | rfl <;> simp),
      ih (fun x hx => h x (List.mem_cons_of_mem _ hx)) _ (Or.inr rfl), if_neg (List.cons_ne_nil _ _)]
    split <;> rfl

/-- The samples of a beam. -/
def samples (x : Ext) (st : State) (interp : Bool) (nside i n : Nat) (bore : List Quat.Q)
    (b : Beam) : List Smp :=
  (List.range n).map fun k => sampleAt x interp (offset x st.rotAngle b) nside
    ((st.ctime[i + k]?).getD 0) ((bore[i + k]?).getD 0) (alphaAt st.hwpAng k)

theorem qOff_eq (x : Ext) (a : ℝ) (b : Beam) : qOff x a b = offset x a b := rfl

theorem convPa_eq (p : ℝ) : convPa p = Real.pi - p * Real.pi / 180 := by
  unfold convPa radians
  ring

theorem pointing_sees (x : Ext) (hx : ExtOk x) (st : State) (interp : Bool) (nside i n : Nat)
    (hn : 0 < nside) (bore : List Quat.Q) (b : Beam) (ht : i + n ≤ st.ctime.length)
    (hb : i + n ≤ bore.length) :
    Sees (12 * nside ^ 2)
      (pointing x interp (qOff x st.rotAngle b) nside
        (pySlice st.ctime (i : Int) ((i + n : Nat) : Int))
        (pySlice bore (i : Int) ((i + n : Nat) : Int))).1
      (pointing x interp (qOff x st.rotAngle b) nside
        (pySlice st.ctime (i : Int) ((i + n : Nat) : Int))
        (pySlice bore (i : Int) ((i + n : Nat) : Int))).2.1
      (samples x st interp nside i n bore b) := by
  rw [slice_get _ 0 _ _ ht, slice_get _ 0 _ _ hb, qOff_eq]
  unfold pointing samples
  cases interp with
  | false =>
    refine ⟨?_, ?_, ?_⟩
    · simp only [Bool.false_eq_true, if_false, Look.weights, List.zipWith_map, List.zipWith_self,
        List.map_map]
      rfl
    · simp only [Bool.false_eq_true, if_false, List.zipWith_map, List.zipWith_self,
        List.map_map]
      apply List.map_congr_left
      intro k _
      exact convPa_eq _
    · intro y hy iw hiw
      obtain ⟨k, -, rfl⟩ := List.mem_map.1 hy
      have : iw = ((x.bore2pix (offset x st.rotAngle b) ((st.ctime[i + k]?).getD 0)
          ((bore[i + k]?).getD 0) nside).1, 1) := by
        simpa [sampleAt] using hiw
      rw [this]
      push_cast
      exact hx.pix _ _ _ _ hn
  | true =>
    refine ⟨?_, ?_, ?_⟩
    · simp only [if_true, Look.weights, List.zipWith_map, List.zipWith_self, List.map_map]
      rfl
    · simp only [if_true, List.zipWith_map, List.zipWith_self, List.map_map]
      apply List.map_congr_left
      intro k _
      exact convPa_eq _
    · intro y hy iw hiw
      obtain ⟨k, -, rfl⟩ := List.mem_map.1 hy
      push_cast
      exact hx.weights _ _ _ hn iw hiw

theorem samples_turned (x : Ext) (st : State) (interp : Bool) (nside i n : Nat)
    (bore : List Quat.Q) (b : Beam) (h : ∀ a, st.hwpAng = some (.array a) → a.length = n) :
    Turned (st.hwpAng.getD (.fixed 0)) (samples x st interp nside i n bore b) := by
  have ha : ∀ q t bo a, (sampleAt x interp q nside t bo a).alpha = a := by
    intro q t bo a
    unfold sampleAt
    split <;> rfl
  rcases hh : st.hwpAng with _ | (a | a)
  · intro y hy
    obtain ⟨k, -, rfl⟩ := List.mem_map.1 hy
    rw [ha, hh]
    rfl
  · intro y hy
    obtain ⟨k, -, rfl⟩ := List.mem_map.1 hy
    rw [ha, hh]
    rfl
  · unfold Turned samples
    dsimp only [Option.getD]
    rw [List.map_map]
    have hl := h a hh
    apply List.ext_getElem?
    intro k
    rw [List.getElem?_map]
    by_cases hk : k < n
    · rw [List.getElem?_range hk, Option.map_some]
      dsimp only [Function.comp]
      rw [ha, hh, List.getElem?_eq_getElem (by omega)]
      simp [alphaAt, List.getElem?_eq_getElem (show k < a.length by omega)]
    · rw [List.getElem?_eq_none (by omega), List.getElem?_eq_none (by simp; omega)]
      rfl

/-- The timeline after adding `f` to a previous one. -/
def added (add : Bool) (old : Option (List ℝ)) (n : Nat) (f : Nat → ℝ) : List ℝ :=
  match add, old with
  | true, some t => List.zipWith (· + ·) t ((List.range n).map f)
  | _, _ => (List.range n).map f

theorem scan_spec (x : Ext) (hx : ExtOk x) (mission : List Chunks.Chunk) (st : State) (b : Beam)
    (s : Sub) (ground interp add : Bool) (nside i n : Nat) (hns : 0 < nside) (bore : List Quat.Q)
    (hs : SubOk mission st bore s i n) (d : SpinDict) (hd : DictOk (12 * nside ^ 2) d)
    (hbore : if ground then st.qGround = some bore else st.qBore = bore)
    (hmap : mapsFor st.maps b ground = .ok d) (halive : b.dead = false)
    (hold : add = true → ∀ t, st.tod = some t → t.length = n) :
    ∃ ret, scan x mission st b s ground interp add = .ok (ret,
        { st with tod := some (added add st.tod n (measures x st interp nside i bore d b)) }) ∧
      ret.tod = added add st.tod n (measures x st interp nside i bore d b) := by
  obtain ⟨c, hc1, hc2, hc3⟩ := hs.chunk
  have hdne : d ≠ [] := by
    rintro rfl
    rcases hd.keys with h | h <;> simp at h
  unfold scan
  rw [if_neg (by simp [halive]), hmap]
  simp only [bind, Except.bind]
  rw [checkMaps_spec nside d hd.entries none (Or.inl rfl), if_neg hdne]
  dsimp only
  unfold Chunks.chunk2idx
  rw [hc1]
  simp only [bind, Except.bind, pure, Except.pure]
  have e1 : s.start - c.start = (i : Int) := by omega
  have e2 : s.stop - c.start = ((i + n : Nat) : Int) := by push_cast; omega
  have e3 : (s.stop - s.start).toNat = n := by omega
  rw [e1, e2, e3]
  have hsee := pointing_sees x hx st interp nside i n hns bore b hs.times hs.bore
  have htod := todOf_spec hsee hd (samples_turned x st interp nside i n bore b hs.hwp) b.polang
  have hlen : (samples x st interp nside i n bore b).length = n := by simp [samples]
  rw [hlen] at htod
  have hsig : (samples x st interp nside i n bore b).map (signal d (radians b.polang)) =
      (List.range n).map (measures x st interp nside i bore d b) := by
    rw [samples, List.map_map]
    apply List.map_congr_left
    intro k _
    show signal d (radians b.polang) _ = signal d (b.polang * Real.pi / 180) _
    congr 1
  rw [hsig] at htod
  have hadd : addTod add st.tod ((List.range n).map (measures x st interp nside i bore d b)) =
      .ok (added add st.tod n (measures x st interp nside i bore d b)) := by
    unfold addTod added
    cases add with
    | false => rfl
    | true =>
      rcases ht : st.tod with _ | t
      · rfl
      · dsimp only
        unfold iadd
        have := hold rfl t ht
        rw [if_pos (by simp [this])]
  cases ground with
  | true =>
    have hg : st.qGround = some bore := by simpa using hbore
    rw [if_pos rfl, hg]
    dsimp only
    rw [htod]
    dsimp only
    rw [hadd]
    exact ⟨_, rfl, rfl⟩
  | false =>
    have hg : st.qBore = bore := by simpa using hbore
    rw [if_neg (by simp), hg]
    rw [htod]
    dsimp only
    rw [hadd]
    exact ⟨_, rfl, rfl⟩

theorem measures_tod (x : Ext) (st : State) (t : Option (List ℝ)) (interp : Bool)
    (nside i : Nat) (bore : List Quat.Q) (d : SpinDict) (b : Beam) :
    measures x { st with tod := t } interp nside i bore d b =
      measures x st interp nside i bore d b := rfl

theorem SubOk.tod {mission : List Chunks.Chunk} {st : State} {bore : List Quat.Q} {s : Sub}
    {i n : Nat} (h : SubOk mission st bore s i n) (t : Option (List ℝ)) :
    SubOk mission { st with tod := t } bore s i n :=
  ⟨h.chunk, h.times, h.bore, h.hwp⟩

/-- The loop over ghosts: `f g` is what ghost `g` measures. -/
theorem ghostScans_spec (x : Ext) (hx : ExtOk x) (mission : List Chunks.Chunk) (s : Sub)
    (ground interp : Bool) (nside i n : Nat) (hns : 0 < nside) (bore : List Quat.Q)
    (dict : Beam → SpinDict) (gs : List Beam) (m : Nat) (st : State)
    (hs : SubOk mission st bore s i n)
    (hbore : if ground then st.qGround = some bore else st.qBore = bore)
    (hmap : ∀ g ∈ gs, g.dead = false →
      mapsFor st.maps g ground = .ok (dict g) ∧ DictOk (12 * nside ^ 2) (dict g))
    (acc : Nat → ℝ) (hacc : m ≠ 0 → st.tod = some ((List.range n).map acc)) :
    ∃ t, ghostScans x mission s ground interp gs m st =
        .ok (m + (gs.filter fun g => !g.dead).length, { st with tod := t }) ∧
      (m + (gs.filter fun g => !g.dead).length ≠ 0 →
        t = some ((List.range n).map fun k => (if m = 0 then 0 else acc k) +
          ((gs.filter fun g => !g.dead).map fun g =>
            measures x st interp nside i bore (dict g) g k).sum)) ∧
      (m + (gs.filter fun g => !g.dead).length = 0 → t = st.tod) := by
  induction gs generalizing m st acc with
  | nil =>
    refine ⟨st.tod, rfl, ?_, fun _ => rfl⟩
    intro h
    have hm : m ≠ 0 := by simpa using h
    rw [hacc hm]
    simp [hm]
  | cons g gs ih =>
    unfold ghostScans
    cases hg : g.dead with
    | true =>
      rw [if_pos rfl]
      obtain ⟨t, h1, h2, h3⟩ := ih m st hs hbore
        (fun g' hg' => hmap g' (List.mem_cons_of_mem _ hg')) acc hacc
      refine ⟨t, ?_, ?_, ?_⟩
      · rw [h1]; simp [hg]
      · intro h
        have e : (g :: gs).filter (fun g => !g.dead) = gs.filter fun g => !g.dead := by simp [hg]
        rw [e] at h ⊢
        exact h2 h
      · intro h
        have e : (g :: gs).filter (fun g => !g.dead) = gs.filter fun g => !g.dead := by simp [hg]
        rw [e] at h
        exact h3 h
    | false =>
      rw [if_neg (by simp)]
      obtain ⟨hm1, hm2⟩ := hmap g List.mem_cons_self hg
      have e : (g :: gs).filter (fun g => !g.dead) = g :: gs.filter fun g => !g.dead := by
        simp [hg]
      obtain ⟨ret, hr, -⟩ := scan_spec x hx mission st g s ground interp (decide (m ≠ 0)) nside i n
        hns bore hs (dict g) hm2 hbore hm1 hg (by
          intro hm t ht
          rw [hacc (by simpa using hm)] at ht
          cases ht
          simp)
      rw [hr]
      simp only [bind, Except.bind]
      have hadded : added (decide (m ≠ 0)) st.tod n (measures x st interp nside i bore (dict g) g) =
          (List.range n).map fun k => (if m = 0 then 0 else acc k) +
            measures x st interp nside i bore (dict g) g k := by
        unfold added
        by_cases hm : m = 0
        · simp [hm]
        · rw [hacc hm]
          simp [hm, List.zipWith_map, List.zipWith_self]
      obtain ⟨t, h1, h2, -⟩ := ih (m + 1)
        { st with tod := some (added (decide (m ≠ 0)) st.tod n
            (measures x st interp nside i bore (dict g) g)) } (hs.tod _) hbore
        (fun g' hg' => hmap g' (List.mem_cons_of_mem _ hg'))
        (fun k => (if m = 0 then 0 else acc k) + measures x st interp nside i bore (dict g) g k)
        (fun _ => by rw [hadded])
      refine ⟨t, ?_, ?_, ?_⟩
      · rw [h1, e, List.length_cons]
        congr 2
        omega
      · intro _
        rw [h2 (by omega), e]
        congr 1
        apply List.map_congr_left
        intro k _
        rw [if_neg (Nat.succ_ne_zero m)]
        simp only [List.map_cons, List.sum_cons, measures_tod]
        ring
      · rw [e]
        intro h
        simp at h

end Verif.Timeline
