import Verif.Spec.Plot
import Verif.Lemmas.MapMaking

/-!
# C123: the plots of a set of maps
-/

namespace Verif.Props

open Verif.Plot Verif.Spec.Plot

namespace Plotting

/-- What survives of the arguments in the course of the loop. -/
structure Kept (a : Args) (s : Loc) : Prop where
  func : s.func = a.func
  min : s.kwargs "min" = none
  max : s.kwargs "max" = none
  rest : ∀ j, j ≠ "min" → j ≠ "max" → s.kwargs j = a.kwargs j

/-- The variables before a map: those of the start, or those some map has left. -/
def Before (a : Args) (lo hi : Nat → ℝ) (s : Loc) : Prop :=
  s = ⟨.none, .none, a.func, a.kwargs⟩ ∨
    Kept a s ∧ ∃ i, i < a.maps.length ∧ s.minn = .num (lo i) ∧ s.maxx = .num (hi i)

/-- The loop, if no round fails. -/
theorem loop_ok (a : Args) (c : Choice) (P : Loc → Prop) (R : Nat → Plot → Prop) :
    ∀ (l : List (String × Dict)) (i : Nat) (s : Loc), P s →
      (∀ k st u s, l[k]? = some (st, u) → P s →
        ∃ p s', one a c (i + k) st u s = .ok (p, s') ∧ R (i + k) p ∧ P s') →
      ∃ ps, loop a c i l s = (ps, none) ∧ ps.length = l.length ∧
        ∀ k, k < l.length → ∃ p, ps[k]? = some p ∧ R (i + k) p
  | [], i, s, _, _ => ⟨[], rfl, rfl, fun k hk => absurd hk (by simp)⟩
  | (st, u) :: rest, i, s, hs, h => by
    obtain ⟨p, s', h1, h2, h3⟩ := h 0 st u s rfl hs
    obtain ⟨ps, h4, h5, h6⟩ := loop_ok a c P R rest (i + 1) s' h3 (by
      intro k st u s hk hp
      obtain ⟨p, s', h1, h2, h3⟩ := h (k + 1) st u s (by simpa using hk) hp
      refine ⟨p, s', ?_, ?_, h3⟩
      · rw [show i + 1 + k = i + (k + 1) by omega]; exact h1
      · rw [show i + 1 + k = i + (k + 1) by omega]; exact h2)
    refine ⟨p :: ps, ?_, by simp [h5], ?_⟩
    · simp only [Nat.add_zero] at h1
      simp only [loop, h1, h4]
    · intro k hk
      cases k with
      | zero => exact ⟨p, rfl, h2⟩
      | succ k =>
        obtain ⟨q, hq, hr⟩ := h6 k (by simpa using hk)
        refine ⟨q, by simpa using hq, ?_⟩
        rw [show i + (k + 1) = i + 1 + k by omega]; exact hr

theorem pick_ok (a : Args) (lo hi : Nat → ℝ) (i : Nat) (s : Loc)
    (want : ∀ k < a.maps.length, Wanted a k (lo k) (hi k)) (hi' : i < a.maps.length)
    (three : ∀ x, a.symLimits = .scalar x → a.maps.length = 3) (hs : Before a lo hi s) :
    ∃ s', pick (choose a.limits a.symLimits a.symmetric) i s = .ok s' ∧ Kept a s' ∧
      s'.minn = .num (lo i) ∧ s'.maxx = .num (hi i) := by
  have hfk : s.func = a.func ∧ ∀ j, j ≠ "min" → j ≠ "max" → s.kwargs j = a.kwargs j := by
    rcases hs with rfl | ⟨h, _⟩
    · exact ⟨rfl, fun _ _ _ => rfl⟩
    · exact ⟨h.func, h.rest⟩
  have hmm : a.kwargs "min" = none → a.kwargs "max" = none →
      s.kwargs "min" = none ∧ s.kwargs "max" = none := by
    intro h1 h2
    rcases hs with rfl | ⟨h, _⟩
    · exact ⟨h1, h2⟩
    · exact ⟨h.min, h.max⟩
  have w := want i hi'
  generalize hlo : lo i = x at w ⊢
  generalize hhi : hi i = y at w ⊢
  cases w with
  | pairs h1 h2 h3 h4 =>
    obtain ⟨h5, h6⟩ := hmm h3 h4
    refine ⟨⟨.num x, .num y, s.func, s.kwargs⟩, ?_, ⟨hfk.1, h5, h6, hfk.2⟩, rfl, rfl⟩
    simp [choose, h1, pick, item, h2, limitVal, bind, Except.bind]
  | sym h1 h2 h3 h4 h5 =>
    obtain ⟨h5, h6⟩ := hmm h4 h5
    refine ⟨⟨.num (-y), .num y, s.func, s.kwargs⟩, ?_, ⟨hfk.1, h5, h6, hfk.2⟩, rfl, rfl⟩
    simp [choose, h1, h2, pick, item, h3, bind, Except.bind]
  | same h1 h2 h3 h4 h5 =>
    obtain ⟨h5, h6⟩ := hmm h4 h5
    have := three _ h2
    refine ⟨⟨.num (-y), .num y, s.func, s.kwargs⟩, ?_, ⟨hfk.1, h5, h6, hfk.2⟩, rfl, rfl⟩
    have h7 : (List.replicate 3 y)[i]? = some y := by
      rw [List.getElem?_replicate]; simp; omega
    simp only [choose, h1, h2, h3, if_true, pick, item, h7, bind, Except.bind]
  | options h1 h2 h3 h4 =>
    rcases hs with rfl | ⟨hk, i', hi'', hm, hM⟩
    · refine ⟨⟨.num x, .num y, a.func, without (without a.kwargs "max") "min"⟩, ?_,
        ⟨rfl, ?_, ?_, ?_⟩, rfl, rfl⟩
      · have e1 : (a.kwargs "min").getD (.num (-10)) = .num x := by
          rcases h3 with h | ⟨h, rfl⟩ <;> simp [h]
        have e2 : (a.kwargs "max").getD (.num 10) = .num y := by
          rcases h4 with h | ⟨h, rfl⟩ <;> simp [h]
        simp only [choose, h1, h2, pick, e1, e2]
      · simp [without]
      · simp [without]
      · intro j h5 h6
        simp [without, h5, h6]
    · refine ⟨s, ?_, hk, ?_, ?_⟩
      · simp only [choose, h1, h2, pick, hm, hM]
      · have w' := want i' hi''
        rw [hm]
        generalize lo i' = x' at w' ⊢
        generalize hi i' = y' at w' ⊢
        cases w' with
        | pairs g => simp [h1] at g
        | sym g1 g2 => simp [h2] at g2
        | same g1 g2 => simp [h2] at g2
        | options g1 g2 g3 g4 =>
          rcases h3 with h | ⟨h, h'⟩ <;> rcases g3 with g | ⟨g, g'⟩ <;> simp_all
      · have w' := want i' hi''
        rw [hM]
        generalize lo i' = x' at w' ⊢
        generalize hi i' = y' at w' ⊢
        cases w' with
        | pairs g => simp [h1] at g
        | sym g1 g2 => simp [h2] at g2
        | same g1 g2 => simp [h2] at g2
        | options g1 g2 g3 g4 =>
          rcases h4 with h | ⟨h, h'⟩ <;> rcases g4 with g | ⟨g, g'⟩ <;> simp_all

theorem joined (dir tag st : String) (h : dir ≠ "" ∧ dir.toList.getLast? ≠ some '/')
    (h' : tag.toList.head? ≠ some '/') :
    joinPath dir (tag ++ "_" ++ st) = dir ++ "/" ++ (tag ++ "_" ++ st) := by
  have h1 : (tag ++ "_" ++ st).toList.head? ≠ some '/' := by
    rw [String.toList_append, String.toList_append]
    cases ht : tag.toList with
    | nil => simp
    | cons c l =>
      rw [ht] at h'
      simpa using h'
  simp only [joinPath]
  rw [if_neg h1, if_neg (by simp [h.1, h.2])]

theorem masked (a : Args) (m : Map) (h : ∀ b, a.mask = some b → b.length = m.length) :
    ∃ m', applyMask a.mask m = .ok m' ∧ m'.length = m.length ∧
      ∀ (i : Nat) (x : Option ℝ), m[i]? = some x →
        m'[i]? = some (if ∃ b, a.mask = some b ∧ b[i]? = some false then none else x) := by
  cases hm : a.mask with
  | none => exact ⟨m, rfl, rfl, fun i x hx => by simp [hx]⟩
  | some b =>
    have hb := h b hm
    refine ⟨List.zipWith (fun keep x => if keep then x else none) b m,
      by simp only [applyMask, hb, ne_eq, not_true_eq_false, if_false], by simp [hb], ?_⟩
    intro i x hx
    have hl : i < m.length := (List.getElem?_eq_some_iff.1 hx).1
    obtain ⟨c, hc⟩ : ∃ c, b[i]? = some c := ⟨b[i]'(by omega), List.getElem?_eq_getElem _⟩
    rw [List.getElem?_zipWith, hx, hc]
    cases c <;> simp [hc]

theorem one_ok (a : Args) (lo hi : Nat → ℝ) (i : Nat) (u : Dict) (s : Loc) (ok : Sound a)
    (want : ∀ k < a.maps.length, Wanted a k (lo k) (hi k)) (hi' : i < a.maps.length)
    (three : ∀ x, a.symLimits = .scalar x → a.maps.length = 3) (hs : Before a lo hi s)
    (modest : Modest a) (hu : u = own a i) :
    ∃ p s', one a (choose a.limits a.symLimits a.symmetric) i (letter i) u s = .ok (p, s') ∧
      (Shows a i (lo i) (hi i) p ∧ p.dpi = (own a i "dpi").getD (.num 150) ∧
        p.transparent = ((own a i "transparent").or (a.kwargs "transparent")).getD (.flag false)) ∧
      Before a lo hi s' := by
  obtain ⟨s', h1, hk, h2, h3⟩ := pick_ok a lo hi i s want hi' three hs
  obtain ⟨m, hm⟩ : ∃ m, a.maps[i]? = some m := ⟨_, List.getElem?_eq_getElem hi'⟩
  obtain ⟨m', g1, g2, g3⟩ := masked a m fun b hb => ok.mask b hb m (List.mem_of_getElem? hm)
  subst hu
  have mod := modest i
  have nam := ok.named
  simp only [List.mem_cons, List.not_mem_nil, or_false, forall_eq_or_imp, forall_eq] at mod nam
  obtain ⟨m1, m2, m3, m4, m5, m6, m7⟩ := mod
  obtain ⟨n1, n2, n3, n4, n5, n6⟩ := nam
  have n1' : s'.kwargs "map_arr" = none := by rw [hk.rest _ (by decide) (by decide)]; exact n1
  have n2' : s'.kwargs "write_dir" = none := by rw [hk.rest _ (by decide) (by decide)]; exact n2
  have n3' : s'.kwargs "tag" = none := by rw [hk.rest _ (by decide) (by decide)]; exact n3
  have n4' : s'.kwargs "plot_func" = none := by rw [hk.rest _ (by decide) (by decide)]; exact n4
  have n5' : s'.kwargs "tight" = none := by rw [hk.rest _ (by decide) (by decide)]; exact n5
  have n6' : s'.kwargs "dpi" = none := by rw [hk.rest _ (by decide) (by decide)]; exact n6
  have n7' : s'.kwargs "transparent" = a.kwargs "transparent" :=
    hk.rest _ (by decide) (by decide)
  have hz : (update s'.kwargs (own a i)) "plot_func" = none := by simp [update, m4, n4']
  let z : Dict := without (update s'.kwargs (own a i)) "plot_func"
  have z0 : ∀ j, j ≠ "plot_func" → z j = (own a i j).or (s'.kwargs j) := by
    intro j hj
    simp only [z, without, if_neg hj, update]
    cases own a i j <;> rfl
  have zp : z "plot_func" = none := by simp [z, without]
  have z1 : z "map_arr" = none := by rw [z0 _ (by decide), m1, n1']; rfl
  have z2 : z "write_dir" = none := by rw [z0 _ (by decide), m2, n2']; rfl
  have z3 : z "tag" = none := by rw [z0 _ (by decide), m3, n3']; rfl
  have z5 : z "tight" = none := by rw [z0 _ (by decide), m5, n5']; rfl
  have z6 : z "min" = none := by rw [z0 _ (by decide), m6, hk.min]; rfl
  have z7 : z "max" = none := by rw [z0 _ (by decide), m7, hk.max]; rfl
  have zd : z "dpi" = own a i "dpi" := by rw [z0 _ (by decide), n6']; simp
  have zt : z "transparent" = (own a i "transparent").or (a.kwargs "transparent") := by
    rw [z0 _ (by decide), n7']
  have hj := joined a.dir a.tag (letter i) ok.dir ok.tag
  have rest : ∀ j, j ∉ ["min", "max", "dpi", "transparent"] →
      j ≠ "min" ∧ j ≠ "max" ∧ j ≠ "dpi" ∧ j ≠ "transparent" := by
    intro j h
    simpa using h
  have ownz : ∀ j v, j ∉ ["min", "max", "dpi", "transparent"] → own a i j = some v →
      z j = some v := by
    intro j v _ hv
    have : j ≠ "plot_func" := by rintro rfl; simp [m4] at hv
    rw [z0 _ this, hv]; rfl
  have sharedz : ∀ j, j ∉ ["min", "max", "dpi", "transparent"] → own a i j = none →
      z j = a.kwargs j := by
    intro j hj' hv
    obtain ⟨r1, r2, _, _⟩ := rest j hj'
    by_cases h : j = "plot_func"
    · subst h; rw [zp, n4]
    · rw [z0 _ h, hv, hk.rest _ r1 r2]; simp
  let L : Loc := { s' with minn := Val.num (lo i), maxx := Val.num (hi i), func := s'.func }
  have hL : Before a lo hi L := .inr ⟨⟨hk.func, hk.min, hk.max, hk.rest⟩, i, hi', rfl, rfl⟩
  have run : one a (choose a.limits a.symLimits a.symmetric) i (letter i) (own a i) s =
      (callPlot a (letter i) m' L z).bind fun p => .ok (p, L) := by
    simp only [one, h1, bind, Except.bind, item, hm, h2, h3, fillMin, fillMax, g1, hz,
      Option.getD_none]
    rfl
  rw [run]
  by_cases hn : a.noLimits = true
  · have e : callPlot a (letter i) m' L z = .ok
        { file := a.dir ++ "/" ++ (a.tag ++ "_" ++ letter i) ++ ".png", map := m', func := s'.func,
          tight := a.tight, dpi := (own a i "dpi").getD (.num 150),
          transparent := ((own a i "transparent").or (a.kwargs "transparent")).getD (.flag false),
          opts := without (without z "dpi") "transparent" } := by
      simp [callPlot, hn, plotMap, z1, z2, z3, zp, z5, zd, zt, hj, L]
    rw [e]
    refine ⟨_, _, rfl, ⟨⟨rfl, ?_, ?_, hk.func, rfl, ?_, ?_, ?_, ?_⟩, rfl, rfl⟩, hL⟩
    · intro m₂ h; rw [hm] at h; cases h; exact g2
    · intro m₂ i' x h hx; rw [hm] at h; cases h; exact g3 i' x hx
    · intro h; rw [hn] at h; cases h
    · intro _
      exact ⟨by simp [without, z6], by simp [without, z7]⟩
    · intro j v hj' hv
      obtain ⟨_, _, r3, r4⟩ := rest j hj'
      simp [without, r3, r4, ownz j v hj' hv]
    · intro j hj' hv
      obtain ⟨_, _, r3, r4⟩ := rest j hj'
      simp [without, r3, r4, sharedz j hj' hv]
  · have e : callPlot a (letter i) m' L z = .ok
        { file := a.dir ++ "/" ++ (a.tag ++ "_" ++ letter i) ++ ".png", map := m', func := s'.func,
          tight := a.tight, dpi := (own a i "dpi").getD (.num 150),
          transparent := ((own a i "transparent").or (a.kwargs "transparent")).getD (.flag false),
          opts := without (without (put (put z "min" (.num (lo i))) "max" (.num (hi i))) "dpi")
            "transparent" } := by
      simp [callPlot, hn, plotMap, put, z1, z2, z3, zp, z5, z6, z7, zd, zt, hj, L]
    rw [e]
    refine ⟨_, _, rfl, ⟨⟨rfl, ?_, ?_, hk.func, rfl, ?_, ?_, ?_, ?_⟩, rfl, rfl⟩, hL⟩
    · intro m₂ h; rw [hm] at h; cases h; exact g2
    · intro m₂ i' x h hx; rw [hm] at h; cases h; exact g3 i' x hx
    · intro _
      exact ⟨by simp [without, put], by simp [without, put]⟩
    · intro h; exact absurd h hn
    · intro j v hj' hv
      obtain ⟨r1, r2, r3, r4⟩ := rest j hj'
      simp [without, put, r1, r2, r3, r4, ownz j v hj' hv]
    · intro j hj' hv
      obtain ⟨r1, r2, r3, r4⟩ := rest j hj'
      simp [without, put, r1, r2, r3, r4, sharedz j hj' hv]

theorem pyRound_near (t : ℝ) : |(Filters.pyRound t : ℝ) - t| ≤ 1 / 2 := by
  have h1 := Int.floor_le t
  have h2 := Int.lt_floor_add_one t
  rw [abs_le]
  unfold Filters.pyRound
  split
  · constructor <;> linarith
  · split
    · push_cast; constructor <;> linarith
    · split
      · constructor <;> linarith
      · push_cast; constructor <;> linarith

/-- What the loop runs over. -/
theorem rounds_ok (a : Args) (ok : Sound a)
    (dicts : a.udicts = none ∨ a.maps.length = 3 ∧ ∃ u, a.udicts = some u ∧ 3 ≤ u.length) :
    (rounds a.maps.length a.udicts).length = a.maps.length ∧
      ∀ k st u, (rounds a.maps.length a.udicts)[k]? = some (st, u) →
        k < a.maps.length ∧ st = letter k ∧ u = own a k := by
  rcases dicts with h | ⟨h, u, h', hu⟩
  · rcases ok.count with h3 | h3
    · rw [h, h3]
      refine ⟨by simp [rounds], ?_⟩
      intro k st u hk
      have : k < 3 := by
        have := (List.getElem?_eq_some_iff.1 hk).1
        simpa [rounds] using this
      interval_cases k <;> simp [rounds, List.replicate] at hk <;> simp [hk, letter, own, h]
    · rw [h, h3]
      refine ⟨by simp [rounds], ?_⟩
      intro k st u hk
      have : k < 4 := by
        have := (List.getElem?_eq_some_iff.1 hk).1
        simpa [rounds] using this
      interval_cases k <;> simp [rounds, List.replicate] at hk <;> simp [hk, letter, own, h]
  · rw [h', h]
    obtain ⟨u0, u1, u2, r, rfl⟩ : ∃ u0 u1 u2 r, u = u0 :: u1 :: u2 :: r := by
      match u, hu with
      | u0 :: u1 :: u2 :: r, _ => exact ⟨u0, u1, u2, r, rfl⟩
    refine ⟨by simp [rounds], ?_⟩
    intro k st u hk
    have : k < 3 := by
      have := (List.getElem?_eq_some_iff.1 hk).1
      simpa [rounds] using this
    interval_cases k <;> simp [rounds] at hk <;> simp [hk, letter, own, h']

end Plotting

open Plotting

/-- **C123**.  `plot_iqu` writes one plot for every map, in the file of its letter, with its own
pixels except for the masked ones, the limits that are asked for, and the options that are shared or
its own.  Partial: the resolution that is asked for is not used; four maps are plotted only without
dictionaries and without a single symmetric limit; dictionaries may not set limits and should not set
plotting functions; limits that are left to the data are excluded.  See the violations. -/
theorem C123_plots_partial (a : Args) (lo hi : Nat → ℝ) (ok : Sound a) (modest : Modest a)
    (want : ∀ k < a.maps.length, Wanted a k (lo k) (hi k))
    (three : ∀ x, a.symLimits = .scalar x → a.maps.length = 3)
    (dicts : a.udicts = none ∨ a.maps.length = 3 ∧ ∃ u, a.udicts = some u ∧ 3 ≤ u.length) :
    ∃ ps, plotIqu a = (ps, none) ∧ ps.length = a.maps.length ∧
      ∀ k < a.maps.length, ∃ p, ps[k]? = some p ∧ Shows a k (lo k) (hi k) p ∧
        p.dpi = (own a k "dpi").getD (.num 150) ∧
        p.transparent =
          ((own a k "transparent").or (a.kwargs "transparent")).getD (.flag false) := by
  obtain ⟨r1, r2⟩ := rounds_ok a ok dicts
  obtain ⟨ps, h1, h2, h3⟩ := loop_ok a (choose a.limits a.symLimits a.symmetric) (Before a lo hi)
    (fun i p => Shows a i (lo i) (hi i) p ∧ p.dpi = (own a i "dpi").getD (.num 150) ∧
      p.transparent = ((own a i "transparent").or (a.kwargs "transparent")).getD (.flag false))
    (rounds a.maps.length a.udicts) 0 ⟨.none, .none, a.func, a.kwargs⟩ (.inl rfl) (by
      intro k st u s hk hs
      obtain ⟨g1, rfl, rfl⟩ := r2 k st u hk
      rw [Nat.zero_add]
      exact one_ok a lo hi k _ s ok want g1 three hs modest rfl)
  refine ⟨ps, ?_, by rw [h2, r1], ?_⟩
  · have e1 : ¬ ∃ m ∈ a.maps, ∃ m' ∈ a.maps, m.length ≠ m'.length := by
      rintro ⟨m, hm, m', hm', h⟩
      exact h (ok.same m hm m' hm')
    have e2 : ¬ (a.maps.length ≠ 3 ∧ a.maps.length ≠ 4) := by
      have := ok.count
      omega
    rw [plotIqu, if_neg e1, if_neg e2]
    exact h1
  · intro k hk
    obtain ⟨p, hp, h⟩ := h3 k (by rw [r1]; exact hk)
    rw [Nat.zero_add] at h
    exact ⟨p, hp, h⟩

/-- Different maps are written to different files. -/
theorem C123_distinct (a : Args) (k k' : Nat) (lo hi lo' hi' : ℝ) (p p' : Plot)
    (hk : k < 4) (hk' : k' < 4) (ne : k ≠ k')
    (h : Shows a k lo hi p) (h' : Shows a k' lo' hi' p') : p.file ≠ p'.file := by
  rw [h.file, h'.file]
  intro e
  have e' := congrArg String.toList e
  simp only [String.toList_append, List.append_assoc] at e'
  have e'' := List.append_cancel_left e'
  have e3 := List.append_cancel_left e''
  have e4 := List.append_cancel_left e3
  have e5 := List.append_cancel_left e4
  interval_cases k <;> interval_cases k' <;> simp_all [letter]

/-- Anything but three or four maps is refused before anything is written. -/
theorem C123_refused (a : Args) (h : a.maps.length ≠ 3) (h' : a.maps.length ≠ 4) :
    plotIqu a = ([], some .valueError) := by
  rw [plotIqu]
  split
  · rfl
  · rw [if_pos ⟨h, h'⟩]

/-- Limits that are left to the data are rounded to one digit: the result is a digit times a power of
ten, of the sign of the number, and differs from it by at most half a unit of that digit. -/
theorem C123_round (x : ℝ) (hx : x ≠ 0) :
    ∃ (d e : Int) (y : ℝ), roundSig x 1 = .ok y ∧ (10 : ℝ) ^ e ≤ |x| ∧ |x| < (10 : ℝ) ^ (e + 1) ∧
      y = d * (10 : ℝ) ^ e ∧ 1 ≤ |d| ∧ |d| ≤ 10 ∧ |y - x| ≤ (10 : ℝ) ^ e / 2 ∧ 0 < x * y := by
  have hpos : 0 < |x| := abs_pos.2 hx
  let e : Int := ⌊Real.logb 10 |x|⌋
  have he1 : (10 : ℝ) ^ e ≤ |x| := by
    have := Int.floor_le (Real.logb 10 |x|)
    rw [Real.le_logb_iff_rpow_le (by norm_num) hpos] at this
    rwa [Real.rpow_intCast] at this
  have he2 : |x| < (10 : ℝ) ^ (e + 1) := by
    have := Int.lt_floor_add_one (Real.logb 10 |x|)
    rw [Real.logb_lt_iff_lt_rpow (by norm_num) hpos] at this
    have h2 : ((⌊Real.logb 10 |x|⌋ : ℝ) + 1) = ((e + 1 : Int) : ℝ) := by push_cast; rfl
    rwa [h2, Real.rpow_intCast] at this
  have hp : (0 : ℝ) < (10 : ℝ) ^ e := by positivity
  let t : ℝ := x / (10 : ℝ) ^ e
  have hxt : x = t * (10 : ℝ) ^ e := by simp only [t]; field_simp
  have ht : |t| = |x| / (10 : ℝ) ^ e := by
    simp only [t, abs_div, abs_of_pos hp]
  have ht1 : 1 ≤ |t| := by rw [ht, le_div_iff₀ hp]; simpa using he1
  have ht2 : |t| < 10 := by
    rw [ht, div_lt_iff₀ hp]
    rw [zpow_add₀ (by norm_num)] at he2
    simpa [mul_comm] using he2
  have hr : |(Filters.pyRound t : ℝ) - t| ≤ 1 / 2 := Plotting.pyRound_near t
  have hy : roundSig x 1 = .ok ((Filters.pyRound t : ℝ) * (10 : ℝ) ^ e) := by
    have h1 : (1 : Int) - ⌊Real.logb 10 |x|⌋ - 1 = -e := by simp only [e]; ring
    simp only [roundSig, if_neg hx, h1]
    rw [zpow_neg, ← div_eq_mul_inv, div_inv_eq_mul]
  have hsgn : (0 < t ∧ 1 ≤ Filters.pyRound t ∧ Filters.pyRound t ≤ 10) ∨
      (t < 0 ∧ Filters.pyRound t ≤ -1 ∧ -10 ≤ Filters.pyRound t) := by
    rw [abs_le] at hr
    rcases le_or_gt 0 t with h | h
    · rw [abs_of_nonneg h] at ht1 ht2
      refine .inl ⟨by linarith, ?_, ?_⟩
      · have : (0 : ℝ) < Filters.pyRound t := by linarith
        have : 0 < Filters.pyRound t := by exact_mod_cast this
        omega
      · have : (Filters.pyRound t : ℝ) < 11 := by linarith
        have : Filters.pyRound t < 11 := by exact_mod_cast this
        omega
    · rw [abs_of_neg h] at ht1 ht2
      refine .inr ⟨h, ?_, ?_⟩
      · have : (Filters.pyRound t : ℝ) < 0 := by linarith
        have : Filters.pyRound t < 0 := by exact_mod_cast this
        omega
      · have : (-11 : ℝ) < Filters.pyRound t := by linarith
        have : -11 < Filters.pyRound t := by exact_mod_cast this
        omega
  refine ⟨Filters.pyRound t, e, _, hy, he1, he2, rfl, ?_, ?_, ?_, ?_⟩
  · rcases hsgn with ⟨_, h, _⟩ | ⟨_, h, _⟩
    · rw [abs_of_nonneg (by omega)]; exact h
    · rw [abs_of_nonpos (by omega)]; omega
  · rcases hsgn with ⟨_, h, h'⟩ | ⟨_, h, h'⟩
    · rw [abs_of_nonneg (by omega)]; exact h'
    · rw [abs_of_nonpos (by omega)]; omega
  · have : (Filters.pyRound t : ℝ) * (10 : ℝ) ^ e - x =
        ((Filters.pyRound t : ℝ) - t) * (10 : ℝ) ^ e := by
      rw [sub_mul, ← hxt]
    rw [this, abs_mul, abs_of_pos hp]
    calc _ ≤ 1 / 2 * (10 : ℝ) ^ e := by gcongr
      _ = _ := by ring
  · have h0 : 0 < t * (Filters.pyRound t : ℝ) := by
      rcases hsgn with ⟨h1, h, _⟩ | ⟨h1, h, _⟩
      · have : (1 : ℝ) ≤ Filters.pyRound t := by exact_mod_cast h
        exact mul_pos h1 (by linarith)
      · have : (Filters.pyRound t : ℝ) ≤ -1 := by exact_mod_cast h
        exact mul_pos_of_neg_of_neg h1 (by linarith)
    calc (0 : ℝ) < t * (Filters.pyRound t : ℝ) * ((10 : ℝ) ^ e * (10 : ℝ) ^ e) := by positivity
      _ = t * (10 : ℝ) ^ e * ((Filters.pyRound t : ℝ) * (10 : ℝ) ^ e) := by ring
      _ = _ := by rw [← hxt]

/-- Violation: the resolution that is asked for is not used at all. -/
theorem C123_violation_dpi (a : Args) (d : Val) : plotIqu { a with dpi := d } = plotIqu a := by
  have h1 : ∀ st m s z, callPlot { a with dpi := d } st m s z = callPlot a st m s z := fun _ _ _ _ => rfl
  have h2 : ∀ c i st u s, one { a with dpi := d } c i st u s = one a c i st u s := fun _ _ _ _ _ => rfl
  have h3 : ∀ c l i s, loop { a with dpi := d } c i l s = loop a c i l s := by
    intro c l
    induction l with
    | nil => intro i s; rfl
    | cons x l ih =>
      intro i s
      simp only [loop, h2]
      cases one a c i x.1 x.2 s with
      | error e => rfl
      | ok r => simp only [ih]
  simp only [plotIqu, h3]

/-- Violation: a single symmetric limit is ignored unless `symmetric` is set. -/
theorem C123_violation_scalar (a : Args) (x : ℝ) (h : a.symmetric = false) :
    plotIqu { a with symLimits := .scalar x } = plotIqu { a with symLimits := .none } := by
  have h1 : ∀ c l i s, loop { a with symLimits := .scalar x } c i l s =
      loop { a with symLimits := .none } c i l s := by
    intro c l
    induction l with
    | nil => intro i s; rfl
    | cons x' l ih =>
      intro i s
      have h2 : one { a with symLimits := .scalar x } c i x'.1 x'.2 s =
        one { a with symLimits := .none } c i x'.1 x'.2 s := rfl
      simp only [loop, h2]
      cases one { a with symLimits := .none } c i x'.1 x'.2 s with
      | error e => rfl
      | ok r => simp only [ih]
  have h3 : choose a.limits (.scalar x) a.symmetric = choose a.limits .none a.symmetric := by
    simp only [choose, h]
    cases a.limits <;> rfl
  simp only [plotIqu, h3, h1]

namespace Plotting

theorem loop_length (a : Args) (c : Choice) : ∀ (l : List (String × Dict)) (i : Nat) (s : Loc),
    (loop a c i l s).1.length ≤ l.length
  | [], _, _ => by simp [loop]
  | (st, u) :: rest, i, s => by
    simp only [loop]
    cases one a c i st u s with
    | error e => simp
    | ok r => simpa using loop_length a c rest (i + 1) r.2

end Plotting

/-- Violation: with dictionaries at most three plots are made, whatever the number of maps: Stokes V
is left out silently. -/
theorem C123_violation_fourth (a : Args) (u : List Dict) (h : a.udicts = some u) :
    (plotIqu a).1.length ≤ 3 := by
  rw [plotIqu]
  split
  · simp
  · split
    · simp
    · refine (loop_length a _ _ _ _).trans ?_
      rw [h]
      simp only [rounds, List.length_zip]
      exact Nat.min_le_left _ _

/-- Violation: limits in the dictionary of the first map are refused. -/
theorem C123_violation_clash (a : Args) (u : Dict) (r : List Dict) (h : a.udicts = some (u :: r))
    (h' : a.noLimits = false) (v : Val) (hu : u "min" = some v) :
    (plotIqu a).1 = [] ∧ (plotIqu a).2 ≠ none := by
  rw [plotIqu]
  split
  · simp
  · split
    · simp
    · rw [h]
      simp only [rounds, List.zip_cons_cons, loop]
      cases ho : one a (choose a.limits a.symLimits a.symmetric) 0 "I" u
          ⟨.none, .none, a.func, a.kwargs⟩ with
      | error e => simp
      | ok p =>
        exfalso
        rw [one] at ho
        obtain ⟨s, h1, ho⟩ := MapMaking.bind_ok ho
        obtain ⟨m, h2, ho⟩ := MapMaking.bind_ok ho
        obtain ⟨lo, h3, ho⟩ := MapMaking.bind_ok ho
        obtain ⟨hi, h4, ho⟩ := MapMaking.bind_ok ho
        obtain ⟨m', h5, ho⟩ := MapMaking.bind_ok ho
        obtain ⟨q, h6, ho⟩ := MapMaking.bind_ok ho
        have hz : without (update s.kwargs u) "plot_func" "min" = some v := by
          simp [without, update, hu]
        simp [callPlot, h', hz] at h6

/-- Violation: a single symmetric limit cannot be used for four maps. -/
theorem C123_violation_four_scalar (a : Args) (x : ℝ) (h : a.limits = .none)
    (h1 : a.symLimits = .scalar x) (h2 : a.symmetric = true) (h3 : a.maps.length = 4)
    (h4 : a.udicts = none) : (plotIqu a).2 ≠ none ∧ (plotIqu a).1.length ≤ 3 := by
  rw [plotIqu]
  split
  · simp
  · split
    · simp
    · have hl : ∀ st u s, one a (.sym (List.replicate 3 x)) 3 st u s = .error .indexError := by
        intro st u s
        rfl
      have hc : choose a.limits a.symLimits a.symmetric = .sym (List.replicate 3 x) := by
        simp only [choose, h, h1, h2, if_true]
      rw [h3, h4, hc]
      simp only [rounds, if_true, List.replicate, List.zip_cons_cons, List.zip_nil_right, loop, hl,
        Nat.zero_add, Nat.reduceAdd]
      have hl' := hl
      simp only [List.replicate] at hl'
      cases one a (.sym [x, x, x]) 0 "I" (fun _ => none) ⟨.none, .none, a.func, a.kwargs⟩ with
      | error e => simp
      | ok r =>
        dsimp only
        cases one a (.sym [x, x, x]) 1 "Q" (fun _ => none) r.2 with
        | error e => simp
        | ok r' =>
          dsimp only
          cases one a (.sym [x, x, x]) 2 "U" (fun _ => none) r'.2 with
          | error e => simp
          | ok r'' => simp [hl']

namespace Plotting

theorem min_ok (m : Map) (x : ℝ) (h : some x ∈ m) (h' : ∀ y, some y ∈ m → x ≤ y) :
    (m.filterMap id).min? = some x := by
  rw [List.min?_eq_some_iff]
  exact ⟨by simpa using h, fun y hy => h' y (by simpa using hy)⟩

theorem max_ok (m : Map) (x : ℝ) (h : some x ∈ m) (h' : ∀ y, some y ∈ m → y ≤ x) :
    (m.filterMap id).max? = some x := by
  rw [List.max?_eq_some_iff]
  exact ⟨by simpa using h, fun y hy => h' y (by simpa using hy)⟩

/-- The loop reads the maps, the mask, the names, `no_limits` and `tight` only. -/
theorem loop_congr (a a' : Args) (h1 : a.maps = a'.maps) (h2 : a.mask = a'.mask)
    (h3 : a.dir = a'.dir) (h4 : a.tag = a'.tag) (h5 : a.noLimits = a'.noLimits)
    (h6 : a.tight = a'.tight) (c : Choice) (l : List (String × Dict)) (i : Nat) (s : Loc) :
    loop a c i l s = loop a' c i l s := by
  have h : ∀ i st u s, one a c i st u s = one a' c i st u s := by
    intro i st u s
    simp only [one, callPlot, h1, h2, h3, h4, h5, h6]
  induction l generalizing i s with
  | nil => rfl
  | cons x l ih =>
    simp only [loop, h]
    cases one a' c i x.1 x.2 s with
    | error e => rfl
    | ok r => simp only [ih]

end Plotting

/-- Violation: limits that are left to the data, by `min=None` and `max=None`, are those of the first
map for all maps, and masked pixels count: the call is the one with these two numbers as limits. -/
theorem C123_violation_carried (a : Args) (m : Map) (r : List Map) (x y lo hi : ℝ)
    (hl : a.limits = .none) (hs : a.symLimits = .none) (hm : a.maps = m :: r)
    (least : some x ∈ m ∧ ∀ z, some z ∈ m → x ≤ z)
    (most : some y ∈ m ∧ ∀ z, some z ∈ m → z ≤ y)
    (hlo : roundSig x 1 = .ok lo) (hhi : roundSig y 1 = .ok hi) :
    plotIqu { a with kwargs := put (put a.kwargs "min" .none) "max" .none } =
      plotIqu { a with kwargs := put (put a.kwargs "min" (.num lo)) "max" (.num hi) } := by
  let a1 : Args := { a with kwargs := put (put a.kwargs "min" .none) "max" .none }
  let a2 : Args := { a with kwargs := put (put a.kwargs "min" (.num lo)) "max" (.num hi) }
  have hlow : autoMin m = .ok (.num lo) := by
    rw [autoMin, min_ok m x least.1 least.2]
    simp [hlo, bind, Except.bind]
  have hhigh : autoMax m = .ok (.num hi) := by
    rw [autoMax, max_ok m y most.1 most.2]
    simp [hhi, bind, Except.bind]
  have hk : without (without (put (put a.kwargs "min" .none) "max" .none) "max") "min" =
      without (without (put (put a.kwargs "min" (.num lo)) "max" (.num hi)) "max") "min" := by
    funext j
    simp only [without, put]
    by_cases h1 : j = "min"
    · simp [h1]
    · by_cases h2 : j = "max" <;> simp [h1, h2]
  have hc : choose a.limits a.symLimits a.symmetric = .unset := by simp only [choose, hl, hs]
  have p1 : pick .unset 0 ⟨.none, .none, a.func, put (put a.kwargs "min" .none) "max" .none⟩ =
      .ok ⟨.none, .none, a.func,
        without (without (put (put a.kwargs "min" .none) "max" .none) "max") "min"⟩ := by
    simp [pick, put]
  have p2 : pick .unset 0 ⟨.none, .none, a.func, put (put a.kwargs "min" (.num lo)) "max" (.num hi)⟩ =
      .ok ⟨.num lo, .num hi, a.func,
        without (without (put (put a.kwargs "min" .none) "max" .none) "max") "min"⟩ := by
    rw [hk]
    simp [pick, put]
  have e : ∀ st u, one a .unset 0 st u ⟨.none, .none, a.func, put (put a.kwargs "min" .none) "max" .none⟩ =
      one a .unset 0 st u ⟨.none, .none, a.func, put (put a.kwargs "min" (.num lo)) "max" (.num hi)⟩ := by
    intro st u
    simp only [one, p1, p2, bind, Except.bind, item, hm, List.getElem?_cons_zero, fillMin, fillMax,
      hlow, hhigh]
  have e' : ∀ l, loop a .unset 0 l ⟨.none, .none, a.func, put (put a.kwargs "min" .none) "max" .none⟩ =
      loop a .unset 0 l ⟨.none, .none, a.func, put (put a.kwargs "min" (.num lo)) "max" (.num hi)⟩ := by
    intro l
    cases l with
    | nil => rfl
    | cons x l => simp only [loop, e]
  have c1 := fun c l i s => loop_congr a1 a rfl rfl rfl rfl rfl rfl c l i s
  have c2 := fun c l i s => loop_congr a2 a rfl rfl rfl rfl rfl rfl c l i s
  simp only [plotIqu]
  simp only [a1] at c1
  simp only [a2] at c2
  simp only [c1, c2, hc, e']

/-- Violation: if the first map has the value zero as its smallest one, limits that are left to the
data end the call before anything is plotted. -/
theorem C123_violation_zero (a : Args) (m : Map) (r : List Map)
    (hl : a.limits = .none) (hs : a.symLimits = .none) (hm : a.maps = m :: r)
    (least : some 0 ∈ m ∧ ∀ z, some z ∈ m → 0 ≤ z) (hmin : a.kwargs "min" = some .none)
    (hd : a.udicts = none) :
    (plotIqu a).1 = [] ∧ (plotIqu a).2 ≠ none := by
  rw [plotIqu]
  split
  · simp
  · split
    · simp
    · have hc : choose a.limits a.symLimits a.symmetric = .unset := by simp only [choose, hl, hs]
      have ho : ∀ st u, one a .unset 0 st u ⟨.none, .none, a.func, a.kwargs⟩ = .error .overflowError := by
        intro st u
        have : autoMin m = .error .overflowError := by
          rw [autoMin, min_ok m 0 least.1 least.2]
          simp [roundSig, bind, Except.bind]
        simp [one, pick, hmin, bind, Except.bind, item, hm, fillMin, this]
      rw [hc, hd]
      simp only [rounds]
      split <;> simp [List.replicate, loop, ho]

/-- Violation: the rounded limits need not contain the data: 14 is rounded to 10. -/
theorem C123_violation_clipped : roundSig 14 1 = .ok 10 := by
  obtain ⟨d, e, y, h, h1, h2, h3, h4, h5, h6, _⟩ := C123_round 14 (by norm_num)
  rw [abs_of_pos (by norm_num)] at h1 h2
  have he : e = 1 := by
    have g1 : e < 2 := by
      by_contra hc
      have : (10 : ℝ) ^ (2 : Int) ≤ (10 : ℝ) ^ e := zpow_le_zpow_right₀ (by norm_num) (by omega)
      norm_num at this
      linarith
    have g2 : 0 < e := by
      by_contra hc
      have : (10 : ℝ) ^ (e + 1) ≤ (10 : ℝ) ^ (1 : Int) := zpow_le_zpow_right₀ (by norm_num) (by omega)
      norm_num at this
      linarith
    omega
  subst he
  have hy : y = d * 10 := by simpa using h3
  rw [hy, abs_le] at h6
  norm_num at h6
  have g1 : (d : ℝ) < 2 := by linarith
  have g2 : (0 : ℝ) < d := by linarith
  have g1' : d < 2 := by exact_mod_cast g1
  have g2' : 0 < d := by exact_mod_cast g2
  have : d = 1 := by omega
  rw [h, hy, this]
  norm_num

/-- Violation: a plotting function that is given for the first map only is used for all maps. -/
theorem C123_violation_function (a : Args) (f : Val) (h : a.maps.length = 3)
    (hk : a.kwargs "plot_func" = none) :
    plotIqu { a with
      udicts := some [fun j => if j = "plot_func" then some f else none, fun _ => none, fun _ => none] }
      = plotIqu { a with func := f, udicts := none } := by
  let u : Dict := fun j => if j = "plot_func" then some f else none
  have hpick : ∀ c g, pick c 0 ⟨.none, .none, g, a.kwargs⟩ =
      (pick c 0 ⟨.none, .none, f, a.kwargs⟩).map fun s => { s with func := g } := by
    intro c g
    cases c with
    | sym l =>
      simp only [pick]
      cases item l 0 <;> simp [bind, Except.bind, Except.map]
    | pairs l =>
      simp only [pick]
      cases item l 0 <;> simp [bind, Except.bind, Except.map]
    | flat l =>
      simp only [pick]
      cases item l 0 <;> simp [bind, Except.bind, Except.map]
    | unset => simp [pick, Except.map]
  have hkept : ∀ c s, pick c 0 ⟨.none, .none, f, a.kwargs⟩ = .ok s →
      s.kwargs "plot_func" = none ∧ s.func = f := by
    intro c s hs
    cases c with
    | sym l =>
      simp only [pick] at hs
      obtain ⟨x, _, hs⟩ := MapMaking.bind_ok hs
      cases hs
      exact ⟨hk, rfl⟩
    | pairs l =>
      simp only [pick] at hs
      obtain ⟨x, _, hs⟩ := MapMaking.bind_ok hs
      cases hs
      exact ⟨hk, rfl⟩
    | flat l =>
      simp only [pick] at hs
      obtain ⟨x, _, hs⟩ := MapMaking.bind_ok hs
      cases hs
    | unset =>
      simp only [pick] at hs
      cases hs
      exact ⟨by simp [without, hk], rfl⟩
  have e : ∀ c, one a c 0 "I" u ⟨.none, .none, a.func, a.kwargs⟩ =
      one a c 0 "I" (fun _ => none) ⟨.none, .none, f, a.kwargs⟩ := by
    intro c
    simp only [one]
    rw [hpick c a.func]
    cases hp : pick c 0 ⟨.none, .none, f, a.kwargs⟩ with
    | error e => rfl
    | ok s =>
      obtain ⟨k1, k2⟩ := hkept c s hp
      have z : without (update s.kwargs u) "plot_func" =
          without (update s.kwargs fun _ => none) "plot_func" := by
        funext j
        simp only [without, update, u]
        by_cases hj : j = "plot_func" <;> simp [hj]
      have f1 : update s.kwargs u "plot_func" = some f := by simp [update, u]
      have f2 : update s.kwargs (fun _ => none) "plot_func" = none := by simp [update, k1]
      simp only [Except.map, bind, Except.bind, z, f1, f2, Option.getD_some, Option.getD_none, k2]
  have c1 := fun c l i s => loop_congr { a with udicts := some [u, fun _ => none, fun _ => none] } a
    rfl rfl rfl rfl rfl rfl c l i s
  have c2 := fun c l i s => loop_congr { a with func := f, udicts := none } a
    rfl rfl rfl rfl rfl rfl c l i s
  simp only [plotIqu, h]
  simp only [u] at c1 e
  rw [c1, c2]
  simp only [rounds, List.replicate, List.zip_cons_cons, List.zip_nil_right, loop, e,
    show ¬ (3 = 4) by decide, if_false]

/-! ### The hypotheses are met -/

namespace Plotting

noncomputable section

/-- Three maps of two pixels, the second one masked, with their own options. -/
def args : Args :=
  { maps := [[some 1, some 2], [some 3, none], [some 0, some 7]]
    dir := "out", tag := "sky", func := .func 0
    limits := .pairs [(some 0, some 1), (some 2, some 3), (some (-1), some 1)]
    mask := some [true, false]
    udicts := some [fun _ => none, fun j => if j = "title" then some (.text "q") else none,
      fun _ => none]
    kwargs := fun j => if j = "unit" then some (.text "uK") else none }

theorem args_sound : Sound args where
  count := .inl rfl
  same := by decide
  mask := by
    rintro b hb m hm
    cases hb
    simp only [args, List.mem_cons, List.not_mem_nil, or_false] at hm
    rcases hm with rfl | rfl | rfl <;> rfl
  dir := by decide
  tag := by decide
  named := by
    intro j hj
    simp only [args]
    rw [if_neg]
    rintro rfl
    revert hj
    decide

theorem args_modest : Modest args := by
  intro k j hj
  have ht : j ≠ "title" := by
    rintro rfl
    revert hj
    decide
  match k with
  | 0 => rfl
  | 1 => simp [own, args, ht]
  | 2 => rfl
  | k + 3 => simp [own, args]

example : ∃ ps, plotIqu args = (ps, none) ∧ ps.length = 3 ∧
    ∃ p, ps[1]? = some p ∧ p.file = "out/sky_Q.png" ∧ p.map = [some 3, none] ∧
      p.opts "min" = some (.num 2) ∧ p.opts "max" = some (.num 3) ∧
      p.opts "title" = some (.text "q") ∧ p.opts "unit" = some (.text "uK") := by
  obtain ⟨ps, h1, h2, h3⟩ := C123_plots_partial args
    (fun k => if k = 0 then 0 else if k = 1 then 2 else -1)
    (fun k => if k = 0 then 1 else if k = 1 then 3 else 1) args_sound args_modest
    (by
      intro k hk
      have : k < 3 := hk
      interval_cases k
      · exact .pairs (l := [(some 0, some 1), (some 2, some 3), (some (-1), some 1)]) rfl rfl rfl rfl
      · exact .pairs (l := [(some 0, some 1), (some 2, some 3), (some (-1), some 1)]) rfl rfl rfl rfl
      · exact .pairs (l := [(some 0, some 1), (some 2, some 3), (some (-1), some 1)]) rfl rfl rfl rfl)
    (fun x hx => by cases hx) (.inr ⟨rfl, _, rfl, by decide⟩)
  refine ⟨ps, h1, h2, ?_⟩
  obtain ⟨p, hp, hs, _⟩ := h3 1 (by decide)
  have b := hs.bounds rfl
  refine ⟨p, hp, by rw [hs.file]; decide, ?_, b.1, b.2, hs.specific "title" _ (by decide) rfl,
    (hs.shared "unit" (by decide) rfl).trans rfl⟩
  have hz := hs.size _ rfl
  have q0 := hs.pixel _ 0 _ rfl rfl
  have q1 := hs.pixel _ 1 _ rfl rfl
  refine List.ext_getElem? fun i => ?_
  match i with
  | 0 => rw [q0]; simp [args]
  | 1 => rw [q1]; simp [args]
  | i + 2 =>
    rw [List.getElem?_eq_none (by rw [hz]; simp), List.getElem?_eq_none (by simp)]

/-- Four maps with the default limits. -/
def four : Args :=
  { maps := [[some 1], [some 1], [some 1], [some 1]]
    dir := "d", tag := "t", func := .func 0 }

example : ∃ ps, plotIqu four = (ps, none) ∧ ps.length = 4 ∧
    ∃ p, ps[3]? = some p ∧ p.file = "d/t_V.png" ∧ p.opts "max" = some (.num 10) := by
  obtain ⟨ps, h1, h2, h3⟩ := C123_plots_partial four (fun _ => -10) (fun _ => 10)
    ⟨.inr rfl, by decide, by simp [four], by decide, by decide, by simp [four]⟩
    (by intro k j _; rfl)
    (fun k _ => .options rfl rfl (.inr ⟨rfl, rfl⟩) (.inr ⟨rfl, rfl⟩))
    (fun x hx => by cases hx) (.inl rfl)
  obtain ⟨p, hp, hs, _⟩ := h3 3 (by simp [four])
  exact ⟨ps, h1, h2, p, hp, by rw [hs.file]; decide, (hs.bounds rfl).2⟩

/-- Three maps with very different values. -/
def uneven : Args :=
  { maps := [[some 1, some 14], [some 200, some 300], [some 5, some 6]]
    dir := "d", tag := "t", func := .func 0 }

/-- The limits of the first map are carried over to the next ones. -/
example : ∃ lo hi, plotIqu { uneven with
      kwargs := put (put (fun _ => none) "min" .none) "max" .none } =
    plotIqu { uneven with
      kwargs := put (put (fun _ => none) "min" (.num lo)) "max" (.num hi) } ∧ hi = 10 := by
  obtain ⟨_, _, lo, hlo, _⟩ := C123_round 1 (by norm_num)
  exact ⟨lo, 10, C123_violation_carried uneven [some 1, some 14] _ 1 14 lo 10 rfl rfl rfl
    ⟨by simp, by simp⟩ ⟨by simp, by norm_num⟩ hlo C123_violation_clipped, rfl⟩

end

end Plotting

end Verif.Props
