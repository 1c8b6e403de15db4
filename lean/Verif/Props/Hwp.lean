import Verif.Lemmas.Hwp
import Mathlib.Data.Rat.Floor

/-!
# Properties C11 (HWP part), C12, C13 and the HWP part of C58
-/

namespace Verif.Props

open Verif.Hwp Verif.Step Verif.Spec

variable {K : Type} [Field K] [LinearOrder K] [IsStrictOrderedRing K] [FloorRing K]

/-- **C12.** Stepped mode with `n = int(fsamp/freq) ≥ 1` samples per step: for every way of cutting
the mission `[0, N)` in chunks, the HWP angle stored for sample `t` is the angle
`angles[(t div n) mod len]` up to a multiple of 360 degrees (2 pi radians; `hwp_ang` is in
radians). -/
theorem C12_stepped_hwp_chunk_independent (π fsamp freq startAng varphi : K) (hπ : 0 < π)
    (hfreq : freq ≠ 0) (n : Nat) (hn : 0 < n) (hstep : truncInt (fsamp / freq) = n)
    (angles : List K) (hA : angles ≠ []) (N : Int) (chunks : List (Int × Int))
    (ht : Tiles 0 N chunks) :
    ∃ (h₀ : State K) (arrs : List (List K)) (h' : State K),
      setHwpMod fsamp .stepped freq startAng (some angles) varphi = .ok h₀ ∧
      run π fsamp h₀ chunks = .ok (arrs.map fun a => some (.array a), h') ∧
      ∀ t : Nat, (t:Int) < N → ∃ (a : K) (z : ℤ), scheduled n angles t = some a ∧
        arrs.flatten[t]? = some (radians π a + 2 * π * z) := by
  obtain ⟨f, hf⟩ := exists_fun angles hA
  have hset : setHwpMod fsamp .stepped freq startAng (some angles) varphi = .ok
    { mode := .stepped, freq := freq, dict := { stepSize := n, remainder := 0, angle := startAng },
      startAng := startAng, varphi := varphi, angles := angles, gen := angleGen angles } := by
    simp [setHwpMod, hfreq, hstep, anglesOrDefault]
  obtain ⟨arrs, h', r1, r2, _⟩ := run_stepped π fsamp hπ angles f hf n hn
    (fun a b => ∃ z : ℤ, a = b + 360 * z) (fun a => ⟨0, by simp⟩)
    (fun a b ⟨z, hz⟩ => ⟨z + -⌊a / 360⌋, by rw [npMod_eq]; nth_rw 1 [hz]; push_cast; ring⟩)
    N chunks 0 ht
    { mode := .stepped, freq := freq, dict := { stepSize := n, remainder := 0, angle := startAng },
      startAng := startAng, varphi := varphi, angles := angles, gen := angleGen angles }
    rfl hfreq ⟨⟨0, 0, rfl, rfl, by simp [angleGen], by simp, hn, by simp⟩⟩
  refine ⟨_, arrs, h', hset, r1, fun t htN => ?_⟩
  obtain ⟨a, ha1, z, ha2⟩ := r2 t (by simpa using htN)
  rw [Nat.zero_add] at ha2
  refine ⟨f (t / n), z, hf _, ?_⟩
  rw [ha1, ha2]
  congr 1
  unfold radians; ring

/-- **C12 (angles in range).** If all angles lie in [0, 360), as the default ones do, the stored
angle is exactly the scheduled one. -/
theorem C12_stepped_hwp_exact (π fsamp freq startAng varphi : K) (hπ : 0 < π)
    (hfreq : freq ≠ 0) (n : Nat) (hn : 0 < n) (hstep : truncInt (fsamp / freq) = n)
    (angles : List K) (hA : angles ≠ []) (hrange : ∀ a ∈ angles, 0 ≤ a ∧ a < 360)
    (N : Int) (chunks : List (Int × Int)) (ht : Tiles 0 N chunks) :
    ∃ (h₀ : State K) (arrs : List (List K)) (h' : State K),
      setHwpMod fsamp .stepped freq startAng (some angles) varphi = .ok h₀ ∧
      run π fsamp h₀ chunks = .ok (arrs.map fun a => some (.array a), h') ∧
      ∀ t : Nat, (t:Int) < N → ∃ a : K, scheduled n angles t = some a ∧
        arrs.flatten[t]? = some (radians π a) := by
  obtain ⟨f, hf⟩ := exists_fun angles hA
  have hfr : ∀ q, 0 ≤ f q ∧ f q < 360 := fun q => hrange _ (List.mem_of_getElem? (hf q))
  have hset : setHwpMod fsamp .stepped freq startAng (some angles) varphi = .ok
    { mode := .stepped, freq := freq, dict := { stepSize := n, remainder := 0, angle := startAng },
      startAng := startAng, varphi := varphi, angles := angles, gen := angleGen angles } := by
    simp [setHwpMod, hfreq, hstep, anglesOrDefault]
  obtain ⟨arrs, h', r1, r2, _⟩ := run_stepped π fsamp hπ angles f hf n hn
    (fun a b => a = b ∨ (a = npMod b 360)) (fun a => Or.inl rfl)
    (fun a b hab => by
      rcases hab with rfl | rfl
      · exact Or.inr rfl
      · exact Or.inr (npMod_self _ _ (by norm_num) (npMod_nonneg _ _ (by norm_num))
          (npMod_lt _ _ (by norm_num))))
    N chunks 0 ht
    { mode := .stepped, freq := freq, dict := { stepSize := n, remainder := 0, angle := startAng },
      startAng := startAng, varphi := varphi, angles := angles, gen := angleGen angles }
    rfl hfreq ⟨⟨0, 0, rfl, rfl, by simp [angleGen], by simp, hn, by simp⟩⟩
  refine ⟨_, arrs, h', hset, r1, fun t htN => ?_⟩
  obtain ⟨a, ha1, ha2⟩ := r2 t (by simpa using htN)
  rw [Nat.zero_add] at ha2
  have hr := hfr (t / n)
  rw [npMod_self _ _ (by norm_num) hr.1 hr.2, or_self] at ha2
  exact ⟨f (t / n), hf _, by rw [ha1, ha2]⟩

/-- Ten samples per second, a step every 3 samples (`int(10/3)`), chunks [0,4), [4,5), [5,9)
(exact rational arithmetic, with a rational in place of pi). -/
example : Tiles 0 9 [(0, 4), (4, 5), (5, 9)] :=
  .cons (by decide) (.cons (by decide) (.cons (by decide) (.nil _)))
example : (do let h ← setHwpMod (10 : ℚ) .stepped 3 7 (some [0, 45, 400]) 0
              let r ← run 180 10 h [(0, 4), (4, 5), (5, 9)]
              return r.1) =
    Except.ok [some (.array [0, 0, 0, 45]), some (.array [45]),
      some (.array [45, 400, 400, 400])] := by decide +kernel

/-- **C12 (default angles).** Without an explicit list the angles are the 16 angles
`start + 22.5 i` (`i = 0..15`) reduced to [0, 360). -/
theorem C12_default_angles (fsamp freq startAng varphi : K) (hfreq : freq ≠ 0) :
    ∃ h₀, setHwpMod fsamp .stepped freq startAng none varphi = .ok h₀ ∧
      h₀.angles.length = 16 ∧
      ∀ i : Nat, i < 16 → ∃ (a : K) (z : ℤ), h₀.angles[i]? = some a ∧ 0 ≤ a ∧ a < 360 ∧
        a = startAng + 45 / 2 * i + 360 * z := by
  have hn : (⌈(360 + startAng - startAng) / (45 / 2 : K)⌉).toNat = 16 := by
    have : (360 + startAng - startAng) / (45 / 2 : K) = ((16 : ℤ) : K) := by
      push_cast; field_simp; ring
    rw [this, Int.ceil_intCast]; rfl
  have hset : setHwpMod fsamp .stepped freq startAng none varphi = .ok
    { mode := .stepped, freq := freq,
      dict := { stepSize := truncInt (fsamp / freq), remainder := 0, angle := startAng },
      startAng := startAng, varphi := varphi, angles := anglesOrDefault startAng none,
      gen := angleGen (anglesOrDefault startAng none) } := by
    simp [setHwpMod, hfreq]
  refine ⟨_, hset, ?_, ?_⟩
  · simp only [anglesOrDefault, arange, hn, List.length_map, List.length_range]
  · intro i hi
    refine ⟨npMod (startAng + (i:K) * (45 / 2)) 360, -⌊(startAng + (i:K) * (45 / 2)) / 360⌋, ?_,
      npMod_nonneg _ _ (by norm_num), npMod_lt _ _ (by norm_num), ?_⟩
    · simp only [anglesOrDefault, arange, hn, List.getElem?_map, List.getElem?_range hi,
        Option.map_some]
    · rw [npMod_eq]; ring

/-- **C13 (what the code does).** Continuous rotation: sample `t` that lies in chunk number `j`
(counted from zero) gets the angle `start + 360 f (t - j)/fsamp` (mod 360), i.e. the plate lags by
one sample for every chunk boundary passed.  With a single chunk this is the documented angle. -/
theorem C13_continuous_hwp_lag (π fsamp freq startAng varphi : K) (hπ : 0 < π)
    (hfs : fsamp ≠ 0) (hfreq : freq ≠ 0) (angles : Option (List K)) (N : Int)
    (chunks : List (Int × Int)) (ht : Tiles 0 N chunks) :
    ∃ (h₀ : State K) (arrs : List (List K)) (h' : State K),
      setHwpMod fsamp .continuous freq startAng angles varphi = .ok h₀ ∧
      run π fsamp h₀ chunks = .ok (arrs.map fun a => some (.array a), h') ∧
      arrs.length = chunks.length ∧
      ∀ (j : Nat) (c : Int × Int) (arr : List K), chunks[j]? = some c → arrs[j]? = some arr →
        (arr.length : Int) = c.2 - c.1 ∧
        ∀ i : Nat, (i:Int) < c.2 - c.1 → ∃ z : ℤ, arr[i]? = some
          (radians π (startAng + 360 * freq / fsamp * ((c.1 : K) + i - j)) + 2 * π * z) := by
  have main : ∀ (chunks : List (Int × Int)) (t j₀ : Nat) (h : State K) (z₀ : ℤ),
      h.mode = .continuous → h.freq = freq →
      h.dict.angle = startAng + 360 * freq / fsamp * ((t:K) - j₀) + 360 * z₀ →
      Tiles t N chunks →
      ∃ (arrs : List (List K)) (h' : State K),
        run π fsamp h chunks = .ok (arrs.map fun a => some (.array a), h') ∧
      arrs.length = chunks.length ∧
      ∀ (j : Nat) (c : Int × Int) (arr : List K), chunks[j]? = some c → arrs[j]? = some arr →
        (arr.length : Int) = c.2 - c.1 ∧
        ∀ i : Nat, (i:Int) < c.2 - c.1 → ∃ z : ℤ, arr[i]? = some
          (radians π (startAng + 360 * freq / fsamp * ((c.1 : K) + i - (j₀ + j))) + 2 * π * z) := by
    intro chunks
    induction chunks with
    | nil =>
      intro t j₀ h z₀ _ _ _ _
      exact ⟨[], h, rfl, rfl, by simp⟩
    | cons c rest ih =>
      intro t j₀ h z₀ hmode hfr hang ht
      obtain ⟨c0, c1⟩ := c
      cases ht with
      | cons hab ht' =>
      obtain ⟨m, rfl⟩ : ∃ m : Nat, c1 = ((t + (m + 1) : Nat) : Int) :=
        ⟨(c1 - t - 1).toNat, by omega⟩
      obtain ⟨arr, e1, e2, e3⟩ := rotate_continuous π fsamp hπ hfs h hmode (by rw [hfr]; exact hfreq) t m
      rw [hfr] at e1 e3
      obtain ⟨arrs, h', r1, r2, r3⟩ := ih (t + (m + 1)) (j₀ + 1)
        { h with dict := { h.dict with angle := npMod (h.dict.angle + 360 * freq / fsamp * m) 360 } }
        (z₀ + -⌊(h.dict.angle + 360 * freq / fsamp * m) / 360⌋) hmode hfr
        (by
          simp only
          rw [npMod_eq]
          nth_rw 1 [hang]
          push_cast
          ring) ht'
      refine ⟨arr :: arrs, h', ?_, by simp [r2], ?_⟩
      · simp only [run]
        rw [e1]
        simp only [bind, Except.bind]
        rw [hfr] at *
        rw [r1]
        rfl
      · intro j c arr' hc harr
        cases j with
        | zero =>
          simp only [List.getElem?_cons_zero, Option.some.injEq] at hc harr
          subst hc harr
          refine ⟨by simp only; omega, fun i hi => ⟨z₀, ?_⟩⟩
          rw [e3 i (by simp only at hi; omega), hang]
          congr 1
          unfold radians
          push_cast
          ring
        | succ j =>
          rw [List.getElem?_cons_succ] at hc harr
          obtain ⟨l1, l2⟩ := r3 j c arr' hc harr
          refine ⟨l1, fun i hi => ?_⟩
          obtain ⟨z, hz⟩ := l2 i hi
          refine ⟨z, ?_⟩
          rw [hz]
          congr 4
          push_cast
          ring
  have hset : setHwpMod fsamp .continuous freq startAng angles varphi = .ok
    { mode := .continuous, freq := freq,
      dict := { stepSize := 0, remainder := 0, angle := startAng },
      startAng := startAng, varphi := varphi, angles := anglesOrDefault startAng angles,
      gen := angleGen (anglesOrDefault startAng angles) } := by
    simp [setHwpMod]
  obtain ⟨arrs, h', r1, r2, r3⟩ := main chunks 0 0
    { mode := .continuous, freq := freq,
      dict := { stepSize := 0, remainder := 0, angle := startAng },
      startAng := startAng, varphi := varphi, angles := anglesOrDefault startAng angles,
      gen := angleGen (anglesOrDefault startAng angles) } 0 rfl rfl (by simp) ht
  refine ⟨_, arrs, h', hset, r1, r2, ?_⟩
  intro j c arr hc harr
  obtain ⟨l1, l2⟩ := r3 j c arr hc harr
  refine ⟨l1, fun i hi => ?_⟩
  obtain ⟨z, hz⟩ := l2 i hi
  refine ⟨z, ?_⟩
  rw [hz]
  congr 4
  push_cast
  ring

/-- **C13 (partial).** The documented angle holds when the mission is scanned as a single chunk.
Missing: missions of several (sub)chunks, for which it is false, see `C13_violation`. -/
theorem C13_continuous_hwp_partial (π fsamp freq startAng varphi : K) (hπ : 0 < π)
    (hfs : fsamp ≠ 0) (hfreq : freq ≠ 0) (angles : Option (List K)) (N : Nat) (hN : 0 < N) :
    ∃ h₀ arr h', setHwpMod fsamp .continuous freq startAng angles varphi = .ok h₀ ∧
      run π fsamp h₀ [(0, (N:Int))] = .ok ([some (.array arr)], h') ∧ arr.length = N ∧
      ∀ t, t < N → ∃ z : ℤ, arr[t]? = some
        (radians π (startAng + 360 * freq * t / fsamp) + 2 * π * z) := by
  obtain ⟨h₀, arrs, h', e1, e2, e3, e4⟩ := C13_continuous_hwp_lag π fsamp freq startAng varphi hπ
    hfs hfreq angles N [(0, (N:Int))] (.cons (by omega) (.nil _))
  obtain ⟨arr, rfl⟩ : ∃ arr, arrs = [arr] := by
    cases arrs with
    | nil => simp at e3
    | cons a l =>
      simp at e3
      exact ⟨a, by rw [e3]⟩
  obtain ⟨l1, l2⟩ := e4 0 (0, N) arr rfl rfl
  refine ⟨h₀, arr, h', e1, e2, by simpa using l1, fun t ht => ?_⟩
  obtain ⟨z, hz⟩ := l2 t (by simp; omega)
  refine ⟨z, ?_⟩
  rw [hz]
  congr 4
  push_cast
  ring

/-- **C13 (violation).** Whenever the plate does not turn an integer number of times per sample,
and the mission is cut in at least two chunks, the first sample of the second chunk does not get
the documented angle. -/
theorem C13_violation (π fsamp freq startAng varphi : K) (hπ : 0 < π)
    (hfs : fsamp ≠ 0) (hfreq : freq ≠ 0) (hni : ∀ z : ℤ, freq / fsamp ≠ z)
    (angles : Option (List K)) (N : Int) (c₀ c₁ : Int × Int) (rest : List (Int × Int))
    (ht : Tiles 0 N (c₀ :: c₁ :: rest)) :
    ∃ (h₀ : State K) (arrs : List (List K)) (h' : State K) (arr : List K) (x : K),
      setHwpMod fsamp .continuous freq startAng angles varphi = .ok h₀ ∧
      run π fsamp h₀ (c₀ :: c₁ :: rest) = .ok (arrs.map fun a => some (.array a), h') ∧
      arrs[1]? = some arr ∧ arr[0]? = some x ∧
      ∀ z : ℤ, x ≠ radians π (startAng + 360 * freq * c₁.1 / fsamp) + 2 * π * z := by
  obtain ⟨h₀, arrs, h', e1, e2, e3, e4⟩ := C13_continuous_hwp_lag π fsamp freq startAng varphi hπ
    hfs hfreq angles N _ ht
  have h1 : 1 < arrs.length := by rw [e3]; simp
  obtain ⟨l1, l2⟩ := e4 1 c₁ arrs[1] rfl (List.getElem?_eq_getElem h1)
  have hpos : (0:Int) < c₁.2 - c₁.1 := by
    cases ht with
    | cons _ ht => cases ht with
      | cons h _ => simp only; omega
  obtain ⟨z, hz⟩ := l2 0 (by simpa using hpos)
  refine ⟨h₀, arrs, h', arrs[1], _, e1, e2, List.getElem?_eq_getElem h1, hz, ?_⟩
  intro z' heq
  apply hni (z - z')
  have hπ' := hπ.ne'
  unfold radians at heq
  push_cast at heq ⊢
  field_simp at heq ⊢
  linarith

/-- The hypotheses are met by e.g. 1 Hz rotation sampled at 100 Hz; the repeated angle at the chunk
boundary is visible in exact arithmetic (4 samples per turn, chunks of 2). -/
example : ∀ z : ℤ, (1 : ℚ) / 100 ≠ z := by
  intro z h
  have h1 : (1 : ℚ) = 100 * z := by linarith
  have : (1 : ℤ) = 100 * z := by exact_mod_cast h1
  omega
example : (do let h ← setHwpMod (4 : ℚ) .continuous 1 0 none 0
              let r ← run 180 4 h [(0, 2), (2, 4)]
              return r.1) =
    Except.ok [some (.array [0, 90]), some (.array [90, 180])] := by decide +kernel

/-- `rotate_hwp` never changes the configuration. -/
theorem rotate_reset (π fsamp : K) (h h1 : State K) (ha : Option K) (a b : Int)
    (o : Option (Ang K)) (e : rotateHwp π fsamp h ha a b = .ok (o, h1)) :
    h1.reset = h.reset := by
  have hstep : ∀ (arr : List K) (d d' : StepDict K) (g g' : Gen K) (o : List K),
      stepArray arr d g = .ok (o, d', g') → d'.stepSize = d.stepSize := by
    intro arr d d' g g' o e
    unfold stepArray at e
    simp only [bind, Except.bind, pure, Except.pure] at e
    repeat' split at e
    all_goals first
      | cases e
      | (simp only [Except.ok.injEq, Prod.mk.injEq] at e; rw [← e.2.1])
    all_goals rfl
  unfold rotateHwp at e
  simp only [bind, Except.bind, pure, Except.pure] at e
  repeat' split at e
  all_goals first
    | cases e
    | (simp only [Except.ok.injEq, Prod.mk.injEq] at e; rw [← e.2])
  all_goals first
    | rfl
    | (have := hstep _ _ _ _ _ _ ‹stepArray _ _ _ = _›
       simp [State.reset, this])

/-- **C11 (HWP).** `reset_hwp_mod` restores the freshly configured state whatever was scanned
before, in every mode. -/
theorem C11_reset_hwp_mod (π fsamp freq startAng varphi : K) (mode : Mode)
    (angles : Option (List K)) (h₀ h₁ : State K)
    (e₀ : setHwpMod fsamp mode freq startAng angles varphi = .ok h₀)
    (history : List (Int × Int)) (out : List (Option (Ang K)))
    (e₁ : run π fsamp h₀ history = .ok (out, h₁)) :
    h₁.reset = h₀ := by
  have hrun : ∀ (history : List (Int × Int)) (h h1 : State K) (out : List (Option (Ang K))),
      run π fsamp h history = .ok (out, h1) → h1.reset = h.reset := by
    intro history
    induction history with
    | nil => intro h h1 out e; simp [run] at e; rw [e.2]
    | cons c rest ih =>
      intro h h1 out e
      simp only [run, bind, Except.bind, pure, Except.pure] at e
      cases h2 : rotateHwp π fsamp h none c.1 c.2 with
      | error x => simp [h2] at e
      | ok p =>
        simp only [h2] at e
        cases h3 : run π fsamp p.2 rest with
        | error x => simp [h3] at e
        | ok p3 =>
          simp [h3] at e
          rw [← e.2, ih _ _ _ h3, rotate_reset π fsamp _ _ _ _ _ _ h2]
  rw [hrun _ _ _ _ e₁]
  unfold setHwpMod at e₀
  split at e₀
  · cases e₀
  · cases e₀
    rfl

example : (do let h ← setHwpMod (10 : ℚ) .stepped 3 7 (some [0, 45, 400]) 0
              let r ← run 180 10 h [(0, 4), (4, 5), (5, 9)]
              return (decide (r.2 = h), decide (r.2.reset = h))) = Except.ok (false, true) := by
  decide +kernel

omit [IsStrictOrderedRing K] in
/-- **C58 (HWP angle, partial).** With a static plate, a chunk's own `hwpang` other than zero is
used, and leaves the state alone.  Missing: `hwpang = 0`, see `C58_hwpang_zero_violation`. -/
theorem C58_hwpang_partial (π fsamp : K) (h : State K) (hstatic : h.freq = 0 ∨ h.mode = .none)
    (a : K) (ha : a ≠ 0) (start stop : Int) :
    rotateHwp π fsamp h (some a) start stop = .ok (some (.scalar (radians π a)), h) := by
  unfold rotateHwp
  rw [if_pos hstatic]
  simp [ha]

/-- **C58 (HWP angle, violation).** An explicit `hwpang = 0` is ignored: whenever the strategy's
current angle is not zero, that one is used instead. -/
theorem C58_hwpang_zero_violation (π fsamp startAng varphi : K) (hπ : 0 < π) (hs : startAng ≠ 0)
    (start stop : Int) :
    ∃ h₀ x, setHwpMod fsamp .none 0 startAng none varphi = .ok h₀ ∧
      rotateHwp π fsamp h₀ (some 0) start stop = .ok (some (.scalar x), h₀) ∧
      x ≠ radians π 0 := by
  refine ⟨_, radians π startAng, rfl, ?_, ?_⟩
  · simp [rotateHwp]
  · unfold radians
    have := hπ.ne'
    simp [hs, this]

example : (do let h ← setHwpMod (10 : ℚ) .none 0 45 none 0
              let r ← rotateHwp 180 10 h (some 0) 0 100
              return r.1) = Except.ok (some (.scalar 45)) := by decide +kernel

end Verif.Props
