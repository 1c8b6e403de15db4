import Verif.Lemmas.Step

/-!
# Properties C10, C11 (elevation part), C14: stepping
-/

namespace Verif.Props

open Verif.Step Verif.Spec

/-- **C14.** The `k`-th call of `next` on a fresh `angle_gen(angles)` gives
`angles[k mod len(angles)]`, for any number of calls and any non-empty list. -/
theorem C14_angle_gen_cycles {K : Type} (angles : List K) (h : angles ≠ []) (N : Nat) :
    ∃ out, (angleGen angles).take N = .ok out ∧ out.length = N ∧
      ∀ k, k < N → out[k]? = angles[k % angles.length]? := by
  have hpos : 0 < angles.length := List.length_pos_iff.2 h
  have main : ∀ N q, ∃ out, (⟨angles, q % angles.length⟩ : Gen K).take N = .ok out ∧
      out.length = N ∧ ∀ k, k < N → out[k]? = angles[(q + k) % angles.length]? := by
    intro N
    induction N with
    | zero => intro q; exact ⟨[], rfl, rfl, by simp⟩
    | succ N ih =>
      intro q
      obtain ⟨out, h1, h2, h3⟩ := ih (q + 1)
      have hlt := Nat.mod_lt q hpos
      refine ⟨angles[q % angles.length] :: out, ?_, by simp [h2], ?_⟩
      · simp [Gen.take, Gen.next, List.getElem?_eq_getElem hlt, bind, Except.bind, h1, pure,
          Except.pure]
      · intro k hk
        cases k with
        | zero => simp [List.getElem?_eq_getElem hlt]
        | succ k =>
          rw [List.getElem?_cons_succ, h3 k (by omega)]
          congr 2; omega
  obtain ⟨out, h1, h2, h3⟩ := main N 0
  refine ⟨out, ?_, h2, ?_⟩
  · simpa [angleGen] using h1
  · intro k hk; simpa using h3 k hk

/-- **C14.** An empty list raises IndexError at the first `next`. -/
theorem C14_angle_gen_empty_raises {K : Type} (N : Nat) (h : 0 < N) :
    (angleGen ([] : List K)).take N = .error .indexError := by
  obtain ⟨m, rfl⟩ : ∃ m, N = m + 1 := ⟨N - 1, by omega⟩
  rfl

example : (angleGen [10, 20, 30]).take 7 = .ok [10, 20, 30, 10, 20, 30, 10] := by decide

/-- **C10.** For every step period of `n ≥ 1` samples, every non-empty list of steps, and every
way of cutting the mission in chunks (empty ones included): sample `t` of the mission has its
elevation increased by `steps[(t div n) mod len]`, and chunk lengths are unchanged. -/
theorem C10_el_steps_chunk_independent {K : Type} [Add K] (n : Nat) (hn : 0 < n)
    (steps : List K) (hs : steps ≠ []) (els : List (List K)) :
    ∃ s₀ outs s', setElSteps n steps = .ok s₀ ∧ s₀.run els = .ok (outs, s') ∧
      outs.map List.length = els.map List.length ∧
      ∀ t x, els.flatten[t]? = some x →
        ∃ a, scheduled n steps t = some a ∧ outs.flatten[t]? = some (x + a) := by
  obtain ⟨f, hf⟩ := exists_fun steps hs
  obtain ⟨a, l, rfl⟩ := List.exists_cons_of_ne_nil hs
  obtain ⟨outs, s', h1, h2, h3, _⟩ := run_inv (a :: l) f hf n hn els 0
    ⟨a :: l, ⟨n, 0, a⟩, angleGen (a :: l)⟩
    ⟨⟨0, 0, rfl, rfl, by simp [angleGen], by simp, hn, by simp⟩⟩
  refine ⟨_, outs, s', rfl, h1, h2, fun t x hx => ⟨f (t / n), hf _, ?_⟩⟩
  simpa using h3 t x hx

example : (do let s ← setElSteps 3 [0, 1, 2]
              let r ← s.run [[50, 50], [50, 50, 50, 50, 50], [], [60], [60, 60, 60]]
              return r.1) =
    Except.ok [[50, 50], [50, 51, 51, 51, 52], [], [62], [62, 60, 60]] := by decide

/-- **C10 (edge case).** A step period shorter than one sample raises as soon as a chunk is
scanned. -/
theorem C10_zero_period_raises {K : Type} [Add K] (steps : List K) (s₀ : ElSteps K)
    (h : setElSteps 0 steps = .ok s₀) (el : List K) (rest : List (List K)) :
    s₀.run (el :: rest) = .error .zeroDivisionError := by
  unfold setElSteps at h
  cases hp : pyGet steps 0 with
  | error e => simp [hp, bind, Except.bind] at h
  | ok a =>
    simp [hp, bind, Except.bind, pure, Except.pure] at h
    subst h
    simp [ElSteps.run, stepArray, bind, Except.bind]

/-- **C11 (elevation).** Whatever was scanned before, after `reset_el_steps` any sequence of
chunks gets the same elevations as with a freshly configured strategy. (The code stores the first
step under another key than the one that is read, which is harmless, as shown here.) -/
theorem C11_reset_el_steps {K : Type} [Add K] (n : Nat) (hn : 0 < n) (steps : List K)
    (s₀ s₁ : ElSteps K) (h₀ : setElSteps n steps = .ok s₀) (history : List (List K))
    (outs₀ : List (List K)) (h₁ : s₀.run history = .ok (outs₀, s₁)) :
    ∃ s₂, s₁.reset = .ok s₂ ∧
      ∀ els, ∃ outs s' s'', s₂.run els = .ok (outs, s') ∧ s₀.run els = .ok (outs, s'') := by
  have hs : steps ≠ [] := by
    rintro rfl
    simp [setElSteps, pyGet, bind, Except.bind] at h₀
  obtain ⟨f, hf⟩ := exists_fun steps hs
  obtain ⟨a, l, rfl⟩ := List.exists_cons_of_ne_nil hs
  have e0 : s₀ = ⟨a :: l, ⟨n, 0, a⟩, angleGen (a :: l)⟩ := by
    have : setElSteps (n:Int) (a :: l) = .ok ⟨a :: l, ⟨n, 0, a⟩, angleGen (a :: l)⟩ := rfl
    rw [this] at h₀
    exact (Except.ok.inj h₀).symm
  subst e0
  have fresh : ∀ b : K, Inv n (a :: l) f (· = ·) 0 ⟨(n:Int), 0, b⟩ (angleGen (a :: l)) := fun b =>
    ⟨⟨0, 0, rfl, rfl, by simp [angleGen], by simp, hn, by simp⟩⟩
  obtain ⟨o1, s1', r1, _, _, r4, r5⟩ := run_inv (a :: l) f hf n hn history 0
    ⟨a :: l, ⟨n, 0, a⟩, angleGen (a :: l)⟩ (fresh a)
  rw [r1] at h₁
  have : s1' = s₁ := (Prod.mk.inj (Except.ok.inj h₁)).2
  subst this
  simp only at r4 r5
  refine ⟨⟨a :: l, ⟨n, 0, s1'.dict.angle⟩, angleGen (a :: l)⟩, ?_, ?_⟩
  · unfold ElSteps.reset
    rw [r4]
    simp [pyGet, bind, Except.bind, pure, Except.pure, r5]
  · intro els
    obtain ⟨oa, sa, a1, a2, a3, _⟩ := run_inv (a :: l) f hf n hn els 0
      ⟨a :: l, ⟨n, 0, s1'.dict.angle⟩, angleGen (a :: l)⟩ (fresh _)
    obtain ⟨ob, sb, b1, b2, b3, _⟩ := run_inv (a :: l) f hf n hn els 0
      ⟨a :: l, ⟨n, 0, a⟩, angleGen (a :: l)⟩ (fresh _)
    have hl : oa.map List.length = ob.map List.length := by rw [a2, b2]
    have hflat : oa.flatten = ob.flatten := by
      apply List.ext_getElem?
      intro i
      have la : oa.flatten.length = els.flatten.length := by
        rw [List.length_flatten, List.length_flatten, a2]
      have lb : ob.flatten.length = els.flatten.length := by
        rw [List.length_flatten, List.length_flatten, b2]
      rcases Nat.lt_or_ge i els.flatten.length with hi | hi
      · have hx := List.getElem?_eq_getElem hi
        rw [a3 i _ hx, b3 i _ hx]
      · rw [List.getElem?_eq_none (by omega), List.getElem?_eq_none (by omega)]
    have hab : oa = ob := List.eq_iff_flatten_eq.2 ⟨hflat, hl⟩
    subst hab
    exact ⟨oa, sa, sb, a1, b1⟩

/-- A history that leaves a stale angle behind. -/
example : (do let s ← setElSteps 3 [0, 1, 2]
              let r ← s.run [[50, 50, 50, 50, 50]]
              let s₂ ← r.2.reset
              return (r.2.dict.angle, s₂.dict.angle)) = Except.ok (1, 1) := by decide

end Verif.Props
