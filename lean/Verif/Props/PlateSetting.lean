import Verif.Model.PlateSetting
import Verif.Props.HwpModels

/-!
# Property C130: `set_hwp_mueller` gives a beam the matrix of the plate that is asked for
-/

noncomputable section

namespace Verif.Props

open Verif.Optics Real

/-- The plate that the arguments ask for: the preset, if one is named, whatever the other arguments;
otherwise the layers, thicknesses in millimetres. -/
inductive AsksFor (a : PlateArgs) : Stack → Prop
  | preset {name : String} {s : Stack} : a.modelName = some name → chooseHwpModel name = .ok s → AsksFor a s
  | layers (l : List (ℝ × (ℝ × ℝ) × (ℝ × ℝ) × ℝ)) : a.modelName = none →
      a.thicknesses = some (l.map (·.1)) → a.indices = some (l.map (·.2.1)) →
      a.losses = some (l.map (·.2.2.1)) → a.angles = some (l.map (·.2.2.2)) →
      AsksFor a ⟨l.map (·.1 / 1000), l.map fun x => ⟨x.2.1.1, x.2.1.2, x.2.2.1.1, x.2.2.1.2⟩,
        l.map (·.2.2.2)⟩

theorem zip4 {α β γ δ : Type} (t : List α) (i : List β) (l : List γ) (a : List δ)
    (h1 : t.length = a.length) (h2 : t.length = i.length) (h3 : t.length = l.length) :
    ∃ L : List (α × β × γ × δ), t = L.map (·.1) ∧ i = L.map (·.2.1) ∧ l = L.map (·.2.2.1) ∧
      a = L.map (·.2.2.2) := by
  induction t generalizing i l a with
  | nil =>
    simp at h1 h2 h3
    subst_vars
    exact ⟨[], by
      have e1 := List.length_eq_zero_iff.1 h1.symm
      have e2 := List.length_eq_zero_iff.1 h2.symm
      have e3 := List.length_eq_zero_iff.1 h3.symm
      simp [e1, e2, e3]⟩
  | cons x t ih =>
    rcases i with _ | ⟨y, i⟩ <;> rcases l with _ | ⟨z, l⟩ <;> rcases a with _ | ⟨w, a⟩ <;>
      simp at h1 h2 h3
    obtain ⟨L, e1, e2, e3, e4⟩ := ih i l a h1 h2 h3
    exact ⟨(x, y, z, w) :: L, by simp [← e1], by simp [← e2], by simp [← e3], by simp [← e4]⟩

theorem newStack_iff (a : PlateArgs) (s : Stack) : newStack a = .ok s ↔ AsksFor a s := by
  constructor
  · intro h
    unfold newStack at h
    rcases hn : a.modelName with _ | name
    · rw [hn] at h
      simp only at h
      rcases ht : a.thicknesses with _ | t <;> rcases hi : a.indices with _ | i <;>
        rcases hl : a.losses with _ | l <;> rcases ha : a.angles with _ | an <;>
        rw [ht, hi, hl, ha] at h <;> simp only [reduceCtorEq] at h
      by_cases hlen : t.length ≠ an.length ∨ t.length ≠ i.length ∨ t.length ≠ l.length
      · rw [(C64_stack_builder []).2 t an i l hlen] at h
        cases h
      · push Not at hlen
        obtain ⟨L, rfl, rfl, rfl, rfl⟩ := zip4 t i l an hlen.1 hlen.2.1 hlen.2.2
        rw [(C64_stack_builder L).1] at h
        cases h
        unfold ofLayers
        simp only [List.map_map]
        exact .layers L hn ht hi hl ha
    · rw [hn] at h
      exact .preset hn h
  · intro h
    unfold newStack
    cases h with
    | preset h1 h2 => rw [h1]; exact h2
    | layers l h0 h1 h2 h3 h4 =>
      rw [h0, h1, h2, h3, h4]
      simp only
      rw [(C64_stack_builder l).1]
      unfold ofLayers
      simp only [List.map_map]
      rfl

/-- The `HWP` object of the beam, if it has one, exists. -/
def HasPlate (ps : Plates) (b : PlateBeam) : Prop := ∀ k, b.hwp = some k → k < ps.length

/-- The angle of incidence of a beam on the plate, in radians. -/
def offAxis (b : PlateBeam) : ℝ := √(b.az ^ 2 + b.el ^ 2) * (π / 180)

theorem ownPlate_spec (ps : Plates) (b : PlateBeam) (hb : HasPlate ps b) :
    ∃ ps' b' k, ownPlate ps b = (ps', b', k) ∧ b' = { b with hwp := some k } ∧ k < ps'.length ∧
      ps.length ≤ ps'.length ∧ (∀ j, j < ps.length → ps'[j]? = ps[j]?) ∧
      (b.hwp = some k ∨ (b.hwp = none ∧ k = ps.length)) := by
  unfold ownPlate
  rcases h : b.hwp with _ | k
  · refine ⟨_, _, _, rfl, rfl, by simp, by simp, fun j hj => ?_, Or.inr ⟨rfl, rfl⟩⟩
    rw [List.getElem?_append_left hj]
  · refine ⟨_, _, _, rfl, ?_, hb k h, le_refl _, fun _ _ => rfl, Or.inl rfl⟩
    rw [← h]

/-- **C130, the matrix.** If the arguments ask for a plate that has a Mueller matrix at the frequency of the
beam and at its angle from the axis, `set_hwp_mueller` succeeds, the beam has this matrix, and its `HWP`
object this plate.  If they ask for no plate, or for one without a matrix, it raises an exception and the
beam keeps the matrix it had. -/
theorem C130_matrix (ps : Plates) (b : PlateBeam) (a : PlateArgs) (hb : HasPlate ps b) :
    let r := setHwpMueller ps b a
    (∀ s M, AsksFor a s → mueller s (1e9 * b.sensitiveFreq) (offAxis b) 0 1 1 false = .ok M →
      r.2 = .ok () ∧ r.1.2.hwpMueller = some M ∧ ∃ k, r.1.2.hwp = some k ∧ r.1.1[k]? = some (some s)) ∧
    ((¬ ∃ s M, AsksFor a s ∧ mueller s (1e9 * b.sensitiveFreq) (offAxis b) 0 1 1 false = .ok M) →
      (∃ e, r.2 = .error e) ∧ r.1.2.hwpMueller = b.hwpMueller) := by
  intro r
  obtain ⟨ps', b', k, ho, hb', hk, -, -, -⟩ := ownPlate_spec ps b hb
  have hang : √(b'.el ^ 2 + b'.az ^ 2) * π / 180 = offAxis b := by
    rw [hb']
    unfold offAxis
    simp only
    rw [add_comm, mul_div_assoc]
  have hfr : b'.sensitiveFreq = b.sensitiveFreq := by rw [hb']
  have hmu : b'.hwpMueller = b.hwpMueller := by rw [hb']
  have hget : ∀ s, ((ps'.set k (some s))[k]?).join = some s := by
    intro s
    rw [List.getElem?_set_self hk]
    rfl
  have he : (1.0e9 : ℝ) = 1e9 := by norm_num
  constructor
  · intro s M hs hM
    have hn := (newStack_iff a s).2 hs
    have hr : r = ((ps'.set k (some s), { b' with hwpMueller := some M }), .ok ()) := by
      simp only [r, setHwpMueller, ho, hn, hget, hang, hfr, computeMueller, he, hM]
    rw [hr]
    refine ⟨rfl, rfl, k, by rw [hb'], ?_⟩
    exact List.getElem?_set_self hk
  · intro hno
    rcases hn : newStack a with e | s
    · have hr : r = ((ps', b'), .error e) := by
        simp only [r, setHwpMueller, ho, hn]
      rw [hr]
      exact ⟨⟨e, rfl⟩, hmu⟩
    · rcases hM : mueller s (1e9 * b.sensitiveFreq) (offAxis b) 0 1 1 false with e | M
      · have hr : r = ((ps'.set k (some s), b'), .error e) := by
          simp only [r, setHwpMueller, ho, hn, hget, hang, hfr, computeMueller, he, hM]
        rw [hr]
        exact ⟨⟨e, rfl⟩, hmu⟩
      · exact absurd ⟨s, M, (newStack_iff a s).1 hn, hM⟩ hno

/-- **C130, nothing else.** Nothing else of the beam changes, but for the `HWP` object it gets if it had
none, and no `HWP` object that existed before changes but the one of the beam. -/
theorem C130_frame (ps : Plates) (b : PlateBeam) (a : PlateArgs) (hb : HasPlate ps b) :
    let r := setHwpMueller ps b a
    r.1.2.az = b.az ∧ r.1.2.el = b.el ∧ r.1.2.sensitiveFreq = b.sensitiveFreq ∧
    (∀ k, b.hwp = some k → r.1.2.hwp = some k) ∧ HasPlate r.1.1 r.1.2 ∧
    ∀ j, j < ps.length → b.hwp ≠ some j → r.1.1[j]? = ps[j]? := by
  intro r
  obtain ⟨ps', b', k, ho, hb', hk, hle, hps, hor⟩ := ownPlate_spec ps b hb
  have hkk : ∀ k', b.hwp = some k' → k' = k := by
    intro k' h
    rcases hor with h1 | ⟨h1, -⟩
    · rw [h1] at h
      exact (Option.some.inj h).symm
    · rw [h1] at h
      cases h
  have hne : ∀ j, j < ps.length → b.hwp ≠ some j → k ≠ j := by
    intro j hj h hkj
    rcases hor with h1 | ⟨-, h1⟩
    · exact h (hkj ▸ h1)
    · omega
  have hset : ∀ s : Option Stack, ∀ j, j < ps.length → b.hwp ≠ some j → (ps'.set k s)[j]? = ps[j]? := by
    intro s j hj h
    rw [List.getElem?_set_ne (hne j hj h), hps j hj]
  rcases hn : newStack a with e | s
  · have hr : r = ((ps', b'), .error e) := by
      simp only [r, setHwpMueller, ho, hn]
    rw [hr, hb']
    exact ⟨rfl, rfl, rfl, fun k' h => by rw [hkk k' h], fun k' h => by cases h; exact hk,
      fun j hj _ => hps j hj⟩
  · rcases hM : computeMueller (((ps'.set k (some s))[k]?).join) b'.sensitiveFreq
      (√(b'.el ^ 2 + b'.az ^ 2) * π / 180) with e | M
    · have hr : r = ((ps'.set k (some s), b'), .error e) := by
        simp only [r, setHwpMueller, ho, hn, hM]
      rw [hr, hb']
      exact ⟨rfl, rfl, rfl, fun k' h => by rw [hkk k' h], fun k' h => by
        cases h
        simpa using hk, hset _⟩
    · have hr : r = ((ps'.set k (some s), { b' with hwpMueller := some M }), .ok ()) := by
        simp only [r, setHwpMueller, ho, hn, hM]
      rw [hr, hb']
      exact ⟨rfl, rfl, rfl, fun k' h => by rw [hkk k' h], fun k' h => by
        cases h
        simpa using hk, hset _⟩

/-- **C130, history.** The matrix that a call gives does not depend on earlier calls: of other beams, even
if they share the `HWP` object, or of the beam itself, as long as it succeeds. -/
theorem C130_history (ps ps' : Plates) (b b' : PlateBeam) (a : PlateArgs) (hb : HasPlate ps b)
    (hb' : HasPlate ps' b') (h1 : b'.az = b.az) (h2 : b'.el = b.el)
    (h3 : b'.sensitiveFreq = b.sensitiveFreq) :
    ((setHwpMueller ps b a).2 = .ok () ↔ (setHwpMueller ps' b' a).2 = .ok ()) ∧
    ((setHwpMueller ps b a).2 = .ok () →
      (setHwpMueller ps' b' a).1.2.hwpMueller = (setHwpMueller ps b a).1.2.hwpMueller) := by
  have ho : offAxis b' = offAxis b := by unfold offAxis; rw [h1, h2]
  have e := C130_matrix ps b a hb
  have e' := C130_matrix ps' b' a hb'
  rw [ho, h3] at e'
  by_cases h : ∃ s M, AsksFor a s ∧ mueller s (1e9 * b.sensitiveFreq) (offAxis b) 0 1 1 false = .ok M
  · obtain ⟨s, M, hs, hM⟩ := h
    obtain ⟨g1, g2, -⟩ := e.1 s M hs hM
    obtain ⟨g1', g2', -⟩ := e'.1 s M hs hM
    exact ⟨⟨fun _ => g1', fun _ => g1⟩, fun _ => by rw [g2, g2']⟩
  · obtain ⟨⟨x, hx⟩, -⟩ := e.2 h
    obtain ⟨⟨x', hx'⟩, -⟩ := e'.2 h
    rw [hx, hx']
    simp only [reduceCtorEq, false_implies, and_self]

/-- **C130, presets.** Every preset works for a beam on the axis at every frequency, and the plate does not
amplify. -/
theorem C130_presets (ps : Plates) (b : PlateBeam) (hb : HasPlate ps b) (name : String)
    (hn : name ∈ hwpNames) (h0 : b.az = 0 ∧ b.el = 0) (hf : 0 ≤ b.sensitiveFreq) :
    let r := setHwpMueller ps b { modelName := some name }
    r.2 = .ok () ∧ ∃ M, r.1.2.hwpMueller = some M ∧
      ∀ e, 0 ≤ M.mulVec (stokes e) 0 ∧ M.mulVec (stokes e) 0 ≤ stokes e 0 := by
  intro r
  obtain ⟨s, hs, hw⟩ := (C64_models name).1 hn
  obtain ⟨M, hM, hpass⟩ := C64_compute_mueller s hw b.sensitiveFreq hf
  have ho : offAxis b = 0 := by
    unfold offAxis
    rw [h0.1, h0.2]
    simp
  have he : (1.0e9 : ℝ) = 1e9 := by norm_num
  obtain ⟨g1, g2, -⟩ := (C130_matrix ps b { modelName := some name } hb).1 s M (.preset rfl hs) (by
    rw [ho]
    unfold computeMueller at hM
    rwa [he] at hM)
  exact ⟨g1, M, g2, hpass⟩

/-! ### examples -/

/-- Two beams that share an `HWP` object. -/
def sharer (az : ℝ) : PlateBeam := ⟨az, 0, 150, some 0, none⟩

example : HasPlate [none] (sharer 0) := by
  intro k h
  cases h
  decide

/-- Two beams in a row: the first has a preset, the second asks for too little and fails; the first
keeps its matrix. -/
example : ∃ M, (setHwpMueller [none] (sharer 0) { modelName := some "5BR" }).1.2.hwpMueller = some M ∧
    (setHwpMueller (setHwpMueller [none] (sharer 0) { modelName := some "5BR" }).1.1 (sharer 0)
      { thicknesses := some [1] }).2 = .error .valueError := by
  obtain ⟨-, M, hM, -⟩ := C130_presets [none] (sharer 0) (by intro k h; cases h; decide) "5BR" (by decide)
    ⟨rfl, rfl⟩ (by simp [sharer])
  exact ⟨M, hM, rfl⟩

end Verif.Props
