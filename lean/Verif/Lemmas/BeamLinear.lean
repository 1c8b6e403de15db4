import Verif.Lemmas.Convolution

/-!
# Lemmas: spin maps are linear in the beam
-/

noncomputable section

namespace Verif.Spinmaps

open Verif.Spec Verif.Timeline Verif.Spin Complex

theorem cut_lin (P : Prop) [Decidable P] (x y : ℂ) (c : ℝ) :
    (if P then 0 else x + c * y) = (if P then 0 else x) + c * (if P then 0 else y) := by
  split <;> simp

theorem star_lin (x y : ℂ) (c : ℝ) : star (x + c * y) = star x + c * star y := by
  have hc : star (c : ℂ) = c := conj_ofReal c
  rw [star_add, star_mul, hc, mul_comm (star y)]

theorem rawReal_beam (Y : Harmonics) (nside L : Nat) (a b b' : Nat → Nat → ℂ) (c : ℝ) (s p : Nat) :
    rawReal Y nside L a (fun l m => b l m + c * b' l m) s p =
      rawReal Y nside L a b s p + c * rawReal Y nside L a b' s p := by
  unfold rawReal
  dsimp only
  have e : ∀ u v w : ℂ, u * (v + c * w) = u * v + c * (u * w) := by intros; ring
  simp only [cut_lin, star_lin, e]
  split
  · rw [scalarAt_lin]
    push_cast
    rfl
  · rw [spinAt_lin]

theorem rawComplex_beam (Y : Harmonics) (nside L : Nat) (a2 ap b2 bp b2' bp' : Nat → Nat → ℂ)
    (c : ℝ) (s : Int) (p : Nat) :
    rawComplex Y nside L a2 ap (fun l m => b2 l m + c * b2' l m) (fun l m => bp l m + c * bp' l m)
        s p =
      rawComplex Y nside L a2 ap b2 bp s p + c * rawComplex Y nside L a2 ap b2' bp' s p := by
  unfold rawComplex
  dsimp only
  have e : ∀ u v w : ℂ, u * (v + c * w) = u * v + c * (u * w) := by intros; ring
  simp only [cut_lin, star_lin, e]
  split
  · rw [spinAt_lin]
  · split
    · rw [spinAt_lin, star_lin]
    · simp only [show ∀ u v w z : ℂ, (u + c * v + (w + c * z)) / 2 = (u + w) / 2 + c * ((v + z) / 2)
        by intros; ring, show ∀ u v w z : ℂ, (u + c * v - (w + c * z)) * (I / 2) =
        (u - w) * (I / 2) + c * ((v - z) * (I / 2)) by intros; ring]
      rw [scalarAt_lin, scalarAt_lin]
      push_cast
      ring

theorem extended_lin (f g f' g' : Nat → Nat → ℂ) (c : ℝ) (l : Nat) (k : Int) :
    extended (fun l m => f l m + c * f' l m) (fun l m => g l m + c * g' l m) l k =
      extended f g l k + c * extended f' g' l k := by
  unfold extended
  split
  · rfl
  · rw [star_lin]
    ring

theorem shiftM_lin (f g f' g' : Nat → Nat → ℂ) (c : ℝ) (s : Int) (l m : Nat) :
    shiftM (fun l m => f l m + c * f' l m) (fun l m => g l m + c * g' l m) s l m =
      shiftM f g s l m + c * shiftM f' g' s l m := by
  unfold shiftM
  split
  · rw [extended_lin]
  · simp

theorem shiftP_lin (f g f' g' : Nat → Nat → ℂ) (c : ℝ) (s : Int) (l m : Nat) :
    shiftP (fun l m => f l m + c * f' l m) (fun l m => g l m + c * g' l m) s l m =
      shiftP f g s l m + c * shiftP f' g' s l m := by
  unfold shiftP
  split
  · rw [extended_lin]
  · simp

theorem hwpUnpol_lin (b b' : Nat → Nat → Nat → ℂ) (w : Mat4) (v : Bool) (j : Fin 4) (c : ℝ) :
    hwpUnpol (fun i l m => b i l m + c * b' i l m) w v j =
      fun l m => hwpUnpol b w v j l m + c * hwpUnpol b' w v j l m := by
  funext l m
  unfold hwpUnpol
  split <;> ring

theorem hwpPol_lin (b b' : Nat → Nat → Nat → ℂ) (w : Mat4) (v : Bool) (mode : String) (c : ℝ) :
    hwpPol (fun i l m => b i l m + c * b' i l m) w v mode =
      (fun l m => (hwpPol b w v mode).1 l m + c * (hwpPol b' w v mode).1 l m,
        fun l m => (hwpPol b w v mode).2 l m + c * (hwpPol b' w v mode).2 l m) := by
  unfold hwpPol
  dsimp only
  split
  · simp only [shiftM_lin, shiftP_lin]
    ext l m <;> dsimp only <;> ring
  split
  · simp only [shiftM_lin, shiftP_lin]
    ext l m <;> dsimp only <;> ring
  split
  · simp only [shiftM_lin, shiftP_lin]
    ext l m <;> dsimp only <;> ring
  split
  · simp only [shiftM_lin, shiftP_lin]
    ext l m <;> dsimp only <;> split <;> ring
  · ext l m <;> dsimp only <;> ring

theorem values_beam (Y : Harmonics) (nside L : Nat) (a b b' : Nat → Nat → Nat → ℂ)
    (mueller : Option Mat4) (inputV beamV : Bool) (c : ℝ) :
    values Y nside L a (fun i l m => b i l m + c * b' i l m) mueller inputV beamV =
      fun mode s p => values Y nside L a b mueller inputV beamV mode s p +
        c * values Y nside L a b' mueller inputV beamV mode s p := by
  funext mode s p
  cases mueller with
  | none =>
    cases mode <;> simp only [values, valuesOld, rawReal_beam, rawComplex_beam]
    split
    · ring
    · ring
  | some M =>
    cases mode <;> simp only [values, valuesNew, hwpUnpol_lin, hwpPol_lin, rawReal_beam,
      rawComplex_beam]
    · split <;> ring
    · split <;> ring

end Verif.Spinmaps
