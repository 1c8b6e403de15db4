import Verif.Model.Spin
import Verif.Lemmas.Alm

/-! # Lemmas about spin and E/B conversions -/

noncomputable section

namespace Verif.Spin

open Verif.Alm Verif.Spec Complex

theorem npZip_eq {α β γ : Type} (f : α → β → γ) (a : List α) (b : List β)
    (h : a.length = b.length) : npZip f a b = .ok (List.zipWith f a b) := by
  simp [npZip, h]

theorem pyInt_intCast (s : Int) : pyInt (s : Rat) = s := by
  unfold pyInt
  split
  · simp [Rat.floor_intCast]
  · rw [← Rat.intCast_neg, Rat.floor_intCast]; omega

theorem spin2eb_eq (m p : List ℂ) (h : m.length = p.length) (s : Int) :
    spin2eb m p (s : Rat) = .ok
      (List.zipWith (fun m p => (p + m * (-1) ^ s) / (-2)) m p,
       List.zipWith (fun m p => (p - m * (-1) ^ s) * (I / 2)) m p) := by
  unfold spin2eb
  rw [pyInt_intCast, if_neg (by simp)]
  dsimp only
  rw [npZip_eq _ _ _ h.symm]
  simp only [bind, Except.bind]
  rw [npZip_eq _ _ _ h.symm]
  simp only [pure, Except.pure, List.map_zipWith, Except.ok.injEq, Prod.mk.injEq]
  constructor
  · rw [List.zipWith_comm]
  · rw [List.zipWith_comm]

theorem eb2spin_eq (e b : List ℂ) (h : e.length = b.length) :
    eb2spin e b = .ok (List.zipWith (fun e b => -1 * (e - I * b)) e b,
      List.zipWith (fun e b => -1 * (e + I * b)) e b) := by
  unfold eb2spin
  rw [npZip_eq _ _ _ h]
  simp only [bind, Except.bind]
  rw [npZip_eq _ _ _ h]
  rfl

theorem zipWith_zipWith_left {α β γ : Type} (f : α → β → γ) (g : α → β → γ)
    (k : γ → γ → α) (a : List α) (b : List β) (h : a.length = b.length)
    (hk : ∀ x y, k (f x y) (g x y) = x) :
    List.zipWith k (List.zipWith f a b) (List.zipWith g a b) = a := by
  apply List.ext_getElem?
  intro i
  simp only [List.getElem?_zipWith]
  have hn : a[i]? = none ↔ b[i]? = none := by
    rw [List.getElem?_eq_none_iff, List.getElem?_eq_none_iff, h]
  rcases ha : a[i]? with _ | x <;> rcases hb : b[i]? with _ | y <;> simp_all

theorem zipWith_zipWith_right {α β γ : Type} (f : α → β → γ) (g : α → β → γ)
    (k : γ → γ → β) (a : List α) (b : List β) (h : a.length = b.length)
    (hk : ∀ x y, k (f x y) (g x y) = y) :
    List.zipWith k (List.zipWith f a b) (List.zipWith g a b) = b := by
  apply List.ext_getElem?
  intro i
  simp only [List.getElem?_zipWith]
  have hn : a[i]? = none ↔ b[i]? = none := by
    rw [List.getElem?_eq_none_iff, List.getElem?_eq_none_iff, h]
  rcases ha : a[i]? with _ | x <;> rcases hb : b[i]? with _ | y <;> simp_all

end Verif.Spin
