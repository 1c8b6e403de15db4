import Verif.Model.Optics

/-!
# Model: the `HWP` class (detector.py:583-744)
-/

namespace Verif.Optics

open Real

/-- `tm.mm` (transfer_matrix.py:45). -/
noncomputable def mm : ℝ := 0.001

/-- `HWP.stack_builder` (detector.py:594-626).  `indices` and `losses` are `(N, 2)` arrays, given
by their rows.  The material type is a label only. -/
noncomputable def stackBuilder (thicknesses : List ℝ) (indices losses : List (ℝ × ℝ))
    (angles : List ℝ) : PyM Stack :=
  if thicknesses.length ≠ angles.length ∨ 2 * thicknesses.length ≠ 2 * indices.length
      ∨ 2 * thicknesses.length ≠ 2 * losses.length then .error .valueError
  else .ok ⟨thicknesses.map (· * mm),
    List.zipWith (fun (i : ℝ × ℝ) (l : ℝ × ℝ) => ⟨i.1, i.2, l.1, l.2⟩) indices losses, angles⟩

/-- An isotropic material `tm.material(n, n, l, l, ...)`. -/
def iso (n l : ℝ) : Material := ⟨n, n, l, l⟩

/-- detector.py:637 -/
noncomputable def spiderSapphire : Material := ⟨3.019, 3.336, 2.3e-4, 1.25e-4⟩
/-- detector.py:639 -/
noncomputable def quartz := iso 1.951 1.2e-3
/-- detector.py:640 -/
noncomputable def circlex := iso 1.935 1.2e-3
/-- detector.py:641 -/
noncomputable def hdpe := iso 1.51 1e-3
/-- detector.py:643 -/
noncomputable def artAr1Mono := iso 3.439 1.2e-3
/-- detector.py:644 -/
noncomputable def artAr2Mono := iso 2.644 1.2e-3
/-- detector.py:645 -/
noncomputable def artAr3Mono := iso 1.524 1.2e-3
/-- detector.py:647 -/
noncomputable def equalAr1 := iso 2.855 1.2e-3
/-- detector.py:648 -/
noncomputable def equalAr2 := iso 1.979 1.2e-3
/-- detector.py:649 -/
noncomputable def equalAr3 := iso 1.268 1.2e-3
/-- detector.py:651 -/
noncomputable def a3b3Ar1 := iso 2.350 1.2e-3
/-- detector.py:652 -/
noncomputable def a3b3Ar2 := iso 1.542 1.2e-3
/-- detector.py:653 -/
noncomputable def a3b3Ar3 := iso 1.344 1.2e-3
/-- detector.py:654 -/
noncomputable def a3b5Ar1 := iso 2.511 1.2e-3
/-- detector.py:655 -/
noncomputable def a3b5Ar2 := iso 1.782 1.2e-3
/-- detector.py:656 -/
noncomputable def a3b5Ar3 := iso 1.279 1.2e-3

/-- `np.array(angles)*np.pi/180.` -/
noncomputable def degs (l : List ℝ) : List ℝ := l.map fun x => x * π / 180

/-- `HWP.choose_HWP_model` (detector.py:628-730): the stack it sets. -/
noncomputable def chooseHwpModel (modelName : String) : PyM Stack :=
  if modelName = "SPIDER_95" then
    .ok ⟨[0.427 * mm, 4.930 * mm, 0.427 * mm], [quartz, spiderSapphire, quartz], [0, 0, 0]⟩
  else if modelName = "SPIDER_150" then
    .ok ⟨[0.254 * mm, 0.006 * mm, 3.16 * mm, 0.006 * mm, 0.254 * mm],
      [circlex, hdpe, spiderSapphire, hdpe, circlex], [0, 0, 0, 0, 0]⟩
  else if modelName = "3AR1BRopti" then
    .ok ⟨[0.358 * mm, 1.849 * mm, 1.978 * mm, 3.6 * mm, 1.978 * mm, 1.849 * mm, 0.358 * mm],
      [artAr3Mono, artAr2Mono, artAr1Mono, spiderSapphire, artAr1Mono, artAr2Mono, artAr3Mono],
      [0, 0, 0, 0, 0, 0, 0]⟩
  else if modelName = "1BR" then
    .ok ⟨[0.5 * mm, 0.31 * mm, 0.257 * mm, 3.75 * mm, 0.257 * mm, 0.31 * mm, 0.5 * mm],
      [equalAr3, equalAr2, equalAr1, spiderSapphire, equalAr1, equalAr2, equalAr3],
      [0, 0, 0, 0, 0, 0, 0]⟩
  else if modelName = "3AR3BRopti" then
    .ok ⟨[0.338 * mm, 0.132 * mm, 0.240 * mm, 3.86 * mm, 3.86 * mm, 3.86 * mm, 0.240 * mm,
        0.132 * mm, 0.338 * mm],
      [a3b3Ar3, a3b3Ar2, a3b3Ar1, spiderSapphire, spiderSapphire, spiderSapphire, a3b3Ar1,
        a3b3Ar2, a3b3Ar3],
      degs [0, 0, 0, 0, 52.5, 0, 0, 0, 0]⟩
  else if modelName = "3BR" then
    .ok ⟨[0.5 * mm, 0.31 * mm, 0.257 * mm, 3.75 * mm, 3.75 * mm, 3.75 * mm, 0.257 * mm, 0.31 * mm,
        0.5 * mm],
      [equalAr3, equalAr2, equalAr1, spiderSapphire, spiderSapphire, spiderSapphire, equalAr1,
        equalAr2, equalAr3],
      degs [0, 0, 0, 0, 54, 0, 0, 0, 0]⟩
  else if modelName = "3AR5BRopti" then
    .ok ⟨[0.356 * mm, 0.225 * mm, 0.188 * mm, 3.86 * mm, 3.86 * mm, 3.86 * mm, 3.86 * mm,
        3.86 * mm, 0.188 * mm, 0.225 * mm, 0.356 * mm],
      [a3b5Ar3, a3b5Ar2, a3b5Ar1, spiderSapphire, spiderSapphire, spiderSapphire, spiderSapphire,
        spiderSapphire, a3b5Ar1, a3b5Ar2, a3b5Ar3],
      degs [0, 0, 0, 0, 29, 94.5, 29, 2, 0, 0, 0]⟩
  else if modelName = "3AR5BRstd" then
    .ok ⟨[0.5 * mm, 0.31 * mm, 0.257 * mm, 3.75 * mm, 3.75 * mm, 3.75 * mm, 3.75 * mm, 3.75 * mm,
        0.257 * mm, 0.31 * mm, 0.5 * mm],
      [equalAr3, equalAr2, equalAr1, spiderSapphire, spiderSapphire, spiderSapphire,
        spiderSapphire, spiderSapphire, equalAr1, equalAr2, equalAr3],
      degs [0, 0, 0, 0, 26.5, 94.8, 28.1, -2.6, 0, 0, 0]⟩
  else if modelName = "5BR" then
    .ok ⟨[0.5 * mm, 0.31 * mm, 0.257 * mm, 3.75 * mm, 3.75 * mm, 3.75 * mm, 3.75 * mm, 3.75 * mm,
        0.257 * mm, 0.31 * mm, 0.5 * mm],
      [equalAr3, equalAr2, equalAr1, spiderSapphire, spiderSapphire, spiderSapphire,
        spiderSapphire, spiderSapphire, equalAr1, equalAr2, equalAr3],
      degs [0, 0, 0, 22.9, -50, 0, 50, -22.9, 0, 0, 0]⟩
  else .error .valueError

/-- `HWP.compute_mueller(freq, vartheta)` (detector.py:732-744): frequency in GHz; AttributeError
when no stack has been set. -/
noncomputable def computeMueller (stack : Option Stack) (freq vartheta : ℝ) : PyM MR4 :=
  match stack with
  | none => .error .attributeError
  | some s => mueller s (1.0e9 * freq) vartheta 0 1 1 false

end Verif.Optics
