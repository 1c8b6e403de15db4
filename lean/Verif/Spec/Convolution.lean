import Verif.Spec.Spinmaps
import Verif.Spec.Timeline

/-!
# Specification: what a beam sees of a sky, in harmonic space

The beam is described by its Stokes parameters `I, Q, U, V` in a frame that does not turn with the
azimuth around the beam axis.  `P = Q + iU` then has the spin-weighted coefficients
`P(l, s) = (Q + iU)(l, s - 2)`.
-/

noncomputable section

namespace Verif.Spinmaps

open Verif.Spec Verif.Timeline Verif.Spin Complex

/-- Value for a sample of a field with the pixel values `f`. -/
def look (x : Smp) (f : Nat → ℂ) : ℂ := (x.w.map fun iw => f iw.1.toNat * (iw.2 : ℂ)).sum

/-- The pixels of a sample exist. -/
def InRange (nside : Nat) (x : Smp) : Prop := ∀ iw ∈ x.w, 0 ≤ iw.1 ∧ iw.1 < 12 * (nside : Int) ^ 2

/-- A sky: coefficients `(l, m)`, `-l ≤ m ≤ l`, of I, V and of the spin 2 field `Q + iU`. -/
structure Sky where
  I : Nat → Int → ℂ
  V : Nat → Int → ℂ
  P : Nat → Int → ℂ

/-- The sky with rows `a`. -/
def skyOf (v : Bool) (a : Nat → Nat → Nat → ℂ) : Sky where
  I := extended (a 0) (a 0)
  V := if v then extended (a 3) (a 3) else fun _ _ => 0
  P := extended (plus2 (a 1) (a 2)) (minus2 (a 1) (a 2))

/-- A beam: coefficients `(l, s)` of the Stokes parameters. -/
structure Stokes where
  I : Nat → Int → ℂ
  Q : Nat → Int → ℂ
  U : Nat → Int → ℂ
  V : Nat → Int → ℂ

/-- `P = Q + iU`. -/
def Stokes.P (b : Stokes) (l : Nat) (s : Int) : ℂ := b.Q l (s - 2) + Complex.I * b.U l (s - 2)

/-- The beam with rows `b`: `b 1` and `b 2` are the coefficients of spin -2 and +2. -/
def beamOf (v : Bool) (b : Nat → Nat → Nat → ℂ) : Stokes where
  I := fun l s => beamMode (b 0) (b 0) s l
  Q := fun l s => (beamMode (b 1) (b 2) (s + 2) l + beamMode (b 2) (b 1) (s - 2) l) / 2
  U := fun l s => (beamMode (b 1) (b 2) (s + 2) l - beamMode (b 2) (b 1) (s - 2) l) /
    (2 * Complex.I)
  V := fun l s => if v then beamMode (b 3) (b 3) s l else 0

/-- The detector turned by `psi`: `P` is multiplied by `exp(2 i psi)`. -/
def turned (psi : ℝ) (b : Stokes) : Stokes where
  I := b.I
  Q := fun l s => Real.cos (2 * psi) * b.Q l s - Real.sin (2 * psi) * b.U l s
  U := fun l s => Real.sin (2 * psi) * b.Q l s + Real.cos (2 * psi) * b.U l s
  V := b.V

/-- The beam with a plate in front: the row of Stokes parameters times the Mueller matrix. -/
def plate (M : Fin 4 → Fin 4 → ℝ) (b : Stokes) : Stokes where
  I := fun l s => b.I l s * M 0 0 + b.Q l s * M 1 0 + b.U l s * M 2 0 + b.V l s * M 3 0
  Q := fun l s => b.I l s * M 0 1 + b.Q l s * M 1 1 + b.U l s * M 2 1 + b.V l s * M 3 1
  U := fun l s => b.I l s * M 0 2 + b.Q l s * M 1 2 + b.U l s * M 2 2 + b.V l s * M 3 2
  V := fun l s => b.I l s * M 0 3 + b.Q l s * M 1 3 + b.U l s * M 2 3 + b.V l s * M 3 3

/-- A real Mueller matrix as the code gets it. -/
def realMat (M : Fin 4 → Fin 4 → ℝ) : Mat4 := Matrix.of fun i j => (M i j : ℂ)

/-- The Mueller matrix that turns the frame by `alpha`. -/
def frame (alpha : ℝ) : Fin 4 → Fin 4 → ℝ :=
  ![![1, 0, 0, 0], ![0, Real.cos (2 * alpha), Real.sin (2 * alpha), 0],
    ![0, -Real.sin (2 * alpha), Real.cos (2 * alpha), 0], ![0, 0, 0, 1]]

/-- The beam with a plate that is turned by `alpha`. -/
def turnedPlate (alpha : ℝ) (M : Fin 4 → Fin 4 → ℝ) (b : Stokes) : Stokes :=
  plate (frame alpha) (plate M (plate (frame (-alpha)) b))

/-- A plate that, in its own frame, treats I and Q (and V and Q, when there is V) symmetrically and
does not couple them with U. -/
structure PlateOk (M : Fin 4 → Fin 4 → ℝ) (inputV : Bool) : Prop where
  i : M 1 0 = M 0 1 ∧ M 0 2 = 0 ∧ M 2 0 = 0
  v : inputV = true → M 1 3 = M 3 1 ∧ M 2 3 = 0 ∧ M 3 2 = 0

/-- A beam that is symmetric around its axis: I and V have azimuthal number 0, `P` has 2. -/
def AxiSym (b : Nat → Nat → Nat → ℂ) : Prop :=
  (∀ l m, m ≠ 0 → b 0 l m = 0 ∧ b 3 l m = 0) ∧ (∀ l m, m ≠ 2 → b 1 l m = 0) ∧ ∀ l m, b 2 l m = 0

/-- What a sample sees of the sky: for each azimuthal number `s` of the beam a field of spin `s`,
seen at the position angle. `S` are the azimuthal numbers for I and V, `T` those for `P`. -/
def convolved (Y : Harmonics) (nside L : Nat) (S T : Finset Int) (sky : Sky) (b : Stokes)
    (x : Smp) : ℝ :=
  (∑ s ∈ S, look x (synth Y nside L s fun l m => b.I l s * sky.I l m + b.V l s * sky.V l m) *
      exp (-Complex.I * (s : ℂ) * (x.pa : ℂ)) +
    ∑ s ∈ T, look x (synth Y nside L s fun l m => b.P l s * sky.P l m) *
      exp (-Complex.I * (s : ℂ) * (x.pa : ℂ))).re

/-- The azimuthal numbers that are used for I and V, and for `P`. -/
def spinsI (symmetric : Bool) (maxSpin : Int) : Finset Int :=
  if symmetric then {0} else Finset.Icc (-maxSpin) maxSpin

def spinsP (symmetric : Bool) (maxSpin : Int) : Finset Int :=
  if symmetric then {2} else Finset.Icc (-maxSpin) maxSpin

/-- The coefficients are those of real Stokes parameters. -/
def RealSky (L : Nat) (a : Nat → Nat → Nat → ℂ) : Prop :=
  ∀ i, i < 4 → ∀ l, l ≤ L → star (a i l 0) = a i l 0

def RealBeam (L : Nat) (b : Nat → Nat → Nat → ℂ) : Prop :=
  ∀ l, l ≤ L → star (b 0 l 0) = b 0 l 0 ∧ star (b 3 l 0) = b 3 l 0 ∧ star (b 1 l 0) = b 2 l 0

/-- `x + c y` for skies. -/
def addSky (c : ℝ) (x y : List (List ℂ)) : List (List ℂ) :=
  List.zipWith (List.zipWith fun a b => a + c * b) x y

/-! ### a detector -/

/-- A beam with its pointing and its coefficients. -/
structure Detector where
  point : Timeline.Beam
  data : BeamData

/-- What a detector measures of a sky: `init_spinmaps` (instrument.py:1713-1717), then
`_scan_detector` (instrument.py:1946-1950). -/
def observe (Y : Harmonics) (x : Ext) (mission : List Chunks.Chunk) (alm : List (List ℂ))
    (maxSpin : Int) (nside : Nat) (inputV beamV : Bool) (main : Detector) (ghosts : List Detector)
    (s : Sub) (interp savePoint : Bool) (st : State) : PyM (List ℝ) := do
  let maps ← initSpinmaps Y alm none maxSpin nside inputV beamV main.data (ghosts.map (·.data))
  let r ← scanDetector x mission main.point (ghosts.map (·.point)) s false interp savePoint
    { st with maps := maps }
  return r.1.tod

/-- A live detector with ghosts: the input is complete for each beam, `Lb` and `b` being the band
limit and the rows of each beam; ghosts have the numbers `0 .. k - 1`, and ghosts with the same
number have the same coefficients. -/
structure DetectorOk (Ls : Nat) (alm : List (List ℂ)) (a : Nat → Nat → Nat → ℂ) (maxSpin : Int)
    (inputV beamV : Bool) (main : Detector) (ghosts : List Detector) (Lb : Detector → Nat)
    (b : Detector → Nat → Nat → Nat → ℂ) : Prop where
  live : main.point.dead = false
  main_ghost : main.point.ghost = false
  input : ∀ g ∈ main :: ghosts, InputOk Ls (Lb g) alm g.data.blm a (b g)
    (min g.data.mmax maxSpin) g.data.symmetric g.data.mueller inputV beamV
  ghost : ∀ g ∈ ghosts, g.point.ghost = true ∧ g.point.ghostIdx = g.data.ghostIdx
  numbers : ∃ k : Nat, ∀ n : Int, (∃ g ∈ ghosts, g.data.ghostIdx = n) ↔ 0 ≤ n ∧ n < k
  share : ∀ g ∈ ghosts, ∀ g' ∈ ghosts, g.data.ghostIdx = g'.data.ghostIdx →
    g.data = g'.data ∧ Lb g = Lb g' ∧ b g = b g'

/-- Sample `k` of a beam. -/
def sampleOf (x : Ext) (st : State) (interp : Bool) (nside i : Nat) (g : Timeline.Beam) (k : Nat) :
    Smp :=
  sampleAt x interp (offset x st.rotAngle g) nside ((st.ctime[i + k]?).getD 0)
    ((st.qBore[i + k]?).getD 0) (alphaAt st.hwpAng k)

end Verif.Spinmaps
