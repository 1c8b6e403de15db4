import Verif.Model.Optics

/-!
# Model: `BandAveragedMueller` (transfer_matrix.py:523-696)

A text file is represented by its rows of two numbers, without the first two lines (which the code
skips); files with other contents are not modelled.
-/

namespace Verif.Optics

noncomputable section

open Classical in
/-- `interpolate.interp1d(x, y)` (scipy) sorts the rows by `x`, keeping the order of equal ones. -/
def sortRows (data : List (ℝ × ℝ)) : List (ℝ × ℝ) := data.mergeSort fun a b => decide (a.1 ≤ b.1)

open Classical in
/-- `np.interp(f, x, y)` for rows sorted by `x` and `f` in their range: the last row at or below `f`
and the next one. -/
def interpSorted : List (ℝ × ℝ) → ℝ → ℝ
  | [], _ => 0
  | [r], _ => r.2
  | r0 :: r1 :: rs, f =>
    if r1.1 ≤ f then interpSorted (r1 :: rs) f
    else if f = r0.1 then r0.2
    else (r1.2 - r0.2) / (r1.1 - r0.1) * (f - r0.1) + r0.2

open Classical in
/-- `interpolate.interp1d(x, y)(f)` for one number (scipy): ValueError without rows and outside of
their range. -/
def interp1d (data : List (ℝ × ℝ)) (f : ℝ) : PyM ℝ :=
  match (sortRows data).head?, (sortRows data).getLast? with
  | some a, some b =>
    if f < a.1 ∨ b.1 < f then .error .valueError else .ok (interpSorted (sortRows data) f)
  | _, _ => .error .valueError

/-- `integrate.trapz(y, x)` (scipy), given by the pairs `(x, y)`. -/
def trapz : List (ℝ × ℝ) → ℝ
  | p0 :: p1 :: ps => (p1.1 - p0.1) * (p1.2 + p0.2) / 2 + trapz (p1 :: ps)
  | _ => 0

/-- `frequencies` (transfer_matrix.py:560). -/
def bandFreqs (minFreq maxFreq : ℝ) (numFreqs : Nat) : List ℝ :=
  (List.range numFreqs).map fun (i : Nat) => minFreq + i * (maxFreq - minFreq) / numFreqs

/-- The detector response (transfer_matrix.py:625-643): one without a file. -/
def passBandOf (freqs : List ℝ) : Option (List (ℝ × ℝ)) → PyM (List ℝ)
  | none => .ok (List.replicate freqs.length 1)
  | some data => freqs.mapM (interp1d data)

/-- Spectrum times response times one entry of the Mueller matrices, integrated. -/
def integrated (freqs spec band vals : List ℝ) : ℝ :=
  trapz (List.zip freqs (List.zipWith (· * ·) (List.zipWith (· * ·) vals spec) band))

open Classical in
/-- `BandAveragedMueller(stack, spectrumFile, minFreq, maxFreq, reflected, passBandFile,
incidenceAngle, numFreqs, rotation, inputIndex, outputIndex)` (transfer_matrix.py:523-696). Division
by a vanishing integral gives an array of NaN or infinities, here `none`. -/
def bandAveragedMueller (s : Stack) (spectrum : List (ℝ × ℝ)) (minFreq maxFreq : ℝ)
    (reflected : Bool) (passBand : Option (List (ℝ × ℝ))) (incidenceAngle : ℝ) (numFreqs : Nat)
    (rotation inputIndex outputIndex : ℝ) : PyM (Option MR4) := do
  let freqs := bandFreqs minFreq maxFreq numFreqs
  let ms ← freqs.mapM fun f => mueller s f incidenceAngle rotation inputIndex outputIndex reflected
  let spec ← freqs.mapM (interp1d spectrum)
  let band ← passBandOf freqs passBand
  let total := trapz (List.zip freqs (List.zipWith (· * ·) spec band))
  if total = 0 then return none
  else return some (Matrix.of fun i j => integrated freqs spec band (ms.map fun M => M i j) / total)

end

end Verif.Optics
