import Verif.Model.MapMaking
import Mathlib.Analysis.SpecialFunctions.Complex.Log

/-!
# Model: filters on timelines (`filter_tod_hwp`, `filter_tod_highpass`, filters in `bin_tod`)

`np.fft.rfft` and `np.fft.irfft` are written down from their documentation, in exact arithmetic.
A timeline all of whose samples are NaN is represented by `none`.
-/

noncomputable section

namespace Verif.Filters

open Verif.Chunks Verif.Timeline Verif.MapMaking Complex

/-- `exp(2 pi i x / n)`. -/
def wave (n : Nat) (x : ℝ) : ℂ := exp (2 * Real.pi * I * x / n)

/-- `np.fft.rfft(x)`: the modes `0 .. n div 2`.  An empty array raises ValueError. -/
def rfft (x : List ℝ) : PyM (List ℂ) :=
  if x.length = 0 then .error .valueError
  else .ok ((List.range (x.length / 2 + 1)).map fun (k : Nat) =>
    ∑ j ∈ Finset.range x.length, ((x[j]?).getD 0 : ℂ) * wave x.length (-((j : ℝ) * k)))

/-- The Hermitian-symmetric spectrum that `irfft` transforms: missing modes are zero, the imaginary
parts of the mean and (for even `n`) of the Nyquist mode are ignored. -/
def hermitian (n : Nat) (fd : List ℂ) (l : Nat) : ℂ :=
  if l = 0 then (((fd[0]?).getD 0).re : ℂ)
  else if 2 * l < n then (fd[l]?).getD 0
  else if 2 * l = n then (((fd[l]?).getD 0).re : ℂ)
  else star ((fd[n - l]?).getD 0)

/-- `np.fft.irfft(fd, n=n)` for `n > 0`. -/
def irfft (fd : List ℂ) (n : Nat) : List ℝ :=
  (List.range n).map fun (j : Nat) =>
    (1 / n * ∑ l ∈ Finset.range n, hermitian n fd l * wave n ((j : ℝ) * l)).re

/-- `round(x)`: the nearest integer, the even one if there are two. -/
def pyRound (x : ℝ) : Int :=
  if x - ⌊x⌋ < 1 / 2 then ⌊x⌋
  else if 1 / 2 < x - ⌊x⌋ then ⌊x⌋ + 1
  else if ⌊x⌋ % 2 = 0 then ⌊x⌋ else ⌊x⌋ + 1

/-- `tools.filter_tod_hwp(tod, fsamp, hwp_freq)` (tools.py:877-908).  Returns the new contents
of `tod`. -/
def filterTodHwp (tod : List ℝ) (fsamp hwpFreq : ℝ) : PyM (List ℝ) := do
  let fd ← rfft tod
  let n : ℝ := tod.length
  if fsamp = 0 then .error .zeroDivisionError
  else
    let centerIdx := pyRound (4 * hwpFreq / fsamp * n)
    let leftIdx := pyRound (3 * hwpFreq / fsamp * n)
    let rightIdx := pyRound (5 * hwpFreq / fsamp * n)
    let filterWidth := rightIdx - leftIdx + 1
    let fd ← Signal.filterFtHwp fd centerIdx filterWidth
    return irfft fd tod.length

/-- `np.sqrt(1/(1+(w_c/freq)**(2*m)))` for mode `k` (tools.py:927), with numpy's arithmetic for
`freq = 0`: `w_c/0` is infinite, and so are its positive powers, and `0/0` is NaN (`none`); anything
to the power 0 is 1. -/
def butterworth (fsamp wc : ℝ) (m : Nat) (n k : Nat) : Option ℝ :=
  let freq := k * fsamp / n
  if k = 0 then
    if m = 0 then some (Real.sqrt (1 / (1 + 1)))
    else if wc = 0 then none
    else some 0
  else some (Real.sqrt (1 / (1 + (wc / freq) ^ (2 * m))))

/-- `fd[k] * g`. -/
def gained (fd : List ℂ) (k : Nat) (g : ℝ) : ℂ := (fd[k]?).getD 0 * (g : ℂ)

/-- `fd[:] *= np.sqrt(...)` (tools.py:927); `none` if a mode becomes NaN. -/
def highpassModes (fsamp wc : ℝ) (m n : Nat) (fd : List ℂ) : Option (List ℂ) :=
  (List.range fd.length).mapM fun (k : Nat) => (butterworth fsamp wc m n k).map (gained fd k)

/-- `tools.filter_tod_highpass(tod, fsamp, w_c, m)` (tools.py:910-929), for an order `m >= 0`. A NaN
in one mode makes all samples NaN. `1./fsamp` raises for zero. -/
def filterTodHighpass (tod : List ℝ) (fsamp wc : ℝ) (m : Nat) : PyM (Option (List ℝ)) := do
  let fd ← rfft tod
  if fsamp = 0 then .error .zeroDivisionError
  else
    return (highpassModes fsamp wc m tod.length fd).map fun fd => irfft fd tod.length

/-- `tod -= np.average(tod)` (instrument.py:4414).  (For an empty array the average is NaN, but there
is nothing to subtract it from.) -/
def subtractMean (tod : List ℝ) : List ℝ := tod.map fun x => x - tod.sum / tod.length

/-- What the filters of `bin_tod` use: the options, `hwp_dict['mode']`, `hwp_dict['freq']`, `fsamp`
and `filter_dict` (None if empty): cutoff and order. -/
structure FilterOpts where
  filter4f : Bool
  highpass : Bool
  mode : Hwp.Mode
  hwpFreq : ℝ
  fsamp : ℝ
  dict : Option (ℝ × Nat)

/-- `set_filter_dict(w_c, m)` (instrument.py:1486-1502). -/
def FilterOpts.setFilterDict (o : FilterOpts) (wc : ℝ) (m : Nat) : FilterOpts :=
  { o with dict := some (wc, m) }

/-- `if filter_4fhwp:` (instrument.py:4397-4404). -/
def filter4fStep (o : FilterOpts) (tod : List ℝ) : PyM (List ℝ) :=
  if o.filter4f then
    if o.mode = .continuous then filterTodHwp tod o.fsamp o.hwpFreq else .error .valueError
  else .ok tod

/-- `if filter_highpass:` (instrument.py:4405-4414). -/
def highpassStep (o : FilterOpts) (tod : List ℝ) : PyM (Option (List ℝ)) :=
  if o.highpass then
    match o.dict with
    | some (wc, m) => filterTodHighpass tod o.fsamp wc m
    | none => .ok (some (subtractMean tod))
  else .ok (some tod)

/-- Filters of `bin_tod` (instrument.py:4397-4414), in place. -/
def filterTod (o : FilterOpts) (tod : List ℝ) : PyM (Option (List ℝ)) := do
  let tod ← filter4fStep o tod
  highpassStep o tod

/-- `bin_tod` with filters (instrument.py:4339-4432): the new contents of the timeline (the argument
or the attribute `tod`) and of the maps.  `none`: the timeline is NaN and so are the pixels that are
hit. -/
def binFiltered (q : QExt) (mission : List Chunk) (su : Setup) (st : State) (qOff : Quat.Q)
    (polang : ℝ) (o : FilterOpts) (tod : List ℝ) (flag : FlagArg) (s : Sub) (maps : Maps) :
    PyM (Option (List ℝ × Maps)) := do
  let _ ← match st.hwpAng with
    | some h => .ok h
    | Option.none => .error .attributeError
  let _ ← chunk2idx mission s.start s.stop s.cidx
  let r ← filterTod o tod
  match r with
  | some tod => do
    let maps ← binTod q mission su st qOff polang tod flag s maps
    return some (tod, maps)
  | none => return none

end Verif.Filters
