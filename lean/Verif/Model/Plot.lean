import Mathlib.Analysis.SpecialFunctions.Log.Base
import Verif.Py
import Verif.Model.Filters

/-!
# Plots of maps

`plot_tools.plot_map`, `plot_tools.round_sig` and `plot_tools.plot_iqu` (plot_tools.py:8-136).

The healpy plotting function and matplotlib are external: a call of `plot_map` that gets as far as
the plotting function is recorded as one `Plot`, with everything the plotting function and
`savefig` are given, and is taken to succeed.  Maps are arrays of floats; `none` is NaN.
-/

namespace Verif.Plot

noncomputable section

/-- The values that are passed around as options. -/
inductive Val
  | none
  | num (x : ℝ)
  | flag (b : Bool)
  | func (k : Nat)
  | text (s : String)

/-- Dictionaries of keyword arguments, by their look-up. -/
abbrev Dict := String → Option Val

/-- `d` without the key `k`: what `d.pop(k, …)` leaves. -/
def without (d : Dict) (k : String) : Dict := fun j => if j = k then Option.none else d j

/-- `d.update(u)`. -/
def update (d u : Dict) : Dict := fun j =>
  match u j with
  | some v => some v
  | Option.none => d j

/-- `d` with `d[k] = v`. -/
def put (d : Dict) (k : String) (v : Val) : Dict := fun j => if j = k then some v else d j

/-- A healpix map; `none` is NaN. -/
abbrev Map := List (Option ℝ)

/-- One plot on disk: the file, the map and the options that the plotting function was called with,
and the options of `savefig` (plot_tools.py:33-44). -/
structure Plot where
  file : String
  map : Map
  func : Val
  tight : Bool
  dpi : Val
  transparent : Val
  opts : Dict

/-- `os.path.join(write_dir, tag)` of posix. -/
def joinPath (dir name : String) : String :=
  if name.toList.head? = some '/' then name
  else if dir = "" ∨ dir.toList.getLast? = some '/' then dir ++ name
  else dir ++ "/" ++ name

/-- The call `plot_map(map, write_dir, tag, plot_func=…, tight=…, **opts)` (plot_tools.py:8-44).
Python refuses names that are given twice with a TypeError. -/
def plotMap (m : Map) (dir tag : String) (func : Val) (tight : Bool) (opts : Dict) : PyM Plot :=
  if (opts "map_arr").isSome ∨ (opts "write_dir").isSome ∨ (opts "tag").isSome ∨
      (opts "plot_func").isSome ∨ (opts "tight").isSome then .error .typeError
  else .ok
    { file := joinPath dir tag ++ ".png"
      map := m
      func := func
      tight := tight
      dpi := (opts "dpi").getD (.num 150)
      transparent := (opts "transparent").getD (.flag false)
      opts := without (without opts "dpi") "transparent" }

/-- `plot_tools.round_sig(x, sig)` (plot_tools.py:46-48): `int` of the infinite logarithm of zero
is an OverflowError. -/
def roundSig (x : ℝ) (sig : Int) : PyM ℝ :=
  if x = 0 then .error .overflowError
  else
    let d := sig - ⌊Real.logb 10 |x|⌋ - 1
    .ok (Filters.pyRound (x * (10 : ℝ) ^ d) / (10 : ℝ) ^ d)

/-- `round_sig(np.nanmin(map), sig=1)` (plot_tools.py:121-122): a map without pixels is a ValueError of
numpy, the NaN of a map of only NaNs is a ValueError of `int`. -/
def autoMin (m : Map) : PyM Val :=
  match (m.filterMap id).min? with
  | some x => do .ok (.num (← roundSig x 1))
  | Option.none => .error .valueError

/-- `round_sig(np.nanmax(map), sig=1)` (plot_tools.py:124-125). -/
def autoMax (m : Map) : PyM Val :=
  match (m.filterMap id).max? with
  | some x => do .ok (.num (← roundSig x 1))
  | Option.none => .error .valueError

/-- The argument `limits`: None, something without `__iter__`, a sequence of pairs, or a sequence of
numbers. -/
inductive Limits
  | none
  | scalar (x : ℝ)
  | pairs (l : List (Option ℝ × Option ℝ))
  | flat (l : List ℝ)

/-- The argument `sym_limits`: None, a number or a sequence of numbers. -/
inductive SymLimits
  | none
  | scalar (x : ℝ)
  | seq (l : List ℝ)

/-- The arguments of `plot_iqu` (plot_tools.py:50-52). -/
structure Args where
  maps : List Map
  dir : String
  tag : String
  func : Val
  noLimits : Bool := false
  limits : Limits := .none
  symLimits : SymLimits := .none
  symmetric : Bool := false
  mask : Option (List Bool) := Option.none
  tight : Bool := false
  dpi : Val := .num 150
  udicts : Option (List Dict) := Option.none
  kwargs : Dict := fun _ => Option.none

/-- Which of the three sets of limits is used: the local variables `limits_set`, `symmetric` and
`sym_limits` after plot_tools.py:85-95. -/
inductive Choice
  | sym (l : List ℝ)
  | pairs (l : List (Option ℝ × Option ℝ))
  | flat (l : List ℝ)
  | unset

/-- plot_tools.py:85-95. -/
def choose (limits : Limits) (symLimits : SymLimits) (symmetric : Bool) : Choice :=
  match limits with
  | .pairs l => .pairs l
  | .flat l => .flat l
  | _ =>
    match symLimits with
    | .seq l => .sym l
    | .scalar s => if symmetric then .sym (List.replicate 3 s) else .unset
    | .none => .unset

/-- `l[i]` of a Python sequence, for an index that is not negative. -/
def item {α : Type} (l : List α) (i : Nat) : PyM α :=
  match l[i]? with
  | some x => .ok x
  | Option.none => .error .indexError

/-- A limit that may be None. -/
def limitVal : Option ℝ → Val
  | some x => .num x
  | Option.none => .none

/-- The local variables that survive from one map to the next: `minn`, `maxx`, `plot_func` and
`kwargs` (plot_tools.py:103, 113-114, 130). -/
structure Loc where
  minn : Val
  maxx : Val
  func : Val
  kwargs : Dict

/-- The limits of map `i` before the missing ones are filled in (plot_tools.py:106-114). -/
def pick (c : Choice) (i : Nat) (s : Loc) : PyM Loc :=
  match c with
  | .sym l => do
    let x ← item l i
    .ok { s with minn := .num (-x), maxx := .num x }
  | .pairs l => do
    let p ← item l i
    .ok { s with minn := limitVal p.1, maxx := limitVal p.2 }
  | .flat l => do
    let _ ← item l i
    .error .typeError
  | .unset =>
    match s.maxx, s.minn with
    | .none, .none =>
      .ok { s with
        maxx := (s.kwargs "max").getD (.num 10)
        minn := (s.kwargs "min").getD (.num (-10))
        kwargs := without (without s.kwargs "max") "min" }
    | _, _ => .ok s

/-- `if minn is None: …` (plot_tools.py:121-122). -/
def fillMin (m : Map) : Val → PyM Val
  | .none => autoMin m
  | v => .ok v

/-- `if maxx is None: …` (plot_tools.py:124-125). -/
def fillMax (m : Map) : Val → PyM Val
  | .none => autoMax m
  | v => .ok v

/-- `map2plot[~mask] = np.nan` (plot_tools.py:127-128); a mask of the wrong length is an IndexError. -/
def applyMask (mask : Option (List Bool)) (m : Map) : PyM Map :=
  match mask with
  | Option.none => .ok m
  | some b =>
    if b.length ≠ m.length then .error .indexError
    else .ok (List.zipWith (fun keep x => if keep then x else Option.none) b m)

/-- The call of `plot_map` (plot_tools.py:131-136). -/
def callPlot (a : Args) (st : String) (m : Map) (s : Loc) (zwargs : Dict) : PyM Plot :=
  if a.noLimits then plotMap m a.dir (a.tag ++ "_" ++ st) s.func a.tight zwargs
  else if (zwargs "min").isSome ∨ (zwargs "max").isSome then .error .typeError
  else plotMap m a.dir (a.tag ++ "_" ++ st) s.func a.tight (put (put zwargs "min" s.minn) "max" s.maxx)

/-- One round of the loop (plot_tools.py:106-136): the plot, and the variables for the next one. -/
def one (a : Args) (c : Choice) (i : Nat) (st : String) (udict : Dict) (s : Loc) :
    PyM (Plot × Loc) := do
  let s ← pick c i s
  let zwargs := update s.kwargs udict
  let m ← item a.maps i
  let minn ← fillMin m s.minn
  let maxx ← fillMax m s.maxx
  let m ← applyMask a.mask m
  let s := { s with minn := minn, maxx := maxx, func := (zwargs "plot_func").getD s.func }
  let p ← callPlot a st m s (without zwargs "plot_func")
  .ok (p, s)

/-- The loop over the Stokes parameters (plot_tools.py:104-136): the files that are written and the
exception that ends it, if any. -/
def loop (a : Args) (c : Choice) : Nat → List (String × Dict) → Loc → List Plot × Option PyErr
  | _, [], _ => ([], Option.none)
  | i, (st, u) :: rest, s =>
    match one a c i st u s with
    | .error e => ([], some e)
    | .ok (p, s) =>
      let r := loop a c (i + 1) rest s
      (p :: r.1, r.2)

/-- The names and dictionaries that are looped over (plot_tools.py:80, 97-101, 104). -/
def rounds (n : Nat) (udicts : Option (List Dict)) : List (String × Dict) :=
  match udicts with
  | some u => ["I", "Q", "U"].zip u
  | Option.none =>
    if n = 4 then ["I", "Q", "U", "V"].zip (List.replicate 4 fun _ => Option.none)
    else ["I", "Q", "U"].zip (List.replicate 3 fun _ => Option.none)

/-- `plot_tools.plot_iqu` (plot_tools.py:50-136): the files it writes and the exception that ends it,
if any.  Maps of different lengths are a ValueError of `np.shape`. -/
def plotIqu (a : Args) : List Plot × Option PyErr :=
  if ∃ m ∈ a.maps, ∃ m' ∈ a.maps, m.length ≠ m'.length then ([], some .valueError)
  else if a.maps.length ≠ 3 ∧ a.maps.length ≠ 4 then ([], some .valueError)
  else loop a (choose a.limits a.symLimits a.symmetric) 0 (rounds a.maps.length a.udicts)
    ⟨.none, .none, a.func, a.kwargs⟩

end

end Verif.Plot
