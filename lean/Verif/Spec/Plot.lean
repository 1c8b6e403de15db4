import Verif.Model.Plot

/-!
# What the plots of a set of maps should be

Only the arguments of `plot_iqu` and the plots on disk are used.
-/

namespace Verif.Spec.Plot

open Verif.Plot

/-- The letter of map `k`. -/
def letter : Nat → String
  | 0 => "I"
  | 1 => "Q"
  | 2 => "U"
  | _ => "V"

/-- Arguments that Python accepts and that name a directory and a file in it: the options that are
shared by the plots are not named arguments of `plot_iqu`, nor those that `plot_map` gets anyway. -/
structure Sound (a : Args) : Prop where
  count : a.maps.length = 3 ∨ a.maps.length = 4
  same : ∀ m ∈ a.maps, ∀ m' ∈ a.maps, m.length = m'.length
  mask : ∀ b, a.mask = some b → ∀ m ∈ a.maps, b.length = m.length
  dir : a.dir ≠ "" ∧ a.dir.toList.getLast? ≠ some '/'
  tag : a.tag.toList.head? ≠ some '/'
  named : ∀ j ∈ ["map_arr", "write_dir", "tag", "plot_func", "tight", "dpi"], a.kwargs j = none

/-- The dictionary of map `k`: the one given by the user, and nothing if there is none. -/
def own (a : Args) (k : Nat) : Dict :=
  match a.udicts with
  | some u => (u[k]?).getD fun _ => none
  | none => fun _ => none

/-- The dictionaries of the maps give none of the options that are given anyway, and no other
plotting function. -/
def Modest (a : Args) : Prop :=
  ∀ k, ∀ j ∈ ["map_arr", "write_dir", "tag", "plot_func", "tight", "min", "max"], own a k j = none

/-- The limits a user asks for: `limits` first, then `sym_limits`, then `min` and `max`, which are
-10 and 10 if they are not given. -/
inductive Wanted (a : Args) (k : Nat) : ℝ → ℝ → Prop
  | pairs {l lo hi} : a.limits = .pairs l → l[k]? = some (some lo, some hi) →
      a.kwargs "min" = none → a.kwargs "max" = none → Wanted a k lo hi
  | sym {l s} : a.limits = .none → a.symLimits = .seq l → l[k]? = some s →
      a.kwargs "min" = none → a.kwargs "max" = none → Wanted a k (-s) s
  | same {s} : a.limits = .none → a.symLimits = .scalar s → a.symmetric = true →
      a.kwargs "min" = none → a.kwargs "max" = none → Wanted a k (-s) s
  | options {lo hi} : a.limits = .none → a.symLimits = .none →
      (a.kwargs "min" = some (.num lo) ∨ a.kwargs "min" = none ∧ lo = -10) →
      (a.kwargs "max" = some (.num hi) ∨ a.kwargs "max" = none ∧ hi = 10) → Wanted a k lo hi

/-- The plot of map `k` with the limits `lo` and `hi`: its file, its pixels, its options. -/
structure Shows (a : Args) (k : Nat) (lo hi : ℝ) (p : Plot) : Prop where
  file : p.file = a.dir ++ "/" ++ (a.tag ++ "_" ++ letter k) ++ ".png"
  size : ∀ m, a.maps[k]? = some m → p.map.length = m.length
  pixel : ∀ (m : Map) (i : Nat) (x : Option ℝ), a.maps[k]? = some m → m[i]? = some x →
    p.map[i]? = some (if ∃ b, a.mask = some b ∧ b[i]? = some false then none else x)
  func : p.func = a.func
  tight : p.tight = a.tight
  bounds : a.noLimits = false → p.opts "min" = some (.num lo) ∧ p.opts "max" = some (.num hi)
  free : a.noLimits = true → p.opts "min" = none ∧ p.opts "max" = none
  specific : ∀ j v, j ∉ ["min", "max", "dpi", "transparent"] → own a k j = some v → p.opts j = some v
  shared : ∀ j, j ∉ ["min", "max", "dpi", "transparent"] → own a k j = none →
    p.opts j = a.kwargs j

end Verif.Spec.Plot
