/-!
# Python / numpy primitives used by the models

Only what the modelled functions need.  Every partial operation returns
`Except PyErr _`, so that an exception of the Python code is a value here.
-/

namespace Verif

/-- The Python exception classes that occur in the modelled code. -/
inductive PyErr
  | valueError
  | indexError
  | typeError
  | attributeError
  | zeroDivisionError
  | nameError          -- includes UnboundLocalError, a subclass of NameError
  | keyError
  | assertionError
  | notImplementedError
  | runtimeError
  | overflowError
  | recursionError
  | osError            -- IOError is an alias
  deriving DecidableEq, Repr

/-- Result of a Python call: a value or a raised exception. -/
abbrev PyM (α : Type) := Except PyErr α

/-- Clipping of a slice bound to `[0, n]`; negative bounds count from the end
(language reference, "slicings"). -/
def pyClip (n : Nat) (i : Int) : Nat :=
  if i < 0 then (i + n).toNat else min i.toNat n

/-- `a[i:j]` for a list or 1-d array. -/
def pySlice {α : Type} (a : List α) (i j : Int) : List α :=
  (a.drop (pyClip a.length i)).take (pyClip a.length j - pyClip a.length i)

/-- Replace the elements of `a` at positions `i, i+1, ...` by `v`
(helper of `pyAssign`, used only when it fits). -/
def setRange {α : Type} (a : List α) (i : Nat) (v : List α) : List α :=
  a.take i ++ v ++ a.drop (i + v.length)

/-- numpy slice assignment `a[i:j] = v`: the right-hand side must have the length
of the slice, or length one (broadcasting); anything else raises ValueError. -/
def pyAssign {α : Type} (a : List α) (i j : Int) (v : List α) : PyM (List α) :=
  let s := pyClip a.length i
  let n := pyClip a.length j - s
  if v.length = n then .ok (setRange a s v)
  else match v with
    | [x] => .ok (setRange a s (List.replicate n x))
    | _ => .error .valueError

/-- `a[i]` with Python's negative indices; IndexError when out of range. -/
def pyGet {α : Type} (a : List α) (i : Int) : PyM α :=
  let k := if i < 0 then i + a.length else i
  if k < 0 then .error .indexError
  else match a[k.toNat]? with
    | some x => .ok x
    | none => .error .indexError

/-- `int(np.ceil(a / float(b)))` for integers `a`, `b` (with `b ≠ 0`), in exact
arithmetic.  In double precision it is the same for `|a| < 2^53` (`C111_ceil`). -/
def ceilDiv (a b : Int) : Int := -(Int.fdiv (-a) b)

/-- `int(q)` for a float: truncation towards zero. -/
def pyInt (q : Rat) : Int := if 0 ≤ q then q.floor else -((-q).floor)

/-- The integers `a, a+1, ..., a+n-1` (`range(a, a+n)`, `np.arange(a, a+n)`). -/
def intRange (a : Int) (n : Nat) : List Int :=
  (List.range n).map fun (k : Nat) => a + (k : Int)

end Verif
