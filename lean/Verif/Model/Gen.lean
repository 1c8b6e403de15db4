import Verif.Py

/-!
# Model: the cyclic angle generator
-/

namespace Verif

/-- State of the Python generator returned by `tools.angle_gen(angles)` (tools.py:524-543):
the list and the local variable `n`, which is the index that the next `next()` yields. -/
structure Gen (K : Type) where
  angles : List K
  n : Nat
  deriving DecidableEq, Repr

/-- Calling `tools.angle_gen(angles)`: nothing runs until the first `next()`
(tools.py:539, `n = 0`). -/
def angleGen {K : Type} (angles : List K) : Gen K := ⟨angles, 0⟩

/-- `next(gen)` (tools.py:540-543): yield `angles[n]`, then `n = (n + 1) % len(angles)`.
The update is done eagerly here, in Python it happens when the generator is resumed;
the two cannot be told apart through `next()`.  An empty list raises IndexError. -/
def Gen.next {K : Type} (g : Gen K) : PyM (K × Gen K) :=
  match g.angles[g.n]? with
  | some a => .ok (a, { g with n := (g.n + 1) % g.angles.length })
  | none => .error .indexError

/-- The values of `k` successive calls of `next` (not in the code; used to state what the
generator produces). -/
def Gen.take {K : Type} (g : Gen K) : Nat → PyM (List K)
  | 0 => .ok []
  | k + 1 => do
    let (a, g') ← g.next
    let rest ← g'.take k
    return a :: rest

end Verif
