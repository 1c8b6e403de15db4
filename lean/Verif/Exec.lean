import Verif.Py

/-!
# Python statements with side effects

`Exec σ α` is a Python computation on a mutable state `σ`.  An exception keeps the changes made
before it was raised, as in Python.
-/

namespace Verif

/-- A computation on state `σ`: the value or exception, and the state afterwards. -/
abbrev Exec (σ α : Type) : Type := σ → Except PyErr α × σ

namespace Exec

variable {σ α β : Type}

/-- Run a computation. -/
def run (x : Exec σ α) (s : σ) : Except PyErr α × σ := x s

instance : Monad (Exec σ) where
  pure a := fun s => (.ok a, s)
  bind x f := fun s => match x s with
    | (.ok a, s') => f a s'
    | (.error e, s') => (.error e, s')

/-- The current state. -/
def get : Exec σ σ := fun s => (.ok s, s)

/-- Change the state. -/
def modify (f : σ → σ) : Exec σ Unit := fun s => (.ok (), f s)

/-- A computation without effect on the state. -/
def lift (x : PyM α) : Exec σ α := fun s => (x, s)

/-- `for a in l: f(a)`. -/
def forEach (l : List α) (f : α → Exec σ Unit) : Exec σ Unit :=
  match l with
  | [] => pure ()
  | a :: l => do f a; forEach l f

@[simp] theorem run_pure (a : α) (s : σ) : run (pure a : Exec σ α) s = (.ok a, s) := rfl
@[simp] theorem run_get (s : σ) : run (get : Exec σ σ) s = (.ok s, s) := rfl
@[simp] theorem run_modify (f : σ → σ) (s : σ) : run (modify f) s = (.ok (), f s) := rfl
@[simp] theorem run_lift (x : PyM α) (s : σ) : run (lift x : Exec σ α) s = (x, s) := rfl

theorem run_bind (x : Exec σ α) (f : α → Exec σ β) (s : σ) :
    run (x >>= f) s = match run x s with
      | (.ok a, s') => run (f a) s'
      | (.error e, s') => (.error e, s') := rfl

theorem run_bind_ok {x : Exec σ α} {f : α → Exec σ β} {s s' : σ} {a : α}
    (h : run x s = (.ok a, s')) : run (x >>= f) s = run (f a) s' := by
  rw [run_bind, h]

theorem run_bind_error {x : Exec σ α} {f : α → Exec σ β} {s s' : σ} {e : PyErr}
    (h : run x s = (.error e, s')) : run (x >>= f) s = (.error e, s') := by
  rw [run_bind, h]

@[simp] theorem run_forEach_nil (f : α → Exec σ Unit) (s : σ) :
    run (forEach [] f) s = (.ok (), s) := rfl

theorem run_forEach_cons (a : α) (l : List α) (f : α → Exec σ Unit) (s : σ) :
    run (forEach (a :: l) f) s = match run (f a) s with
      | (.ok _, s') => run (forEach l f) s'
      | (.error e, s') => (.error e, s') := by
  rw [forEach, run_bind]
  rcases (f a).run s with ⟨_ | _, _⟩ <;> rfl

end Exec
end Verif
