import Verif.Spec.Beam

/-!
# Specification vocabulary: numbers in beam attributes, runs of operations
-/

namespace Verif.Beam

variable {K : Type} [Field K] [LinearOrder K] [FloorRing K]

/-- The value is the number `x` (an int, a float or a bool). -/
def IsNum (v : Val K) (x : K) : Prop := v.toNum = some x

/-- Attribute `k` of `o` is the number `x`. -/
def HasNum (o : Obj K) (k : Key) (x : K) : Prop := ∃ v, o.attr k = some v ∧ IsNum v x

/-- The attributes that describe where a beam points. -/
def pointingKeys : List Key := [.az, .el, .polang, .polangError]

/-- Operations that give numbers as pointing of a beam, and do not assign `ghost_count`. -/
def AngleOp (op : Op K) : Prop :=
  NoCountAssign op ∧ match op with
    | .new kw => ∀ k ∈ pointingKeys, ∀ v, Dict.get? kw k = some v → ∃ x, IsNum v x
    | .createGhost _ _ kw => ∀ k ∈ pointingKeys, ∀ v, Dict.get? kw k = some v → ∃ x, IsNum v x
    | .setattr _ k v => k ∈ pointingKeys → ∃ x, IsNum v x
    | _ => True

/-- Any number of operations on existing objects, each allowed in the state it is applied to. -/
inductive Run (env : Env K) (P : Heap K → Op K → Prop) : Heap K → Heap K → Prop where
  | refl (h : Heap K) : Run env P h h
  | step {h h' : Heap K} (op : Op K) : Run env P h h' → P h' op → (∀ x ∈ op.refs, x < h'.size) →
      Run env P h (op.after env h')

/-- The operation does not replace or remove the coefficients of `r`: it does not assign them, does
not copy others into `r`, and does not delete those of `r`, directly or with those of the beam whose
ghost `r` is. -/
def LeavesBlm (r : Ref) (h : Heap K) (op : Op K) : Prop :=
  NoCountAssign op ∧ match op with
    | .setattr x k _ => ¬ (x = r ∧ k = .blm)
    | .reuseBlm x _ => x ≠ r
    | .deleteBlm x d => x ≠ r ∧ (d = true → ∀ gs, (h.cell x).ghosts = some gs → r ∉ gs)
    | _ => True

end Verif.Beam
