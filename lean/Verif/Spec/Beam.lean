import Verif.Model.Beam

/-!
# Specification vocabulary: histories of beam operations
-/

namespace Verif.Beam

variable {K : Type} [Field K] [LinearOrder K] [FloorRing K]

/-- What a user can do with beams: construct one, give it a ghost, assign an attribute, look at
its coefficients, copy those of another beam, delete them. -/
inductive Op (K : Type) where
  | new (kw : Dict K)
  | createGhost (r : Ref) (tag : Option String) (kw : Dict K)
  | setattr (r : Ref) (k : Key) (v : Val K)
  | readBlm (r : Ref)
  | reuseBlm (r p : Ref)
  | deleteBlm (r : Ref) (delGhosts : Bool)

/-- The objects an operation is applied to. -/
def Op.refs : Op K → List Ref
  | .new _ => []
  | .createGhost r _ _ => [r]
  | .setattr r _ _ => [r]
  | .readBlm r => [r]
  | .reuseBlm r p => [r, p]
  | .deleteBlm r _ => [r]

/-- State after an operation; a raised exception is caught by the user, who may go on. -/
def Op.after (env : Env K) (op : Op K) (h : Heap K) : Heap K :=
  match op with
  | .new kw => (Exec.run (newBeam env kw) h).2
  | .createGhost r tag kw => (Exec.run (Beam.createGhost env r tag kw) h).2
  | .setattr r k v => (Exec.run (Beam.setattr env r k v) h).2
  | .readBlm r => (Exec.run (Beam.readBlm env r) h).2
  | .reuseBlm r p => (Exec.run (Beam.reuseBlm env r p) h).2
  | .deleteBlm r d => (Exec.run (Beam.deleteBlm r d) h).2

/-- No objects yet. -/
def emptyHeap : Heap K := { size := 0, cell := fun _ => blank }

/-- The states reachable by any number of operations satisfying `P` on existing objects. -/
inductive Reachable (env : Env K) (P : Op K → Prop) : Heap K → Prop where
  | start : Reachable env P emptyHeap
  | step {h : Heap K} (op : Op K) : Reachable env P h → P op → (∀ r ∈ op.refs, r < h.size) →
      Reachable env P (op.after env h)

/-- Operations other than an explicit assignment to `ghost_count`. -/
def NoCountAssign : Op K → Prop
  | .setattr _ k _ => k ≠ .ghostCount
  | _ => True

/-- `r` is a main beam of `h` with ghosts `gs`, in this order. -/
def HasGhosts (h : Heap K) (r : Ref) (gs : List Ref) : Prop :=
  r < h.size ∧ (h.cell r).isGhost = false ∧ (h.cell r).ghosts = some gs

/-- The three limits of a beam. -/
def Limits (o : Obj K) (L M : Int) (F : K) : Prop :=
  o.attr .lmax = some (.int L) ∧ o.attr .mmax = some (.int M) ∧ o.attr .fwhm = some (.num F)

/-- Values of the limits a caller is expected to pass. -/
def LimVal (k : Key) (v : Val K) : Prop :=
  (k = .lmax ∨ k = .mmax → v = .none ∨ ∃ i, v = .int i) ∧
  (k = .fwhm → v = .none ∨ ∃ x, v = .num x)

/-- Operations whose values for the limits make sense; with `b2` no assignment to `lmax`, with
`b3` no negative `mmax`. -/
def LimOp (b2 b3 : Prop) (op : Op K) : Prop :=
  (match op with
    | .new kw => ∀ k v, Dict.get? kw k = some v → LimVal k v
    | .createGhost _ _ kw => ∀ k v, Dict.get? kw k = some v → LimVal k v
    | .setattr _ k v => LimVal k v
    | _ => True) ∧
  (b2 → match op with | .setattr _ k _ => k ≠ .lmax | _ => True) ∧
  (b3 → match op with
    | .new kw => ∀ i, Dict.get? kw .mmax = some (.int i) → 0 ≤ i
    | .createGhost _ _ kw => ∀ i, Dict.get? kw .mmax = some (.int i) → 0 ≤ i
    | .setattr _ k v => k = .mmax → ∀ i, v = .int i → 0 ≤ i
    | _ => True)

/-- Operations that cannot change which index a ghost has: neither `ghost_count` nor `ghost_idx` is
assigned and no coefficients are copied. -/
def NoIdxChange : Op K → Prop
  | .setattr _ k _ => k ≠ .ghostCount ∧ k ≠ .ghostIdx
  | .reuseBlm _ _ => False
  | _ => True

end Verif.Beam
