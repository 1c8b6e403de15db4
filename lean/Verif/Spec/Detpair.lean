import Verif.Model.Detpair
import Verif.Spec.BeamMore

/-!
# Specification: the beams of a detector pair
-/

namespace Verif.Beam

variable {K : Type} [Field K] [LinearOrder K]

/-- The beam object `o` stands for the coefficients `v`: those it holds, else those that are made or
read according to its attributes; and its azimuthal limit is `M` as soon as they are in memory: a
FITS file with a lower limit lowers it. -/
inductive Describes (env : Env K) (o : Obj K) (v : Val K) : Int → Prop where
  | held (M : Int) : o.attr .blm = some v → o.attr .mmax = some (.int M) → Describes env o v M
  | made (M : Int) : o.attr .blm = none → env.loadBlm o.attr = .ok (v, none) →
      o.attr .mmax = some (.int M) → Describes env o v M
  | file (f M L : Int) : o.attr .blm = none → env.loadBlm o.attr = .ok (v, some f) →
      o.attr .mmax = some (.int M) → o.attr .lmax = some (.int L) →
      Describes env o v (if f < M then min f L else M)

/-- A main beam `r` with the ghosts `gs`, numbered in this order. -/
structure Family (h : Heap K) (r : Ref) (gs : List Ref) : Prop where
  own : HasGhosts h r gs
  count : (h.cell r).attr .ghostCount = some (.int gs.length)
  ghost : ∀ (k : Nat) (g : Ref), gs[k]? = some g →
    (h.cell g).isGhost = true ∧ (h.cell g).attr .ghostIdx = some (.int k)

/-- Making or reading coefficients does not depend on the azimuthal limit, nor on coefficients that
are in memory (detector.py:218-246, 318-406). -/
def LimitFree (env : Env K) : Prop :=
  ∀ a a' : Key → Option (Val K), (∀ k, k ≠ .blm → k ≠ .mmax → a k = a' k) →
    env.loadBlm a = env.loadBlm a'

/-- A pair of detectors: A is `a` with the ghosts `gs`, B (if there is one) is `B`, each beam `x` of A and
each ghost of B stands for the coefficients `v x` and then has the azimuthal limit `M x`; the options
of the beams of A are `sy` and `mu`. -/
structure PairOk (env : Env K) (h : Heap K) (a : Ref) (gs : List Ref) (B : Option (Ref × List Ref))
    (v : Ref → Val K) (M : Ref → Int) (sy mu : Ref → Val K) : Prop where
  famA : Family h a gs
  famB : ∀ b ∈ B, Family h b.1 b.2
  blm : ∀ x ∈ a :: gs ++ B.elim [] Prod.snd, Describes env (h.cell x) (v x) (M x)
  symmetric : ∀ x ∈ a :: gs, (h.cell x).attr .symmetric = some (sy x)
  mueller : ∀ x ∈ a :: gs, (h.cell x).attr .hwpMueller = some (mu x)

/-- `h'` is `h` without the coefficients of the beams of `S`, and with the limits `M` for the beams of
`T`. -/
structure After (S T : List Ref) (M : Ref → Int) (h h' : Heap K) : Prop where
  size : h'.size = h.size
  ghosts : ∀ x, (h'.cell x).ghosts = (h.cell x).ghosts
  attr : ∀ x k, k ≠ .blm → k ≠ .mmax → (h'.cell x).attr k = (h.cell x).attr k
  gone : ∀ x ∈ S, (h'.cell x).attr .blm = none
  kept : ∀ x, x ∉ S → (h'.cell x).attr .blm = (h.cell x).attr .blm
  limit : ∀ x ∈ T, (h'.cell x).attr .mmax = some (.int (M x))
  other : ∀ x, x ∉ T → (h'.cell x).attr .mmax = (h.cell x).attr .mmax

/-- The ground maps: made with the coefficients and the limit `last`. -/
def GroundIs {D : Type} (ground : Option (Maker K D)) (last : Val K × Val K) (sy mu : Val K)
    (gr : Option D) : Prop :=
  match ground with
  | none => gr = none
  | some mk => ∃ d, mk last.1 last.2 sy mu = .ok d ∧ gr = some d

end Verif.Beam
