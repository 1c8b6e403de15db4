import Verif.Model.ImplementScan
import Verif.Spec.Tiling

/-!
# Specification: which patch is observed, azimuth profile, elevation steps
-/

namespace Verif.Spec

/-- `cands` are the (azimuth, elevation) positions of the patches in order of preference at the
time of an elevation check.  `p` is the position to observe: the first one that is high enough,
and if there is none the azimuth of the last one at the elevation limit. -/
def Selected {K : Type} [LinearOrder K] (elMin : K) (cands : List (K × K)) (p : K × K) : Prop :=
  (∃ k, cands[k]? = some p ∧ elMin ≤ p.2 ∧ ∀ q ∈ cands.take k, q.2 < elMin) ∨
  ((∀ q ∈ cands, q.2 < elMin) ∧ p.2 = elMin ∧ ∃ q, cands.getLast? = some q ∧ p.1 = q.1)

end Verif.Spec

namespace Verif.Scan

open Verif.Step Verif.Spec

variable {K Q : Type}

/-- Positions of the patches at time `t`. -/
def patches (site : Site K Q) (o : Opts K) (t : K) : List (K × K) :=
  List.zipWith (fun ra dec => site.radec2azel ra dec t) o.ra0 o.dec0

/-- Elevation steps as configured: none, or a list of steps with a period in samples. -/
abbrev ElCfg (K : Type) := Option (Nat × List K)

def ElCfg.Valid : ElCfg K → Prop
  | none => True
  | some (n, A) => 0 < n ∧ A ≠ []

/-- The state of the steps at the beginning of a mission. -/
def Fresh : ElCfg K → Option (ElSteps K) → Prop
  | none, none => True
  | some (n, A), some s => s.steps = A ∧ s.dict.stepSize = n ∧ s.dict.remainder = 0 ∧
      s.gen = angleGen A
  | _, _ => False

/-- The elevation at sample `t` when the patch is at elevation `x`. -/
def ElCfg.At [Add K] : ElCfg K → Nat → K → K → Prop
  | none, _, x, y => y = x
  | some (n, A), t, x, y => ∃ a, scheduled n A t = some a ∧ y = x + a

/-- `w i` is the azimuth offset at sample `i` of a chunk. -/
def IsProfile [Field K] [LinearOrder K] [FloorRing K] (site : Site K Q) (o : Opts K)
    (w : Nat → K) : Prop :=
  (o.azThrow = 0 ∧ ∀ i, w i = 0) ∨
  (o.azThrow ≠ 0 ∧ o.azPrf = .triangle ∧ ∀ n, site.triangle o.fsamp
    (if o.scanSpeed = 0 then 1 / 10 ^ 12 else o.scanSpeed) o.azThrow n = (List.range n).map w) ∨
  (o.azThrow ≠ 0 ∧ o.azPrf = .sawtooth ∧ ∀ n, Signal.sawtoothProfile o.fsamp
    (if o.scanSpeed = 0 then 1 / 10 ^ 12 else o.scanSpeed) o.azThrow n = (List.range n).map w)

end Verif.Scan
