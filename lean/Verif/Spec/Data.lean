import Verif.Model.Data

/-!
# Specification: what was scanned when

`history` is the sequence of subchunks of a pass, chunk by chunk, each with the boresight angle and
the HWP state it was scanned with.  It does not mention detectors or stored data.
-/

namespace Verif.Data

open Verif.Chunks

variable {A H K : Type}

/-- One observed subchunk: start/stop, boresight angle, HWP state. -/
abbrev Obs (A H : Type) := Chunk × A × H

/-- The subchunks of one chunk. -/
def subHistory (env : Env A H K) : Rot A → H → List Chunk → PyM (List (Obs A H) × Rot A × H)
  | r, h, [] => .ok ([], r, h)
  | r, h, s :: ss => do
    let r ← rotStep r s
    let h ← env.rotateHwp h s
    let (xs, r', h') ← subHistory env r h ss
    return ((s, r.angle, h) :: xs, r', h')

/-- The subchunks of all chunks. -/
def history (env : Env A H K) : Rot A → H → List Chunk → PyM (List (List (Obs A H)) × Rot A × H)
  | r, h, [] => .ok ([], r, h)
  | r, h, c :: cs => do
    let (subs, r) ← subpartChunk r c
    let (xs, r, h) ← subHistory env r h subs
    let (xss, r, h) ← history env r h cs
    return (xs :: xss, r, h)

/-- Number of samples of an observed subchunk. -/
def Obs.size (x : Obs A H) : Nat := (x.1.stop - x.1.start).toNat

/-- Broadcasting of one value to `n` samples. -/
def expand (n : Nat) (v : List K) : List K :=
  if v.length = n then v
  else match v with
    | [x] => List.replicate n x
    | v => v

/-- The timeline of detector `d` of a pair for a subchunk: what `scan` found, plus the fraction
`ctalk` of what it found for the partner, if that is alive. -/
def signal [Add K] [Mul K] (env : Env A H K) (ctalk : K) (d : Det) (partner : Option Det)
    (x : Obs A H) : List K :=
  match live partner with
  | none => (env.ret x.2.1 x.2.2 d x.1).tod
  | some b => List.zipWith (fun u v => u + ctalk * v) (env.ret x.2.1 x.2.2 d x.1).tod
      (env.ret x.2.1 x.2.2 b x.1).tod

end Verif.Data
