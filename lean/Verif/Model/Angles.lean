import Verif.Py
import Verif.Model.Hwp
import Mathlib.Analysis.SpecialFunctions.Trigonometric.Arctan
import Mathlib.Analysis.SpecialFunctions.Trigonometric.Inverse
import Mathlib.Analysis.SpecialFunctions.Complex.Arg

/-!
# Model: angle conversions (tools.py) and the L2 scan (scanning.py)

Arrays are lists of real numbers; arithmetic is exact.
-/

namespace Verif.Angles

open Real

/-- One element of `tools.radec2colatlong` (tools.py:472-497); the function is elementwise.
Returns the new contents of `(ra, dec)`. -/
noncomputable def radec2colatlong1 (ra dec : ℝ) : ℝ × ℝ :=
  let ra := ra * (π / 180)
  let ra := Hwp.npMod ra (2 * π)
  let dec := dec * (π / 180)
  let dec := dec * (-1)
  let dec := dec + π / 2
  let dec := Hwp.npMod dec π
  (ra, dec)

/-- `tools.radec2colatlong` on arrays. -/
noncomputable def radec2colatlong (ra dec : List ℝ) : List ℝ × List ℝ :=
  (ra.map fun r => (radec2colatlong1 r 0).1, dec.map fun d => (radec2colatlong1 0 d).2)

/-- `tools.radec2ind_hp` (tools.py:499-522): the pixels, and the new contents of the arguments.
`ang2pix nside theta phi` is healpy's for one direction; the arrays have the same length. -/
noncomputable def radec2indHp (ang2pix : Nat → ℝ → ℝ → Int) (ra dec : List ℝ) (nside : Nat) :
    List Int × List ℝ × List ℝ :=
  let r := radec2colatlong ra dec
  (List.zipWith (fun theta phi => ang2pix nside theta phi) r.2 r.1, r.1, r.2)

/-- `int(x)` of a float: truncation towards zero. -/
noncomputable def truncR (x : ℝ) : ℤ := if 0 ≤ x then ⌊x⌋ else ⌈x⌉

/-- `scanning.wraparound_2pi` (scanning.py:45-64).  For one element `int(x/(2.*pi))`; for more
elements the global name `int_` is read, which does not exist (NameError); for none `n` is never
assigned (UnboundLocalError). -/
noncomputable def wraparound2pi (x : List ℝ) : PyM (List ℝ) :=
  match x with
  | [] => .error .nameError
  | [x] =>
    let n := truncR (x / (2 * π))
    .ok [x - n * 2 * π]
  | _ :: _ :: _ => .error .nameError

/-- `scanning.wraparound_npi` (scanning.py:66-90).  `int` of an array with more than one element
raises TypeError; a zero divisor makes `int` fail on `nan`/`inf`. -/
noncomputable def wraparoundNpi (x : List ℝ) (n : ℝ) : PyM (List ℝ) :=
  match x with
  | [] => .error .nameError
  | [x] =>
    if n = 0 then .error .valueError
    else
      let nWrap := truncR (x / (n * π))
      let nWrap := if x < 0 then nWrap - 1 else nWrap
      .ok [x - nWrap * n * π]
  | _ :: _ :: _ => .error .typeError

/-- `scanning.convert_Julian2Dublin` (scanning.py:21-43). -/
noncomputable def convertJulian2Dublin (jd : ℝ) : ℝ := jd - 2415020

/-- `scanning.ctime2DJD` (scanning.py:302-321). -/
noncomputable def ctime2DJD (ctime : ℝ) : ℝ := ctime / 86400 + (2440587.5 - 2415020)

/-- `scanning.sun_position_quick` (scanning.py:92-110); returns `(phi, zeros)`. -/
noncomputable def sunPositionQuick (djd : List ℝ) : PyM (List ℝ × List ℝ) := do
  let freq : ℝ := 1 / (365.25 * 24 * 60 * 60)
  let phi ← wraparound2pi (djd.map fun d => 2 * π * freq * d * (24 * 60 * 60))
  return (phi, List.replicate phi.length 0)

/-- A Cartesian vector. -/
structure V3 where
  x : ℝ
  y : ℝ
  z : ℝ

/-- `scanning.matrix2x2_multi_xy` (scanning.py:112-132) applied to the components `x, y`. -/
noncomputable def rotXY (phi : ℝ) (v : V3) : V3 :=
  ⟨cos phi * v.x - sin phi * v.y, sin phi * v.x + cos phi * v.y, v.z⟩

/-- `scanning.matrix2x2_multi_xz` (scanning.py:134-154) applied to the components `x, z`. -/
noncomputable def rotXZ (theta : ℝ) (v : V3) : V3 :=
  ⟨cos theta * v.x + sin theta * v.z, v.y, -sin theta * v.x + cos theta * v.z⟩

/-- `scanning.cosangle` (scanning.py:156-164). -/
noncomputable def cosangle (a b : V3) : ℝ :=
  arccos ((a.x * b.x + a.y * b.y + a.z * b.z) / √(a.x * a.x + a.y * a.y + a.z * a.z)
    / √(b.x * b.x + b.y * b.y + b.z * b.z))

/-- `np.arctan(np.sqrt(x*x+y*y)/z)`: for `z = 0` the quotient is `inf` and the result `pi/2`
(`nan`, here `none`, for the null vector). -/
noncomputable def arctanRZ (v : V3) : Option ℝ :=
  if v.z = 0 then if v.x * v.x + v.y * v.y = 0 then none else some (π / 2)
  else some (arctan (√(v.x * v.x + v.y * v.y) / v.z))

/-- `np.arctan2(y, x)`. -/
noncomputable def arctan2 (y x : ℝ) : ℝ := Complex.arg ⟨x, y⟩

/-- The polar angles of an array of vectors; `int` of a `nan` raises ValueError. -/
noncomputable def thetas (offset : ℝ) (v : List V3) : PyM (List ℝ) :=
  match v.mapM arctanRZ with
  | some l => .ok (l.map (· + offset))
  | none => if v.length = 1 then .error .valueError else .error .typeError

/-- `scanning.deriv_theta` (scanning.py:166-179). -/
noncomputable def derivTheta (v : List V3) : PyM (List V3) := do
  let theta ← thetas (5 * π) v
  let theta ← wraparoundNpi theta 1
  let phi ← wraparoundNpi (v.map fun u => arctan2 u.y u.x + 10 * π) 2
  return List.zipWith (fun t p => ⟨cos t * cos p, cos t * sin p, -sin t⟩) theta phi

/-- `scanning.deriv_phi` (scanning.py:181-193); the polar angle is computed and discarded. -/
noncomputable def derivPhi (v : List V3) : PyM (List V3) := do
  let theta ← thetas 0 v
  let _ ← wraparoundNpi theta 1
  let phi ← wraparoundNpi (v.map fun u => arctan2 u.y u.x + 10 * π) 2
  return phi.map fun p => ⟨-sin p, cos p, p * 0⟩

/-- Parameters of the L2 scan, in radians and radians per second. -/
structure L2Par where
  thetaAntisun : ℝ
  thetaBoresight : ℝ
  omegaPre : ℝ
  omegaSpin : ℝ

/-- The "anti-Sun" vector (scanning.py:234-237). -/
noncomputable def sunVec (thetaAsp phiAsp : ℝ) : V3 :=
  ⟨sin thetaAsp * cos phiAsp, sin thetaAsp * sin phiAsp, cos thetaAsp⟩

/-- `rel_phi` (scanning.py:253). -/
noncomputable def relPhi (v : V3) : ℝ := if v.y ≥ 0 then arccos v.x else -arccos v.x + 2 * π

/-- The first four rotations (scanning.py:258-261). -/
noncomputable def preVec (p : L2Par) (thetaAsp phiAsp time : ℝ) : V3 :=
  let v := sunVec thetaAsp phiAsp
  let omegaSpinT := p.omegaSpin * time + π
  let rel := relPhi v
  let v := rotXY (-rel) v
  let v := rotXZ (-π / 2) v
  let v := rotXZ p.thetaBoresight v
  rotXY omegaSpinT v

/-- The last four rotations (scanning.py:269-272, and again 281-284 for the scan direction). -/
noncomputable def postRot (p : L2Par) (thetaAsp phiAsp time : ℝ) (v : V3) : V3 :=
  let rel := relPhi (sunVec thetaAsp phiAsp)
  let omegaPreT := p.omegaPre * time + 3 / 2 * π
  let v := rotXZ p.thetaAntisun v
  let v := rotXY omegaPreT v
  let v := rotXZ (π / 2) v
  rotXY rel v

/-- The two `np.where` sign assignments for psi (scanning.py:292-297). -/
noncomputable def psiSign (psiTheta psiPhi : ℝ) : ℝ :=
  let psiTheta := if (psiTheta > 0 ∧ psiTheta ≤ 1 / 2 * π) ∧ (psiPhi > 1 / 2 * π ∧ psiPhi ≤ π)
    then -psiTheta else psiTheta
  if (psiTheta > 1 / 2 * π ∧ psiTheta ≤ π) ∧ (psiPhi > 1 / 2 * π ∧ psiPhi ≤ π)
    then -psiTheta else psiTheta

/-- `scanning.LB_rotmatrix_multi2` (scanning.py:195-299) for equally long arrays of Sun angles and
times (given as triples).  Returns the rows `(x, y, z)` and `psi` of `out`. -/
noncomputable def lbRotmatrix (p : L2Par) (obs : List (ℝ × ℝ × ℝ)) : PyM (List (V3 × ℝ)) := do
  let pre := obs.map fun (th, ph, t) => preVec p th ph t
  let out := obs.map fun (th, ph, t) => postRot p th ph t (preVec p th ph t)
  let dir ← derivPhi pre
  let dir := List.zipWith (fun (th, ph, t) d => postRot p th ph t d) obs dir
  let et ← derivTheta out
  let psiTheta := List.zipWith cosangle et dir
  let ep ← derivPhi out
  let psiPhi := List.zipWith cosangle ep dir
  return List.zip out (List.zipWith psiSign psiTheta psiPhi)

/-- `scanning.ctime2bore` (scanning.py:323-389) up to the call of qpoint's `radecpa2quat`: returns
the arguments `(ra, dec, psi)` in degrees, one entry per time.  Angles are given in degrees, the
period in minutes and the rate in rpm. -/
noncomputable def ctime2bore (ctime : List ℝ) (thetaAntisun thetaBoresight periodAntisun
    rateBoresight : ℝ) : PyM (List (ℝ × ℝ × ℝ)) := do
  let rad := fun (x : ℝ) => x * (π / 180)
  let deg := fun (x : ℝ) => x * (180 / π)
  if periodAntisun = 0 then .error .zeroDivisionError
  let freqAntisun := 1 / (periodAntisun * 60)
  let freqBoresight := rateBoresight / 60
  let djd := ctime.map fun t => convertJulian2Dublin (ctime2DJD t)
  let (phiAsp, thetaAsp) ← sunPositionQuick djd
  let thetaAsp := thetaAsp.map fun t => π / 2 - t
  let p : L2Par := ⟨rad thetaAntisun, rad thetaBoresight, 2 * π * freqAntisun,
    2 * π * freqBoresight⟩
  let out ← lbRotmatrix p (List.zip thetaAsp (List.zip phiAsp ctime))
  let theta := out.map fun (v, _) => arctan2 (√(v.x ^ 2 + v.y ^ 2)) v.z
  let phi := out.map fun (v, _) => arctan2 v.y v.x
  let theta ← wraparoundNpi theta 1
  let phi ← wraparoundNpi phi 2
  let psi ← wraparound2pi (out.map Prod.snd)
  let ra := phi.map fun x => deg x - 180
  let dec := theta.map fun x => deg x - 90
  return List.zip ra (List.zip dec (psi.map deg))

/-- The boresight computation of `ScanStrategy.l2_scan` (instrument.py:2441-2524) without MPI, up to
qpoint: of all arguments only the time stamps are passed on, `ctime2bore` runs with its defaults. -/
noncomputable def l2Scan (_thetaAntisun _thetaBoresight _freqAntisun _freqBoresight _sampleRate
    _jitterAmp : ℝ) (ctime : List ℝ) : PyM (List (ℝ × ℝ × ℝ)) :=
  ctime2bore ctime 45 50 192.348 0.05

end Verif.Angles
