import Verif.Py

/-!
# Model: construction of a ScanStrategy / Instrument (numbers only)

Floats are rationals.
-/

namespace Verif.Init

/-- Attributes `fsamp`, `mlen`, `nsamp` (instrument.py:1271-1273). -/
structure Params where
  fsamp : Rat
  mlen : Rat
  nsamp : Int
  deriving DecidableEq, Repr

/-- The three attributes are stored at the end (instrument.py:1271-1273). -/
def mkParams (sampleRate duration : Rat) (numSamples : Int) : Params :=
  { fsamp := sampleRate, mlen := duration, nsamp := numSamples }

/-- The branches of `ScanStrategy.__init__` once the rate was checked
(instrument.py:1247-1273). -/
def resolveParams (duration sampleRate : Option Rat) (numSamples : Option Int) : PyM Params :=
  match duration with
  | none =>
    match numSamples with
    | none => .error .valueError
    | some n =>
      match sampleRate with
      | none => .error .valueError
      | some r => if r = 0 then .error .zeroDivisionError else .ok (mkParams r ((n:Rat) / r) n)
  | some d =>
    match sampleRate with
    | none =>
      match numSamples with
      | none => .error .valueError
      | some n => if d = 0 then .error .zeroDivisionError else .ok (mkParams ((n:Rat) / d) d n)
    | some r =>
      let nsamp := pyInt (d * r)
      match numSamples with
      | some n => if nsamp ≠ n then .error .valueError else .ok (mkParams r d nsamp)
      | none => .ok (mkParams r d nsamp)

/-- `ScanStrategy.__init__`, resolution of `duration`, `sample_rate`, `num_samples`
(instrument.py:1241-1273); `num_samples` is an integer as documented. -/
def initParams (duration sampleRate : Option Rat) (numSamples : Option Int) : PyM Params :=
  match sampleRate with
  | some r =>
    if r ≤ 0 then .error .valueError
    else resolveParams duration (if duration = some 0 then some 0 else some r) numSamples
  | none => resolveParams duration (if duration = some 0 then some 0 else none) numSamples

/-- The `ctime0` setter (instrument.py:1312-1317); `now` stands for `time.time()`. -/
def setCtime0 (now : Rat) : Option Rat → Rat
  | some v => if v ≠ 0 then v else now
  | none => now

/-- Values of the `location` argument; `other` is any string that is not predefined. -/
inductive Location | spole | atacama | space | other
  deriving DecidableEq, Repr

/-- Predefined coordinates (instrument.py:280-290): `none` when the attribute is not set at all,
`some none` when it is set to None. -/
def presetCoords : Location → Option (Option Rat) × Option (Option Rat)
  | .spole => (some (some (-899/10)), some (some (16915/100)))
  | .atacama => (some (some (-22958/1000)), some (some (-67786/1000)))
  | .space => (some none, some none)
  | .other => (none, none)

/-- `if lat: self.lat = lat` (instrument.py:292-295): replaces the attribute when truthy. -/
def override (attr : Option (Option Rat)) : Option Rat → Option (Option Rat)
  | some v => if v ≠ 0 then some (some v) else attr
  | none => attr

/-- `not x` for an attribute that is None or a number; AttributeError if it does not exist. -/
def falsy : Option (Option Rat) → PyM Bool
  | none => .error .attributeError
  | some none => .ok true
  | some (some v) => .ok (v = 0)

/-- `Instrument.__init__` (instrument.py:280-298): the `lat` and `lon` attributes. -/
def initLocation (location : Location) (lat lon : Option Rat) :
    PyM (Option (Option Rat) × Option (Option Rat)) :=
  let lat' := override (presetCoords location).1 lat
  let lon' := override (presetCoords location).2 lon
  if location ≠ .space then do
    -- `not self.lat or not self.lon`
    let a ← falsy lat'
    let b ← if a then .ok true else falsy lon'
    if b then .error .valueError else return (lat', lon')
  else .ok (lat', lon')

end Verif.Init
