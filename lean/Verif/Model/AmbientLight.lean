/-!
# Model: ambient light sensor and light-based occupancy detection

`content/OTRadioLink/utility/OTV0P2BASE_SensorAmbientLight.h` and
`OTV0P2BASE_SensorAmbientLightOccupancy.{h,cpp}` (with the default tuning of `_Tuneable.h`).

All `uint8_t` values are natural numbers; no expression below leaves the `uint8_t` range for inputs of at most 255
(where a subtraction occurs the guard makes it non-negative), so no truncation is needed. The hardware part (ADC read)
is the argument of `read`.
-/

namespace OTR

/-- SENSORAMBIENTLIGHTOCCUPANCY_EPSILON, Tuneable.h 26-28, and SensorAmbientLightAdaptiveTBase::epsilon, h 139. -/
notation "alEps" => 4
/-- SENSORAMBIENTLIGHTOCCUPANCY_steadyTicksMinWithLightOn and ..MinBeforeLightOn, Tuneable.h 41-43, 55-57. -/
notation "alSteadyOn" => 3
/-- SENSORAMBIENTLIGHTOCCUPANCY_steadyTicksMinForArtificialLight, Tuneable.h 46-48. -/
notation "alSteadyArt" => 30
/-- DEFAULT_LIGHT_THRESHOLD, SensorAmbientLight.h 86. -/
notation "alDefLight" => 16

/-- `occType`, SensorAmbientLightOccupancy.h 79-85 (OCC_STRONG is never returned). -/
inductive OccSig where
  | none
  | weak
  | probable
deriving Repr, DecidableEq

/-- Fields of SensorAmbientLightOccupancyDetectorSimple, SensorAmbientLightOccupancy.h 147-168. -/
structure LightDet where
  prev : Nat := 254
  steady : Nat := 0
  mean : Nat := 255
  mn : Nat := 255
  mx : Nat := 255
  pending : Bool := false
deriving Repr, DecidableEq

/-- `steadyTicks` increment with saturation, SensorAmbientLightOccupancy.cpp 74-75 and 103. -/
def satTick (n : Nat) : Nat := if n < 255 then n + 1 else n

/-- `minToUse`, OTV0P2BASE_SensorAmbientLightOccupancy.cpp 91. -/
def LightDet.minUse (d : LightDet) : Nat := if d.mn = 255 then alEps else d.mn
/-- `maxToUse`, OTV0P2BASE_SensorAmbientLightOccupancy.cpp 93. -/
def LightDet.maxUse (d : LightDet) : Nat := if d.mx = 255 then 255 - alEps else d.mx

/-- `minRise`, OTV0P2BASE_SensorAmbientLightOccupancy.cpp 133-141. -/
def LightDet.minRise (d : LightDet) : Nat :=
  if d.mean ≠ 255 ∧ d.mean > d.minUse then (d.mean - d.minUse) / 2 else alDefLight / 2

/-- Is `lvl` a steady habitual lighting level: the innermost tests of the weak branch, OTV0P2BASE_SensorAmbientLightOccupancy.cpp 178-229. `uint8_t` arithmetic
on values ordered `minUse < mean < maxUse`. -/
def LightDet.habitual (d : LightDet) (lvl : Nat) : Bool :=
  if d.minUse < d.mean ∧ d.mean < d.maxUse then
    let range := d.maxUse - d.minUse
    if range > 2 * alEps then
      let marginW := range / 2
      let margin := marginW / 4
      let thrL := d.minUse + margin
      let thrH := d.maxUse - marginW
      let maxDist := (min (d.mean - d.minUse) (d.maxUse - d.mean)) / 2
      decide (lvl > thrL) && decide (lvl < thrH) &&
        decide ((if lvl > d.mean then lvl - d.mean else d.mean - lvl) ≤ maxDist)
    else false
  else false

/-- SensorAmbientLightOccupancyDetectorSimple::update, SensorAmbientLightOccupancy.cpp 48-236. -/
def LightDet.update (d : LightDet) (lvl : Nat) : LightDet × OccSig :=
  if lvl < d.prev then
    if d.prev - lvl ≥ alEps then ({ d with steady := 0, pending := false, prev := lvl }, .none)
    else ({ d with steady := satTick d.steady, prev := lvl }, .none)
  else
    let rise := lvl - d.prev
    let old := d.steady
    let st := if rise < alEps then satTick d.steady else 0
    if d.pending = true then
      if st ≥ alSteadyOn then ({ d with steady := st, pending := false, prev := lvl }, .probable)
      else ({ d with steady := st, prev := lvl }, .none)
    else if ¬ rise < alEps ∧ old ≥ alSteadyOn then
      if rise ≥ d.minRise then
        if d.prev > d.minUse ∨ old < 255 then
          ({ d with steady := st, pending := false, prev := lvl }, .probable)
        else ({ d with steady := st, pending := true, prev := lvl }, .weak)
      else ({ d with steady := st, prev := lvl }, .none)
    else if st ≥ alSteadyArt ∧ d.habitual lvl = true then
      ({ d with steady := st, prev := lvl }, .weak)
    else ({ d with steady := st, prev := lvl }, .none)

/-- SensorAmbientLightOccupancyDetectorSimple::setTypMinMax, SensorAmbientLightOccupancy.h 197-206. -/
def LightDet.setTyp (d : LightDet) (mean mn mx : Nat) : LightDet := { d with mean := mean, mn := mn, mx := mx }

/-- Fields of SensorAmbientLightAdaptiveTBase, SensorAmbientLight.h 56-75 and 144-170; `cb` is whether an occupancy
callback is installed. -/
structure Light where
  value : Nat := 0
  lit : Bool := false
  narrow : Bool := false
  dark : Nat := 0
  lightThr : Nat := alDefLight
  darkThr : Nat := alDefLight - alDefLight / 4
  det : LightDet := {}
  cb : Bool := false
deriving Repr, DecidableEq

/-- recomputeThresholds (called with the new rolling minimum and maximum), SensorAmbientLight.h 177-244; the rolling
values are used nowhere else and so are arguments. -/
def Light.recompute (s : Light) (mean mn mx : Nat) (sens : Bool) : Light :=
  if mn = 255 ∨ mx = 255 then
    { s with lightThr := alDefLight, darkThr := alDefLight - alDefLight / 4, narrow := false }
  else if mn ≥ 254 - alEps ∨ mx ≤ mn ∨ mx - mn ≤ alEps then
    { s with lightThr := alDefLight, darkThr := alDefLight - alDefLight / 4, dark := 0, narrow := true }
  else
    let isLow := decide (mean < mx / 2)
    let up := max ((mx - mn) / (if sens || isLow then 16 else 8)) alEps
    let dt := min 254 (mn + max 1 (up / 2))
    { s with darkThr := dt, lightThr := min (mx - 1) (dt + up), narrow := false }

/-- setTypMinMax, SensorAmbientLight.h 279-292. -/
def Light.setTyp (s : Light) (mean mn mx : Nat) (sens : Bool) : Light :=
  let s := s.recompute mean mn mx sens
  { s with det := s.det.setTyp mean mn mx }

/-- read(), SensorAmbientLight.h 296-330 after the value has been stored (h 402-412). The second component is the
occupancy callback made, with its argument, if any. -/
def Light.read (s0 : Light) (v : Nat) : Light × Option Bool :=
  let s := { s0 with value := v }
  let s := if v > s.lightThr then { s with lit := true, dark := 0 }
    else if v ≤ s.darkThr then
      { s with lit := false, dark := if s.narrow = false ∧ s.dark < 65535 then s.dark + 1 else s.dark }
    else s
  if s.cb = true then
    let r := s.det.update v
    ({ s with det := r.1 },
      if r.2 = .probable then some true
      else if v > s.lightThr ∧ r.2 = .weak then some false else none)
  else (s, none)

/-- isRoomLit(), isRoomDark(), isRoomVeryDark(), getDarkMinutes(): SensorAmbientLight.h 104-125. -/
def Light.isRoomLit (s : Light) : Bool := s.lit && !s.narrow
/-- `isRoomDark()` — OTV0P2BASE_SensorAmbientLight.h 111. -/
def Light.isRoomDark (s : Light) : Bool := !s.lit && !s.narrow
/-- `isRoomVeryDark()` — OTV0P2BASE_SensorAmbientLight.h 118. -/
def Light.isRoomVeryDark (s : Light) : Bool := decide (s.value ≤ 4) && !s.narrow

/-- The operations an application may perform on the sensor object, in any order. (Vocabulary of histories and observations; it stands for the order in which an application makes calls and has no code of its own in /repo.) -/
inductive LightOp where
  | read (v : Nat)
  | setTyp (mean mn mx : Nat) (sens : Bool)
  | setCb (b : Bool)
deriving Repr, DecidableEq

/-- One operation (setOccCallbackOpt is h 267). -/
def Light.op (s : Light) : LightOp → Light × Option Bool
  | .read v => s.read v
  | .setTyp mean mn mx sens => (s.setTyp mean mn mx sens, none)
  | .setCb b => ({ s with cb := b }, none)

/-- The state after a history of operations from power-up (or `reset()`, h 82 and 254), newest operation first. -/
def Light.after : List LightOp → Light
  | [] => {}
  | o :: h => ((Light.after h).op o).1

end OTR
