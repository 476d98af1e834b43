import Verif.Base
/-!
# Model: `OTV0P2BASE_SensorSHT21.{h,cpp}`, `OTV0P2BASE_SensorTMP112.{h,cpp}`, `OTV0P2BASE_SensorQM1.{h,cpp}`,
`OTV0P2BASE_ADC.cpp`, `OTV0P2BASE_PowerManagement.{h,cpp}` (power reduction register, supply voltage)

All under `content/OTRadioLink/utility/`, AVR build. The noise fed to the entropy pool is left out throughout.
-/

namespace OTR

/-! ## Power reduction register -/

/-- The peripherals with a power bit in use (`PRR` bits `PRADC`, `PRSPI`, `PRTWI`, `PRUSART0`), PowerManagement.h 77-292. -/
inductive Periph where
  | adc | spi | twi | serial
deriving DecidableEq, Repr

/-- Which peripherals have power: the complement of `PRR`. (Environment: hardware and its data sheet, not code of /repo.) -/
abbrev Prr := Periph → Bool

/-- `powerUpADCIfDisabled` (OTV0P2BASE_PowerManagement.cpp 53-59), `t_powerUpSPIIfDisabled` (OTV0P2BASE_PowerManagement.h 120-149), `powerUpTWIIfDisabled` (OTV0P2BASE_PowerManagement.cpp 153-165),
`powerUpSerialIfDisabled` (OTV0P2BASE_PowerManagement.h 225-231): true if it had to be powered up. The other registers they set up are left out. -/
def powerUpIfDisabled (p : Periph) (r : Prr) : Bool × Prr :=
  if r p then (false, r) else (true, fun q => if q = p then true else r q)

/-- `powerDownADC` (OTV0P2BASE_PowerManagement.h 86-90), `t_powerDownSPI` (OTV0P2BASE_PowerManagement.h 153-175), `powerDownTWI` (OTV0P2BASE_PowerManagement.cpp 168-180), `powerDownSerial` (OTV0P2BASE_PowerManagement.cpp 133-145). -/
def powerDown (p : Periph) (r : Prr) : Prr := fun q => if q = p then false else r q

/-- Code that uses peripherals: some work that needs a peripheral, one thing after another, or a block under
`RAII_SPIPowerUpSPIIfDisabled` (h 188-196) / `RAII_EnableSerial` (h 258-269) or, for the others, under an explicit pair of
`powerUp...IfDisabled` and `powerDown...` as in ADC.cpp 107 and 139. -/
inductive PCode where
  | work (p : Periph)
  | seq (a b : PCode)
  | block (p : Periph) (body : PCode)

/-- Run it: the register afterwards and whether all work found its peripheral powered. (Vocabulary of histories and observations; it stands for the order in which an application makes calls and has no code of its own in /repo.) -/
def PCode.run : PCode → Prr → Prr × Bool
  | .work p, r => (r, r p)
  | .seq a b, r =>
    let x := a.run r
    let y := b.run x.1
    (y.1, x.2 && y.2)
  | .block p body, r =>
    let u := powerUpIfDisabled p r
    let x := body.run u.2
    (if u.1 then powerDown p x.1 else x.1, x.2)

/-! ## SHT21 -/

/-- `DEFAULT_INVALID_TEMP`, SensorTemperatureC16Base.h 46: the notation keeps the value visible to arithmetic. -/
notation "invalidTemp" => (-2048 : Int)

/-- The chip as its data sheet has it: the user register, and a command byte with 0xe6 writing it and 0xe7 reading it. -/
structure Sht21Chip where
  userReg : Byte
deriving DecidableEq, Repr

/-- The chip receives a command and one data byte: only 0xe6 (write user register) takes the byte. -/
def Sht21Chip.write (c : Sht21Chip) (cmd d : Byte) : Sht21Chip := if cmd = 0xe6 then { c with userReg := d } else c

/-- The two SHT21 sensors with what they share. -/
structure Sht21 where
  chip : Sht21Chip
  /-- `SHT21_initialised` -/
  inited : Bool
  prr : Prr
  /-- `value` of the temperature sensor -/
  temp : Int
  /-- `value` and `highWithHyst` of the humidity sensor -/
  rh : Byte
  high : Bool

/-- `SHT21_init`, SensorSHT21.cpp 65-93: `ok` says whether the byte asked for arrives before the end of the cycle. -/
def Sht21.init (ok : Bool) (s : Sht21) : Sht21 :=
  if ok then { s with chip := s.chip.write 0xe7 ((s.chip.userReg &&& 0x38) ||| 3), inited := true } else s

/-- `SHT21_init` of the EFR32 build, SensorSHT21.cpp 97-112. -/
def Sht21.initEFR32 (s : Sht21) : Sht21 :=
  { s with chip := s.chip.write (0xe7 &&& 0xfe) ((s.chip.userReg &&& 0x38) ||| 3), inited := true }

/-- The conversion in SensorSHT21.cpp 156-166: the 14-bit reading with the two status bits cleared. -/
def sht21Raw (b1 b2 : Byte) : Nat := (b1.toNat <<< 8) ||| (b2 &&& 0xfc).toNat

/-- Temperature in 1/16 C from the raw reading — OTV0P2BASE_SensorSHT21.cpp 156-166. -/
def sht21C16 (raw : Nat) : Int := -750 + Int.ofNat ((5623 * raw) >>> 17)

/-- SensorSHT21.cpp 286. -/
def sht21RH (raw : Nat) : Byte := UInt8.ofNat ((125 * raw) >>> 16) - 6

/-- `RoomTemperatureC16_SHT21::read`, SensorSHT21.cpp 127-176: `initOk` is for the initialisation if it is due, `data` the first two
of the three bytes asked for, none if they do not arrive before the end of the cycle. -/
def Sht21.readTemp (initOk : Bool) (data : Option (Byte × Byte)) (s : Sht21) : Int × Sht21 :=
  let u := powerUpIfDisabled .twi s.prr
  let s := { s with prr := u.2 }
  let s := if s.inited then s else s.init initOk
  match data with
  | none => (invalidTemp, s)
  | some (b1, b2) =>
    let s := { s with prr := if u.1 then powerDown .twi s.prr else s.prr }
    let c16 := sht21C16 (sht21Raw b1 b2)
    (c16, { s with temp := c16 })

/-- `HumiditySensorSHT21::read`, SensorSHT21.cpp 246-296 (SensorSHT21.h 42-46 for the bounds). -/
def Sht21.readRH (initOk : Bool) (data : Option (Byte × Byte)) (s : Sht21) : Byte × Sht21 :=
  let u := powerUpIfDisabled .twi s.prr
  let s := { s with prr := u.2 }
  let s := if s.inited then s else s.init initOk
  match data with
  | none => (0xff, s)
  | some (b1, b2) =>
    let s := { s with prr := if u.1 then powerDown .twi s.prr else s.prr }
    let r := sht21RH (sht21Raw b1 b2)
    (r, { s with rh := r, high := if r.toNat > 70 + 5 then true else if r.toNat < 70 - 5 then false else s.high })

/-- `HumiditySensorBase::isRHHigh`, SensorSHT21.h 74. -/
def Sht21.isRHHigh (s : Sht21) : Bool := decide (s.rh.toNat > 70 + 5)

/-- `HumiditySensorBase::isValid`, SensorSHT21.h 66. -/
def rhValid (v : Byte) : Bool := decide (v.toNat ≤ 100)

/-! ## TMP112 -/

/-- How the bus treats one `read()`: whether the three guarded `endTransmission()`s fail, what each of the polls of the control
register returns (none: not one byte), the two bytes of the temperature register (none: not two), whether the last
`endTransmission()` fails — what OTV0P2BASE_SensorTMP112.cpp 59-132 can meet on the bus. (Environment: hardware and its data sheet, not code of /repo.) -/
structure Tmp112Bus where
  start : Bool
  sel : Bool
  poll : Nat → Option Byte
  selT : Bool
  data : Option (Byte × Byte)
  fin : Bool

/-- The poll loop, SensorTMP112.cpp 88-95, from the value `i` has after the decrement (`i = 0` ends the loop; the test `i <= 0` inside
it is kept): false if it returns the error, with `k` the polls so far. -/
def tmp112Poll (bus : Tmp112Bus) : Nat → Nat → Bool
  | 0, _ => true
  | i + 1, k =>
    if i + 1 = 0 then false
    else match bus.poll k with
      | none => false
      | some b => if b &&& 0x80 != 0 then true else tmp112Poll bus i (k + 1)

/-- `t16`, SensorTMP112.cpp 114, as a 16-bit int. -/
def tmp112T16 (b1 b2 : Byte) : Int :=
  let u := (b1.toNat <<< 4) ||| (b2 >>> 4).toNat ||| (if b1 &&& 0x80 != 0 then 0xf000 else 0)
  if u < 32768 then Int.ofNat u else Int.ofNat u - 65536

/-- The sensor: `value` and the power register — OTV0P2BASE_SensorTMP112.h 36-45. -/
structure Tmp112 where
  value : Int
  prr : Prr

/-- `RoomTemperatureC16_TMP112::read`, SensorTMP112.cpp 59-132. -/
def Tmp112.read (bus : Tmp112Bus) (s : Tmp112) : Int × Tmp112 :=
  let u := powerUpIfDisabled .twi s.prr
  let s := { s with prr := u.2 }
  if bus.start then (invalidTemp, s)
  else if bus.sel then (invalidTemp, s)
  else if !(tmp112Poll bus 7 0) then (invalidTemp, s)
  else if bus.selT then (invalidTemp, s)
  else match bus.data with
    | none => (invalidTemp, s)
    | some (b1, b2) =>
      if bus.fin then (invalidTemp, s)
      else
        let s := { s with prr := if u.1 then powerDown .twi s.prr else s.prr }
        let t16 := tmp112T16 b1 b2
        (t16, { s with value := t16 })

/-- `isAvailable`, SensorTMP112.cpp 140-145. -/
def Tmp112.isAvailable (s : Tmp112) : Bool := decide (invalidTemp ≠ s.value)

/-! ## ADC -/

/-- The sampling loop of `_analogueNoiseReducedReadM`, ADC.cpp 122-135: what is left of `samples`, the reading before, the value
to return so far, the conversions still to come. `late k` says that the cycle is over before the conversion `k`, `adc k` is its
result (10 bits). Returns the value and the number of conversions. -/
def adcLoop (late : Nat → Bool) (adc : Nat → Nat) : Nat → Nat → Nat → Nat → Nat × Nat
  | 0, _, cur, k => (cur, k)
  | n + 1, old, cur, k =>
    if late k then (cur, k)
    else if adc k = old then (adc k, k + 1)
    else adcLoop late adc n (adc k) (adc k) (k + 1)

/-- `_analogueNoiseReducedReadM`, ADC.cpp 105-141: the value, the number of conversions, the power register. -/
def adcRead (late : Nat → Bool) (adc : Nat → Nat) (samples : Nat) (r : Prr) : Nat × Nat × Prr :=
  let u := powerUpIfDisabled .adc r
  let x := adcLoop late adc samples 0xffff 0x400 0
  (x.1, x.2, if u.1 then powerDown .adc u.2 else u.2)

/-! ## Supply voltage -/

/-- `SupplyVoltageCentiVolts`, PowerManagement.h 334-385 with the base 302-327, and the errors reported. -/
structure Supply where
  rawInv : Nat
  value : Nat
  isLow : Bool
  isVeryLow : Bool
deriving DecidableEq, Repr

/-- The initial state, PowerManagement.h 307-310, 355-360. -/
def Supply.init : Supply := ⟨65535, 0, true, true⟩

/-- PowerManagement.cpp 321, 16-bit unsigned; `raw` 0 divides by zero and is left out (none). -/
def supplyConv (raw : Nat) : Nat := ((((1023 <<< 6) % 65536 / raw) * 55) % 65536) >>> 5

/-- What `read()` reports to `ErrorReporter`: nothing, low, very low — OTV0P2BASE_PowerManagement.cpp 277-344. -/
inductive BattReport where
  | none | low | veryLow
deriving DecidableEq, Repr

/-- `SupplyVoltageCentiVolts::read`, PowerManagement.cpp 277-344. -/
def Supply.read (raw : Nat) (s : Supply) : Nat × BattReport × Supply :=
  if raw ≤ s.rawInv ∧ s.rawInv - raw ≤ 6 then (s.value, .none, s)
  else
    let result := supplyConv raw
    let vl := decide (result ≤ 210)
    let l := vl || decide (result ≤ 245)
    (result, if vl then .veryLow else if l then .low else .none, ⟨raw, result, l, vl⟩)

/-- `isMains`, PowerManagement.h 384. -/
def Supply.isMains (s : Supply) : Bool := decide (s.value ≥ 300)

/-! ## QM1 voice detector -/

/-- `VoiceDetectionQM1`, SensorQM1.h 53-109: `value`, `count`, `isDetected`, and how often the callback ran; `cb` is false while
no callback is set (a null pointer). -/
structure Qm1 where
  value : Byte
  count : Byte
  det : Bool
  calls : Nat
  cb : Bool
deriving DecidableEq, Repr

/-- `handleInterruptSimple`, SensorQM1.cpp 116-134: calling the null pointer is undefined. -/
def Qm1.irq (s : Qm1) : Res Qm1 :=
  if s.count.toNat < 255 then
    if s.count.toNat + 1 ≥ 4 then
      if s.cb then .ok { s with count := s.count + 1, det := true, calls := s.calls + 1 } else .ub
    else .ok { s with count := s.count + 1 }
  else .ok s

/-- `read`, SensorQM1.cpp 97-109, at a minute of the day. -/
def Qm1.read (minute : Nat) (s : Qm1) : Qm1 :=
  let s := { s with value := s.count, det := decide (s.count.toNat ≥ 4) }
  if minute &&& 3 = 0 then { s with count := 0 } else s

end OTR
