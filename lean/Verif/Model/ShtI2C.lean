import Verif.Model.I2C
import Verif.Model.Sensors
/-!
# The SHT21 sensors of the EFR32 build, over the I2C driver

`U/OTV0P2BASE_SensorSHT21.cpp` 97-112, 185-233, 303-349. (`powerUpTWIIfDisabled` does nothing there: `U/OTV0P2BASE_PowerManagement.cpp` 183-185.)
-/

namespace OTR

/-- The two sensors: `SHT21_initialised`, the temperature's `value`, the humidity's `value` and `highWithHyst`, and the bus. (Fields of OTV0P2BASE_SensorSHT21.cpp 59, OTV0P2BASE_SensorSHT21.h 58-74.) -/
structure ShtE where
  inited : Bool
  temp : Int
  rh : Byte
  high : Bool
  hw : I2CHw

/-- `SHT21_init` — OTV0P2BASE_SensorSHT21.cpp 97-112; `bus i`: what happens on the bus during the `i`-th transfer. The results of the transfers are not looked at. -/
def ShtE.init (s : I2CSlave) (bus : Nat → Nat → I2CTick) (e : ShtE) : ShtE :=
  let o := i2cRead s (bus 0) 0x40 (some [0xe7]) (some [0]) e.hw                 -- 101-103
  let cur := o.2.1[0]?.getD 0                                                   -- 104
  let w := i2cWrite s (bus 1) 0x40 (some [0xe7 &&& 0xfe, (cur &&& 0x38) ||| 3]) o.2.2   -- 107-109
  { e with inited := true, hw := w.2 }

/-- The common part of the two reads: the command, two bytes into a zeroed buffer — OTV0P2BASE_SensorSHT21.cpp 190-199, 308-317; 217, 335. -/
def ShtE.raw (cmd : Byte) (s : I2CSlave) (bus : Nat → Nat → I2CTick) (e : ShtE) : Nat × ShtE :=
  let e := if e.inited then e else e.init s bus
  let o := i2cRead s (bus 2) 0x40 (some [cmd]) (some [0, 0]) e.hw
  (sht21Raw (o.2.1[0]?.getD 0) (o.2.1[1]?.getD 0), { e with hw := o.2.2 })

/-- `RoomTemperatureC16_SHT21::read` — OTV0P2BASE_SensorSHT21.cpp 185-233. -/
def ShtE.readTemp (s : I2CSlave) (bus : Nat → Nat → I2CTick) (e : ShtE) : Int × ShtE :=
  let x := e.raw 0xe3 s bus
  (sht21C16 x.1, { x.2 with temp := sht21C16 x.1 })

/-- `HumiditySensorSHT21::read` — OTV0P2BASE_SensorSHT21.cpp 303-349. -/
def ShtE.readRH (s : I2CSlave) (bus : Nat → Nat → I2CTick) (e : ShtE) : Byte × ShtE :=
  let x := e.raw 0xe5 s bus
  let r := sht21RH x.1
  (r, { x.2 with rh := r, high := if r.toNat > 70 + 5 then true else if r.toNat < 70 - 5 then false else x.2.high })

end OTR
