import Verif.Model.EEPROM
import Verif.Model.Valve
/-!
# Temperature settings — `U/OTRadValve_Parameters.h`, `U/OTRadValve_TempControl.h`, `U/OTV0P2BASE_SensorTemperaturePot.h`

`uint8_t` quantities are `Nat` with `% 256` where the code can wrap.
-/

namespace OTR

/-- `SAFE_ROOM_TEMPERATURE` — Parameters.h 59. -/
notation "safeRoomC" => 18

/-- Constants of a `ValveControlParameters` instantiation — Parameters.h 76-143. -/
structure VCP where
  frost : Nat
  frostCom : Nat
  warmEco : Nat
  warmCom : Nat
  warm : Nat
  scaleMin : Nat
  scaleMid : Nat
  scaleMax : Nat
  bakeUplift : Nat
  sbDefault : Nat
  sbEco : Nat
  sbFull : Nat
deriving Repr, DecidableEq

/-- `ValveControlParameters<...>` — Parameters.h 76-143. -/
def VCP.mk' (ecoMin comMin ecoWarm comWarm bakeLift setbackEco setbackFull : Nat) : VCP :=
  let frost := min (max ecoMin minTargetC) maxTargetC                           -- 83
  let frostCom := max (min comMin maxTargetC) frost                             -- 89
  let warmEco := max (min ecoWarm maxTargetC) (frost + 1)                       -- 94
  let warmCom := max (min comWarm maxTargetC) (frostCom + 1)                    -- 97
  let sbEco := max setbackEco 2                                                 -- 124
  { frost := frost
    frostCom := frostCom
    warmEco := warmEco
    warmCom := warmCom
    warm := max warmEco safeRoomC                                               -- 99
    scaleMin := warmEco - 1                                                     -- 104
    scaleMid := (warmEco + warmCom + 1) / 2                                     -- 106
    scaleMax := warmCom + 1                                                     -- 108
    bakeUplift := bakeLift                                                      -- 113
    sbDefault := 1                                                              -- 119
    sbEco := sbEco
    sbFull := max setbackFull ((sbEco + 1) % 256) }                             -- 141

/-- `DEFAULT_ValveControlParameters` — Parameters.h 178-196. -/
def vcpDefault : VCP := .mk' 6 14 17 21 10 3 6
/-- `Proposed_DEFAULT_ValveControlParameters` — Parameters.h 202-221. -/
def vcpProposed : VCP := .mk' 6 14 16 22 10 3 6
/-- `DEFAULT_DHW_ValveControlParameters` — Parameters.h 224-234. -/
def vcpDHW : VCP := .mk' 6 20 45 65 10 3 6

/-- `TempControlSimpleVCP::hasEcoBias`, given the WARM target — TempControl.h 127. -/
def VCP.ecoBias (p : VCP) (warmC : Nat) : Bool := decide (warmC ≤ p.scaleMid)
/-- `isEcoTemperature` — TempControl.h 129. -/
def VCP.isEco (p : VCP) (t : Nat) : Bool := decide (t ≤ p.warmEco)
/-- `isComfortTemperature` — TempControl.h 131. -/
def VCP.isCom (p : VCP) (t : Nat) : Bool := decide (t ≥ p.warmCom)

/-! ## EEPROM-backed settings -/

/-- `V0P2BASE_EE_START_FROST_C`, `V0P2BASE_EE_START_WARM_C` — OTV0P2BASE_EEPROM.h 112, 113. -/
notation "eeFrostC" => 14
notation "eeWarmC" => 15

/-- `TempControlSimpleEEPROMBacked::getFROSTTargetC` — TempControl.h 180-188. -/
def eeGetFrost (p : VCP) (m : EE) : Nat :=
  let stored := (m eeFrostC).toNat
  if stored < p.scaleMin ∨ stored > p.scaleMax then p.frost else stored

/-- `getWARMTargetC` — TempControl.h 170-178. -/
def eeGetWarm (p : VCP) (m : EE) : Nat :=
  let stored := (m eeWarmC).toNat
  if stored < p.scaleMin ∨ stored > p.scaleMax then max p.warm (eeGetFrost p m) else max stored (eeGetFrost p m)

/-- `setFROSTTargetC` — TempControl.h 193-199. -/
def eeSetFrost (split : Bool) (p : VCP) (t : Byte) : EM Bool := fun m =>
  emIf (t.toNat < p.scaleMin ∨ t.toNat > p.scaleMax) (emRet false)
    (emIf (t.toNat > eeGetWarm p m) (emRet false)
      (emBind (smartUpdate split eeFrostC t) fun _ => emRet true)) m

/-- `setWARMTargetC` — TempControl.h 203-209. -/
def eeSetWarm (split : Bool) (p : VCP) (t : Byte) : EM Bool := fun m =>
  emIf (t.toNat < p.scaleMin ∨ t.toNat > p.scaleMax) (emRet false)
    (emIf (t.toNat < eeGetFrost p m) (emRet false)
      (emBind (smartUpdate split eeWarmC t) fun _ => emRet true)) m

/-! ## Dial -/

/-- `while` loop counting bands — TempControl.h 252-259; `k` is how far `result` is below `TEMP_SCALE_MAX`. -/
def dialLoop (ppot band : Nat) : (k result bottom : Nat) → Nat
  | 0, result, _ => result
  | k + 1, result, bottom => if ppot ≥ bottom then dialLoop ppot band k (result + 1) ((bottom + band) % 256) else result

/-- `TempControlTempPot_computeWARMTargetC` — TempControl.h 222-263; `none` is division by zero. -/
def dialWarm (p : VCP) (lo hi pot : Nat) : Option Nat :=
  if pot ≤ lo then some p.scaleMin                                              -- 226
  else if pot ≥ hi then some p.scaleMax                                         -- 227
  else
    let useful := (hi - lo + 1) % 256                                           -- 231
    let range := p.scaleMax - p.scaleMin + 1                                    -- 232-233
    let shim := range ≠ 0 ∧ Nat.land range (range + 1) = 0                      -- 234
    let used := if shim then range + 1 else range                               -- 240
    let band := (useful + used / 2) / used                                      -- 242
    let basic := pot - lo                                                       -- 244
    let shimWidth := band / 2                                                   -- 245
    if shim ∧ basic ≤ shimWidth then some p.scaleMin                            -- 246
    else
      let ppot := if shim then basic - shimWidth else basic                     -- 247
      if range < 10 then some (dialLoop ppot band (p.scaleMax - p.scaleMin) p.scaleMin band)  -- 250-260
      else if band = 0 then none
      else some ((ppot / band + p.scaleMin) % 256)                              -- 262

/-- `TempControlTempPot` cached values — TempControl.h 280-281. -/
structure DialCache where
  pot : Nat
  result : Nat
deriving Repr, DecidableEq

/-- `TempControlTempPot::getWARMTargetC` — TempControl.h 291-306, for a dial whose computation does not fault. -/
def DialCache.getWarm (p : VCP) (lo hi : Nat) (c : DialCache) (pot : Nat) : Nat × DialCache :=
  if c.pot ≠ pot ∨ c.result = 0 then
    let r := (dialWarm p lo hi pot).getD 0
    (r, { pot := pot, result := r })
  else (c.result, c)

/-- `TempControlTempPot::getFROSTTargetC` — TempControl.h 284-289; `rhHigh` is the humidity test. -/
def dialFrost (p : VCP) (warmC : Nat) (rhHigh : Bool) : Nat :=
  if !p.ecoBias warmC || rhHigh then p.frostCom else p.frost

/-! ## Dial sensor -/

/-- `SensorTemperaturePot` state: `raw` (0xffff before the first read) and `value` — SensorTemperaturePot.h 151. -/
structure Pot where
  raw : Nat
  value : Nat
deriving Repr, DecidableEq

/-- As constructed — OTV0P2BASE_SensorTemperaturePot.h 184-186. -/
def Pot.init : Pot := { raw := 65535, value := 0 }

/-- Callbacks made and occupancy marking in one read — OTV0P2BASE_SensorTemperaturePot.h 232-249. -/
inductive PotEv where
  | warm (b : Bool)
  | bake (b : Bool)
  | occupied
deriving Repr, DecidableEq

/-- `_computeLoEndStop` — SensorTemperaturePot.h 161-171. -/
def potLo (minE maxE : Nat) : Nat :=
  let m := (min (minE / 4) (maxE / 4)) % 256
  if m ≥ 255 - 8 then m else m + 8
/-- `_computeHiEndStop` — SensorTemperaturePot.h 164-177. -/
def potHi (minE maxE : Nat) : Nat :=
  let m := (max (minE / 4) (maxE / 4)) % 256
  if m < 8 then m else m - 8

/-- `SensorTemperaturePot::read` — SensorTemperaturePot.h 192-264; `adc` is the reading already put the right way round
(205).  Unsigned 16-bit subtraction as on the AVR.  Both callbacks and the occupancy sensor are present. -/
def Pot.read (lo hi : Nat) (s : Pot) (adc : Nat) : Pot × List PotEv :=
  let rn := adc / 4 % 256                                                       -- 217
  if (rn > s.value ∧ (adc + 65536 - s.raw) % 65536 ≥ 4) ∨ (rn < s.value ∧ (s.raw + 65536 - adc) % 65536 ≥ 4) then  -- 218-219
    ({ raw := adc, value := rn },
      if s.raw ≠ 65535 then                                                     -- 232
        (if rn < lo then [PotEv.warm false]                                     -- 235
         else if rn > hi then [PotEv.bake true]                                 -- 237
         else if rn < s.value then [PotEv.bake false]                           -- 239
         else if rn > s.value then [PotEv.warm true]                            -- 241
         else []) ++ [PotEv.occupied]                                           -- 248
      else [])
  else ({ s with raw := adc }, [])                                              -- 261

end OTR
