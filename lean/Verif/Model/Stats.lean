import Verif.Model.EEPROM
import Verif.Model.RxCounter
/-!
# By-hour statistics and temperature compression — `U/OTV0P2BASE_Stats.{h,cpp}`, `U/OTV0P2BASE_EEPROM.{h,cpp}`

One stats set is modelled as the function from hour to the byte `getByHourStatSimple(statsSet, hh)` returns.
-/

namespace OTR

/-- The stored samples of one stats set, by hour of day. (Abstract contents of the EEPROM area of OTV0P2BASE_EEPROM.h 196; no code of its own.) -/
abbrev DayStats := Nat → Byte

/-- `UNSET_BYTE` — Stats.h 57. -/
notation "unsetByte" => (0xff : UInt8)
/-- `UNSET_INT` — Stats.h 58. -/
notation "unsetInt" => (0x7fff : Int)

/-- `getSpecialHour` — Stats.cpp 35-51. -/
def getSpecialHour (hour currentHour : Byte) : Byte :=
  if hour = 0xff then currentHour                                               -- 37-39
  else if hour = 0xfe then (if currentHour ≥ 23 then 0 else currentHour + 1)    -- 40-43
  else if hour = 0xfd then (if currentHour = 0 then 23 else currentHour - 1)    -- 44-47
  else hour                                                                     -- 50

/-- `smoothStatsValue` — Stats.cpp 69-78. `rnd` is the byte `randRNG8()` returns; the arithmetic is in `uint16_t`. -/
def smoothStatsValue (rnd old new : Byte) : Byte :=
  if old = new then old else                                                    -- 72
  let stocAdd := rnd &&& 7                                                      -- 75
  u8 (((old.toNat * 8 + 65536 - old.toNat + new.toNat + stocAdd.toNat) % 65536) / 8)   -- 77

/-- The scan `for(int8_t hh = 24; --hh >= 0; )` from hour `n-1` down to 0 used by the queries below, as a
recursion carrying the loop state `s`; `f` is the loop body, returning `Sum.inr` for an early `return`. -/
def scanDown {σ β : Type} (f : σ → Nat → σ ⊕ β) (fin : σ → β) : Nat → σ → β
  | 0, s => fin s
  | n + 1, s => match f s n with
    | .inl s' => scanDown f fin n s'
    | .inr b => b

/-- `countStatSamplesBelow` — Stats.cpp 82-93. -/
def countStatSamplesBelow (day : DayStats) (value : Byte) : Nat :=
  if value = 0 then 0 else
  scanDown (fun r hh => .inl (if day hh < value then r + 1 else r)) id 24 0

/-- `getMinByHourStat` — Stats.cpp 96-106. -/
def getMinByHourStat (day : DayStats) : Byte :=
  scanDown (fun r hh => .inl (if day hh < r then day hh else r)) id 24 unsetByte

/-- `getMaxByHourStat` — Stats.cpp 109-120. -/
def getMaxByHourStat (day : DayStats) : Byte :=
  scanDown (fun r hh => .inl (if day hh ≠ unsetByte ∧ (r = unsetByte ∨ day hh > r) then day hh else r)) id 24 unsetByte

/-- `inBottomQuartile` — Stats.cpp 125-136. -/
def inBottomQuartile (day : DayStats) (sample : Byte) : Bool :=
  scanDown (fun (higher : Nat) hh =>
    if day hh = unsetByte then .inr false                                       -- 132
    else if day hh > sample then
      (if higher + 1 ≥ 18 then .inr true else .inl (higher + 1))                -- 133
    else .inl higher) (fun _ => false) 24 0

/-- `inTopQuartile` — Stats.cpp 141-152. -/
def inTopQuartile (day : DayStats) (sample : Byte) : Bool :=
  if sample = unsetByte then false else                                         -- 143
  scanDown (fun (lower : Nat) hh =>
    if day hh = unsetByte then .inr false                                       -- 148
    else if day hh < sample then
      (if lower + 1 ≥ 18 then .inr true else .inl (lower + 1))                  -- 149
    else .inl lower) (fun _ => false) 24 0

/-- `inOutlierQuartile` — Stats.cpp 160-168, with `getByHourStatRTC` (58-63); `currentHour` is `getHour()`.
`get` is `getByHourStatSimple(statsSet, ·)`, which must cope with any byte as the hour. -/
def inOutlierQuartile (inTop : Bool) (get : DayStats) (currentHour hh : Byte) : Bool :=
  let sample := if hh > 23 then get (getSpecialHour hh currentHour).toNat else get hh.toNat   -- 164
  if sample = unsetByte then false                                              -- 165
  else if inTop then inTopQuartile get sample                                   -- 166
  else inBottomQuartile get sample                                              -- 167

/-- `compressTempC16` — Stats.cpp 246-255 with the constants of Stats.h 233-239 (256, 384, 1600 become 32, 96, 248).
The argument is an `int16_t`; a right shift of a non-negative value is division. -/
def compressTempC16 (t : Int) : Byte :=
  if t ≤ 0 then 0                                                               -- 248
  else if t < 256 then u8 (t / 8).toNat                                         -- 249
  else if t < 384 then u8 ((t - 256) / 2 + 32).toNat                            -- 250-251
  else if t < 1600 then u8 ((t - 384) / 8 + 96).toNat                           -- 252-253
  else 248                                                                      -- 254

/-- `expandTempC16` — Stats.cpp 259-267. -/
def expandTempC16 (c : Byte) : Int :=
  if c < 32 then c.toNat * 8                                                    -- 261
  else if c < 96 then ((c.toNat : Int) - 32) * 2 + 256                          -- 262-263
  else if c ≤ 248 then ((c.toNat : Int) - 96) * 8 + 384                         -- 264-265
  else unsetInt                                                                 -- 266

/-! ## EEPROM store -/

/-- `EEPROMByHourByteStats::_getByHourStatSimple` — EEPROM.h 286-291 (14 sets of 24 from address 256, EEPROM.h 45, 188-194). -/
def eeGetStat (m : EE) (set hh : Nat) : Byte :=
  if set ≥ 14 then unsetByte else if hh > 23 then unsetByte else m (256 + set * 24 + hh)

/-- `EEPROMByHourByteStats::_setByHourStatSimple` — EEPROM.h 294-299. -/
def eeSetStat (split : Bool) (set hh : Nat) (v : Byte) : EM Unit :=
  emIf (set ≥ 14) (emRet ()) <| emIf (hh > 23) (emRet ()) <|
  emBind (smartUpdate split (256 + set * 24 + hh) v) fun _ => emRet ()

/-- `EEPROMByHourByteStats::_zapStats` — EEPROM.cpp 180-185, from address `p`, `n` cells still to visit
(the whole area is 256 to 256+24*15-1 = 615, EEPROM.h 196); `budget` is the 16-bit `maxBytesToErase`. -/
def zapFrom : Nat → Nat → UInt16 → EM Bool
  | _, 0, _ => emRet true
  | p, n + 1, budget =>
    emBind (smartErase p) fun wrote =>
    emIf (wrote = true)
      (emIf (budget - 1 = 0) (emRet false) (zapFrom (p + 1) n (budget - 1)))
      (zapFrom (p + 1) n budget)

/-- `_zapStats(maxBytesToErase)` — OTV0P2BASE_EEPROM.cpp 180-185. -/
def zapStats (maxBytesToErase : UInt16) : EM Bool := zapFrom 256 360 maxBytesToErase

/-! ## The hourly sampler — Stats.h 258-457 -/

/-- Abstract stats store: set, hour to byte. (Abstract contents of the EEPROM area of OTV0P2BASE_EEPROM.h 196; no code of its own.) -/
abbrev Store := Nat → Nat → Byte

/-- `setByHourStatSimple` on an abstract store: out-of-range set or hour is ignored — Stats.h 219-220, EEPROM.h 294-299. -/
def Store.set (s : Store) (i hh : Nat) (v : Byte) : Store :=
  if i ≥ 14 ∨ hh ≥ 24 then s else fun i' hh' => if i' = i ∧ hh' = hh then v else s i' hh'

/-- `getByHourStatSimple` on an abstract store — Stats.h 215-216, EEPROM.h 286-291. -/
def Store.get (s : Store) (i hh : Nat) : Byte := if i ≥ 14 ∨ hh ≥ 24 then unsetByte else s i hh

/-- `update_stats_pair` — Stats.h 313-330. -/
def updateStatsPair (rnd : Byte) (set hh : Nat) (value : Byte) (s : Store) : Store :=
  let s := s.set set hh value                                                   -- 318
  let smoothed := s.get (set + 1) hh                                            -- 321
  if smoothed = unsetByte then s.set (set + 1) hh value                         -- 322-323
  else s.set (set + 1) hh (smoothStatsValue rnd smoothed value)                 -- 325-328

/-- `divide_to_u8` — Stats.h 285-304. -/
def divideToU8 (total sampleCount maxSub : Nat) : Byte :=
  if maxSub = 1 ∨ sampleCount = 1 then u8 total                                 -- 294
  else if maxSub > 2 ∧ sampleCount > 2 then u8 ((total + sampleCount / 2) / sampleCount)   -- 299-300
  else u8 ((total + 1) / 2)                                                     -- 303

/-- Truncation to `int16_t`. -/
def i16 (x : Int) : Int := (x + 32768) % 65536 - 32768

/-- `StatsUpdaterState` — Stats.h 262-279. -/
structure UpdSt where
  tempC16Total : Int := 0
  ambLightTotal : Nat := 0
  occpcTotal : Nat := 0
  rhpcTotal : Nat := 0
  sampleCount : Nat := 0
deriving DecidableEq, Repr

/-- What each sensor offers at one call: `none` if there is no such sensor or it is not available. (Vocabulary of histories and observations; it stands for the order in which an application makes calls and has no code of its own in /repo.) -/
structure Sensed where
  amb : Option Byte := none
  temp : Option Int := none
  occ : Option Byte := none
  rh : Option Byte := none
deriving DecidableEq, Repr

/-- Modulus of `percentageStatsAccumulator_t` — Stats.h 272. -/
def pcMod (maxSub : Nat) : Nat := if maxSub ≤ 2 then 256 else 65536

/-- Ambient light part of `update_stats_store` — Stats.h 388-402. `rnd` is the random byte used by smoothing. -/
def updAmb (maxSub : Nat) (full first : Bool) (sc hh : Nat) (rnd : Byte) (o : Option Byte) (x : UpdSt × Store) :
    UpdSt × Store :=
  match o with
  | none => x
  | some v =>
    let v' := if v < 254 then v else 254                                        -- 391
    let t := if first then v'.toNat else (x.1.ambLightTotal + v'.toNat) % 65536 -- 393
    ({ x.1 with ambLightTotal := t },
     if full then updateStatsPair rnd 2 hh (divideToU8 t sc maxSub) x.2 else x.2)   -- 395-401

/-- The mean temperature stored — Stats.h 412-416 (`>> 1` rounds down, `/` truncates). -/
def tempMean (maxSub sc : Nat) (total : Int) : Int :=
  if maxSub ≤ 2 then (if sc = 1 then total else (total + 1) / 2)
  else if sc = 1 then total else if sc = 2 then (total + 1) / 2
  else (total + (sc / 2 : Nat)).tdiv sc

/-- Temperature part — Stats.h 404-423. -/
def updTemp (maxSub : Nat) (full first : Bool) (sc hh : Nat) (rnd : Byte) (o : Option Int) (x : UpdSt × Store) :
    UpdSt × Store :=
  match o with
  | none => x
  | some v =>
    let t := if first then v else i16 (x.1.tempC16Total + v)                    -- 408
    ({ x.1 with tempC16Total := t },
     if full then updateStatsPair rnd 0 hh (compressTempC16 (i16 (tempMean maxSub sc t))) x.2 else x.2)   -- 410-422

/-- Occupancy part — Stats.h 425-437. -/
def updOcc (maxSub : Nat) (full first : Bool) (sc hh : Nat) (rnd : Byte) (o : Option Byte) (x : UpdSt × Store) :
    UpdSt × Store :=
  match o with
  | none => x
  | some v =>
    let t := if first then v.toNat else (x.1.occpcTotal + v.toNat) % pcMod maxSub   -- 429
    ({ x.1 with occpcTotal := t },
     if full then updateStatsPair rnd 4 hh (divideToU8 t sc maxSub) x.2 else x.2)   -- 430-436

/-- Humidity part — Stats.h 439-450. -/
def updRh (maxSub : Nat) (full first : Bool) (sc hh : Nat) (rnd : Byte) (o : Option Byte) (x : UpdSt × Store) :
    UpdSt × Store :=
  match o with
  | none => x
  | some v =>
    let t := if first then v.toNat else (x.1.rhpcTotal + v.toNat) % pcMod maxSub    -- 442
    ({ x.1 with rhpcTotal := t },
     if full then updateStatsPair rnd 6 hh (divideToU8 t sc maxSub) x.2 else x.2)   -- 443-449

/-- `update_stats_store` — Stats.h 357-457. `rnd i` is the random byte used when smoothing set `i`. `maxSub` ≥ 1. -/
def updateStatsStore (maxSub : Nat) (full : Bool) (hh : Nat) (rnd : Nat → Byte) (i : Sensed) (x : UpdSt × Store) :
    UpdSt × Store :=
  if hh > 23 then ({ x.1 with sampleCount := 0 }, x.2)                          -- 373
  else if full = false ∧ x.1.sampleCount ≥ maxSub - 1 then x                    -- 377
  else
    let first := decide (x.1.sampleCount = 0)                                   -- 379
    let sc := (x.1.sampleCount + 1) % 256                                       -- 379-381
    let x := ({ x.1 with sampleCount := sc }, x.2)
    let x := updAmb maxSub full first sc hh (rnd 2) i.amb x
    let x := updTemp maxSub full first sc hh (rnd 0) i.temp x
    let x := updOcc maxSub full first sc hh (rnd 4) i.occ x
    let x := updRh maxSub full first sc hh (rnd 6) i.rh x
    if full = false then x                                                      -- 454
    else ({ x.1 with sampleCount := 0 }, x.2)                                   -- 456

end OTR
