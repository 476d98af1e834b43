import Verif.Base
/-!
# On/off boiler control — `U/OTRadValve_BoilerDriver.h`

The housecode filter, the serial diagnostics and the `updateCalled` warning flag are not modelled.
-/

namespace OTR

/-- `DEFAULT_VALVE_PC_SAFER_OPEN` — OTRadValve_Parameters.h 260. -/
notation "saferOpenPC" => 50
/-- `DEFAULT_VALVE_PC_MODERATELY_OPEN` — OTRadValve_Parameters.h 269. -/
notation "moderatelyOpenPC" => 67

/-- `OnOffBoilerDriverLogic` object — BoilerDriver.h 127-156; `pin` is the level last written to `outHeatCallPin`
(starts low). -/
structure Boiler where
  call : Bool
  noCallM : Nat
  ticks : Nat
  pin : Bool
deriving Repr, DecidableEq

/-- As constructed or after `reset()` — BoilerDriver.h 127-156, 173. -/
def Boiler.init : Boiler := { call := false, noCallM := 0, ticks := 0, pin := false }

/-- `isBoilerOn` — BoilerDriver.h 176. -/
def Boiler.isOn (b : Boiler) : Bool := b.ticks != 0

/-- The threshold computed in `remoteCallForHeatRX` — BoilerDriver.h 203-237. -/
def Boiler.threshold (b : Boiler) (minuteCount : Nat) : Nat :=
  let minvro := saferOpenPC                                                     -- 203, 160-168
  let window := minuteCount % 64                                                -- 218-219
  let considerPause := decide (window < 63 / 4)                                 -- 220
  let encourageOn := !considerPause && decide (window < 63 / 2)                 -- 225
  if !considerPause && (encourageOn || b.isOn) then minvro
  else max minvro (moderatelyOpenPC - 1)                                        -- 236-237

/-- `remoteCallForHeatRX` — BoilerDriver.h 185-243. -/
def Boiler.remoteCall (b : Boiler) (pct minuteCount : Nat) : Boiler :=
  if b.threshold minuteCount ≤ pct then { b with call := true } else b          -- 239-242

/-- Call handling at the start of `processCallsForHeat` — BoilerDriver.h 268-291; `minOn` is
`getMinBoilerOnMinutes()` and `tpm` is `60U / MAIN_TICK_S` (30 or 60: OTV0P2BASE_RTC.h 157-161). -/
def Boiler.hear (b : Boiler) (tpm minOn : Nat) : Boiler :=
  if b.call then
    let ignored := !b.isOn && decide (b.noCallM ≤ min 254 minOn)                -- 271-284
    if ignored then { b with call := false }                                    -- 269
    else { b with call := false, ticks := (minOn * tpm) % 65536, noCallM := 0 }    -- 285-290
  else b

/-- `processCallsForHeat` — BoilerDriver.h 252-317. -/
def Boiler.process (b : Boiler) (tpm minOn : Nat) (second0 hubMode : Bool) : Boiler :=
  if hubMode then
    let b := b.hear tpm minOn
    let b :=
      if b.isOn then { b with ticks := b.ticks - 1 }                            -- 294-301
      else if second0 && decide (b.noCallM < 255) then { b with noCallM := b.noCallM + 1 }  -- 303-304
      else b
    { b with pin := b.isOn }                                                    -- 309
  else { b with pin := false }                                                  -- 314

/-- What happens to the driver: a valve's call is received, or the main loop ticks. (Vocabulary of histories and observations; it stands for the order in which an application makes calls and has no code of its own in /repo.) -/
inductive BEv where
  | call (pct minuteCount : Nat)
  | tick (second0 hubMode : Bool)
deriving Repr, DecidableEq

/-- One event. (Vocabulary of histories and observations; it stands for the order in which an application makes calls and has no code of its own in /repo.) -/
def Boiler.step (tpm minOn : Nat) (b : Boiler) : BEv → Boiler
  | .call pct m => b.remoteCall pct m
  | .tick s0 hub => b.process tpm minOn s0 hub

/-- A history of events. (Vocabulary of histories and observations; it stands for the order in which an application makes calls and has no code of its own in /repo.) -/
def Boiler.run (tpm minOn : Nat) (b : Boiler) (evs : List BEv) : Boiler := evs.foldl (Boiler.step tpm minOn) b

/-- `V0P2BASE_EE_START_MIN_BOILER_ON_MINS_INV` byte to minutes: `getMinBoilerOnMinutes` — BoilerDriver.h 70-73. -/
def minBoilerOnMinutes (useEEPROM : Bool) (stored : Byte) : Nat :=
  if useEEPROM then (~~~stored).toNat else 5

/-- The byte `setMinBoilerOnMinutes` stores — BoilerDriver.h 63-65 (`none`: nothing stored). -/
def setMinBoilerOnMinutes (useEEPROM : Bool) (mins : Byte) : Option Byte :=
  if useEEPROM then some (~~~mins) else none

/-- `inHubMode` — BoilerDriver.h 87-92. -/
def inHubMode (alwaysRX radioRX : Bool) (minOn : Nat) : Bool :=
  if alwaysRX then true else if !radioRX then false else minOn != 0

/-- `inStatsHubMode` — BoilerDriver.h 100-105. -/
def inStatsHubMode (alwaysRX radioRX : Bool) (minOn : Nat) : Bool :=
  if alwaysRX then true else if !radioRX then false else minOn == 1

end OTR
