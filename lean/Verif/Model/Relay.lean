import Verif.Base
/-!
# Relay-driven heater — `U/OTRadValve_AbstractRadValve.h`

The output pin of an AVR is a port bit (the level driven) and a direction bit. Between instructions both keep their values.
-/

namespace OTR

/-- `BinaryRelayDirect` and its pin — AbstractRadValve.h 196-232. -/
structure Relay where
  value : Nat
  level : Bool
  output : Bool
deriving Repr, DecidableEq

/-- As constructed (AbstractRadValve.h 62-64; Actuator.h: value 0), with the pin as after a reset. -/
def Relay.boot : Relay := ⟨0, false, false⟩

/-- `BinaryRelayHelper::calcRelayState` — AbstractRadValve.h 177-183 (`DEFAULT_VALVE_PC_SAFER_OPEN` = 50). -/
def calcRelayState (value : Nat) : Bool := decide (50 ≤ value)

/-- `setup` — AbstractRadValve.h 202-206; all the states the pin goes through, the last one final. -/
def Relay.setupTrace (activeHigh : Bool) (r : Relay) : List Relay :=
  [{ r with level := !activeHigh },                      -- 204
   { r with level := !activeHigh, output := true }]      -- 205

/-- The set-up calls — OTRadValve_AbstractRadValve.h 202-206. -/
def Relay.setup (activeHigh : Bool) (r : Relay) : Relay := { r with level := !activeHigh, output := true }

/-- `set` — AbstractRadValve.h 213-220. -/
def Relay.set (activeHigh : Bool) (r : Relay) (new : Nat) : Bool × Relay :=
  if new > 100 then (false, r)                           -- 215
  else (true, { r with value := new                      -- 216
                       level := if activeHigh then calcRelayState new else !calcRelayState new })  -- 217-218

/-- `isControlledValveReallyOpen`, `isCallingForHeat` — AbstractRadValve.h 114-125, with 225-226. -/
def Relay.reallyOpen (r : Relay) : Bool := decide (r.value ≥ 50)
/-- `isCallingForHeat()` — OTRadValve_AbstractRadValve.h 114-125. -/
def Relay.calling (r : Relay) : Bool := r.reallyOpen && decide (r.value ≥ 50)

end OTR
