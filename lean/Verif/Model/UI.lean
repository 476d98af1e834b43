import Verif.Model.TempControl
import Verif.Model.Schedule
import Verif.Model.Occupancy
/-!
# Model: the physical user interface (button, dial, LED)

`content/OTRadioLink/utility/OTRadValve_ActuatorPhysicalUI.{h,cpp}`: `ModeButtonAndPotActuatorPhysicalUI` and the
cycle-mode variant `CycleModeAndLearnButtonsAndPotActuatorPhysicalUI`.

The dial's callbacks are taken to be `setWarmModeFromManualUI()` and `setBakeModeFromManualUI()` (the functions provided
for the purpose; the wiring itself is in the application). Pauses have no effect but time and are left out. The LED is
the pin state plus a count of the times it was switched on. A press of the MODE button is an interrupt: it may come
between calls, or at the marked points inside `read()`.
-/

namespace OTR

notation "uiRecentM" => 31
notation "uiVeryRecentM" => 2

/-- Fixed set-up: is there a dial (`tempPotOpt`), its end stops (SensorTemperaturePot.h 68-77), the warm target for a
dial position (`getWARMTargetC()`, with a dial a function of its position), the least and greatest warm targets, whether
there is an interrupt-safe LED function (`safeISRLEDonOpt`), and which of the two classes this is. -/
structure UICfg where
  hasPot : Bool
  lo : Nat
  hi : Nat
  warmOf : Nat → Nat
  minW : Nat
  maxW : Nat
  isrLED : Bool
  cycle : Bool

/-- The fields of the UI object, ActuatorPhysicalUI.h 148-257 and 407-413, with the objects it acts on (valve mode,
occupancy tracker, dial), the LED, the number of times the LED was switched on and the number of wiggles. -/
structure UI where
  status : Bool := false
  tmo : Nat := 0
  sig : Bool := false
  tick : Nat := 0
  nominal : Nat := 0
  mode : VMode := VMode.init
  occ : Occ := Occ.init
  pot : Pot := Pot.init
  wasPressed : Bool := false
  pWarm : Bool := false
  pBake : Bool := false
  led : Bool := false
  ons : Nat := 0
  wiggles : Nat := 0
deriving Repr, DecidableEq

/-- What the UI sees at one `read()`: dial ADC value, room dark, valve calling for heat, room under target, valve in its
normal run state, MODE button held down (cycle variant), and whether the button interrupt comes at each of the points
`p1`..`p4` inside the call. (Low battery only changes pauses.) -/
structure UIIn where
  adc : Nat := 0
  dark : Bool := false
  calling : Bool := false
  under : Bool := false
  normalRun : Bool := false
  button : Bool := false
  p1 : Bool := false
  p2 : Bool := false
  p3 : Bool := false
  p4 : Bool := false
deriving Repr, DecidableEq

namespace UI

/-- `LEDon()` — the function pointers of OTRadValve_ActuatorPhysicalUI.h 216-219. -/
def on (u : UI) : UI := { u with led := true, ons := u.ons + 1 }
/-- `LEDoff()` — the function pointers of OTRadValve_ActuatorPhysicalUI.h 216-219. -/
def off (u : UI) : UI := { u with led := false }

/-- `recentUIControlUse()`, ActuatorPhysicalUI.h 312. -/
def recent (u : UI) : Bool := u.tmo != 0
/-- `veryRecentUIControlUse()`, ActuatorPhysicalUI.h 304. -/
def veryRecent (u : UI) : Bool := decide (u.tmo ≥ uiRecentM - uiVeryRecentM)

/-- `markUIControlUsed()`, ActuatorPhysicalUI.cpp 47-61. -/
def used (u : UI) : UI := { u with status := true, tmo := uiRecentM, occ := u.occ.markAsOccupied }

/-- `markUIControlUsedSignificant()`, ActuatorPhysicalUI.cpp 67-75. -/
def usedSig (c : UICfg) (u : UI) : UI :=
  used { (if c.isrLED then u.on else u) with sig := true }

/-- `setWarmModeFromManualUI()`, ActuatorPhysicalUI.h 328-334. -/
def manualWarm (c : UICfg) (u : UI) (w : Bool) : UI :=
  let u := if w ≠ u.mode.warm then u.usedSig c else u
  { u with mode := u.mode.setWarm w }

/-- `setBakeModeFromManualUI()`, ActuatorPhysicalUI.h 337-343. -/
def manualBake (c : UICfg) (u : UI) (start : Bool) : UI :=
  let u := if u.mode.inBake ≠ start then u.usedSig c else u
  { u with mode := if start then u.mode.startBake else u.mode.cancelBake }

/-- The MODE button interrupt: `handleInterruptSimple()`, ActuatorPhysicalUI.h 354-368, and 549 for the cycle variant. -/
def press (c : UICfg) (u : UI) : UI :=
  if c.cycle then u.used
  else if c.hasPot ∧ u.pot.value < c.lo then u.used
  else usedSig c { u with mode := u.mode.startBake }

/-- A press if the flag is set. (Vocabulary of histories and observations; it stands for the order in which an application makes calls and has no code of its own in /repo.) -/
def pressIf (c : UICfg) (b : Bool) (u : UI) : UI := if b then u.press c else u

/-- A callback from the dial, SensorTemperaturePot.h 232-249. -/
def event (c : UICfg) (u : UI) : PotEv → UI
  | .warm b => u.manualWarm c b
  | .bake b => u.manualBake c b
  | .occupied => { u with occ := u.occ.markAsOccupied }

/-- `longLongVacant()`, SensorOccupancy.h 256-273. -/
def longLongVacant (u : UI) : Bool := decide (u.occ.getVacancyH > 39)

/-- The synthetic target that stands for the dial position, ActuatorPhysicalUI.cpp 125-127. -/
def nominalOf (c : UICfg) (v : Nat) : Nat :=
  if v < c.lo then c.minW - 1 else if v > c.hi then c.maxW + 1 else c.warmOf v

/-- One step of the remembered target towards the present one, ActuatorPhysicalUI.cpp 145-151. -/
def follow (last now : Nat) : Nat :=
  if max last now - min last now > 10 then now else if last < now then last + 1 else last - 1

/-- Reading the dial, ActuatorPhysicalUI.cpp 112-152. -/
def dial (c : UICfg) (u : UI) (adc : Nat) : UI :=
  let r := u.pot.read c.lo c.hi adc
  let u := r.2.foldl (event c) { u with pot := r.1 }                            -- 112
  let u := if u.pot.value < c.lo then { u with mode := u.mode.setWarm false } else u    -- 120
  let n := nominalOf c u.pot.value                                              -- 125-127
  if n ≠ u.nominal then                                                         -- 129
    let u := if u.nominal ≠ 0 then { u with sig := true }                       -- 132
      else if ¬ u.pot.value < c.lo then { u with mode := u.mode.setWarm true } else u   -- 137
    { u with nominal := follow u.nominal n }                                    -- 145-151
  else u

/-- `userOpFeedback()`, ActuatorPhysicalUI.h 178-189. -/
def feedback (u : UI) (i : UIIn) : UI :=
  let u := u.on.used
  let u := if i.normalRun then { u with wiggles := u.wiggles + 1 } else u
  { u.off with sig := false }

/-- `pollMODEButton()`: false in the base class (ActuatorPhysicalUI.h 233); in the cycle variant 424-497. -/
def poll (c : UICfg) (u : UI) (i : UIIn) : Bool × UI :=
  if ¬ c.cycle then (false, u)
  else if i.button then
    let u := if u.wasPressed then u else { u with pWarm := u.mode.warm, pBake := u.mode.inBake, wasPressed := true }  -- 437-443
    let u := u.used.on                                                          -- 447-449
    (true,
      if ¬ u.pWarm then { u.off.on with pWarm := true, pBake := false }         -- 451-460
      else if ¬ u.pBake then { u.off.on.off.on with pBake := true }             -- 461-473
      else { u with pWarm := false, pBake := false })                           -- 474-479
  else if u.wasPressed then                                                     -- 484-494
    let u := { u with mode := u.mode.setWarm u.pWarm }
    let u := { u with mode := if u.pBake then u.mode.startBake else u.mode.cancelBake }
    (false, { u.used with wasPressed := false })
  else (false, u)

/-- The LED display, ActuatorPhysicalUI.cpp 161-245. -/
def show_ (u : UI) (i : UIIn) (forth enhanced : Bool) : UI :=
  let justTouched := u.status || enhanced                                       -- 164
  if justTouched || u.mode.warm then
    if justTouched || ((forth || i.calling || u.mode.inBake) && !i.dark) then   -- 181-184
      let u := u.on                                                             -- 187
      if (enhanced && i.under) || i.calling || u.mode.inBake then               -- 199-201
        let u := u.off.on                                                       -- 203-205
        if u.mode.inBake then u.off.on else u                                   -- 211-216
      else u
    else u
  else if forth && !i.dark && i.calling then u.on.off.on                        -- 232-244
  else u

/-- `read()` up to the dial: tick, once-a-minute decrement, ActuatorPhysicalUI.cpp 88-93. -/
def begin_ (u : UI) : UI :=
  let t := (u.tick + 1) % 256
  { u with tick := t, tmo := if t % 32 = 0 then u.tmo - 1 else u.tmo }

/-- `read()`, ActuatorPhysicalUI.cpp 85-257: the value returned and the new state. -/
def read (c : UICfg) (u : UI) (i : UIIn) : Bool × UI :=
  let u := u.begin_
  let forth := decide (u.tick % 4 = 0)                                          -- 88
  let enhanced := u.veryRecent                                                  -- 97
  let u := u.pressIf c i.p1
  let u := if c.hasPot && (enhanced || forth || (u.mode.warm && !u.longLongVacant)) then u.dial c i.adc else u   -- 99-154
  let u := u.pressIf c i.p2
  let u := if u.sig then u.feedback i else u                                    -- 157
  let r := u.poll c i                                                           -- 161
  let u := if r.1 then r.2 else r.2.show_ i forth enhanced
  let u := u.pressIf c i.p3
  let u := u.off                                                                -- 248
  let ret := u.status                                                           -- 254
  let u := u.pressIf c i.p4
  (ret, { u with status := false })                                             -- 255-256
end UI

/-- Anything that can happen: a `read()`, a button interrupt between reads, the once-a-minute work on the mode and the
occupancy tracker, and another actor (schedule, command line) setting the mode. (Vocabulary of histories and observations; it stands for the order in which an application makes calls and has no code of its own in /repo.) -/
inductive UIEv where
  | read (i : UIIn)
  | press
  | minute
  | setWarm (w : Bool)
  | startBake
deriving Repr, DecidableEq

/-- One event. (Vocabulary of histories and observations; it stands for the order in which an application makes calls and has no code of its own in /repo.) -/
def UI.step (c : UICfg) (u : UI) : UIEv → UI
  | .read i => (u.read c i).2
  | .press => u.press c
  | .minute => { u with mode := u.mode.read, occ := u.occ.read }
  | .setWarm w => { u with mode := u.mode.setWarm w }
  | .startBake => { u with mode := u.mode.startBake }
end OTR
