import Verif.Model.RTC
/-!
# Model: the RTC watchdog, the hardware watchdog, naps and forced resets

`content/OTRadioLink/utility/OTV0P2BASE_RTC.cpp` 313-387 (watchdog in the clock interrupt) and `OTV0P2BASE_Sleep.cpp` 57-84, 116-157 (`nap`),
`OTV0P2BASE_Sleep.h` 394-399 (`forceReset`), AVR build.

Environment, from the ATmega328P datasheet and avr-libc's `<avr/wdt.h>`: the watchdog runs if WDE or WDIE is set; at a time-out it sets WDIF if WDIE is set, and else resets the
chip; WDIF is cleared by writing 1 to it, so also by a read-modify-write of the register while it is set; `wdt_enable` clears WDIE and restarts the count; `sei` takes effect after the instruction that follows it, so
`sei` and `sleep_cpu` are one step; any interrupt ends sleep.
-/

namespace OTR

/-! ## RTC watchdog -/

/-- The clock, `_RTCWatchdogEnabled` and `_RTCWatchdogResetNotCalled` — RTC.cpp 320-324 (both false at start, as static variables). -/
structure RWd where
  clock : RTC
  enabled : Bool
  notCalled : Bool
deriving DecidableEq, Repr

/-- The clock interrupt, `resetRTCWatchDog()`, `enableRTCWatchdog()`. (Vocabulary of histories and observations; it stands for the order in which an application makes calls and has no code of its own in /repo.) -/
inductive RWdEv
  | tick | feed | enable (b : Bool)
deriving DecidableEq, Repr

/-- One event; also: whether `forceReset()` was called. RTC.cpp 322 (`enable`), 326 (`feed`), 331-387 (`tick`; the profiling table, 385, is in Model/MemCheck). -/
def RWd.step (s : RWd) : RWdEv → RWd × Bool
  | .tick =>
    let s := { s with clock := s.clock.tick }
    if s.enabled then
      if s.notCalled then (s, true) else ({ s with notCalled := true }, false)
    else (s, false)
  | .feed => ({ s with notCalled := false }, false)
  | .enable b => ({ s with enabled := b }, false)

/-- A history from start-up: the state, or none if a reset was forced on the way. (Vocabulary of histories and observations; it stands for the order in which an application makes calls and has no code of its own in /repo.) -/
def RWd.run (s : RWd) : List RWdEv → Option RWd
  | [] => some s
  | e :: es => if (s.step e).2 then none else (s.step e).1.run es

/-! ## Hardware watchdog -/

/-- WDE, WDIE, WDIF of WDTCSR, the time-out set and the units counted towards it. (Environment: hardware and its data sheet, not code of /repo.) -/
structure Wdt where
  wde : Bool
  wdie : Bool
  wdif : Bool
  per : Nat
  el : Nat
deriving DecidableEq, Repr

/-- A unit of the watchdog's clock passes. `none`: the chip is reset. (Environment: hardware and its data sheet, not code of /repo.) -/
def Wdt.unit (w : Wdt) : Option Wdt :=
  if !w.wde && !w.wdie then some w
  else if w.el + 1 < w.per then some { w with el := w.el + 1 }
  else if w.wdie then some { w with wdif := true, el := 0 }
  else none

/-- `wdt_enable(p)`. (Environment: avr-libc or the Arduino core, not code of /repo.) -/
def Wdt.enable (w : Wdt) (p : Nat) : Wdt := { w with wde := true, wdie := false, per := p, el := 0 }

/-- `WDTCSR |= (1 << WDIE)`: written back with WDIF as read, which clears it if it was set. -/
def Wdt.setIE (w : Wdt) : Wdt := { w with wdie := true, wdif := false }

/-- `wdt_disable()`, its part after `cli`. (Environment: avr-libc or the Arduino core, not code of /repo.) -/
def Wdt.disable (w : Wdt) : Wdt := { w with wde := false, wdie := false, el := 0 }

/-! ## Naps -/

/-- Where `nap()` is — OTV0P2BASE_Sleep.cpp 116-157. -/
inductive NPc
  | clr | en | ie | cli | slp | chk | dis0 | dis1 | done
deriving DecidableEq, Repr

/-- Watchdog, interrupts enabled (I), `_watchdogFired`, asleep, place, value to return; and as observations: units passed since the watchdog was enabled and since the CPU last had a turn — OTV0P2BASE_Sleep.cpp 116-157. -/
structure Nap where
  w : Wdt
  i : Bool
  fired : Bool
  asleep : Bool
  pc : NPc
  ret : Bool
  units : Nat
  wait : Nat
deriving DecidableEq, Repr

/-- The next step of `nap(t, premature)` — Sleep.cpp 140-157; with `premature` false also `nap(t)`, 116-132, which returns nothing. Lines 57-67 are `sleepPwrSaveWithBODDisabled()`. -/
def Nap.exec (t : Nat) (premature : Bool) (s : Nap) : Nap :=
  match s.pc with
  | .clr => { s with fired := false, pc := .en }                                                  -- 143
  | .en => { s with w := s.w.enable t, units := 0, pc := .ie }                                    -- 144
  | .ie => { s with w := s.w.setIE, pc := .cli }                                                  -- 145
  | .cli => { s with i := false, pc := .slp }                                                     -- 60
  | .slp => { s with i := true, asleep := true, pc := .chk }                                      -- 61-64
  | .chk => if s.fired || premature then { s with ret := s.fired, pc := .dis0 } else { s with pc := .cli }   -- 65-66, 150-151
  | .dis0 => { s with i := false, pc := .dis1 }                                                   -- 153: saves I, `cli`
  | .dis1 => { s with w := s.w.disable, i := true, pc := .done }                                  -- 153: restores I, set since 63
  | .done => s

/-- `ISR(WDT_vect)` — Sleep.cpp 76-84; what it stores is never 0. Taking it clears WDIF and WDIE. -/
def Nap.isr (s : Nap) : Nap := { s with w := { s.w.disable with wdif := false }, fired := true, asleep := false }

/-- The CPU gets a turn. It runs OTV0P2BASE_Sleep.cpp 140-157 and takes the interrupt of 76-84 first if it can. -/
def Nap.cpu (t : Nat) (premature : Bool) (s : Nap) : Nap :=
  if s.i && s.w.wdif && s.w.wdie then { s.isr with wait := 0 }
  else if s.asleep then { s with wait := 0 }
  else { s.exec t premature with wait := 0 }

/-- Another interrupt. (Environment: hardware and its data sheet, not code of /repo.) -/
def Nap.other (s : Nap) : Nap := if s.i then { s with asleep := false } else s

/-- A unit of the watchdog's clock; `none`: reset. (Environment: hardware and its data sheet, not code of /repo.) -/
def Nap.unit (s : Nap) : Option Nap := s.w.unit.map fun w => { s with w := w, units := s.units + 1, wait := s.wait + 1 }

/-! ## Forced reset -/

inductive FPc
  | cli | en | spin
deriving DecidableEq, Repr

/-- The machine in `forceReset()` — OTV0P2BASE_Sleep.h 394-399. -/
structure Force where
  w : Wdt
  i : Bool
  pc : FPc
  units : Nat
deriving DecidableEq, Repr

/-- `forceReset()` — Sleep.h 394-399; `t`: four seconds; a turn of the CPU, which takes the watchdog's interrupt (Sleep.cpp 76-84) first if it can. -/
def Force.cpu (t : Nat) (s : Force) : Force :=
  if s.i && s.w.wdif && s.w.wdie then { s with w := { s.w.disable with wdif := false } }
  else match s.pc with
  | .cli => { s with i := false, pc := .en }
  | .en => { s with w := s.w.enable t, units := 0, pc := .spin }
  | .spin => s

/-- A unit of the watchdog's clock; none: reset. (Environment: hardware and its data sheet, not code of /repo.) -/
def Force.unit (s : Force) : Option Force := s.w.unit.map fun w => { s with w := w, units := s.units + 1 }

end OTR
