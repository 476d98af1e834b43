import Verif.Base
/-!
# Sleeping and delays — `U/OTV0P2BASE_Sleep.{h,cpp}`

Time in `sleepUntilSubCycleTime` is counted in half microseconds: a sub-cycle tick of the 32768 Hz clock, 2 s / 256, is 15625
of them. How long a nap or low-power sleep really takes is an input.
-/

namespace OTR

/-! ## `sleepUntilSubCycleTime` -/

/-- `getSubCycleTime()` (TCNT2) at time `t` since the start of some basic cycle — Sleep.h 286. -/
def subCycle (t : Nat) : Nat := t / 15625 % 256

/-- What the loop asks for next. (Vocabulary of histories and observations; it stands for the order in which an application makes calls and has no code of its own in /repo.) -/
inductive SleepReq where
  /-- `nap(WDTO_..MS)` -/
  | nap (ms : Nat)
  /-- `sleepLowPowerLessThanMs(ms)` -/
  | low (ms : Nat)
deriving Repr, DecidableEq

/-- Choice of sleep for the ticks left — Sleep.cpp 194-235. -/
def sleepChoice (ticksLeft : Nat) : SleepReq :=
  if ticksLeft = 1 then .low 1                                                  -- 196-203
  else
    let ms := 7 * ticksLeft                                                     -- 206
    if ms ≥ 20 then
      if ms ≥ 80 then
        if ms ≥ 333 then .nap 250                                               -- 216-220
        else .nap 60                                                            -- 221-222
      else .nap 15                                                              -- 224-225
    else .low (ms - 1)                                                          -- 235

/-- `sleepUntilSubCycleTime` — Sleep.cpp 184-237, with the true length of each sleep from `ds`. Result and time of return;
`none`: still sleeping when the lengths run out. -/
def sleepUntil (target : Nat) : Nat → List Nat → Option (Bool × Nat)
  | t, [] =>
    if subCycle t = target then some (true, t) else if subCycle t > target then some (false, t) else none
  | t, d :: ds =>
    if subCycle t = target then some (true, t)                                  -- 189
    else if subCycle t > target then some (false, t)                            -- 190
    else sleepUntil target (t + d) ds                                           -- 201, 218, 221, 224, 235

/-- `msRemainingThisBasicCycle()` — Sleep.h 349. -/
def msRemaining (t : Nat) : Nat := 7 * (255 - subCycle t)

/-! ## Watchdog naps -/

/-- An interrupt, and whether it comes while the CPU is still awake on its way to sleep or while it sleeps. (One that comes
between `cli()` and `sleep_cpu()` is held off and counts as the latter.) (Vocabulary of histories and observations; it stands for the order in which an application makes calls and has no code of its own in /repo.) -/
structure NapEv where
  asleep : Bool
  wdt : Bool
deriving Repr, DecidableEq

/-- `nap(watchdogSleep, allowPrematureWakeup)` — Sleep.cpp 140-157; with `false`, `nap(watchdogSleep)` 116-132 and `_idleCPU` 92-110
have the same loop. `fired` is `_watchdogFired`, set by the interrupt routine (76-84) and cleared at the start (143). -/
def napLoop (premature : Bool) : Bool → List NapEv → Option Bool
  | _, [] => none
  | fired, e :: es =>
    let fired := fired || e.wdt                                                 -- 83
    if e.asleep then                                                            -- 149: woken
      if fired || premature then some fired                                     -- 150-155
      else napLoop premature fired es
    else napLoop premature fired es

/-- One turn of the loop of `sleepUntilNewCycle`. (Vocabulary of histories and observations; it stands for the order in which an application makes calls and has no code of its own in /repo.) -/
structure CycleTurn where
  /-- result of the pre-sleep routine (`false` if there is none) -/
  busy : Bool
  /-- RTC ticks between reading the time and going to sleep -/
  late : Nat
  /-- RTC ticks while asleep (the one that wakes, if any) -/
  slept : Nat
deriving Repr, DecidableEq

/-- `sleepUntilNewCycle(old)` — Sleep.h 422-452; `secs` is the RTC's seconds count, 2 s per tick (RTC.h 157). Result: the value returned
and the seconds count at that time. -/
def newCycle (old : Nat) : Nat → List CycleTurn → Option (Nat × Nat)
  | secs, [] => if old ≠ secs then some (secs, secs) else none
  | secs, u :: us =>
    if old ≠ secs then some (secs, secs)                                        -- 431, 451
    else if u.busy then newCycle old ((secs + 2 * u.late) % 60) us              -- 433
    else newCycle old ((secs + 2 * u.late + 2 * u.slept) % 60) us               -- 438/448

/-! ## Busy delays, in CPU cycles (loop set-up not counted) -/

/-- `_delay_x4cycles(uint8_t n)` on AVR — Sleep.h 85-95: `dec` before the test, so 0 means 256 turns. -/
def avrX4 (n : Nat) : Nat := if n % 256 = 0 then 1024 else 4 * (n % 256)

/-- `OTV0P2BASE_busy_spin_delay(us)` at 1 MHz — Sleep.h 103-109. -/
def busy1MHz (const : Bool) (us : Nat) : Nat :=
  if const ∧ us = 0 then 0
  else (if const ∧ us % 2 = 1 then 1 else 0) + (if const ∧ us / 2 % 2 = 1 then 2 else 0) +
    (if us ≥ 4 then avrX4 (us / 4) else 0)

/-- `OTV0P2BASE_busy_spin_delay(us)` at 16 MHz — Sleep.h 111-116. -/
def busy16MHz (const : Bool) (us : Nat) : Nat :=
  if const ∧ us = 0 then 0 else (us / 64 % 256) * avrX4 0 + avrX4 (us % 64 * 4)

/-- `delay_ms(ms)` on AVR at 1 MHz — Sleep.h 129. -/
def delayMs1MHz (ms : Nat) : Nat := ms % 256 * busy1MHz true 996

/-- `_delay_x4cyclesLong(uint32_t n)` on ARM — Sleep.h 139-149. -/
def armX4Long (n : Nat) : Nat := 4 * (if n % 2 ^ 32 = 0 then 2 ^ 32 else n % 2 ^ 32)

/-- `_delay_x4cycles(n)` on ARM — Sleep.h 151. -/
def armX4 (n : Nat) : Nat := armX4Long (if n = 0 then 256 else 0)

/-- `delayLoopTimeInNS` with F_CPU = 19 MHz — Sleep.h 61, 158. -/
def armLoopNS : Nat := 1000000000 / (19000000 / 4)

/-- `OTV0P2BASE_busy_spin_delayLong(us)`, `us` not 0 — Sleep.h 159-169. -/
def armBusy (us : Nat) : Nat := armX4Long (us * (1000 / armLoopNS) % 2 ^ 32)

/-- `delay_ms(ms)` on ARM — Sleep.h 176. -/
def armDelayMs (ms : Nat) : Nat := ms * armBusy (1000000 / (armLoopNS * 9))

end OTR
