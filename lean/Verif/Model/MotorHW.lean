import Verif.Base
/-!
# Motor hardware drivers — `U/OTRadValve_ValveMotorBase.{h,cpp}`, `U/OTRadValve_ValveMotorDirectV1.h` (the driver class)
and `U/OTRadValve_ValveMotorDRV8850.h` (the driver class)

`motorRun` is modelled as the exact list of port writes, pin-mode changes, naps and monitored spins it performs; running
that list on the port registers gives the waveform on the motor lines. `spinSCTTicks` is modelled separately, against an
arbitrary clock and an arbitrary current sensor.

Not modelled: the ADC current reading behind `isCurrentHigh` (any Boolean at every poll), the shaft encoder (its use is
commented out), time passed by a port write (zero).
-/

namespace OTR

/-- `motor_drive` — OTRadValve_AbstractRadValve.h 277-283 (`motorStateInvalid` is never passed). -/
inductive MDir where
  | off | closing | opening
deriving Repr, DecidableEq

/-- `minMotorRunupTicks = max(1, 32/7)` — ValveMotorBase.h 43-45, `SUBCYCLE_TICK_MS_RD` = 7 (Sleep.h 335). -/
notation "runupTicks" => 4
/-- `minMotorHBridgeSettleTicks = max(1, 8/7)` — ValveMotorBase.h 37-39. -/
notation "settleTicks" => 1
/-- `sctAbsLimit = 255 - max(1, 256/4 - 4 - 1 - 240/7)` — ValveMotorBase.cpp 44-45, CurrentSenseValveMotorDirect.h 104-112. -/
notation "sctAbsLim" => 230

/-! ## `spinSCTTicks` -/

/-- One turn of a polling loop: was the current high when looked at, and what the sub-cycle clock then read — OTRadValve_ValveMotorBase.cpp 62-92. -/
structure MPoll where
  high : Bool
  sct : Nat
deriving Repr, DecidableEq

/-- What `spinSCTTicks` did: `signalRunSCTTick` calls, whether `signalHittingEndStop` was called, its result, and the
last clock value seen — OTRadValve_ValveMotorBase.cpp 42-102. -/
structure Spun where
  ticks : Nat
  endStop : Bool
  result : Bool
  sct : Nat
deriving Repr, DecidableEq

/-- First loop (run for the minimum time, current ignored) — ValveMotorBase.cpp 62-73. `none`: still looping when the
polls run out. -/
def spinMin (minT : Nat) (stopped : Bool) : Nat → Nat → List MPoll → Option (Nat × Nat × List MPoll)
  | _, _, [] => none
  | sct, ticks, p :: ps =>
    if p.sct ≠ sct then                                                         -- 66
      let ticks := if stopped then ticks else ticks + 1                         -- 69
      if p.sct ≥ minT then some (p.sct, ticks, ps) else spinMin minT stopped p.sct ticks ps   -- 68, 70
    else spinMin minT stopped sct ticks ps

/-- Second loop (run to the limit, current watched) — ValveMotorBase.cpp 80-92. Result: last clock value, ticks, current high. -/
def spinMax (maxT : Nat) (stopped : Bool) : Nat → Nat → List MPoll → Option (Nat × Nat × Bool)
  | _, _, [] => none
  | sct, ticks, p :: ps =>
    if p.high then some (sct, ticks, true)                                      -- 83
    else if p.sct ≠ sct then                                                    -- 86
      let ticks := if stopped then ticks else ticks + 1                         -- 89
      if p.sct ≥ maxT then some (p.sct, ticks, false) else spinMax maxT stopped p.sct ticks ps  -- 88, 90
    else spinMax maxT stopped sct ticks ps

/-- `spinSCTTicks` — ValveMotorBase.cpp 42-102, entered at sub-cycle time `start`. -/
def spinSCT (maxRun minAbort : Nat) (d : MDir) (start : Nat) (polls : List MPoll) : Option Spun :=
  if start ≥ sctAbsLim ∨ sctAbsLim - start < minAbort then some ⟨0, false, true, start⟩         -- 51-53
  else
    let stopped := decide (d = .off)                                            -- 55
    let minT := start + minAbort                                                -- 59
    let maxT := start + min maxRun (sctAbsLim - start)                          -- 60
    match spinMin minT stopped start 0 polls with                               -- 62-73
    | none => none
    | some (sct, ticks, rest) =>
      if maxT > minT then                                                       -- 78
        match spinMax maxT stopped sct ticks rest with                          -- 80-92
        | none => none
        | some (sct, ticks, high) => some ⟨ticks, high, high, sct⟩              -- 96-101
      else some ⟨ticks, false, false, sct⟩

/-! ## Ports and waveforms -/

/-- The three control pins (`nSLEEP` only on the DRV8850 board). -/
inductive MPin where
  | ml | mr | nsleep
deriving Repr, DecidableEq

/-- A port bit: data direction (true = output) and output latch. (Environment: hardware and its data sheet, not code of /repo.) -/
structure PinSt where
  out : Bool
  port : Bool
deriving Repr, DecidableEq

/-- The pins. (Environment: hardware and its data sheet, not code of /repo.) -/
structure Pins where
  ml : PinSt
  mr : PinSt
  nsleep : PinSt
deriving Repr, DecidableEq

/-- One step of a `motorRun` body — OTRadValve_ValveMotorDirectV1.h 121-196 and `motorRun` of OTRadValve_ValveMotorDRV8850.h: one constructor for each statement used. -/
inductive HAct where
  /-- `fastDigitalWrite(pin, level)` -/
  | write (p : MPin) (b : Bool)
  /-- `pinMode(pin, OUTPUT)` -/
  | output (p : MPin)
  /-- `pinMode(pin, INPUT_PULLUP)` -/
  | pullup (p : MPin)
  /-- `nap(...)`, in milliseconds -/
  | nap (ms : Nat)
  /-- `spinSCTTicks(maxRun, minAbort, d, callback)` -/
  | spin (maxRun minAbort : Nat) (d : MDir)
deriving Repr, DecidableEq

/-- `ValveMotorDirectV1HardwareDriver::motorRun` — ValveMotorDirectV1.h 121-196, with `prev` the previous `dir`. -/
def directV1Run (maxRun : Nat) (prev dir : MDir) : List HAct :=
  match dir with
  | .closing =>
    [.write .ml true, .output .ml] ++                                           -- 142-143
    (if prev ≠ dir then [.nap 120] else []) ++                                  -- 146
    [.output .mr, .write .mr false,                                             -- 147-148
     .spin (max maxRun runupTicks) runupTicks dir]                              -- 150
  | .opening =>
    [.write .mr true, .output .mr] ++                                           -- 159-160
    (if prev ≠ dir then [.nap 120] else []) ++                                  -- 163
    [.output .ml, .write .ml false,                                             -- 164-165
     .spin (max maxRun runupTicks) runupTicks dir]                              -- 167
  | .off =>
    [.write .mr true, .pullup .mr,                                              -- 176-177
     .spin (if prev = .off then settleTicks else runupTicks)
           (if prev = .off then 0 else runupTicks / 2) prev,                    -- 181-184
     .write .ml true, .pullup .ml,                                              -- 185-186
     .spin settleTicks 0 .off] ++                                               -- 188
    (if prev ≠ dir then [.nap 60] else [])                                      -- 189

/-- `DRV8850HardwareDriver::motorRun` — ValveMotorDRV8850.h 106-180. -/
def drv8850Run (maxRun : Nat) (prev dir : MDir) : List HAct :=
  match dir with
  | .closing =>
    [.write .ml false, .write .nsleep true] ++                                  -- 120-122
    (if prev ≠ dir then [.nap 120] else []) ++                                  -- 125
    [.write .mr true, .spin (max maxRun runupTicks) runupTicks dir]             -- 126-129
  | .opening =>
    [.write .mr false, .write .nsleep true] ++                                  -- 137-139
    (if prev ≠ dir then [.nap 120] else []) ++                                  -- 142
    [.write .ml true, .spin (max maxRun runupTicks) runupTicks dir]             -- 143-146
  | .off =>
    [.write .nsleep false, .write .mr false, .write .mr false,                  -- 154-157: MR twice, ML never
     .spin (if prev = .off then settleTicks else runupTicks)
           (if prev = .off then 0 else runupTicks / 2) prev,                    -- 163-166
     .spin settleTicks 0 .off] ++                                               -- 168
    (if prev ≠ dir then [.nap 60] else [])                                      -- 169

/-- Change one pin. (Environment: hardware and its data sheet, not code of /repo.) -/
def Pins.upd (s : Pins) (p : MPin) (f : PinSt → PinSt) : Pins :=
  match p with
  | .ml => { s with ml := f s.ml }
  | .mr => { s with mr := f s.mr }
  | .nsleep => { s with nsleep := f s.nsleep }

/-- Effect of a step on the port registers (Arduino `fastDigitalWrite` and `pinMode` semantics). (Environment: avr-libc or the Arduino core, not code of /repo.) -/
def Pins.step (s : Pins) : HAct → Pins
  | .write p b => s.upd p fun x => { x with port := b }
  | .output p => s.upd p fun x => { x with out := true }
  | .pullup p => s.upd p fun _ => ⟨false, true⟩
  | .nap _ => s
  | .spin _ _ _ => s

/-- The waveform of a list of steps: each step with the pin state that results (and, for naps and spins, persists
throughout the step). (Vocabulary of histories and observations; it stands for the order in which an application makes calls and has no code of its own in /repo.) -/
def wave (s : Pins) : List HAct → List (HAct × Pins)
  | [] => []
  | a :: as => (a, s.step a) :: wave (s.step a) as

/-- Pin state after a list of steps. (Vocabulary of histories and observations; it stands for the order in which an application makes calls and has no code of its own in /repo.) -/
def Pins.run (s : Pins) (as : List HAct) : Pins := as.foldl Pins.step s

/-- Waveform of a sequence of `motorRun(maxRun, dir)` calls on driver `drv`, from pin state `s` and last direction `prev`
(`last_dir = dir` at the end of each call — ValveMotorDirectV1.h 195, ValveMotorDRV8850.h 179). -/
def callsWave (drv : Nat → MDir → MDir → List HAct) : Pins → MDir → List (Nat × MDir) → List (HAct × Pins)
  | _, _, [] => []
  | s, prev, (n, dir) :: cs =>
    wave s (drv n prev dir) ++ callsWave drv (s.run (drv n prev dir)) dir cs

/-- Pin state after a sequence of calls. (Vocabulary of histories and observations; it stands for the order in which an application makes calls and has no code of its own in /repo.) -/
def callsPins (drv : Nat → MDir → MDir → List HAct) : Pins → MDir → List (Nat × MDir) → Pins
  | s, _, [] => s
  | s, prev, (n, dir) :: cs => callsPins drv (s.run (drv n prev dir)) dir cs

end OTR
