import Verif.Model.EEPROM
/-!
# Daily schedule and valve mode — `U/OTRadValve_SimpleValveSchedule.{h,cpp}`, `U/OTRadValve_ValveMode.h`

The EEPROM-backed schedule is modelled; the on-time (`onTime()`, virtual) is a parameter `dur`.
-/

namespace OTR

/-- `MINS_PER_DAY`. -/
notation "minsPerDay" => 1440
/-- `uint_least16_t(~0)`, meaning no schedule. -/
notation "noSched" => 65535
/-- `PREWARM_MINS` = max(30, 6 + 60/2) — SimpleValveSchedule.h 120-129. -/
notation "prewarmMins" => 36
/-- `PREPREWARM_MINS` = 3*(36/2) — SimpleValveSchedule.h 136. -/
notation "preprewarmMins" => 54
/-- `MAX_COMPRESSED_MINS_AFTER_MIDNIGHT` = 1440/6 - 1 — SimpleValveSchedule.h 168. -/
notation "maxProgrammeByte" => 239
/-- `V0P2BASE_EE_START_SIMPLE_SCHEDULE0_ON` — OTV0P2BASE_EEPROM.h 108. -/
notation "eeSchedule" => 12
/-- `MAX_SIMPLE_SCHEDULES` — SimpleValveSchedule.h 293, OTV0P2BASE_EEPROM.h 109. -/
notation "maxSchedules" => 2

/-- `computeProgrammeByteFromTime` — SimpleValveSchedule.h 176-180. -/
def programmeByte (t : Nat) : Byte := UInt8.ofNat (t / 6)

/-- `computeScheduleOnTimeFromProgrammeByte` — SimpleValveSchedule.h 188-208. -/
def onTimeFromByte (b : Byte) : Nat :=
  let st := 6 * b.toNat                                                         -- 201, 191
  let st := if prewarmMins > st then st + minsPerDay else st                    -- 205
  st - prewarmMins                                                              -- 206

/-- `getSimpleScheduleOn` — SimpleValveSchedule.cpp 151-160. -/
def schedOn (m : EE) (which : Nat) : Nat :=
  if which ≥ maxSchedules then noSched
  else
    let b := m (eeSchedule + which)
    if b.toNat > maxProgrammeByte then noSched
    else onTimeFromByte b

/-- `getSimpleScheduleOff` — SimpleValveSchedule.cpp 84-92. -/
def schedOff (m : EE) (dur which : Nat) : Nat :=
  let s := schedOn m which
  if s = noSched then noSched
  else
    let e := (s + prewarmMins + dur) % 65536                                    -- 89
    if e ≥ minsPerDay then e - minsPerDay else e                                -- 90

/-- Loop body of `isAnyScheduleOnWARMNow` for one schedule — SimpleValveSchedule.cpp 106-125. -/
def schedOnNow1 (m : EE) (dur mm which : Nat) : Bool :=
  let s := schedOn m which
  if s = noSched then false
  else
    let e := schedOff m dur which
    if s < e then decide (s ≤ mm ∧ mm < e) else decide (s ≤ mm ∨ mm < e)

/-- `isAnyScheduleOnWARMNow` — SimpleValveSchedule.cpp 99-129. -/
def schedOnNow (m : EE) (dur mm : Nat) : Bool :=
  if mm ≥ minsPerDay then false
  else (List.range maxSchedules).any (schedOnNow1 m dur mm)

/-- `isAnyScheduleOnWARMSoon` — SimpleValveSchedule.cpp 136-142. -/
def schedOnSoon (m : EE) (dur mm : Nat) : Bool :=
  if mm ≥ minsPerDay then false
  else
    let mm0 := mm + preprewarmMins
    schedOnNow m dur (if mm0 ≥ minsPerDay then mm0 - minsPerDay else mm0)

/-- `setSimpleSchedule` — SimpleValveSchedule.cpp 168-178. -/
def schedSet (split : Bool) (t which : Nat) : EM Bool :=
  emIf (which ≥ maxSchedules) (emRet false) <|
  emIf (t ≥ minsPerDay) (emRet false) <|
  emBind (smartUpdate split (eeSchedule + which) (programmeByte t)) fun _ => emRet true

/-- `clearSimpleSchedule` — SimpleValveSchedule.cpp 183-189. -/
def schedClear (which : Nat) : EM Unit :=
  emIf (which ≥ maxSchedules) (emRet ()) <|
  emBind (smartErase (eeSchedule + which)) fun _ => emRet ()

/-- `isAnySimpleScheduleSet` — SimpleValveSchedule.cpp 193-204. -/
def schedAnySet (m : EE) : Bool :=
  (List.range maxSchedules).any fun which => decide ((m (eeSchedule + which)).toNat ≤ maxProgrammeByte)

/-- `SimpleValveSchedule::onTime` — SimpleValveSchedule.h 339-364; `eco`, `comfort` classify the WARM target,
`longVacant` is the occupancy test (false if there is no occupancy sensor). -/
def schedOnTime (learned learnedComfort : Nat) (eco comfort longVacant : Bool) : Nat :=
  if learned = learnedComfort then learned
  else if eco then learned
  else if comfort then learnedComfort
  else if longVacant then learned
  else (learned + learnedComfort) / 2

/-! ## Valve mode -/

/-- `DEFAULT_BAKE_MAX_M` — OTRadValve_Parameters.h 237. -/
notation "bakeMaxM" => 31

/-- `ValveMode` object — ValveMode.h 57-62 (`value`, the last mode read, is not needed). -/
structure VMode where
  warm : Bool
  bakeM : Nat
deriving Repr, DecidableEq

/-- As constructed — ValveMode.h 57, 70. -/
def VMode.init : VMode := { warm := false, bakeM := 0 }

/-- `setWarmModeDebounced` — ValveMode.h 128-132, 140. -/
def VMode.setWarm (v : VMode) (w : Bool) : VMode := { warm := w, bakeM := if w then v.bakeM else 0 }

/-- `startBake` — ValveMode.h 145. -/
def VMode.startBake (_ : VMode) : VMode := { warm := true, bakeM := bakeMaxM }

/-- `cancelBakeDebounced` — ValveMode.h 140. -/
def VMode.cancelBake (v : VMode) : VMode := { v with bakeM := 0 }

/-- `_get` — ValveMode.h 99-104: 0 FROST, 1 WARM, 2 BAKE. -/
def VMode.get (v : VMode) : Nat := if !v.warm then 0 else if v.bakeM ≠ 0 then 2 else 1

/-- `read` — ValveMode.h 108-114, with no interference from interrupts (`safeDecIfNZWeak`, Concurrency.h 209-215). -/
def VMode.read (v : VMode) : VMode := { v with bakeM := v.bakeM - 1 }

/-- `set` — ValveMode.h 82-93; `false` if the mode number is not legal. -/
def VMode.set (v : VMode) (n : Nat) : Bool × VMode :=
  if n = 0 then (true, v.setWarm false)
  else if n = 1 then (true, v.setWarm true)
  else if n = 2 then (true, v.startBake)
  else (false, v)

/-- `inWarmMode`, `inBakeMode` — ValveMode.h 123, 135. -/
def VMode.inBake (v : VMode) : Bool := v.warm && v.bakeM != 0

/-- Loop body of `applyUserSchedule` — SimpleValveSchedule.cpp 56-77. -/
def applySched1 (m : EE) (dur mm : Nat) (v : VMode) (which : Nat) : VMode :=
  if !schedOnNow m dur mm && mm == schedOff m dur which then v.setWarm false
  else if mm = schedOn m which then v.setWarm true
  else v

/-- `applyUserSchedule` — SimpleValveSchedule.cpp 50-78. -/
def applySched (m : EE) (dur mm : Nat) (v : VMode) : VMode :=
  (List.range maxSchedules).foldl (applySched1 m dur mm) v

/-- What can happen to the mode. (Vocabulary of histories and observations; it stands for the order in which an application makes calls and has no code of its own in /repo.) -/
inductive VOp where
  | setWarm (w : Bool)
  | startBake
  | cancelBake
  | set (n : Nat)
  | read
deriving Repr, DecidableEq

/-- One operation. (Vocabulary of histories and observations; it stands for the order in which an application makes calls and has no code of its own in /repo.) -/
def VMode.step (v : VMode) : VOp → VMode
  | .setWarm w => v.setWarm w
  | .startBake => v.startBake
  | .cancelBake => v.cancelBake
  | .set n => (v.set n).2
  | .read => v.read

/-- A history of them. (Vocabulary of histories and observations; it stands for the order in which an application makes calls and has no code of its own in /repo.) -/
def VMode.run (v : VMode) (ops : List VOp) : VMode := ops.foldl VMode.step v

end OTR
