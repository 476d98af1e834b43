import Verif.Model.Schedule
/-!
# Schedule kept in RAM — `U/OTRadValve_SimpleValveSchedule.h` 212-278 (`SimpleValveScheduleMock`)

The class shares its queries with the EEPROM-backed schedule through `SimpleValveScheduleParams`; here they are written over
the number `slots.length` of schedules (the template argument `maxSched`) and the bytes held in RAM.
-/

namespace OTR

/-- `SimpleValveScheduleMock<maxSched>` object — SimpleValveSchedule.h 212-225; `maxSchedules()` is the length. -/
structure RamSched where
  slots : List Byte
deriving Repr, DecidableEq

/-- `clearSimpleSchedule` — SimpleValveSchedule.h 258-263. -/
def RamSched.clear (s : RamSched) (which : Nat) : RamSched :=
  if which ≥ s.slots.length then s else ⟨s.slots.set which 0xff⟩

/-- Constructor — SimpleValveSchedule.h 221-222: every schedule is cleared (the array before that is unspecified). -/
def RamSched.new (junk : List Byte) : RamSched :=
  (List.range junk.length).foldl RamSched.clear ⟨junk⟩

/-- `getSimpleScheduleOn` — SimpleValveSchedule.h 231-238. -/
def RamSched.on (s : RamSched) (which : Nat) : Nat :=
  if which ≥ s.slots.length then noSched
  else
    let b := s.slots[which]?.getD 0
    if b.toNat > maxProgrammeByte then noSched
    else onTimeFromByte b

/-- `setSimpleSchedule` — SimpleValveSchedule.h 246-253. -/
def RamSched.set (s : RamSched) (t which : Nat) : RamSched × Bool :=
  if which ≥ s.slots.length then (s, false)
  else if t ≥ minsPerDay then (s, false)
  else (⟨s.slots.set which (programmeByte t)⟩, true)

/-- `isAnySimpleScheduleSet` — SimpleValveSchedule.h 269-277. -/
def RamSched.anySet (s : RamSched) : Bool :=
  (List.range s.slots.length).any fun which => decide ((s.slots[which]?.getD 0).toNat ≤ maxProgrammeByte)

/-- `getSimpleScheduleOff` — SimpleValveSchedule.cpp 84-92; `dur` is `onTime()`, 60 minutes here (SimpleValveSchedule.h 142). -/
def RamSched.off (s : RamSched) (dur which : Nat) : Nat :=
  let b := s.on which
  if b = noSched then noSched
  else
    let e := (b + prewarmMins + dur) % 65536
    if e ≥ minsPerDay then e - minsPerDay else e

/-- Loop body of `isAnyScheduleOnWARMNow` — SimpleValveSchedule.cpp 106-125. -/
def RamSched.onNow1 (s : RamSched) (dur mm which : Nat) : Bool :=
  let b := s.on which
  if b = noSched then false
  else
    let e := s.off dur which
    if b < e then decide (b ≤ mm ∧ mm < e) else decide (b ≤ mm ∨ mm < e)

/-- `isAnyScheduleOnWARMNow` — SimpleValveSchedule.cpp 99-129. -/
def RamSched.onNow (s : RamSched) (dur mm : Nat) : Bool :=
  if mm ≥ minsPerDay then false
  else (List.range s.slots.length).any (s.onNow1 dur mm)

/-- `isAnyScheduleOnWARMSoon` — SimpleValveSchedule.cpp 136-142. -/
def RamSched.onSoon (s : RamSched) (dur mm : Nat) : Bool :=
  if mm ≥ minsPerDay then false
  else
    let mm0 := mm + preprewarmMins
    s.onNow dur (if mm0 ≥ minsPerDay then mm0 - minsPerDay else mm0)

/-- Loop body of `applyUserSchedule` — SimpleValveSchedule.cpp 56-77. -/
def RamSched.apply1 (s : RamSched) (dur mm : Nat) (v : VMode) (which : Nat) : VMode :=
  if !s.onNow dur mm && mm == s.off dur which then v.setWarm false
  else if mm = s.on which then v.setWarm true
  else v

/-- `applyUserSchedule` — SimpleValveSchedule.cpp 50-78. -/
def RamSched.apply (s : RamSched) (dur mm : Nat) (v : VMode) : VMode :=
  (List.range s.slots.length).foldl (s.apply1 dur mm) v

/-- What a user can do to a schedule. (Vocabulary of histories and observations; it stands for the order in which an application makes calls and has no code of its own in /repo.) -/
inductive SchedOp where
  | set (t which : Nat)
  | clear (which : Nat)
deriving Repr, DecidableEq

/-- One call on the schedule in RAM. (Vocabulary of histories and observations; it stands for the order in which an application makes calls and has no code of its own in /repo.) -/
def RamSched.step (s : RamSched) : SchedOp → RamSched
  | .set t w => (s.set t w).1
  | .clear w => s.clear w

/-- A history of calls on the schedule in RAM. (Vocabulary of histories and observations; it stands for the order in which an application makes calls and has no code of its own in /repo.) -/
def RamSched.run (s : RamSched) (ops : List SchedOp) : RamSched := ops.foldl RamSched.step s

/-- One call on the schedule in EEPROM. (Vocabulary of histories and observations; it stands for the order in which an application makes calls and has no code of its own in /repo.) -/
def schedStep (split : Bool) (m : EE) : SchedOp → EE
  | .set t w => (schedSet split t w).post m
  | .clear w => (schedClear w).post m

/-- A history of calls on the schedule in EEPROM. (Vocabulary of histories and observations; it stands for the order in which an application makes calls and has no code of its own in /repo.) -/
def schedRun (split : Bool) (m : EE) (ops : List SchedOp) : EE := ops.foldl (schedStep split) m

end OTR
