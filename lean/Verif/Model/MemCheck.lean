import Verif.Model.EEPROM
/-!
# Model: stack and profiling checks of `OTV0P2BASE_Util.h`/`.cpp`, setback lockout of `OTRadValve_ModelledRadValve.h`

Addresses are 16-bit numbers as on the AVR (`size_t` and `intptr_t` are 16 bits wide there). The program counter kept for diagnostics
is not modelled.
-/

namespace OTR

/-! ## Stack low-water mark -/

/-- `MIN_ALLOWABLE_STACK_SPACE` — Util.h 276. -/
notation "minStackSpace" => 64

/-- The static state of `MemoryChecks` (Util.h 265-268) and whether `WARN_STACK_SPACE_LOW` has been reported. -/
structure MemChk where
  minSP : Nat
  loc : Byte
  warned : Bool
deriving DecidableEq, Repr

/-- `resetMinSP` — Util.h 287. -/
def MemChk.reset (ramEnd : Nat) (m : MemChk) : MemChk := { m with minSP := ramEnd, loc := 0 }

mutual
/-- One call of `recordIfMinSP(location)` with the stack pointer at `pos`, and the interrupts taken during it that make such calls
themselves: before the load of `minSP`, between the load and the write of `checkLocation`, between that and the exchange, and after — calls of OTV0P2BASE_Util.h 298-308. -/
inductive RecCall where
  | mk (pos : Nat) (location : Byte) (a b c d : RecCalls)
/-- Calls one after the other — calls of OTV0P2BASE_Util.h 298-308. -/
inductive RecCalls where
  | nil
  | cons (x : RecCall) (t : RecCalls)
end

/-- The exchange and the test of the remaining space — Util.h 303-308. `min` is the value loaded; `compare_exchange_strong` leaves it
alone when it succeeds and puts the current value there when it fails (Concurrency.h 120-126). The difference is unsigned. -/
def MemChk.exchange (endAddr pos min : Nat) (m : MemChk) : MemChk × Bool :=
  if m.minSP = min then ({ m with minSP := pos }, decide ((min + 65536 - endAddr) % 65536 < minStackSpace))
  else (m, decide ((m.minSP + 65536 - endAddr) % 65536 < minStackSpace))

mutual
/-- `recordIfMinSP` — Util.h 298-310. -/
def RecCall.exec (endAddr : Nat) : RecCall → MemChk → MemChk
  | .mk pos location a b c d, m =>
    let m1 := RecCalls.exec endAddr a m
    let m2 := RecCalls.exec endAddr b m1
    if pos < m1.minSP then                                                        -- 301
      let m3 := RecCalls.exec endAddr c { m2 with loc := location }                -- 302
      let x := m3.exchange endAddr pos m1.minSP                                    -- 303, 307-308
      let m4 := RecCalls.exec endAddr d x.1
      { m4 with warned := m4.warned || x.2 }
    else RecCalls.exec endAddr d (RecCalls.exec endAddr c m2)
/-- The calls one after the other — OTV0P2BASE_Util.h 298-308 for each. -/
def RecCalls.exec (endAddr : Nat) : RecCalls → MemChk → MemChk
  | .nil, m => m
  | .cons x t, m => RecCalls.exec endAddr t (RecCall.exec endAddr x m)
end

/-- A 16-bit value read as signed. -/
def asInt16 (n : Nat) : Int := if n % 65536 < 32768 then (n % 65536 : Nat) else (n % 65536 : Nat) - 65536

/-- `getMinSPSpaceBelowStackToEnd` — Util.h 314. -/
def MemChk.space (endAddr : Nat) (m : MemChk) : Int := asInt16 (m.minSP + 65536 - endAddr)

/-- `stackCheck` — Util.cpp 77-99: whether "!SP" is printed, and whether the processor is reset (`forceResetIfStackOverflow`,
Util.h 316). -/
def MemChk.stackCheck (endAddr : Nat) (m : MemChk) : Bool × Bool :=
  (decide (m.space endAddr < minStackSpace), decide (m.space endAddr ≤ 0))

/-! ## Profiling tables -/

/-- One entry of the call-count tables — Util.h 335-337. -/
structure CallSlot where
  cur : Nat
  max : Nat
  min : Nat
deriving DecidableEq, Repr

/-- `initCallTable` — Util.h 341. -/
def CallSlot.init : CallSlot := ⟨0, 0, 255⟩
/-- `fnCalled` on this entry — Util.h 369. -/
def CallSlot.called (s : CallSlot) : CallSlot := { s with cur := (s.cur + 1) % 256 }
/-- `resetCallTable` on this entry — Util.h 350-352. -/
def CallSlot.reset (s : CallSlot) : CallSlot := { cur := 0, max := Nat.max s.max s.cur, min := Nat.min s.min s.cur }

/-- The table has 8 entries; `fnCalled(loc)` bumps one, `resetCallTable()` handles all — Util.h 345-356, 369. -/
inductive CallEv where
  | called (loc : Nat)
  | reset
deriving DecidableEq, Repr

/-- One such event on the whole table — OTV0P2BASE_Util.h 345-356, 369. -/
def callStep (t : Nat → CallSlot) : CallEv → Nat → CallSlot
  | .called loc, i => if i = loc then (t i).called else t i
  | .reset, i => (t i).reset

/-- One entry of the time tables — Util.h 395-397. -/
structure TimeSlot where
  temp : Nat
  start : Nat
  dur : Nat
deriving DecidableEq, Repr

/-- `initTimeTable` — Util.h 401. -/
def TimeSlot.init : TimeSlot := ⟨0, 0, 0⟩
/-- `fnStart` at sub-cycle time `now` — Util.h 429-431. -/
def TimeSlot.fnStart (now : Nat) (s : TimeSlot) : TimeSlot := { s with temp := now }
/-- `fnExit` at sub-cycle time `now` — Util.h 432-440. -/
def TimeSlot.fnExit (now : Nat) (s : TimeSlot) : TimeSlot :=
  let curDur := (now + 256 - s.temp) % 256                                         -- 437
  if 255 < s.start + s.dur then s                                                  -- 438
  else if curDur > s.dur then { s with start := s.temp, dur := curDur } else s     -- 439

/-! ## Setback lockout -/

/-- `V0P2BASE_EE_START_SETBACK_LOCKOUT_COUNTDOWN_D_INV` — EEPROM.h 160: the first raw inspectable byte. -/
notation "lockoutAddr" => 32

/-- `getSetbackLockout` — ModelledRadValve.h 106. -/
def getSetbackLockout (m : EE) : Nat := (~~~ (m lockoutAddr)).toNat

/-- `countDownSetbackLockout` — ModelledRadValve.h 109-118. -/
def countDownSetbackLockout (split : Bool) : EM Bool := fun m =>
  if m lockoutAddr ≠ 0xff then smartUpdate split lockoutAddr (~~~ ((~~~ (m lockoutAddr)) - 1)) m else (false, [])

end OTR
