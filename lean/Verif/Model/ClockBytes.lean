import Verif.Model.RTC
/-!
# The clock's variables, byte by byte — `U/OTV0P2BASE_RTC.cpp` (AVR build)

The AVR reads and writes memory a byte at a time, and the clock interrupt (OTV0P2BASE_RTC.cpp 331-387) may come between any two steps of other code while
interrupts are on. This is the model under that of Model/RTC, in which each call is one step. The interrupt routine itself runs with interrupts
off and so is one step here. A request that comes while interrupts are off is held by the hardware, which can hold one.
-/

namespace OTR

/-- `_secondsLT`, the two bytes each of `_minutesSinceMidnightLT` and `_daysSince1999LT`, OTV0P2BASE_RTC.cpp 55-67; the CPU's interrupt flag, the clock's request,
the EEPROM, and the number of steps taken. As observations only: the number of clock interrupts requested and taken. -/
structure Clk where
  sec : Nat
  mLo : Byte
  mHi : Byte
  dLo : Byte
  dHi : Byte
  ie : Bool
  pend : Bool
  ee : EE
  t : Nat
  asked : Nat
  done : Nat

/-- The time the variables stand for: OTV0P2BASE_RTC.cpp 55-67, with the low byte first in memory. -/
def Clk.time (c : Clk) : RTC := ⟨c.sec, c.mLo.toNat + 256 * c.mHi.toNat, c.dLo.toNat + 256 * c.dHi.toNat⟩

/-- `ISR(TIMER2_OVF_vect)`, OTV0P2BASE_RTC.cpp 331-353: all variables are written. -/
def Clk.isr (c : Clk) : Clk :=
  { c with sec := c.time.tick.sec
           mLo := u8 c.time.tick.mins, mHi := u8 (c.time.tick.mins / 256)
           dLo := u8 c.time.tick.days, dHi := u8 (c.time.tick.days / 256)
           pend := false, done := c.done + 1 }

/-- What happens before a step of the program: the clock's request, if the schedule `w` says so, and the interrupt if it is requested and
interrupts are on. (Environment: hardware and its data sheet, not code of /repo.) -/
def Clk.before (w : Nat → Bool) (c : Clk) : Clk :=
  let c1 := { c with t := c.t + 1, pend := c.pend || w c.t, asked := if w c.t then c.asked + 1 else c.asked }
  if c1.ie && c1.pend then c1.isr else c1

/-- A program of steps, run under a schedule. (The language in which the routines are modelled; no code of its own.) -/
abbrev ClkP (α : Type) := (Nat → Bool) → Clk → α × Clk

/-- One step. (The language in which the routines are modelled; no code of its own.) -/
def ClkP.step {α : Type} (f : Clk → α × Clk) : ClkP α := fun w c => f (c.before w)

/-- One program and then another. (The language in which the routines are modelled; no code of its own.) -/
def ClkP.bind {α β : Type} (p : ClkP α) (q : α → ClkP β) : ClkP β := fun w c => q (p w c).1 w (p w c).2

/-- The program that does nothing. (The language in which the routines are modelled; no code of its own.) -/
def ClkP.ret {α : Type} (a : α) : ClkP α := fun _ c => (a, c)

/-- `ATOMIC_BLOCK(ATOMIC_RESTORESTATE)` of avr-libc, as used at OTV0P2BASE_RTC.cpp 100, 145, 172, 191, 219, 263: the flag is saved, interrupts are turned off, and
the flag is restored. -/
def clkAtomic {α : Type} (p : ClkP α) : ClkP α :=
  .bind (.step fun c => (c.ie, c)) fun s =>
  .bind (.step fun c => ((), { c with ie := false })) fun _ =>
  .bind p fun a =>
  .bind (.step fun c => ((), { c with ie := s })) fun _ => .ret a

/-- Reading `_minutesSinceMidnightLT`, OTV0P2BASE_RTC.cpp 193, 265. -/
def loadMins : ClkP Nat :=
  .bind (.step fun c => (c.mLo, c)) fun lo => .bind (.step fun c => (c.mHi, c)) fun hi => .ret (lo.toNat + 256 * hi.toNat)

/-- Reading `_daysSince1999LT`, OTV0P2BASE_RTC.cpp 220. -/
def loadDays : ClkP Nat :=
  .bind (.step fun c => (c.dLo, c)) fun lo => .bind (.step fun c => (c.dHi, c)) fun hi => .ret (lo.toNat + 256 * hi.toNat)

/-- Writing `_minutesSinceMidnightLT`, OTV0P2BASE_RTC.cpp 173, 268. -/
def storeMins (v : Nat) : ClkP Unit :=
  .bind (.step fun c => ((), { c with mHi := u8 (v / 256) })) fun _ => .step fun c => ((), { c with mLo := u8 v })

/-- Writing `_daysSince1999LT`, OTV0P2BASE_RTC.cpp 149. -/
def storeDays (v : Nat) : ClkP Unit :=
  .bind (.step fun c => ((), { c with dHi := u8 (v / 256) })) fun _ => .step fun c => ((), { c with dLo := u8 v })

/-- `getMinutesSinceMidnightLT()`, OTV0P2BASE_RTC.cpp 187-195. -/
def getMinsP : ClkP Nat := clkAtomic loadMins

/-- `getDaysSince1999LT()`, OTV0P2BASE_RTC.cpp 216-222. -/
def getDaysP : ClkP Nat := clkAtomic loadDays

/-- `setHoursMinutesLT()`, OTV0P2BASE_RTC.cpp 259-273. `persistRTC()` (OTV0P2BASE_RTC.cpp 98-130) is one step, as interrupts are off. -/
def setHMP (h m : Nat) : ClkP Bool :=
  if h > 23 ∨ m > 59 then .ret false                                            -- 261
  else
    let v := 60 * h + m                                                         -- 262
    .bind (clkAtomic (.bind loadMins fun old =>                                 -- 263, 265
      if v ≠ old then .bind (storeMins v) fun _ => .step fun c => ((), { c with ee := c.time.persist.post c.ee })   -- 268-269
      else .ret ())) fun _ => .ret true                                         -- 272

/-- `restoreRTC()`, OTV0P2BASE_RTC.cpp 142-176: the days, then the minutes, in two atomic blocks. -/
def restoreP : ClkP Bool :=
  .bind (clkAtomic (.bind (.step fun c => (dayWord c.ee, c)) fun days =>        -- 148
    .bind (if days ≠ 0xffff then storeDays days else .ret ()) fun _ =>          -- 149
    .step fun c => ((c.ee eeHHMM).toNat, c))) fun p =>                          -- 152
  if p ≥ 24 * 8 then .ret false                                                 -- 156
  else
    let mins := p / 8 * 60 + 8                                                  -- 158-159
    let set := fun v => ClkP.bind (clkAtomic (storeMins v)) fun _ => .ret true  -- 172-175
    if p % 8 = 0 then set (mins + 45)                                           -- 163
    else if p % 8 = 1 then set (mins + 30)                                      -- 164
    else if p % 8 = 3 then set (mins + 15)                                      -- 165
    else if p % 8 = 7 then set mins                                             -- 166
    else .ret false                                                             -- 167

/-- Other code, a step of it: `getSecondsLT()` of U/OTV0P2BASE_RTC.h 93 (one byte), or anything that leaves these variables alone. -/
def getSecP : ClkP Nat := .step fun c => (c.sec, c)

/-- A call. -/
inductive ClkOp where
  | seconds
  | minutes
  | days
  | setHM (h m : Nat)
  | restore

/-- Its program: OTV0P2BASE_RTC.cpp 142-176, 187-195, 216-222, 259-273. -/
def ClkOp.run : ClkOp → (Nat → Bool) → Clk → Clk
  | .seconds, w, c => (getSecP w c).2
  | .minutes, w, c => (getMinsP w c).2
  | .days, w, c => (getDaysP w c).2
  | .setHM h m, w, c => (setHMP h m w c).2
  | .restore, w, c => (restoreP w c).2

end OTR
