import Verif.Model.EEPROM

/-!
# Software real-time clock

Models `/repo/content/OTRadioLink/utility/OTV0P2BASE_RTC.{cpp,h}` for the AVR build with
`V0P2BASE_TWO_S_TICK_RTC_SUPPORT` (OTV0P2BASE_RTC.h 46).  Each routine that touches more than one variable does so with interrupts
off (`ATOMIC_BLOCK`) or is the interrupt routine itself, so each is one step here.  The RTC watchdog
(OTV0P2BASE_RTC.cpp 313-326, 355-386) is in Model/Watchdog.
-/

namespace OTR

/-- `_secondsLT`, `_minutesSinceMidnightLT`, `_daysSince1999LT`, OTV0P2BASE_RTC.cpp 55-67. -/
structure RTC where
  sec : Nat
  mins : Nat
  days : Nat
deriving DecidableEq, Repr

/-- `ISR(TIMER2_OVF_vect)`, OTV0P2BASE_RTC.cpp 331-353, with `MAIN_TICK_S` 2 (OTV0P2BASE_RTC.h 158). -/
def RTC.tick (r : RTC) : RTC :=
  if r.sec + 2 > 59 then
    if r.mins + 1 > 1439 then ⟨0, 0, (r.days + 1) % 65536⟩
    else ⟨0, r.mins + 1, r.days⟩
  else ⟨r.sec + 2, r.mins, r.days⟩

/-- `n` ticks. (Vocabulary of histories and observations; it stands for the order in which an application makes calls and has no code of its own in /repo.) -/
def RTC.ticks : Nat → RTC → RTC
  | 0, r => r
  | n + 1, r => (RTC.ticks n r).tick

/-- `setSeconds()`, OTV0P2BASE_RTC.cpp 301-310; `seconds & ~1`. -/
def RTC.setSeconds (r : RTC) (s : Nat) : RTC × Bool :=
  if s > 59 then (r, false) else ({ r with sec := s - s % 2 }, true)

/-- `getMinutesLT()`, `getHoursLT()`, `getPrevHourLT()`, `getNextHourLT()`, OTV0P2BASE_RTC.cpp 202-248. -/
def RTC.getMinutes (r : RTC) : Nat := r.mins % 60
/-- `getHoursLT()` — OTV0P2BASE_RTC.cpp 209. -/
def RTC.getHours (r : RTC) : Nat := r.mins / 60
/-- `getPrevHourLT()` — OTV0P2BASE_RTC.cpp 236-241. -/
def RTC.getPrevHour (r : RTC) : Nat := if r.getHours = 0 then 23 else r.getHours - 1
/-- `getNextHourLT()` — OTV0P2BASE_RTC.cpp 243-248. -/
def RTC.getNextHour (r : RTC) : Nat := if r.getHours ≥ 23 then 0 else r.getHours + 1

/-- `getElapsedSecondsLT(start, now)`, OTV0P2BASE_RTC.h 130-131. -/
def elapsedSeconds (start now : Nat) : Nat := if now ≥ start then now - start else 60 + now - start

notation "eeDay" => 8
notation "eeHHMM" => 10

/-- The byte to persist for a time of day, OTV0P2BASE_RTC.cpp 102-109. -/
def rtcByte (mins : Nat) : Byte :=
  let quarterHours : Byte := UInt8.ofNat (mins / 15)
  let targetByte : Byte := (quarterHours <<< 1) &&& ~~~7
  let low := quarterHours &&& 3
  if low = 0 then targetByte ||| 7 else if low = 1 then targetByte ||| 3 else if low = 2 then targetByte ||| 1 else targetByte

/-- avr-libc `eeprom_read_word` (little-endian) of the day cell. (Environment: avr-libc or the Arduino core, not code of /repo.) -/
def dayWord (m : EE) : Nat := (m eeDay).toNat + 256 * (m (eeDay + 1)).toNat

/-- avr-libc `eeprom_write_word`: low byte first (the order only matters if power fails between the two). (Environment: avr-libc or the Arduino core, not code of /repo.) -/
def writeDay (d : Nat) : EM Unit :=
  emBind (eeWrite eeDay (UInt8.ofNat (d % 256))) fun _ => eeWrite (eeDay + 1) (UInt8.ofNat (d / 256))

/-- `persistRTC()`, OTV0P2BASE_RTC.cpp 98-130. -/
def RTC.persist (r : RTC) : EM Unit :=
  let target := rtcByte r.mins
  eeRead eeHHMM fun persisted =>
  emIf (persisted ≠ target)
    (emBind (emIf (target ≠ persisted &&& target) (eeWrite eeHHMM target)
               (emBind (smartClearBits eeHHMM target) fun _ => emRet ())) fun _ =>
     fun m => emIf (dayWord m ≠ r.days) (writeDay r.days) (emRet ()) m)
    (emRet ())

/-- `restoreRTC()`, OTV0P2BASE_RTC.cpp 142-176. -/
def RTC.restore (r : RTC) (m : EE) : RTC × Bool :=
  let r := if dayWord m ≠ 0xffff then { r with days := dayWord m } else r
  let p := (m eeHHMM).toNat
  if p ≥ 24 * 8 then (r, false)
  else
    let mins := p / 8 * 60 + 8
    if p % 8 = 0 then ({ r with mins := mins + 45 }, true)
    else if p % 8 = 1 then ({ r with mins := mins + 30 }, true)
    else if p % 8 = 3 then ({ r with mins := mins + 15 }, true)
    else if p % 8 = 7 then ({ r with mins := mins }, true)
    else (r, false)

/-- `setHoursMinutesLT()`, OTV0P2BASE_RTC.cpp 259-273. -/
def RTC.setHM (r : RTC) (h m : Nat) (ee : EE) : RTC × Bool × EE :=
  if h > 23 ∨ m > 59 then (r, false, ee)
  else
    let c := 60 * h + m
    if c ≠ r.mins then
      let r' := { r with mins := c }
      (r', true, r'.persist.post ee)
    else (r, true, ee)

end OTR
