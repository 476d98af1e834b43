import Verif.Model.SoftSerial
import Verif.Model.JSONStats
/-!
# The rest of `OTSoftSerial` — `U/OTV0P2BASE_SoftSerial.cpp` — and the sub-cycle time on the EFR32 — `U/OTV0P2BASE_Sleep.h`

What is written is the list of bytes each of which `print(char)` (`txFrame`) puts on the line.
-/

namespace OTR

/-- `OTSoftSerial::read()` — OTV0P2BASE_SoftSerial.cpp 81-109, `timeOut` OTV0P2BASE_SoftSerial.h 69: polls before the start bit, line during the byte (time 0 = edge of the
start bit, noticed `lat` later), polls after it. -/
def ss1Read (pre : Nat → Bool) (line : Nat → Bool) (lat half p : Nat) (post : Nat → Bool) : Nat :=
  match pollWait false pre 30000 0 with                                         -- 90-92
  | none => 0
  | some _ =>
    match pollWait true post 30000 0 with                                       -- 103-106
    | none => 0
    | some _ => sampleByte line (lat + half) p                                  -- 95-101

/-- `OTSoftSerial::write(buf, len)` — OTV0P2BASE_SoftSerial.cpp 194-200; `none`: reads past the buffer. -/
def ss1Write : Bytes → Nat → Option Bytes
  | _, 0 => some []
  | [], _ + 1 => none
  | b :: t, n + 1 => (ss1Write t n).map (b :: ·)

/-- `OTSoftSerial::print(const char *)` — OTV0P2BASE_SoftSerial.cpp 208-217: the bytes written and the `uint8_t` returned, counted up from `i`; `none`: no NUL in the buffer. -/
def ss1Print : Bytes → Nat → Option (Bytes × Nat)
  | [], _ => none
  | b :: t, i => if b = 0 then some ([], i) else (ss1Print t ((i + 1) % 256)).map fun x => (b :: x.1, x.2)

/-- `OTSoftSerial::printNum` — OTV0P2BASE_SoftSerial.cpp 226-237: `itoa` fills the 5-byte buffer (`none` if the text and its NUL do not fit), which is then printed. -/
def ss1PrintNum (n : Int) : Option (Bytes × Nat) :=
  if (decInt n).length + 1 ≤ 5 then ss1Print (decInt n ++ List.replicate (5 - (decInt n).length) 0) 0 else none

/-! ## EFR32 -/

/-- `calcSysTickTicks(2000U/256U)` — OTV0P2BASE_Sleep.h 292-296, 302-305: core clocks between two SysTick interrupts, in `uint32_t` arithmetic. -/
def sysTicks (f : Nat) : Nat := (f * (2000 / 256)) % 2 ^ 32 / 1000

/-- `tickSubCycle()` — OTV0P2BASE_Sleep.h 312-316; `uint_fast8_t` has `w` bits. -/
def tickSub (w s : Nat) : Nat := if (s + 1) % 2 ^ w = 256 then 0 else (s + 1) % 2 ^ w

/-- The sub-cycle time after `n` interrupts. (Vocabulary: repeated OTV0P2BASE_Sleep.h 312-316.) -/
def subAfter (w : Nat) : Nat → Nat
  | 0 => 0
  | n + 1 => tickSub w (subAfter w n)

end OTR
