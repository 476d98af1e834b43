import Verif.Base
/-!
# Clock tests and calibration — `U/OTV0P2BASE_HardwareTests.cpp`

The two clocks are inputs: what TCNT2 (32768 Hz crystal, 128 Hz ticks) and TCNT0 (CPU clock / 64, as the Arduino core sets it)
show at each look.
-/

namespace OTR

/-- Loop of `check32768HzOsc` — HardwareTests.cpp 74-87. `rd n` is TCNT2 at the n-th look, a 15 ms nap after the one before.
Result and number of looks. -/
def oscLoop (init : Nat) (rd : Nat → Nat) : Nat → Nat → Bool × Nat
  | 0, n => (false, n)                                                          -- 87
  | i + 1, n =>
    if rd n ≠ init ∧ rd n ≠ (init + 1) % 256 then (true, n + 1)                 -- 79
    else oscLoop init rd i (n + 1)                                              -- 81

/-- `check32768HzOsc()` — HardwareTests.cpp 60-88: `for(i = 255; --i > 0; )` is 254 turns. -/
def oscCheck (init : Nat) (rd : Nat → Nat) : Bool × Nat := oscLoop init rd 254 0

/-- `count` of one try of `check32768HzOscExtended`, given the CPU cycle in which each of two successive TCNT2 edges is seen
— HardwareTests.cpp 119-125. -/
def extCount (c1 c2 : Nat) : Nat := (c2 / 64 % 256 + 256 - c1 / 64 % 256) % 256

/-- Loop of `check32768HzOscExtended` — HardwareTests.cpp 111-139; `fuel` is 32 - i, as the try with i = 31 is the last (129).
Result and tries made. -/
def extLoop (cnt : Nat → Nat) : Nat → Nat → Bool × Nat
  | 0, i => (false, i)
  | f + 1, i =>
    if cnt i < 122 + 4 ∧ cnt i > 122 - 4 then (true, i + 1)                     -- 128
    else if i > 30 then (false, i + 1)                                          -- 129
    else extLoop cnt f (i + 1)

/-- `check32768HzOscExtended()` — HardwareTests.cpp 99-142. -/
def extCheck (init : Nat) (rd : Nat → Nat) (cnt : Nat → Nat) : Bool × Nat :=
  if (oscCheck init rd).1 then extLoop cnt 32 0 else (false, 0)                 -- 102

/-- Counting loop of `calibrateInternalOscWithExtOsc` — HardwareTests.cpp 213-218: a turn takes 39 cycles (188), and the tick
ends `cycles` after the loop starts. `fuel` bounds the turns. -/
def calLoop (cycles : Nat) : Nat → Nat → Nat
  | 0, turns => turns
  | f + 1, turns =>
    if 39 * (turns + 1) < cycles then calLoop cycles f (turns + 1) else turns + 1

/-- `count` (a byte, 201) for a tick of the given CPU cycles. -/
def calCount (cycles : Nat) : Nat := calLoop cycles cycles 0 % 256

/-- 187-189 -/
def calTarget : Nat := 7815 / 39 % 256

/-- Tuning loop — HardwareTests.cpp 199-250: `cnt i o` is the count of try i with OSCCAL = o. Result, OSCCAL left, tries made. -/
def tuneLoop (cnt : Nat → Nat → Nat) : Nat → Nat → Nat → Bool × Nat × Nat
  | 0, o, i => (false, o, i)                                                    -- 250
  | f + 1, o, i =>
    if o = 0x80 ∨ o = 0xFF then (false, o, i + 1)                               -- 230
    else if cnt i o > calTarget then tuneLoop cnt f ((o + 255) % 256) (i + 1)   -- 231
    else if cnt i o < calTarget then tuneLoop cnt f ((o + 1) % 256) (i + 1)     -- 232
    else (true, o, i + 1)                                                       -- 234

/-- `calibrateInternalOscWithExtOsc()` — HardwareTests.cpp 180-251. -/
def calibrateOsc (init : Nat) (rd : Nat → Nat) (cnt : Nat → Nat → Nat) (o : Nat) : Bool × Nat × Nat :=
  if (oscCheck init rd).1 then tuneLoop cnt 128 o 0 else (false, o, 0)          -- 192

end OTR
