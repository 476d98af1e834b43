import Verif.Model.Entropy
/-!
# Model: start-up seeding and clock jitter entropy

`content/OTRadioLink/utility/OTV0P2BASE_Entropy.cpp` 131-217 (hashes of memory, `seedPRNGs`) and `OTV0P2BASE_Sleep.cpp` 255-315
(`clockJitterEntropyByte`).

Simplifications: a 16-bit CRC is a pair of bytes; what the hardware gives (noise of the ADC and of the clocks, the time, the cycle
counters, the content of SRAM as it is swept) is input.
-/

namespace OTR

/-- A `uint16_t` CRC. -/
structure Crc16 where
  hi : Byte
  lo : Byte
deriving DecidableEq, Repr

/-- The byte worked on in `_crc_ccitt_update` (avr-libc util/crc16.h, the C code in its documentation): `data ^= lo8(crc); data ^= data << 4`. -/
def ccittByte (x : Byte) : Byte := x ^^^ (x <<< 4)

/-- `_crc_ccitt_update` (avr-libc): `((data << 8) | hi8(crc)) ^ (uint8_t)(data >> 4) ^ ((uint16_t)data << 3)`. -/
def ccitt (c : Crc16) (data : Byte) : Crc16 :=
  let d := ccittByte (data ^^^ c.lo)
  ⟨d ^^^ (d >>> 5), c.hi ^^^ (d >>> 4) ^^^ (d <<< 3)⟩

/-- `sramCRC()` and `eeCRC()`, Entropy.cpp 134-152, over the bytes swept. -/
def sweepCRC (bs : Bytes) : Crc16 := bs.foldl ccitt ⟨0xff, 0xff⟩

/-- What the hardware gives `seedPRNGs()`: SRAM as swept; `s8`, the date and time (Entropy.cpp 182-184); two ADC noise bytes (186, 199); the watchdog jitter count (187); cycle counter and
sub-cycle time at the calls of `addEntropyToPool` in turn; `__TIME__[7]` (205); the clock jitter byte (212). -/
structure SeedIn where
  ram : Bytes
  s8 : Byte
  nar1 : Byte
  wdt : Byte
  clk : Nat → Byte × Byte
  nar2 : Byte
  time7 : Byte
  jitter : Byte

/-- `V0P2BASE_EE_START_SEED`, EEPROM.h 93; its length (94) is 4. -/
def EE_SEED : Nat := 2

/-- The generator's seeding in `seedPRNGs()`, Entropy.cpp 164-199: `st` is `count8` and the generator; the EEPROM is `ee`. -/
def seedState (i : SeedIn) (ee : Bytes) (st : Byte × Rng) : Byte × Rng :=
  let sr := sweepCRC i.ram
  let es := sweepCRC ee
  let st := (st.1, st.2.seed (i.nar1 ^^^ i.s8) es.hi (i.wdt ^^^ sr.lo))
  let st := addEntropy es.lo (i.clk 0).1 (i.clk 0).2 st
  let st := addEntropy i.s8 (i.clk 1).1 (i.clk 1).2 st
  let st := addEntropy (ee.getD (EE_SEED + 0) 0) (i.clk 2).1 (i.clk 2).2 st
  let st := addEntropy (ee.getD (EE_SEED + 1) 0) (i.clk 3).1 (i.clk 3).2 st
  let st := addEntropy (ee.getD (EE_SEED + 2) 0) (i.clk 4).1 (i.clk 4).2 st
  let st := addEntropy (ee.getD (EE_SEED + 3) 0) (i.clk 5).1 (i.clk 5).2 st
  addEntropy i.nar2 (i.clk 6).1 (i.clk 6).2 st

/-- Which seed byte in EEPROM is changed, Entropy.cpp 205: `3 & (s8 ^ ((eeseed >> 9) + __TIME__[7]))`. -/
def seedPick (i : SeedIn) (ee : Bytes) : Nat := ((3 : Byte) &&& (i.s8 ^^^ (((sweepCRC ee).hi >>> 1) + i.time7))).toNat

/-- The EEPROM after `seedPRNGs()`, Entropy.cpp 205-217: the byte picked is erased if it was 0, else ANDed with noise. -/
def seedEE (i : SeedIn) (ee : Bytes) : Bytes :=
  let p := EE_SEED + seedPick i ee
  let v := ee.getD p 0
  ee.set p (if v = 0 then 0xff else v &&& (i.jitter ^^^ (sweepCRC ee).lo))

/-! ## `clockJitterEntropyByte` -/

/-- What one turn of the loop (Sleep.cpp 278-311) sees: whether the watchdog has fired since it was armed (281), and the RTC counter as compared (298) and as read again (309). -/
structure JTurn where
  fired : Bool
  r1 : Byte
  r2 : Byte
deriving DecidableEq, Repr

/-- The local variables, Sleep.cpp 264-277. -/
structure JState where
  hash : Crc16
  result : Byte
  countR : Byte
  lastR : Byte
  countW : Byte
  lastW : Byte
  t1 : Byte
  left : Nat
deriving DecidableEq, Repr

/-- Taking in a count: Sleep.cpp 286-288, 303-305. -/
def JState.mix (s : JState) (count : Byte) : JState :=
  let h := ccitt s.hash count
  { s with hash := h, result := (s.result <<< 1) ^^^ h.lo, left := s.left - 1 }

/-- The watchdog's half of a turn, Sleep.cpp 281-295. -/
def JState.wd (s : JState) (fired : Bool) : JState :=
  if fired then
    if s.countW ≠ s.lastW then
      let s := s.mix s.countW
      if s.left = 0 then s else { s with lastW := s.countW, countW := 0 }
    else { s with countW := 0 }
  else { s with countW := s.countW + 1 }

/-- The RTC's half, Sleep.cpp 298-310. -/
def JState.rtc (s : JState) (r1 r2 : Byte) : JState :=
  if s.t1 = r1 then { s with countR := s.countR - 1 }
  else if s.countR ≠ s.lastR then
    let s := s.mix s.countR
    if s.left = 0 then s else { s with lastR := s.countR, countR := 0, t1 := r2 }
  else { s with countR := 0, t1 := r2 }

/-- The loop, over the turns seen; none if it is still running. (Vocabulary of histories and observations; it stands for the order in which an application makes calls and has no code of its own in /repo.) -/
def JState.run (s : JState) : List JTurn → Option Byte
  | [] => none
  | t :: ts =>
    let s := s.wd t.fired
    if s.left = 0 then some s.result
    else
      let s := s.rtc t.r1 t.r2
      if s.left = 0 then some s.result else s.run ts

/-- `clockJitterEntropyByte()`, Sleep.cpp 262-315: `hash0` is the count of 271, `t1` the counter as read in 272. -/
def jitterByte (hash0 : Crc16) (t1 : Byte) (ts : List JTurn) : Option Byte :=
  JState.run ⟨hash0, 0, 0, 0, 0, 0, t1, 8⟩ ts

end OTR
