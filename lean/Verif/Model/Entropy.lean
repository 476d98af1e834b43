import Verif.Base
/-!
# Model: `content/OTRadioLink/utility/OTV0P2BASE_QuickPRNG.cpp` and `OTV0P2BASE_Entropy.cpp`

The noise sources (clock jitter, ADC, watchdog jitter, cycle counters) are inputs.
-/

namespace OTR

/-- The working state of the generator, QuickPRNG.cpp 44-49. -/
structure Rng where
  a : Byte
  b : Byte
  c : Byte
  x : Byte
deriving DecidableEq, Repr

/-- The step shared by `seedRNG8` (OTV0P2BASE_QuickPRNG.cpp 79-82) and `randRNG8` (OTV0P2BASE_QuickPRNG.cpp 87-90). -/
def Rng.step (s : Rng) : Rng :=
  let x := s.x + 1
  let a := s.a ^^^ s.c ^^^ x
  let b := s.b + a
  let c := (s.c + (b >>> 1)) ^^^ a
  ⟨a, b, c, x⟩

/-- `randRNG8`, QuickPRNG.cpp 85-92: result and new state. -/
def Rng.rand (s : Rng) : Byte × Rng := (s.step.c, s.step)

/-- `seedRNG8`, QuickPRNG.cpp 73-83. -/
def Rng.seed (s1 s2 s3 : Byte) (s : Rng) : Rng :=
  Rng.step { s with a := s.a ^^^ s1, b := s.b ^^^ s2, c := s.c ^^^ s3 }

/-- `randRNG8NextBoolean`, QuickPRNG.h 46. -/
def Rng.nextBool (s : Rng) : Bool × Rng := ((8 &&& s.rand.1) != 0, s.rand.2)

/-- One round of `_crc_ibutton_update` (avr-libc). (Environment: avr-libc or the Arduino core, not code of /repo.) -/
def ibuttonRound (c : Byte) : Byte := if c &&& 1 != 0 then (c >>> 1) ^^^ 0x8c else c >>> 1

/-- `_crc_ibutton_update` (avr-libc `util/crc16.h`). -/
def crcIbutton (crc data : Byte) : Byte :=
  let c := crc ^^^ data
  ibuttonRound (ibuttonRound (ibuttonRound (ibuttonRound (ibuttonRound (ibuttonRound (ibuttonRound (ibuttonRound c)))))))

/-- `getSecureRandomByte` up to the whitening, Entropy.cpp 78-100: the working byte and the two values kept. -/
def secMix (jitter adc wdt : Byte) : Byte × Byte × Byte :=
  let w := jitter
  let v1 := w
  let w := w ^^^ (w <<< 3)
  let w := w ^^^ adc
  let w := w ^^^ (w <<< 4)
  let v2 := w
  let w := w ^^^ wdt
  let w := w ^^^ (w >>> 4)
  (w, v1, v2)

/-- `getSecureRandomByte(false)`, Entropy.cpp 73-109. -/
def secRandRaw (jitter adc wdt : Byte) : Byte :=
  let m := secMix jitter adc wdt
  m.1 ^^^ crcIbutton m.2.1 m.2.2

/-- `getSecureRandomByte(true)`, Entropy.cpp 73-109: `k1`, `k2` are the low bytes of two stack addresses, `cnt` is the
counter after its decrement, `rnd` the byte from `randRNG8()`. -/
def secRandWhite (k1 k2 cnt rnd jitter adc wdt : Byte) : Byte :=
  let m := secMix jitter adc wdt
  let w := m.1 ^^^ rnd
  let w := w ^^^ (w <<< 3)
  let w := w ^^^ crcIbutton k1 (cnt - k2)
  w ^^^ crcIbutton m.2.1 m.2.2

/-- `addEntropyToPool`, Entropy.cpp 115-119: counter and generator afterwards. -/
def addEntropy (data cycles sub : Byte) (s : Byte × Rng) : Byte × Rng :=
  (s.1 + 1, s.2.seed (data ^^^ (s.1 + 1)) cycles sub)

/-- The update of the four seed bytes in EEPROM at a boot, Entropy.cpp 205-217: `i` is the byte picked (`3&...`), `mask`
the noise; the new contents. `eeprom_smart_erase_byte` sets 0xff, `eeprom_smart_clear_bits` ANDs. -/
def seedBoot (i : Nat) (mask : Byte) (ee : Nat → Byte) : Nat → Byte :=
  fun j => if j = i then (if ee i = 0 then 0xff else ee i &&& mask) else ee j

end OTR
