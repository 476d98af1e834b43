import Verif.Model.Sensors
import Verif.Model.Entropy
/-!
# The ADC and comparator at register level

`OTV0P2BASE_ADC.cpp` (AVR part) and the parts of `OTV0P2BASE_PowerManagement.{h,cpp}` that switch the analogue parts: which register bits each
function sets, in order, and when it waits for a conversion. A wait is recorded with the registers at that moment: a conversion can only end,
and its interrupt be seen, if the ADC has power, is enabled and its interrupt is enabled; otherwise the loop waits for ever.
-/

namespace OTR

/-- The register bits used: `powered` = not `PRADC`; `ADCSRA`: `ADEN`, `ADIE`, `ADATE` and the clock divider `ADPS`; `ADCSRB`: `ACME`; `ACSR`: `ACD`, `ACBG`, `ACIE`;
`ADMUX`. (Environment: hardware and its data sheet, not code of /repo.) -/
structure AReg where
  powered : Bool
  aden : Bool
  adie : Bool
  adate : Bool
  adps : Nat
  acme : Bool
  acd : Bool
  acbg : Bool
  acie : Bool
  admux : Byte
deriving DecidableEq, Repr

/-- `powerUpADCIfDisabled` — PowerManagement.cpp 53-59. -/
def AReg.powerUp (r : AReg) : Bool × AReg :=
  if r.powered then (false, r) else (true, { r with powered := true, aden := true })

/-- `powerDownADC` — PowerManagement.h 86-90. -/
def AReg.powerDown (r : AReg) : AReg := { r with aden := false, powered := false }

/-- Waiting for a conversion can end: power, `ADEN`, `ADIE`. (Environment: hardware and its data sheet, not code of /repo.) -/
def AReg.converts (r : AReg) : Bool := r.powered && r.aden && r.adie

/-- `_analogueNoiseReducedReadM` — ADC.cpp 105-141. As `adcRead` (which has the values), here the registers afterwards and those at each wait
for a conversion. -/
def AReg.multi (r : AReg) (admux : Byte) (samples : Nat) (late : Nat → Bool) (adc : Nat → Nat) : Nat × AReg × List AReg :=
  let u := r.powerUp                                                            -- 107
  let r := { u.2 with acd := true, admux := admux, acme := false, adate := decide (1 < samples), adie := true }   -- 108-115 (112: ADCSRB = 0)
  let x := adcLoop late adc samples 0xffff 0x400 0                              -- 116-135
  let w := List.replicate x.2 r
  let r := { r with adie := false, adate := false }                             -- 136-137
  (x.1, if u.1 then r.powerDown else r, w)                                      -- 139-140

/-- `analogueVsBandgapRead` — ADC.cpp 169-209; `aco`: what the comparator says (`ACO`) when asked. The registers at that moment are returned too. -/
def AReg.bandgap (r : AReg) (ai : Byte) (aco : Bool) : Bool × AReg × AReg :=
  let r := { r with powered := true, acme := true, aden := false, acd := false, acbg := true, acie := false, admux := ai &&& 7 }   -- 180-191
  (aco, { r with acd := true, acbg := false, powered := false }, r)             -- 197-208

/-- One conversion as `noisyADCRead` sees it: how often the loop counted, low byte, high byte — the busy waits of OTV0P2BASE_ADC.cpp 253-291. -/
structure NConv where
  polls : Nat
  l : Byte
  h : Byte

/-- The eight channels in turn — ADC.cpp 284-307: `result`, `count`. -/
def narLoop : List NConv → Byte → Nat → Byte
  | [], res, _ => res
  | c :: t, res, n =>
    let n := (n + c.polls) % 256                                                -- 289: uint8_t
    narLoop t (crcIbutton (res ^^^ c.h) (c.l ^^^ u8 n)) n                       -- 301

/-- The value of `noisyADCRead` — ADC.cpp 253-320, from the conversions of the band gap (`b`), of the internal temperature (`t`) and of
the eight inputs. -/
def narValue (b t : NConv) (cs : List NConv) : Byte :=
  let n := b.polls % 256                                                        -- 254
  let n := (n + t.polls) % 256                                                  -- 268
  let res := (b.h <<< 5) ^^^ t.l ^^^ (t.h <<< 3) ^^^ u8 n                       -- 278
  narLoop cs res n ^^^ b.l                                                      -- 284-307, 314

/-- `noisyADCRead` — ADC.cpp 239-321: the value, the registers afterwards, and the registers at each of the ten waits. (`powerUpIO` is ignored
by the code, 238.) -/
def AReg.noisy (r : AReg) (b t : NConv) (cs : List NConv) : Byte × AReg × List AReg :=
  let u := r.powerUp                                                            -- 241
  let r := { u.2 with admux := 0x4e, acme := false, adate := false, adie := true }   -- 247-252
  let w0 := r
  let r := { r with admux := 0xc8 }                                             -- 265
  let w1 := r
  let ws := (List.range 8).map fun i => { r with admux := u8 i ||| 0x40 }       -- 286: DEFAULT = 1
  let r := { r with admux := 0x47, adie := false, adate := false }              -- 308-309
  (narValue b t cs, if u.1 then r.powerDown else r, w0 :: w1 :: ws)             -- 313-320

/-- `readInternalTemperatureC16` — ADC.cpp 327-340: from the value of the single-sample read; `none`: the 16-bit `int` multiplication
overflows (undefined behaviour). -/
def internalC16 (raw : Nat) : Option Int :=
  let p := ((raw : Int) - 324) * 210
  if p < -32768 ∨ 32767 < p then none else some (p / 16)

/-- `powerSetup` — PowerManagement.cpp 436-456 with `minimisePowerWithoutSleep` 356-410, the analogue part: `ADCSRA = 0`, `ACSR = ACD`, power off. -/
def AReg.setup (r : AReg) : AReg :=
  { r with aden := false, adie := false, adate := false, adps := 0, acd := true, acbg := false, acie := false, powered := false }

/-- The rest of `powerSetup`: which of the peripherals have power, and the three timers: `power_all_disable`, then timers 0 and 2 on. -/
structure PowerSt where
  prr : Prr
  timer0 : Bool
  timer1 : Bool
  timer2 : Bool
  ioPower : Bool

/-- `minimisePowerWithoutSleep` — PowerManagement.cpp 356-410: IO power pin to input (off), ADC, SPI, TWI and timer 1 off. -/
def PowerSt.minimise (p : PowerSt) : PowerSt :=
  { p with ioPower := false, prr := powerDown .twi (powerDown .spi (powerDown .adc p.prr)), timer1 := false }

/-- `powerSetup` — PowerManagement.cpp 436-456. -/
def PowerSt.setup (p : PowerSt) : PowerSt :=
  let p := p.minimise                                                           -- 443
  { p with prr := fun _ => false, timer1 := false, timer0 := true, timer2 := true }   -- 446-454

/-- A use of the analogue parts by the application. (Vocabulary of histories and observations; it stands for the order in which an application makes calls and has no code of its own in /repo.) -/
inductive AnOp where
  | multi (admux : Byte) (samples : Nat) (late : Nat → Bool) (adc : Nat → Nat)
  | bandgap (ai : Byte) (aco : Bool)
  | noisy (b t : NConv) (cs : List NConv)
  | up                                  -- `powerUpADCIfDisabled`
  | down                                -- `powerDownADC`

/-- The registers after it, and those at each wait for a conversion. (Vocabulary of histories and observations; it stands for the order in which an application makes calls and has no code of its own in /repo.) -/
def AReg.op (r : AReg) : AnOp → AReg × List AReg
  | .multi m s l a => (r.multi m s l a).2
  | .bandgap ai o => ((r.bandgap ai o).2.1, [])
  | .noisy b t cs => (r.noisy b t cs).2
  | .up => (r.powerUp.2, [])
  | .down => (r.powerDown, [])

/-- A history of uses: registers at the end, all waits. (Vocabulary of histories and observations; it stands for the order in which an application makes calls and has no code of its own in /repo.) -/
def AReg.ops (r : AReg) : List AnOp → AReg × List AReg
  | [] => (r, [])
  | o :: t => let x := r.op o; let y := x.1.ops t; (y.1, x.2 ++ y.2)

end OTR
