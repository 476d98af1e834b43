import Verif.Base
/-!
# Reading the ADC, with its interrupt — `U/OTV0P2BASE_ADC.cpp` 57, 105-141 (AVR, `ADC_TIMEOUT_TEST`)

`Model/Analog.lean` has the registers and `Model/Sensors.lean` the values of `_analogueNoiseReducedReadM`; here is the same function as the CPU executes it, step by step, beside
the converter, which finishes conversions on its own, and its interrupt. Environment, from the ATmega328P datasheet: a conversion uses the input selected when it starts; when
it ends it sets ADIF and, with auto trigger, the next starts; reading ADCL locks the result registers until ADCH is read, and a conversion ending meanwhile is lost (but sets ADIF);
an enabled pending interrupt is taken after at most one more step of the program, and at once when asleep; taking it clears ADIF; entering ADC sleep mode with no conversion running starts one; any interrupt ends sleep.
-/

namespace OTR

/-- Where the program is — OTV0P2BASE_ADC.cpp 105-141: one constructor for each step of the function. -/
inductive APc
  | up | mux | adate | adie | adsc | late | clear | check | slp | rdL | rdH | cmp | offIE | offATE | down | done
deriving DecidableEq, Repr

/-- Converter, flags, the variables of the function; and, as observations only, the conversions ended since the call began (input, value) and the number in that list of each one read — the locals of OTV0P2BASE_ADC.cpp 105-141, the flag of 57, and the converter. -/
structure Adc where
  en : Bool               -- powered and ADEN
  mux : Byte              -- ADMUX
  conv : Option Byte      -- input of the conversion running
  reg : Nat               -- result registers
  tag : Nat               -- (observation) which conversion `reg` is from
  lock : Bool
  adate : Bool
  adie : Bool
  adif : Bool
  flag : Bool             -- `ADC_complete`
  asleep : Bool
  delayed : Bool          -- the program has taken a step since the interrupt became pending
  pc : APc
  needed : Bool           -- `neededEnable`
  left : Nat              -- `samples`
  old : Nat               -- `oldADCH`, `oldADCL`
  l : Nat
  h : Nat
  past : List (Byte × Nat)
  seen : List Nat
deriving Repr, DecidableEq

/-- The next step of the program — ADC.cpp 105-141; `late`: what `getSubCycleTime() > 254` says, if asked. -/
def Adc.exec (admux : Byte) (samples : Nat) (late : Bool) (s : Adc) : Adc :=
  match s.pc with
  | .up => { s with needed := !s.en, en := true, pc := .mux }                                     -- 107
  | .mux => { s with mux := admux, pc := .adate }                                                 -- 109; 110: nap; 111-112
  | .adate => { s with adate := decide (1 < samples), pc := .adie }                               -- 113
  | .adie => { s with adie := true, pc := .adsc }                                                 -- 114
  | .adsc => { s with conv := if s.conv.isNone then some s.mux else s.conv, left := samples, old := 0xffff, l := 0, h := 4, pc := .late }   -- 115-120
  | .late =>
    if s.left = 0 then { s with pc := .offIE }                                                    -- 122
    else if late then { s with left := s.left - 1, pc := .offIE }                                 -- 126
    else { s with left := s.left - 1, pc := .clear }
  | .clear => { s with flag := false, pc := .check }                                              -- 127
  | .check => { s with pc := if s.flag then .rdL else .slp }                                      -- 128
  | .slp => { s with asleep := true, conv := if s.conv.isNone then some s.mux else s.conv, pc := .check }   -- 128: `sleep_mode()`
  | .rdL => { s with l := s.reg % 256, lock := true, pc := .rdH }                                 -- 129
  | .rdH => { s with h := s.reg / 256, lock := false, seen := s.seen ++ [s.tag], pc := .cmp }     -- 130
  | .cmp =>
    if s.h = s.old / 256 ∧ s.l = s.old % 256 then { s with pc := .offIE }                         -- 131
    else { s with old := s.h * 256 + s.l, pc := .late }                                           -- 132-133; 134: entropy, see Model/Entropy
  | .offIE => { s with adie := false, pc := .offATE }                                             -- 136
  | .offATE => { s with adate := false, pc := .down }                                             -- 137
  | .down => if s.needed then { s with en := false, conv := none, pc := .done } else { s with pc := .done }   -- 139
  | .done => s

/-- `ISR(ADC_vect)` — ADC.cpp 57. -/
def Adc.isr (s : Adc) : Adc := { s with flag := true, adif := false, asleep := false, delayed := false }

/-- The interrupt is pending. Flag and enable bit of the interrupt of OTV0P2BASE_ADC.cpp 57. -/
def Adc.pending (s : Adc) : Bool := s.adif && s.adie

/-- What happens next: the CPU gets a turn, a conversion ends, another interrupt ends sleep. (Vocabulary of histories and observations; it stands for the order in which an application makes calls and has no code of its own in /repo.) -/
inductive AdcEv
  | cpu (late : Bool) | conv (v : Nat) | wake
deriving DecidableEq, Repr

/-- One event — the CPU runs OTV0P2BASE_ADC.cpp 105-141 step by step and takes the interrupt (57) when pending; the rest is hardware. -/
def Adc.ev (admux : Byte) (samples : Nat) (s : Adc) : AdcEv → Adc
  | .cpu late =>
    if s.pending then
      if s.asleep || s.delayed then s.isr else { s.exec admux samples late with delayed := true }
    else if s.asleep then s else s.exec admux samples late
  | .conv v =>
    match s.conv with
    | none => s
    | some c =>
      { s with past := s.past ++ [(c, v % 1024)], reg := if s.lock then s.reg else v % 1024, tag := if s.lock then s.tag else s.past.length,
               adif := true, conv := if s.adate then some s.mux else none }
  | .wake => { s with asleep := false }

/-- After `n` events. (Vocabulary of histories and observations; it stands for the order in which an application makes calls and has no code of its own in /repo.) -/
def Adc.run (admux : Byte) (samples : Nat) (sched : Nat → AdcEv) (s : Adc) : Nat → Adc
  | 0 => s
  | n + 1 => (Adc.run admux samples sched s n).ev admux samples (sched n)

/-- The value returned — ADC.cpp 140. -/
def Adc.result (s : Adc) : Nat := s.h * 256 + s.l

end OTR
