import Verif.Base
/-!
# Hardware serial port — `U/OTV0P2BASE_PowerManagement.cpp`, `.h`, `U/OTV0P2BASE_Serial_IO.cpp`, AVR branch

The UART transmitter of the ATmega328P (data register, shift register, flags UDRE0 and TXC0, power bit PRUSART0) and the Arduino core's
interrupt-driven `HardwareSerial` on top of it (environment, not in this repository: its ring buffer, here unbounded; `write()`, the data-register-empty interrupt and
`flush()` clear and test TXC0 as in Arduino core 1.6 and later; `begin()` forgets that anything was written). Stopping the UART's clock with the power
bit keeps its flags. The transmitter, the interrupt and the CPU interleave freely: a schedule says which moves next.
-/

namespace OTR

/-- UART transmitter, ring buffer of `Serial` and what has left on the line since reset. (Environment: hardware and its data sheet, not code of /repo.) -/
structure Ser where
  on : Bool
  ring : Bytes
  udr : Option Byte
  shift : Option Byte
  txc : Bool
  written : Bool
  line : Bytes
deriving Repr, DecidableEq

/-- After a reset of the chip. (Environment: hardware and its data sheet, not code of /repo.) -/
def Ser.reset : Ser := ⟨false, [], none, none, false, false, []⟩

/-- What moves without the program: the shift register finishes a byte, takes the next one from the data register, and the data-register-empty interrupt. (Environment: hardware and its data sheet, not code of /repo.) -/
inductive UartEv
  | shiftDone | load | isr
deriving DecidableEq

/-- One such move. (Environment: hardware and its data sheet, not code of /repo.) -/
def Ser.ev (s : Ser) : UartEv → Ser
  | .shiftDone => match s.on, s.shift with
    | true, some b => { s with line := s.line ++ [b], shift := none, txc := s.txc || s.udr.isNone }
    | _, _ => s
  | .load => match s.on, s.shift, s.udr with
    | true, none, some c => { s with shift := some c, udr := none }
    | _, _, _ => s
  | .isr => match s.on, s.ring, s.udr with
    | true, b :: t, none => { s with ring := t, udr := some b, txc := false }
    | _, _, _ => s

/-- `HardwareSerial::write` (environment). (Environment: avr-libc or the Arduino core, not code of /repo.) -/
def Ser.write (s : Ser) (b : Byte) : Ser :=
  if s.ring = [] ∧ s.udr = none then { s with written := true, udr := some b, txc := false }
  else { s with written := true, ring := s.ring ++ [b] }

/-- What the program does, in order: an assignment or a busy wait (while `cond` do `body`). (The language in which the serial routines are modelled; no code of its own.) -/
inductive SerAct
  | set (f : Ser → Ser)
  | spin (cond : Ser → Bool) (body : Ser → Ser)

/-- Program still to run, and state. (The language in which the serial routines are modelled; no code of its own.) -/
abbrev SerCfg := List SerAct × Ser

/-- One step of the CPU: a busy wait tests its condition once. (The language in which the serial routines are modelled; no code of its own.) -/
def SerCfg.cpu : SerCfg → SerCfg
  | ([], s) => ([], s)
  | (.set f :: p, s) => (p, f s)
  | (.spin c b :: p, s) => if c s then (.spin c b :: p, b s) else (p, s)

/-- One move of the schedule: the CPU (`none`) or the UART. (The language in which the serial routines are modelled; no code of its own.) -/
def SerCfg.move (x : SerCfg) : Option UartEv → SerCfg
  | none => x.cpu
  | some e => (x.1, x.2.ev e)

/-- After `n` moves. (The language in which the serial routines are modelled; no code of its own.) -/
def SerCfg.run (sched : Nat → Option UartEv) (x : SerCfg) : Nat → SerCfg
  | 0 => x
  | n + 1 => (SerCfg.run sched x n).move (sched n)

/-- `Serial.flush()` (environment). (Environment: avr-libc or the Arduino core, not code of /repo.) -/
def serFlush : List SerAct := [.spin (fun s => s.written && (!s.ring.isEmpty || !s.txc)) id]

/-- `flushSerialHW` — PowerManagement.cpp 72-82. -/
def flushSerialHW : List SerAct :=
  [.spin (fun s => s.on && !s.udr.isNone) (fun s => { s with txc := false }),    -- 74, 78-79 (writing 1 to TXC0 clears it)
   .spin (fun s => s.on && !s.txc) id]                                           -- 80

/-- `flushSerialProductive`, and `flushSerialSCTSensitive` which only calls it — PowerManagement.cpp 91-103, 116-126. -/
def flushSerialProductive : List SerAct :=
  .spin (fun s => !s.udr.isNone) id :: (serFlush ++ flushSerialHW)               -- 98, 99, 102

/-- `powerUpSerialIfDisabled` if disabled — PowerManagement.h 225-231. -/
def powerUpSerial : List SerAct := [.set fun s => { s with on := true, written := false }]   -- 228-229

/-- `powerDownSerial` if powered — PowerManagement.cpp 133-145 (`Serial.end()` flushes again). -/
def powerDownSerial : List SerAct := serFlush ++ serFlush ++ [.set fun s => { s with on := false }]   -- 138, 140, 144

/-- `Serial.print` of a text: one `write` for each byte. (Environment: avr-libc or the Arduino core, not code of /repo.) -/
def serWrites (text : Bytes) : List SerAct := text.map fun b => .set fun s => s.write b

/-- `serialPrintAndFlush`, `serialPrintlnAndFlush`, `serialWriteAndFlush` — Serial_IO.cpp 88-290: all alike but for what is printed; `text` is all they print, line end included. -/
def serialPrintAndFlush (on : Bool) (text : Bytes) : List SerAct :=
  if on then serWrites text ++ flushSerialProductive
  else powerUpSerial ++ serWrites text ++ flushSerialProductive ++ powerDownSerial

/-- `RAII_EnableSerial` around something that prints `text` — PowerManagement.h 258-269. `OTMessageQueueHandler::handle` (Messaging.h 509, 519) does the same around the
handling of a message, when allowed to wake the serial port. -/
def withSerial (on : Bool) (text : Bytes) : List SerAct :=
  if on then serWrites text else powerUpSerial ++ serWrites text ++ flushSerialProductive ++ powerDownSerial

end OTR
