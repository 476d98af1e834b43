import Verif.Model.RXQueue
/-!
# Model: the RFM23B radio link

`content/OTRadioLink/utility/OTRFM23BLink_OTRFM23BLink.{h,cpp}` with the base class `OTRadioLink_OTRadioLink.h`, and the
part of the RFM23B chip the driver relies on (`Chip`). Compiled as by default: RFM23B_IRQ_CONTROL not defined,
WAKE_ON_SYNC_RX false.

The chip: 8-bit registers; two interrupt status bytes cleared by reading; two 64-byte FIFOs, each cleared by writing 1 and
then 0 to its bit of register 8; setting bit 3 of register 7 starts sending the TX FIFO (which is not emptied by sending:
`Does not clear TX FIFO (so possible to re-send immediately)`, OTRFM23BLink_OTRFM23BLink.cpp 141); the bit is cleared when the frame is sent; a valid
packet stops reception (bit 2 of register 7 is cleared); the nIRQ line is active when an enabled status bit is set. All this
is hardware and is an assumption of the model. `preinit` (software reset) is not modelled.

Interrupts: `poll()` and the interrupt routine run with interrupts off and are single steps.
-/

namespace OTR

/-- The chip and the SPI bus: `fault` records an access made while the SPI hardware is powered down; `air` is the list of
frames sent (newest first), each with the register values at the time. (Environment: hardware and its data sheet, not code of /repo.) -/
structure Chip where
  reg : Nat → Byte
  st1 : Byte := 0
  st2 : Byte := 0
  tx : Bytes := []
  rx : Bytes := []
  spi : Bool := false
  fault : Bool := false
  air : List (Bytes × (Nat → Byte)) := []

/-- Any access: OTRFM23BLink_OTRFM23BLink.h 218-226, 396-458. -/
def Chip.acc (c : Chip) : Chip := { c with fault := c.fault || !c.spi }

/-- `_writeReg8Bit`, OTRFM23BLink_OTRFM23BLink.h 413-421. -/
def Chip.wr (c : Chip) (a : Nat) (v : Byte) : Chip :=
  { c.acc with
    tx := if a = 8 ∧ c.reg 8 &&& 1 ≠ 0 ∧ v &&& 1 = 0 then [] else c.tx
    rx := if a = 8 ∧ c.reg 8 &&& 2 ≠ 0 ∧ v &&& 2 = 0 then [] else c.rx
    air := if a = 7 ∧ v &&& 8 ≠ 0 ∧ c.reg 7 &&& 8 = 0 then (c.tx, c.reg) :: c.air else c.air
    reg := fun x => if x = a then v else c.reg x }

/-- `_clearInterrupts`, OTRFM23BLink_OTRFM23BLink.h 501-508: reads both status bytes. -/
def Chip.clrInt (c : Chip) : Chip := { c.acc with st1 := 0, st2 := 0 }

/-- The nIRQ line is active (low). (Environment: hardware and its data sheet, not code of /repo.) -/
def Chip.irq (c : Chip) : Bool := decide (c.st1 &&& c.reg 5 ≠ 0) || decide (c.st2 &&& c.reg 6 ≠ 0)

/-- `const bool neededEnable = _upSPI(); ...; if(neededEnable) { _downSPI(); }`, e.g. OTRFM23BLink_OTRFM23BLink.h 521-532 (`t_powerUpSPIIfDisabled`
is true if the SPI was off). -/
def Chip.withSPI (f : Chip → Chip) (c : Chip) : Chip :=
  if c.spi = true then f c else { f { c with spi := true } with spi := false }

/-- `_modeStandbyAndClearState`, OTRFM23BLink_OTRFM23BLink.h 516-535; `_writeReg16Bit0(REG_INT_ENABLE1)` clears registers 5 and 6. -/
def Chip.standbyClear : Chip → Chip :=
  Chip.withSPI fun c => (((((c.wr 7 0).wr 8 3).wr 8 0).wr 5 0).wr 6 0).clrInt

/-- `_registerBlockSetup`, OTRFM23BLink_OTRFM23BLink.cpp 80-103. -/
def Chip.regBlock (l : List (Nat × Byte)) : Chip → Chip :=
  Chip.withSPI fun c => l.foldl (fun c p => c.wr p.1 p.2) c

/-- `_queueFrameInTXFIFO`, OTRFM23BLink_OTRFM23BLink.cpp 116-137, with `_clearTXFIFO`, 107-111. The FIFO holds 64 bytes; more is an error (ifferr). -/
def Chip.queueFrame (buf : Bytes) : Chip → Chip :=
  Chip.withSPI fun c =>
    let c := ((c.wr 8 1).wr 8 0).acc
    { c with tx := (c.tx ++ buf).take 64, st1 := if (c.tx ++ buf).length > 64 then c.st1 ||| 0x80 else c.st1 }

/-- The frame being sent is finished. (Environment: hardware and its data sheet, not code of /repo.) -/
def Chip.sent (c : Chip) : Chip :=
  if c.reg 7 &&& 8 ≠ 0 then
    { c with st1 := c.st1 ||| 4, reg := fun x => if x = 7 then c.reg 7 &&& 0xf7 else c.reg x }
  else c

/-- The loop of `_TXFIFO`, OTRFM23BLink_OTRFM23BLink.cpp 170-179: `ev` says before which of the status reads (by number of reads left) the frame is
finished. -/
def txLoop (ev : Nat → Bool) : Nat → Chip → Chip × Bool
  | 0, c => (c, false)
  | n + 1, c =>
    let c := if ev n = true then c.sent else c
    if c.st1 &&& 4 ≠ 0 then ({ c.acc with st1 := 0 }, true) else txLoop ev n { c.acc with st1 := 0 }

/-- `_TXFIFO`, OTRFM23BLink_OTRFM23BLink.cpp 142-183 (MAX_TX_ms is 1000). An earlier transmission that timed out may still be going on: `ev 1001` says
that it is finished before the status is cleared, `ev 1000` between that and the start of this transmission. -/
def Chip.txFifo (ev : Nat → Bool) (c : Chip) : Chip × Bool :=
  let up := c.spi
  let c := if ev 1001 = true then c.sent else c
  let c := ((({ c with spi := true }).wr 5 0).wr 6 0).clrInt
  let c := if ev 1000 = true then c.sent else c
  let r := txLoop ev 1000 (c.wr 7 9)
  ({ r.1 with spi := up }, r.2)

/-- `_RXFIFO`, OTRFM23BLink_OTRFM23BLink.h 651-697: the bytes read (`junk` where the FIFO has run out) and the chip. -/
def Chip.rxFifo (n : Nat) (junk : Nat → Byte) (c : Chip) : Bytes × Chip :=
  ((c.rx ++ (List.range n).map junk).take n,
   c.withSPI fun c => (((((({ (c.wr 7 0).acc with rx := c.rx.drop n }).wr 8 3).wr 8 0).wr 5 0).wr 6 0).clrInt))

/-- Compile-time and configuration constants: number of channels and their register settings (`configure`, OTRadioLink.h
211-217), `allowRX` (OTRFM23BLink_OTRFM23BLink.h 373), whether there is an interrupt line (OTRFM23BLink_OTRFM23BLink.h 895), the receive filter (OTRadioLink.h 111: whether to
keep the frame, and its new length). -/
structure RfmCfg where
  nCh : Nat
  regs : Nat → List (Nat × Byte)
  allowRX : Bool
  irqPin : Bool
  filter : Option (Bytes → Nat → Bool × Nat)

/-- Fields of the link object: OTRFM23BLink_OTRFM23BLink.h 110, 201, 205, 386; OTRadioLink.h 134-155. `lc = none` is listenChannel = -1. `qbad` records a
queue operation leaving its buffer. -/
structure Rfm where
  chip : Chip
  cur : Nat := 0
  lc : Option Nat := none
  maxF : Byte := 60
  dropped : Nat := 0
  filtered : Nat := 0
  err : Nat := 0
  q : VQ
  qbad : Bool := false

/-- `_setChannel`, OTRFM23BLink_OTRFM23BLink.cpp 361-381. -/
def Rfm.setChannel (cfg : RfmCfg) (s : Rfm) (ch : Nat) : Rfm :=
  if s.cur = ch then s
  else if ch ≥ cfg.nCh then s
  else { s with chip := s.chip.regBlock (cfg.regs ch), cur := ch }

/-- `_enableIRQLine`, OTRFM23BLink_OTRFM23BLink.h 570-584. -/
def Chip.enableIRQ (maxF : Byte) (c : Chip) : Chip :=
  if c.reg 0x30 &&& 0x80 ≠ 0 then
    let c := (c.acc.wr 5 2).wr 6 0
    if c.reg 0x33 &&& 8 = 8 then c.acc.wr 0x3e maxF else c.acc
  else (c.acc.wr 5 0x10).wr 6 0

/-- The last block of `_dolistenNonVirtual`, OTRFM23BLink_OTRFM23BLink.h 716-730. -/
def Chip.startRX (maxF : Byte) : Chip → Chip :=
  Chip.withSPI fun c => ((((c.wr 8 3).wr 8 0).wr 0x7e maxF).enableIRQ maxF).clrInt.wr 7 5

/-- `_dolistenNonVirtual`, OTRFM23BLink_OTRFM23BLink.h 702-731. -/
def Rfm.dolisten (cfg : RfmCfg) (s : Rfm) : Rfm :=
  let s := { s with chip := s.chip.standbyClear }
  if cfg.allowRX = false then s
  else
    match s.lc with
    | none => s
    | some ch =>
      let s := s.setChannel cfg ch
      { s with chip := s.chip.startRX s.maxF }

/-- Storing a received frame: OTRFM23BLink_OTRFM23BLink.h 779-807 and 848-873. `len0` is the received length. -/
def Rfm.take (cfg : RfmCfg) (s : Rfm) (len0 : Nat) (junk : Nat → Byte) : Rfm :=
  if len0 > 64 ∨ s.q.isFull = true then
    { s with chip := (s.chip.rxFifo 1 junk).2, dropped := (s.dropped + 1) % 256, err := 4 }
  else
    let r := s.chip.rxFifo 64 junk
    let s := { s with chip := r.2 }
    let keep := match cfg.filter with
      | none => (true, len0)
      | some f => f r.1 len0
    let s := if keep.1 = true then s else { s with filtered := (s.filtered + 1) % 256 }
    match s.q.step (.isr r.1 (if keep.1 = true then keep.2 else 0)) with
    | none => { s with qbad := true }
    | some (q, _) => { s with q := q }

/-- `_poll`, OTRFM23BLink_OTRFM23BLink.h 742-889. -/
def Rfm.pollBody (cfg : RfmCfg) (s : Rfm) (junk : Nat → Byte) : Rfm :=
  if cfg.allowRX = false then s
  else
    match s.lc with
    | none => s
    | some _ =>
      let st1 := s.chip.st1
      let s := { s with chip := s.chip.withSPI fun c => c.clrInt.acc }
      if s.chip.reg 0x30 &&& 0x80 ≠ 0 then
        if st1 &&& 2 ≠ 0 then
          let up := s.chip.spi
          let s := { s with chip := ({ s.chip with spi := true } : Chip).acc }
          let len : Byte := if s.chip.reg 0x33 &&& (8 : Byte) = (8 : Byte) then s.chip.reg 0x3e else s.chip.reg 0x4b
          let s := (s.take cfg len.toNat junk).dolisten cfg
          { s with chip := { s.chip with spi := up } }
        else s
      else if st1 &&& 0x80 ≠ 0 then ({ s with err := 2 } : Rfm).dolisten cfg
      else if st1 &&& 0x10 ≠ 0 then (s.take cfg 64 junk).dolisten cfg
      else s

/-- `poll`, OTRFM23BLink_OTRFM23BLink.h 916-919, and `handleInterruptSimple`, OTRFM23BLink_OTRFM23BLink.h 947-955 (which also tests `allowRX`, as `_poll` does). -/
def Rfm.poll (cfg : RfmCfg) (s : Rfm) (junk : Nat → Byte) : Rfm :=
  if cfg.irqPin = true ∧ s.chip.irq = false then s else s.pollBody cfg junk

/-- The part of `sendRaw` before the transmission, OTRFM23BLink_OTRFM23BLink.cpp 223-239; `ch` is the `int8_t` channel as passed on in a `uint8_t`. -/
def Rfm.prepTX (cfg : RfmCfg) (s : Rfm) (buf : Bytes) (ch : Int) : Rfm :=
  let s := { s with chip := s.chip.standbyClear }
  let s := s.setChannel cfg (ch % 256).toNat
  let c := s.chip.queueFrame buf
  { s with chip := c.withSPI fun c => if c.reg 0x30 &&& 8 ≠ 0 then c.acc.wr 0x3e (u8 buf.length) else c.acc }

/-- `sendRaw`, OTRFM23BLink_OTRFM23BLink.cpp 213-263. -/
def Rfm.sendRaw (cfg : RfmCfg) (s : Rfm) (buf : Bytes) (ch : Int) (power : Nat) (ev1 ev2 : Nat → Bool) : Rfm × Bool :=
  let s := s.prepTX cfg buf ch
  let r1 := s.chip.txFifo ev1
  let r := if power ≥ 4 then ((r1.1.txFifo ev2).1, r1.2 && (r1.1.txFifo ev2).2) else r1
  (({ s with chip := r.1 } : Rfm).dolisten cfg, r.2)

/-- `begin`, OTRFM23BLink_OTRFM23BLink.cpp 427-449, with `_checkConnected`, 48-76. -/
def Rfm.begin (cfg : RfmCfg) (s : Rfm) : Rfm × Bool :=
  let s := { s with chip := s.chip.withSPI Chip.acc }
  if s.chip.reg 0 = 8 ∧ s.chip.reg 1 = 6 then
    ({ s with chip := (s.chip.regBlock (cfg.regs 0)).standbyClear }, true)
  else (s, false)

/-- `end`, OTRFM23BLink_OTRFM23BLink.cpp 454-458. -/
def Rfm.fin (s : Rfm) : Rfm := { s with chip := s.chip.standbyClear }

/-- `listen`, OTRadioLink.h 259-267. -/
def Rfm.listen (cfg : RfmCfg) (s : Rfm) (active : Bool) (ch : Int) : Rfm :=
  let new : Option Nat := if active = false ∨ ch < 0 then none
    else some (if ch ≥ cfg.nCh then cfg.nCh - 1 else ch.toNat)
  let old := s.lc
  let s := { s with lc := new }
  if new = none ∨ old ≠ new then s.dolisten cfg else s

/-- `setMaxTypicalFrameBytes`, OTRFM23BLink_OTRFM23BLink.cpp 42-45. -/
def Rfm.setMax (s : Rfm) (n : Byte) : Rfm := { s with maxF := u8 (max 1 (min n.toNat 63)) }

/-- What the chip does by itself while receiving (bit 2 of register 7 set): a valid packet is received (packet mode); bytes
are received (FIFO mode); anything else raises status bits other than those. -/
inductive Air where
  | packet (d : Bytes)
  | bytes (d : Bytes)
  | noise (n1 n2 : Byte)

/-- The chip's own step. In fixed-length mode (register 0x33) a packet has the length in register 0x3e. -/
def Chip.air1 (c : Chip) : Air → Chip
  | .packet d =>
    if c.reg 7 &&& 4 ≠ 0 ∧ c.reg 0x30 &&& 0x80 ≠ 0 ∧ d.length ≤ 255 ∧
        (c.reg 0x33 &&& 8 = 8 → d.length = (c.reg 0x3e).toNat) then
      { c with rx := d.take 64, st1 := c.st1 ||| 2,
               reg := fun x => if x = 7 then c.reg 7 &&& 0xfb else if x = 0x4b then u8 d.length else c.reg x }
    else c
  | .bytes d =>
    if c.reg 7 &&& 4 ≠ 0 ∧ c.reg 0x30 &&& 0x80 = 0 then
      { c with rx := (c.rx ++ d).take 64,
               st1 := c.st1 ||| (if (c.rx ++ d).length ≥ (c.reg 0x7e).toNat then 0x10 else 0) |||
                      (if (c.rx ++ d).length > 64 then 0x80 else 0) }
    else c
  | .noise n1 n2 =>
    if c.reg 7 &&& 4 ≠ 0 then { c with st1 := c.st1 ||| (n1 &&& 0x69), st2 := c.st2 ||| n2 } else c

/-- Everything that can happen to the link object: calls by the application and interrupts, and steps of the chip. (Vocabulary of histories and observations; it stands for the order in which an application makes calls and has no code of its own in /repo.) -/
inductive RfmOp where
  | begin
  | fin
  | listen (active : Bool) (ch : Int)
  | setMax (n : Byte)
  | send (buf : Bytes) (ch : Int) (power : Nat) (ev1 ev2 : Nat → Bool)
  | poll (junk : Nat → Byte)
  | air (e : Air)
  | remove
  | getErr

/-- One step. (Vocabulary of histories and observations; it stands for the order in which an application makes calls and has no code of its own in /repo.) -/
def Rfm.op (cfg : RfmCfg) (s : Rfm) : RfmOp → Rfm
  | .begin => (s.begin cfg).1
  | .fin => s.fin
  | .listen a ch => s.listen cfg a ch
  | .setMax n => s.setMax n
  | .send buf ch p e1 e2 => (s.sendRaw cfg buf ch p e1 e2).1
  | .poll junk => s.poll cfg junk
  | .air e => { s with chip := s.chip.air1 e }
  | .remove => match s.q.step .remove with
    | none => { s with qbad := true }
    | some (q, _) => { s with q := q }
  | .getErr => { s with err := 0 } -- OTRFM23BLink_OTRFM23BLink.h 306

/-- The state after a history (newest step first) from state `s`. (Vocabulary of histories and observations; it stands for the order in which an application makes calls and has no code of its own in /repo.) -/
def Rfm.after (cfg : RfmCfg) (s : Rfm) : List RfmOp → Rfm
  | [] => s
  | o :: h => (Rfm.after cfg s h).op cfg o

/-- `FHT8V_RFM23_Reg_Values`, OTRFM23BLink.cpp 473-527, without the end marker. -/
def regsFHT8V : List (Nat × Byte) := [
    (0x6d, 0x0b), (0x06, 0x00), (0x08, 0x00), (0x30, 0x00), (0x33, 0x06), (0x34, 0x08), (0x35, 0x10), (0x36, 0xaa),
    (0x37, 0xcc), (0x38, 0xcc), (0x39, 0xcc), (0x6e, 0x28), (0x6f, 0xf5), (0x70, 0x20), (0x71, 0x21), (0x72, 0x20),
    (0x73, 0x00), (0x74, 0x00), (0x75, 0x73), (0x76, 0x64), (0x77, 0x00), (0x79, 0x23), (0x7a, 0x01), (0x1c, 0xc1),
    (0x1d, 0x40), (0x1e, 0x0a), (0x1f, 0x03), (0x20, 0x96), (0x21, 0x00), (0x22, 0xda), (0x23, 0x74), (0x24, 0x00),
    (0x25, 0xdc), (0x2a, 0x24), (0x2c, 0x28), (0x2d, 0xfa), (0x2e, 0x29), (0x69, 0x60)]

/-- `StandardRegSettingsOOK5000`, OTRFM23BLink.cpp 545-705, without the end marker. -/
def regsOOK : List (Nat × Byte) := [
    (0x05, 0x01), (0x06, 0x00), (0x07, 0x01), (0x08, 0x00), (0x09, 0x7f), (0x0a, 0x06), (0x0b, 0x15), (0x0c, 0x12),
    (0x0d, 0x00), (0x0e, 0x00), (0x0f, 0x00), (0x10, 0x00), (0x12, 0x20), (0x13, 0x00), (0x14, 0x03), (0x15, 0x00),
    (0x16, 0x01), (0x19, 0x01), (0x1a, 0x14), (0x1c, 0xc1), (0x1d, 0x40), (0x1e, 0x0a), (0x1f, 0x03), (0x20, 0x96),
    (0x21, 0x00), (0x22, 0xda), (0x23, 0x74), (0x24, 0x00), (0x25, 0xdc), (0x27, 0x1e), (0x2a, 0x24), (0x2c, 0x28),
    (0x2d, 0xfa), (0x2e, 0x29), (0x30, 0x00), (0x32, 0x0c), (0x33, 0x06), (0x34, 0x08), (0x35, 0x10), (0x36, 0xaa),
    (0x37, 0xcc), (0x38, 0xcc), (0x39, 0xcc), (0x3a, 0x00), (0x3b, 0x00), (0x3c, 0x00), (0x3d, 0x00), (0x3e, 0x00),
    (0x3f, 0x00), (0x40, 0x00), (0x41, 0x00), (0x42, 0x00), (0x43, 0xff), (0x44, 0xff), (0x45, 0xff), (0x46, 0xff),
    (0x4f, 0x10), (0x60, 0xa0), (0x62, 0x24), (0x69, 0x60), (0x6d, 0x0b), (0x6e, 0x28), (0x6f, 0xf5), (0x70, 0x20),
    (0x71, 0x21), (0x72, 0x20), (0x73, 0x00), (0x74, 0x00), (0x75, 0x73), (0x76, 0x64), (0x77, 0x00), (0x79, 0x23),
    (0x7a, 0x01), (0x7c, 0x37), (0x7d, 0x04), (0x7e, 0x37)]

/-- `StandardRegSettingsGFSK57600`, OTRFM23BLink.cpp 710-818, without the end marker. -/
def regsGFSK : List (Nat × Byte) := [
    (0x05, 0x00), (0x06, 0x00), (0x07, 0x01), (0x08, 0x00), (0x09, 0x7f), (0x0a, 0x06), (0x0b, 0x15), (0x0c, 0x12),
    (0x0d, 0x00), (0x0e, 0x00), (0x0f, 0x00), (0x10, 0x00), (0x12, 0x20), (0x13, 0x00), (0x14, 0x03), (0x15, 0x00),
    (0x16, 0x01), (0x19, 0x01), (0x1a, 0x14), (0x1c, 0x06), (0x1d, 0x44), (0x1e, 0x0a), (0x1f, 0x03), (0x20, 0x45),
    (0x21, 0x01), (0x22, 0xd7), (0x23, 0xdc), (0x24, 0x07), (0x25, 0x6e), (0x27, 0x1e), (0x2a, 0x28), (0x2c, 0x40),
    (0x2d, 0x0a), (0x2e, 0x2d), (0x30, 0x88), (0x32, 0x00), (0x33, 0x02), (0x34, 0x0a), (0x35, 0x2a), (0x36, 0x2d),
    (0x37, 0xd4), (0x38, 0x00), (0x39, 0x00), (0x3a, 0x00), (0x3b, 0x00), (0x3c, 0x00), (0x3d, 0x00), (0x3e, 0x00),
    (0x3f, 0x00), (0x40, 0x00), (0x41, 0x00), (0x42, 0x00), (0x43, 0xff), (0x44, 0xff), (0x45, 0xff), (0x46, 0xff),
    (0x4f, 0x10), (0x60, 0xa0), (0x62, 0x24), (0x69, 0x60), (0x6d, 0x0b), (0x6e, 0x0e), (0x6f, 0xbf), (0x70, 0x0c),
    (0x71, 0x23), (0x72, 0x2e), (0x73, 0x00), (0x74, 0x00), (0x75, 0x73), (0x76, 0x6a), (0x77, 0x40), (0x79, 0x00),
    (0x7a, 0x00), (0x7c, 0x37), (0x7d, 0x04), (0x7e, 0x37)]

/-- `StandardRegSettingsJeeLabs`, OTRFM23BLink.cpp 825-933, without the end marker. -/
def regsJeeLabs : List (Nat × Byte) := [
    (0x05, 0x00), (0x06, 0x00), (0x07, 0x01), (0x08, 0x00), (0x09, 0x7f), (0x0a, 0x06), (0x0b, 0x15), (0x0c, 0x12),
    (0x0d, 0x00), (0x0e, 0x00), (0x0f, 0x00), (0x10, 0x00), (0x12, 0x20), (0x13, 0x00), (0x14, 0x03), (0x15, 0x00),
    (0x16, 0x01), (0x19, 0x01), (0x1a, 0x14), (0x1c, 0x9b), (0x1d, 0x44), (0x1e, 0x0a), (0x1f, 0x03), (0x20, 0x7a),
    (0x21, 0x01), (0x22, 0x0d), (0x23, 0x08), (0x24, 0x01), (0x25, 0x28), (0x27, 0x1e), (0x2a, 0x28), (0x2c, 0x28),
    (0x2d, 0x19), (0x2e, 0x27), (0x30, 0x88), (0x32, 0x00), (0x33, 0x08), (0x34, 0x06), (0x35, 0x22), (0x36, 0x2d),
    (0x37, 0xd4), (0x38, 0x00), (0x39, 0x00), (0x3a, 0x00), (0x3b, 0x00), (0x3c, 0x00), (0x3d, 0x00), (0x3e, 0x3c),
    (0x3f, 0x00), (0x40, 0x00), (0x41, 0x00), (0x42, 0x00), (0x43, 0xff), (0x44, 0xff), (0x45, 0xff), (0x46, 0xff),
    (0x4f, 0x10), (0x60, 0xa0), (0x62, 0x24), (0x69, 0x60), (0x6d, 0x0b), (0x6e, 0x0c), (0x6f, 0x9c), (0x70, 0x0c),
    (0x71, 0x22), (0x72, 0x90), (0x73, 0x00), (0x74, 0x00), (0x75, 0x73), (0x76, 0x64), (0x77, 0x00), (0x79, 0x00),
    (0x7a, 0x00), (0x7c, 0x37), (0x7d, 0x04), (0x7e, 0x37)]

end OTR
