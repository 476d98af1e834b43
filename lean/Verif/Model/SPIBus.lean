import Verif.Model.RFM23
/-!
# Model: the RFM23B link down to the bytes on the SPI bus, with interrupts at any point

`OTRFM23BLink_OTRFM23BLink.{h,cpp}` and the SPI power functions of `OTV0P2BASE_PowerManagement.h`.

`Model/RFM23.lean` takes a register access as one step of the chip, and an API call as one step of the link. Here each SPI byte,
each change of the slave-select line, of the SPI power and of the interrupt flag, and each access to a field of the link object
shared with the interrupt routine, is a step, and before each step the interrupt routine may run (if interrupts are on) and the
radio may do things by itself (whether or not interrupts are on; also before each step of the interrupt routine).

The SPI protocol of the chip (RFM23B data sheet, section 3.1): after slave-select goes low the first byte is an address, with bit
7 set for a write; each further byte reads or writes a register, and the address goes up by one each time, except at 0x7f, the
FIFO. When slave-select goes high the transaction ends. This is hardware and an assumption of the model. Not modelled: the time
bytes take, and that a wait for a byte never ends if the SPI hardware is off (the chip model's `fault` records that case).
-/

namespace OTR

/-- Where the chip is in a transaction: slave-select high; selected and waiting for the address; reading or writing. (Environment: hardware and its data sheet, not code of /repo.) -/
inductive SpiPh where
  | idle
  | addr
  | data (w : Bool) (a : Nat)
deriving DecidableEq

/-- The link object and the chip, the phase of the bus, and the CPU's interrupt flag. `junk` is what the chip sends for reads of
its empty FIFO, `ju` counts them in this transaction; `t` is the number of steps taken, for schedules. (Environment: hardware and its data sheet, not code of /repo.) -/
structure Wire where
  s : Rfm
  junk : Nat → Byte
  ph : SpiPh := .idle
  ie : Bool := true
  ju : Nat := 0
  t : Nat := 0

/-- The machine with the chip changed. (The language in which the SPI routines are modelled; no code of its own.) -/
def Wire.onChip (m : Wire) (f : Chip → Chip) : Wire := { m with s := { m.s with chip := f m.s.chip } }

/-- A program of steps: `h` is what happens to the machine before each step. (The language in which the SPI routines are modelled; no code of its own.) -/
def BusP (α : Type) := (Wire → Wire) → Wire → α × Wire

instance : Monad BusP where
  pure a := fun _ m => (a, m)
  bind p k := fun h m => k (p h m).1 h (p h m).2

/-- One step. (The language in which the SPI routines are modelled; no code of its own.) -/
def BusP.prim {α : Type} (f : Wire → α × Wire) : BusP α := fun h m => f (h m)

namespace Spi
open BusP

/-- `_SELECT`, OTRFM23BLink_OTRFM23BLink.h 396: the line is driven low; nothing happens if it is low already. -/
def sel : BusP Unit := prim fun m => ((), { m with ph := if m.ph = .idle then .addr else m.ph, ju := 0 })
/-- `_DESELECT`, OTRFM23BLink_OTRFM23BLink.h 397. -/
def desel : BusP Unit := prim fun m => ((), { m with ph := .idle, ju := 0 })

/-- A byte written to a register, or to the TX FIFO (64 bytes; more is an error, ifferr). -/
def _root_.OTR.Chip.wrB (c : Chip) (a : Nat) (v : Byte) : Chip :=
  if a = 0x7f then
    { c.acc with tx := (c.tx ++ [v]).take 64, st1 := if (c.tx ++ [v]).length > 64 then c.st1 ||| 0x80 else c.st1 }
  else c.wr a v

/-- A byte read from a register; the two status bytes are cleared by reading; the RX FIFO gives its next byte. (Environment: hardware and its data sheet, not code of /repo.) -/
def _root_.OTR.Chip.rdB (c : Chip) (a : Nat) (j : Byte) : Byte × Chip :=
  if a = 3 then (c.st1, { c.acc with st1 := 0 })
  else if a = 4 then (c.st2, { c.acc with st2 := 0 })
  else if a = 0x7f then (c.rx.headD j, { c.acc with rx := c.rx.drop 1 })
  else (c.reg a, c.acc)

/-- The next address in a transaction. (Environment: hardware and its data sheet, not code of /repo.) -/
def nextA (a : Nat) : Nat := if a = 0x7f then 0x7f else a + 1

/-- `_io`, `_rd`, `_wr`, OTRFM23BLink_OTRFM23BLink.h 218-226: one byte each way. A byte sent with slave-select high reaches no chip; what is read then is
taken to be zero ("May read as 0 if not connected at all", OTRFM23BLink_OTRFM23BLink.cpp 64). -/
def xfer (o : Byte) : BusP Byte := prim fun m =>
  match m.ph with
  | .idle => (0, m.onChip Chip.acc)
  | .addr => (0, { m.onChip Chip.acc with ph := .data (decide (o.toNat ≥ 128)) (o &&& 0x7f).toNat })
  | .data true a => (0, { m.onChip (fun c => c.wrB a o) with ph := .data true (nextA a) })
  | .data false a =>
    let r := m.s.chip.rdB a (m.junk m.ju)
    (r.1, { m.onChip (fun _ => r.2) with ph := .data false (nextA a),
                                         ju := if a = 0x7f ∧ m.s.chip.rx = [] then m.ju + 1 else m.ju })

/-- `t_powerUpSPIIfDisabled`, PowerManagement.h 120-149: true if it was off; slave-select is set high. -/
def up : BusP Bool := prim fun m =>
  if m.s.chip.spi = true then (false, m)
  else (true, { m.onChip (fun c => { c with spi := true }) with ph := .idle, ju := 0 })

/-- `t_powerDownSPI`, PowerManagement.h 153-175. -/
def down : BusP Unit := prim fun m => ((), { m.onChip (fun c => { c with spi := false }) with ph := .idle, ju := 0 })

/-- `const bool neededEnable = _upSPI(); ...; if(neededEnable) { _downSPI(); }`. E.g. OTRFM23BLink.h 521-532. -/
def powered {α : Type} (p : BusP α) : BusP α := do
  let n ← up
  let r ← p
  if n = true then down else pure ()
  pure r

/-- `ATOMIC_BLOCK(ATOMIC_RESTORESTATE)`. E.g. OTRFM23BLink.h 516-535; the macro is of avr-libc. -/
def atomic {α : Type} (p : BusP α) : BusP α := do
  let w ← prim fun m => (m.ie, { m with ie := false })
  let r ← p
  prim fun m => ((), { m with ie := w })
  pure r

/-- Reading and writing fields of the link object. (Each access of OTRFM23BLink.{h,cpp} to a member variable is one step.) -/
def load {α : Type} (f : Rfm → α) : BusP α := prim fun m => (f m.s, m)
/-- Writing a field of the link object (each such access of OTRFM23BLink.{h,cpp} is one step). -/
def store (f : Rfm → Rfm) : BusP Unit := prim fun m => ((), { m with s := f m.s })

/-- `_writeReg8Bit`, OTRFM23BLink_OTRFM23BLink.h 413-419. -/
def writeReg (a : Nat) (v : Byte) : BusP Unit := do
  sel; let _ ← xfer (u8 a ||| 0x80); let _ ← xfer v; desel

/-- `_writeReg16Bit0`, OTRFM23BLink_OTRFM23BLink.h 425-432. -/
def writeReg16 (a : Nat) : BusP Unit := do
  sel; let _ ← xfer (u8 a ||| 0x80); let _ ← xfer 0; let _ ← xfer 0; desel

/-- `_readReg8Bit`, OTRFM23BLink_OTRFM23BLink.h 437-444. -/
def readReg (a : Nat) : BusP Byte := do
  sel; let _ ← xfer (u8 a &&& 0x7f); let r ← xfer 0; desel; pure r

/-- `_readReg16Bit`, OTRFM23BLink_OTRFM23BLink.h 451-459: high byte (first register), low byte. -/
def readReg16 (a : Nat) : BusP (Byte × Byte) := do
  sel; let _ ← xfer (u8 a &&& 0x7f); let x ← xfer 0; let y ← xfer 0; desel; pure (x, y)

/-- `_clearInterrupts`, OTRFM23BLink_OTRFM23BLink.h 501-508. -/
def clearInts : BusP Unit := do
  sel; let _ ← xfer (u8 3 &&& 0x7f); let _ ← xfer 0; let _ ← xfer 0; desel

/-- `_modeStandbyAndClearState`, OTRFM23BLink_OTRFM23BLink.h 516-535 (`_modeStandby` is OTRFM23BLink_OTRFM23BLink.h 463-465). -/
def standby : BusP Unit := atomic (powered do
  writeReg 7 0; writeReg 8 3; writeReg 8 0; writeReg16 5; clearInts)

/-- The loop of `_registerBlockSetup`, OTRFM23BLink_OTRFM23BLink.cpp 86-100. -/
def regLoop : List (Nat × Byte) → BusP Unit
  | [] => pure ()
  | p :: l => do writeReg p.1 p.2; regLoop l

/-- `_registerBlockSetup`, OTRFM23BLink_OTRFM23BLink.cpp 80-103. -/
def regBlock (l : List (Nat × Byte)) : BusP Unit := atomic (powered (regLoop l))

/-- `while(buflen-- > 0) { _wr(*bptr++); }`, OTRFM23BLink_OTRFM23BLink.cpp 131. -/
def wrLoop : Bytes → BusP Unit
  | [] => pure ()
  | b :: l => do let _ ← xfer b; wrLoop l

/-- `_queueFrameInTXFIFO`, OTRFM23BLink_OTRFM23BLink.cpp 116-137, with `_clearTXFIFO`, OTRFM23BLink_OTRFM23BLink.cpp 107-111. -/
def queueFrame (buf : Bytes) : BusP Unit := atomic (powered do
  writeReg 8 1; writeReg 8 0
  sel; let _ ← xfer (u8 0x7f ||| 0x80); wrLoop buf; desel)

/-- `_setChannel`, OTRFM23BLink_OTRFM23BLink.cpp 361-381. -/
def setChannel (cfg : RfmCfg) (ch : Nat) : BusP Unit := do
  let cur ← load (·.cur)
  if cur = ch then pure ()
  else if ch ≥ cfg.nCh then pure ()
  else do
    regBlock (cfg.regs ch)
    store fun s => { s with cur := ch }

/-- The loop of `_TXFIFO`, OTRFM23BLink_OTRFM23BLink.cpp 168-179, for `n` more rounds (the delays are not steps). -/
def txLoop : Nat → BusP Bool
  | 0 => pure false
  | n + 1 => do
    let st ← readReg 3
    if st &&& 4 ≠ 0 then pure true else txLoop n

/-- `_TXFIFO`, OTRFM23BLink_OTRFM23BLink.cpp 142-183 (`_modeTX` is OTRFM23BLink_OTRFM23BLink.h 475-477; MAX_TX_ms is 1000). -/
def txFifo : BusP Bool := powered do
  atomic do writeReg 5 0; writeReg 6 0; clearInts; writeReg 7 9
  txLoop 1000

/-- `_enableIRQLine`, OTRFM23BLink_OTRFM23BLink.h 570-584. -/
def enableIRQ (maxF : Byte) : BusP Unit := do
  let d ← readReg 0x30
  if d &&& 0x80 ≠ 0 then do
    writeReg 5 2; writeReg 6 0
    let e ← readReg 0x33
    if e &&& 8 = 8 then writeReg 0x3e maxF else pure ()
  else do writeReg 5 0x10; writeReg 6 0

/-- The last block of `_dolistenNonVirtual`, OTRFM23BLink_OTRFM23BLink.h 716-730 (`_modeRX` is OTRFM23BLink_OTRFM23BLink.h 487-489). -/
def startRX : BusP Unit := atomic (powered do
  writeReg 8 3; writeReg 8 0
  let maxF ← load (·.maxF)
  writeReg 0x7e maxF
  enableIRQ maxF
  clearInts
  writeReg 7 5)

/-- `_dolistenNonVirtual`, OTRFM23BLink_OTRFM23BLink.h 702-731. -/
def dolisten (cfg : RfmCfg) : BusP Unit := do
  standby
  if cfg.allowRX = false then pure ()
  else do
    let lc ← load (·.lc)
    match lc with
    | none => pure ()
    | some ch => do setChannel cfg ch; startRX

/-- `sendRaw`, OTRFM23BLink_OTRFM23BLink.cpp 213-263; the wait between the two transmissions is one step. -/
def sendRaw (cfg : RfmCfg) (buf : Bytes) (ch : Int) (power : Nat) : BusP Bool := do
  standby
  setChannel cfg (ch % 256).toNat
  queueFrame buf
  powered do
    let d ← readReg 0x30
    if d &&& 8 ≠ 0 then writeReg 0x3e (u8 buf.length) else pure ()
  let r ← txFifo
  let r ← if power ≥ 4 then (do
      load fun _ => ()
      let r2 ← txFifo
      pure (r && r2)) else pure r
  dolisten cfg
  pure r

/-- `listen`, OTRadioLink.h 259-267. -/
def listen (cfg : RfmCfg) (active : Bool) (ch : Int) : BusP Unit := do
  let new : Option Nat := if active = false ∨ ch < 0 then none
    else some (if ch ≥ cfg.nCh then cfg.nCh - 1 else ch.toNat)
  let old ← load (·.lc)
  store fun s => { s with lc := new }
  if new = none ∨ old ≠ new then dolisten cfg else pure ()

/-- `_checkConnected`, OTRFM23BLink_OTRFM23BLink.cpp 48-76. -/
def checkConnected : BusP Bool := powered do
  let ty ← readReg 0
  if ty = 8 then do
    let v ← readReg 1
    pure (decide (v = 6))
  else pure false

/-- `begin`, OTRFM23BLink_OTRFM23BLink.cpp 427-449. -/
def begin (cfg : RfmCfg) : BusP Bool := do
  let ok ← checkConnected
  if ok = true then do
    regBlock (cfg.regs 0)
    standby
    pure true
  else pure false

/-- The loop of `_RXFIFO`, OTRFM23BLink_OTRFM23BLink.h 665-685: `n` more bytes. -/
def rdLoop : Nat → BusP Bytes
  | 0 => pure []
  | n + 1 => do
    let b ← xfer 0
    let r ← rdLoop n
    pure (b :: r)

/-- `_RXFIFO`, OTRFM23BLink_OTRFM23BLink.h 651-697: the bytes put in the buffer. -/
def rxFifo (n : Nat) : BusP Bytes := atomic (powered do
  writeReg 7 0
  sel; let _ ← xfer (u8 0x7f &&& 0x7f); let r ← rdLoop n; desel
  writeReg 8 3; writeReg 8 0; writeReg 5 0; writeReg 6 0; clearInts
  pure r)

/-- Storing a received frame: OTRFM23BLink_OTRFM23BLink.h 779-807 and 848-873. -/
def take (cfg : RfmCfg) (len0 : Nat) : BusP Unit := do
  let full ← load fun s => s.q.isFull
  if len0 > 64 ∨ full = true then do
    let _ ← rxFifo 1
    store fun s => { s with dropped := (s.dropped + 1) % 256, err := 4 }
  else do
    let r ← rxFifo 64
    let keep := match cfg.filter with
      | none => (true, len0)
      | some f => f r len0
    store fun s => if keep.1 = true then s else { s with filtered := (s.filtered + 1) % 256 }
    store fun s => match s.q.step (.isr r (if keep.1 = true then keep.2 else 0)) with
      | none => { s with qbad := true }
      | some (q, _) => { s with q := q }

/-- `_poll`, OTRFM23BLink_OTRFM23BLink.h 742-889. -/
def pollBody (cfg : RfmCfg) : BusP Unit := do
  if cfg.allowRX = false then pure ()
  else do
    let lc ← load (·.lc)
    if lc = none then pure ()
    else do
      let r ← powered do
        let st ← readReg16 3
        let d ← readReg 0x30
        pure (st.1, d)
      if r.2 &&& 0x80 ≠ 0 then
        if r.1 &&& 2 ≠ 0 then powered do
          let f ← readReg 0x33
          let len ← if f &&& 8 = 8 then readReg 0x3e else readReg 0x4b
          take cfg len.toNat
          dolisten cfg
        else pure ()
      else if r.1 &&& 0x80 ≠ 0 then do store (fun s => { s with err := 2 }); dolisten cfg
      else if r.1 &&& 0x10 ≠ 0 then do take cfg 64; dolisten cfg
      else pure ()

/-- The interrupt routine `handleInterruptSimple`, OTRFM23BLink_OTRFM23BLink.h 947-955 (with OTRFM23BLink_OTRFM23BLink.h 565). -/
def handler (cfg : RfmCfg) : BusP Unit := do
  if cfg.allowRX = false then pure ()
  else do
    let inactive ← prim fun m => (cfg.irqPin && !m.s.chip.irq, m)
    if inactive = true then pure () else pollBody cfg

/-- `poll`, OTRFM23BLink_OTRFM23BLink.h 916-919. -/
def poll (cfg : RfmCfg) : BusP Unit := do
  let inactive ← prim fun m => (cfg.irqPin && !m.s.chip.irq, m)
  if inactive = true then pure () else atomic (pollBody cfg)

end Spi

/-- What the radio can do by itself before a step: it receives, or is done sending. (Environment: hardware and its data sheet, not code of /repo.) -/
inductive REnv where
  | air (e : Air)
  | sent

/-- One such event. (Environment: hardware and its data sheet, not code of /repo.) -/
def Wire.radio (m : Wire) : REnv → Wire
  | .air e => m.onChip fun c => c.air1 e
  | .sent => m.onChip Chip.sent

/-- What the radio does before a step of the interrupt routine, by a schedule `r`. (Environment: hardware and its data sheet, not code of /repo.) -/
def Wire.radioHook (r : Nat → List REnv) (m : Wire) : Wire := (r m.t).foldl Wire.radio { m with t := m.t + 1 }

/-- What can happen before a step of the application: the radio does something, or an interrupt; `r` is what the radio does
while the interrupt routine runs. (Vocabulary of histories and observations; it stands for the order in which an application makes calls and has no code of its own in /repo.) -/
inductive WEnv where
  | radio (e : REnv)
  | irq (r : Nat → List REnv)

/-- One such event. The interrupt routine runs, with interrupts off, only if they are on. (Vocabulary of histories and observations; it stands for the order in which an application makes calls and has no code of its own in /repo.) -/
def Wire.env (cfg : RfmCfg) (m : Wire) : WEnv → Wire
  | .radio e => m.radio e
  | .irq r => if m.ie = true then { (Spi.handler cfg (Wire.radioHook r) { m with ie := false }).2 with ie := true } else m

/-- What happens before a step, by a schedule `w`. (Vocabulary of histories and observations; it stands for the order in which an application makes calls and has no code of its own in /repo.) -/
def Wire.hook (cfg : RfmCfg) (w : Nat → List WEnv) (m : Wire) : Wire :=
  (w m.t).foldl (Wire.env cfg) { m with t := m.t + 1 }

end OTR
