import Verif.Base
/-!
# The I2C master of the EFR32 boards

`silabs_drivers/cppDrivers/i2c_driver.{h,cpp}` (`I2CSPM`) and, below it, the polled state machine `I2C_TransferInit` / `I2C_Transfer` of
`silabs_drivers/emlib/em_i2c.c`, with a model of the I2C peripheral and of the slave (environment).

Simplified: only 7-bit addresses and the two kinds of transfer `I2CSPM` asks for (write, and write then read) — em_i2c.c 470-473, 501-503, 522-542, 549
and the read-only and write-write kinds are left out, and so is the choice of the peripheral (there is one).
-/

namespace OTR

/-- What is seen on the bus: (repeated) start, a byte from the master with the slave's acknowledge, a byte from the slave, the master's acknowledge of it, stop, a transfer broken off. (Vocabulary.) -/
inductive BusEv where
  | start
  | wr (b : Byte) (ack : Bool)
  | rd (b : Byte)
  | mack (a : Bool)
  | stop
  | abort
deriving DecidableEq, Repr

/-- The device at the other end: whether it acknowledges the byte just sent and the next byte it gives, after what has been seen on the bus (for the acknowledge, with the byte itself last, as the argument). (Environment.) -/
structure I2CSlave where
  acks : List BusEv → Byte → Bool
  data : List BusEv → Byte

/-- What the peripheral is doing: nothing; it owns the bus and has been given or can be given a byte to send; it receives; it has received a byte and holds the clock; it has refused a byte. (Environment: peripheral.) -/
inductive I2CPhase where
  | idle | tx | rx | held | refused
deriving DecidableEq, Repr

/-- The peripheral: phase, byte to send (`TXDATA`), pending commands, flags (`IF`), received byte (`RXDATA`), what has been on the bus. (Environment: peripheral.) -/
structure I2CHw where
  phase : I2CPhase
  tx : Option Byte
  start : Bool
  stop : Bool
  pnack : Bool
  ack : Bool
  nack : Bool
  rxv : Bool
  mstop : Bool
  arb : Bool
  berr : Bool
  rxd : Byte
  tr : List BusEv

/-- What may happen on the bus between two polls: nothing yet, the next thing, another master takes the bus, a misplaced start or stop. (Environment.) -/
inductive I2CTick where
  | none | act | arb | berr
deriving DecidableEq, Repr

/-- The next thing on the bus. (Environment: peripheral.) -/
def I2CHw.act (s : I2CSlave) (h : I2CHw) : I2CHw :=
  if h.start then
    match h.phase, h.tx with
    | .idle, some a | .tx, some a =>
      let k := s.acks (h.tr ++ [.start]) a
      { h with start := false, tx := none, ack := k, nack := !k, tr := h.tr ++ [.start, .wr a k], phase := if k && a.toNat % 2 == 1 then .rx else .tx }
    | _, _ => h
  else if h.stop then
    match h.phase with
    | .tx | .refused => { h with stop := false, mstop := true, tr := h.tr ++ [.stop], phase := .idle }
    | _ => h
  else match h.phase, h.tx with
    | .tx, some b =>
      let k := s.acks h.tr b
      { h with tx := none, ack := k, nack := !k, tr := h.tr ++ [.wr b k] }
    | .rx, _ =>
      let d := s.data h.tr
      if h.pnack then { h with rxd := d, rxv := true, pnack := false, tr := h.tr ++ [.rd d, .mack false], phase := .refused }
      else { h with rxd := d, rxv := true, tr := h.tr ++ [.rd d], phase := .held }
    | _, _ => h

/-- What happens between two polls. (Environment.) -/
def I2CHw.tick (s : I2CSlave) : I2CTick → I2CHw → I2CHw
  | .none, h => h
  | .act, h => h.act s
  | .arb, h => { h with arb := true }
  | .berr, h => { h with berr := true }

/-- `CMD = ACK`: of the byte held. (Environment: peripheral.) -/
def I2CHw.cmdAck (h : I2CHw) : I2CHw := if h.phase = .held then { h with tr := h.tr ++ [.mack true], phase := .rx } else h

/-- `CMD = NACK`: of the byte held, else of the next one. (Environment: peripheral.) -/
def I2CHw.cmdNack (h : I2CHw) : I2CHw := if h.phase = .held then { h with tr := h.tr ++ [.mack false], phase := .refused } else { h with pnack := true }

/-- `I2C_TransferState_TypeDef` — em_i2c.c 95-107. -/
inductive I2CState where
  | startAddr | addrW | rstart | raddrW | dataSend | dataW | wfData | stopW | done
deriving DecidableEq, Repr

/-- `I2C_TransferReturn_TypeDef`: the values used in em_i2c.c 413-807 and i2c_driver.cpp 149-212 (`em_i2c.h` itself is not in /repo). -/
inductive I2CRes where
  | inProgress | done | nack | busErr | arbLost | usageFault
deriving DecidableEq, Repr

/-- A transfer under way: `I2C_Transfer_TypeDef` (em_i2c.c 119-134), the receive buffer `seq->buf[1].data`, the peripheral. -/
structure I2CM where
  state : I2CState
  result : I2CRes
  offset : Nat
  bufIndx : Nat
  rx : Bytes
  hw : I2CHw

/-- The sequence: address as given to `seq.addr`, whether a read follows the write, the bytes to write — i2c_driver.cpp 154-162, 179-182. -/
structure I2CSeq where
  addr : Nat
  rd : Bool
  cmd : Bytes

/-- State `i2cStateRStartAddrSend` — em_i2c.c 547-565. -/
def I2CM.doRstart (q : I2CSeq) (m : I2CM) : I2CM :=
  { m with state := .raddrW, hw := { m.hw with start := true, tx := some (u8 q.addr &&& 0xfe ||| (if q.rd then 1 else 0)) } }

/-- State `i2cStateDataSend` — em_i2c.c 592-619 (write, or write then read). -/
def I2CM.doDataSend (q : I2CSeq) (m : I2CM) : I2CM :=
  if m.offset ≥ q.cmd.length then
    let m := { m with offset := 0, bufIndx := m.bufIndx + 1 }
    if q.rd then m.doRstart q                                                   -- 600-603
    else { m with state := .stopW, hw := { m.hw with stop := true } }           -- 606-610
  else { m with state := .dataW, offset := m.offset + 1, hw := { m.hw with tx := q.cmd[m.offset]? } }

/-- A refused byte: stop — em_i2c.c 492-496, 571-575, 625-629. -/
def I2CM.refused (m : I2CM) : I2CM := { m with result := .nack, state := .stopW, hw := { m.hw with nack := false, stop := true } }

/-- State `i2cStateWFData` — em_i2c.c 640-675. -/
def I2CM.doData (m : I2CM) : I2CM :=
  if m.hw.rxv then
    let n := m.rx.length
    let d := m.hw.rxd                                                           -- 646
    let m := { m with hw := { m.hw with rxv := false } }
    let m := if m.offset < n then { m with rx := m.rx.set m.offset d, offset := m.offset + 1 } else m   -- 649-651
    if m.offset ≥ n then
      let m := if n = 1 then { m with hw := m.hw.cmdNack } else m               -- 657-659
      { m with state := .stopW, hw := { m.hw with stop := true } }
    else
      let m := { m with hw := m.hw.cmdAck }                                     -- 665
      if 1 < n ∧ m.offset = n - 1 then { m with hw := m.hw.cmdNack } else m     -- 667-672
  else m

/-- The switch in `I2C_Transfer`, with `continue` followed — em_i2c.c 464-694. -/
def I2CM.switch (q : I2CSeq) (m : I2CM) : I2CM :=
  match m.state with
  | .startAddr => { m with state := .addrW, hw := { m.hw with tx := some (u8 q.addr &&& 0xfe), start := true } }   -- 475-486
  | .addrW =>
    if m.hw.nack then m.refused
    else if m.hw.ack then I2CM.doDataSend q { m with hw := { m.hw with ack := false } }   -- 497-513
    else m
  | .raddrW =>
    if m.hw.nack then m.refused
    else if m.hw.ack then { m with state := .wfData, hw := { m.hw with ack := false } }   -- 576-581
    else m
  | .dataW =>
    if m.hw.nack then m.refused
    else if m.hw.ack then I2CM.doDataSend q { m with hw := { m.hw with ack := false } }   -- 630-633
    else m
  | .wfData => m.doData
  | .stopW => if m.hw.mstop then { m with state := .done, hw := { m.hw with mstop := false } } else m   -- 681-685
  | .rstart => m.doRstart q
  | .dataSend => m.doDataSend q
  | .done => m

/-- `I2C_Transfer` — em_i2c.c 413-714: the value returned is `result` if the state is `done`, else in progress. -/
def I2CM.poll (q : I2CSeq) (m : I2CM) : I2CM :=
  let m := if m.hw.arb then { m with result := .arbLost, state := .done }       -- 446-450
    else if m.hw.berr then { m with result := .busErr, state := .done }         -- 451-455
    else m.switch q
  if m.state = .done ∧ m.result = .inProgress then { m with result := .done } else m   -- 699-706

/-- The value `I2C_Transfer` returns — em_i2c.c 707-713. -/
def I2CM.ret (m : I2CM) : I2CRes := if m.state = .done then m.result else .inProgress

/-- The peripheral after the first part of `I2C_TransferInit` — em_i2c.c 769-797: a busy bus is given up, pending commands, data and flags are cleared. -/
def I2CHw.clear (h : I2CHw) : I2CHw :=
  ⟨.idle, none, false, false, false, false, false, false, false, false, false, h.rxd, if h.phase = .idle then h.tr else h.tr ++ [.abort]⟩

/-- `I2C_TransferInit` — em_i2c.c 741-807. (The lengths checked at 777-780 are not 0: see the callers.) -/
def i2cInit (q : I2CSeq) (rx : Bytes) (h : I2CHw) : I2CM := I2CM.poll q ⟨.startAddr, .inProgress, 0, 0, rx, h.clear⟩

/-- The loop of `I2CSPM::transfer` — i2c_driver.cpp 208-210: at most `n` further polls; `sch`: what happens on the bus before each. -/
def i2cLoop (s : I2CSlave) (q : I2CSeq) : Nat → (Nat → I2CTick) → I2CM → I2CM
  | 0, _, m => m
  | n + 1, sch, m => if m.ret = .inProgress then i2cLoop s q n (fun i => sch (i + 1)) (I2CM.poll q { m with hw := m.hw.tick s (sch 0) }) else m

/-- `I2CSPM_TRANSFER_TIMEOUT` — i2c_driver.h 104. -/
notation "i2cTimeout" => (300000 : Nat)

/-- `I2CSPM::transfer` — i2c_driver.cpp 200-212. -/
def i2cTransfer (s : I2CSlave) (sch : Nat → I2CTick) (q : I2CSeq) (rx : Bytes) (h : I2CHw) : I2CRes × Bytes × I2CHw :=
  let m := i2cLoop s q i2cTimeout sch (i2cInit q rx h)
  (m.ret, m.rx, m.hw)

/-- `I2CSPM::read` — i2c_driver.cpp 149-165: the result, the receive buffer afterwards, the bus. `none`: a null pointer. -/
def i2cRead (s : I2CSlave) (sch : Nat → I2CTick) (addr : Nat) (cmd : Option Bytes) (rx : Option Bytes) (h : I2CHw) : I2CRes × Bytes × I2CHw :=
  match cmd, rx with
  | some c, some r => if c = [] ∨ r = [] then (.usageFault, r, h) else i2cTransfer s sch ⟨2 * addr % 65536, true, c⟩ r h
  | _, r => (.usageFault, r.getD [], h)

/-- `I2CSPM::write` — i2c_driver.cpp 174-185. -/
def i2cWrite (s : I2CSlave) (sch : Nat → I2CTick) (addr : Nat) (cmd : Option Bytes) (h : I2CHw) : I2CRes × I2CHw :=
  match cmd with
  | some c => if c = [] then (.usageFault, h) else ((i2cTransfer s sch ⟨2 * addr % 65536, false, c⟩ [] h).1, (i2cTransfer s sch ⟨2 * addr % 65536, false, c⟩ [] h).2.2)
  | none => (.usageFault, h)

end OTR
