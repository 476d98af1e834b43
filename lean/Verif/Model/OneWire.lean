import Verif.Spec.OneWire
/-!
# Model: the 1-Wire master `content/OTRadioLink/utility/OTV0P2BASE_MinOW.{h,cpp}` and the DS18B20 driver
`content/OTRadioLink/utility/OTV0P2BASE_SensorDS18B20.{h,cpp}`

The line timing (delays, interrupt blocking) is in `Model/OneWireLine.lean`; here `reset`, `read_bit` and `write_bit` act on the bus of
`Verif.Spec.OneWire` as a reset pulse and as time slots.
-/

namespace OTR

/-- The master with its search state, MinOW.h 59-76, on its bus. -/
structure OW where
  lastDev : Bool := false
  lastDisc : Nat := 0
  addr : Bytes := [0, 0, 0, 0, 0, 0, 0, 0]
  bus : OWBus
deriving DecidableEq, Repr

/-- `reset`, MinOW.cpp 53-87: reset pulse and presence. -/
def OW.reset (o : OW) : OW := { o with bus := o.bus.rst }

/-- The result of `reset`, OTV0P2BASE_MinOW.cpp 53-87: whether any device answered with a presence pulse. -/
def OW.present (o : OW) : Bool := o.bus.presence

/-- `read_bit`, MinOW.h 174-201. -/
def OW.readBit (o : OW) : Bool × OW := (o.bus.level true, { o with bus := o.bus.slot true })

/-- `write_bit`, MinOW.h 206-225. -/
def OW.writeBit (b : Bool) (o : OW) : OW := { o with bus := o.bus.slot b }

/-- The loop of `read`, MinOW.cpp 94-98, `n` rounds left. -/
def OW.readLoop : Nat → Byte → OW → Byte × OW
  | 0, r, o => (r, o)
  | n + 1, r, o =>
    OW.readLoop n (if o.readBit.1 then (r >>> 1) ||| 0x80 else (r >>> 1) &&& 0x7f) o.readBit.2

/-- `read`, MinOW.cpp 91-100. -/
def OW.read (o : OW) : Byte × OW := OW.readLoop 8 0 o

/-- The loop of `write`, MinOW.cpp 106-110, `n` rounds left. -/
def OW.writeLoop : Nat → Byte → OW → OW
  | 0, _, o => o
  | n + 1, v, o => OW.writeLoop n (v >>> 1) (o.writeBit (v &&& 1 != 0))

/-- `write`, MinOW.cpp 104-111. -/
def OW.write (v : Byte) (o : OW) : OW := OW.writeLoop 8 v o

/-- `reset_search`, MinOW.cpp 113-118. -/
def OW.resetSearch (o : OW) : OW := { o with lastDev := false, lastDisc := 0, addr := [0, 0, 0, 0, 0, 0, 0, 0] }

/-- The local variables of the search loop, MinOW.cpp 132-135. -/
structure OWLoc where
  byteNo : Nat := 0
  mask : Byte := 1
  idBit : Nat := 1
  lastZero : Nat := 0
deriving DecidableEq, Repr

/-- The direction taken on a discrepancy, MinOW.cpp 172-175. -/
def OW.dirOnDisc (o : OW) (l : OWLoc) : Bool :=
  if l.idBit < o.lastDisc then o.addr.getD l.byteNo 0 &&& l.mask != 0 else l.idBit == o.lastDisc

/-- The direction, MinOW.cpp 165-175, from the two bits read. -/
def OW.dir (o : OW) (l : OWLoc) (idBit cmpl : Bool) : Bool := if idBit != cmpl then idBit else o.dirOnDisc l

/-- `lastZero` after the round, MinOW.cpp 178. -/
def OW.newLastZero (o : OW) (l : OWLoc) (idBit cmpl : Bool) : Nat :=
  if idBit != cmpl then l.lastZero else if o.dirOnDisc l then l.lastZero else l.idBit

/-- Setting the bit of the address, MinOW.cpp 182-183. -/
def setAddrBit (addr : Bytes) (byteNo : Nat) (mask : Byte) (b : Bool) : Bytes :=
  addr.set byteNo (if b then addr.getD byteNo 0 ||| mask else addr.getD byteNo 0 &&& ~~~mask)

/-- The rest of a round, MinOW.cpp 182-204, and the locals for the next. -/
def OW.roundEnd (o : OW) (l : OWLoc) (idBit cmpl : Bool) : OW × OWLoc :=
  ({ o with addr := setAddrBit o.addr l.byteNo l.mask (o.dir l idBit cmpl) }.writeBit (o.dir l idBit cmpl),
   { byteNo := if l.mask <<< 1 = 0 then l.byteNo + 1 else l.byteNo
     mask := if l.mask <<< 1 = 0 then 1 else l.mask <<< 1
     idBit := l.idBit + 1
     lastZero := o.newLastZero l idBit cmpl })

/-- The loop of `search`, MinOW.cpp 150-205. `n` bounds the number of rounds; it never gets to 0 from 64. -/
def OW.searchLoop : Nat → OW → OWLoc → OW × OWLoc
  | 0, o, l => (o, l)
  | n + 1, o, l =>
    let r1 := o.readBit
    let r2 := r1.2.readBit
    if r1.1 && r2.1 then (r2.2, l)
    else
      let e := r2.2.roundEnd l r1.1 r2.1
      if e.2.byteNo < 8 then OW.searchLoop n e.1 e.2 else e

/-- `search` when the last device was not already found and there is presence, MinOW.cpp 146-213: result and state. -/
def OW.searchRun (o : OW) : Bool × OW :=
  let e := OW.searchLoop 64 (o.reset.write 0xf0) {}
  if e.2.idBit = 65 then (true, { e.1 with lastDisc := e.2.lastZero, lastDev := if e.2.lastZero = 0 then true else e.1.lastDev })
  else (false, e.1)

/-- MinOW.cpp 216-222. -/
def OW.searchEnd (r : Bool × OW) : Bool × OW :=
  if !r.1 || r.2.addr.getD 0 0 == 0 then (false, { r.2 with lastDev := false, lastDisc := 0 }) else r

/-- `search`, MinOW.cpp 125-226: the return value and the state afterwards; `newAddr` gets a copy of the state's `addr`,
except on the early return (no presence) that leaves it alone. -/
def OW.search (o : OW) : Bool × OW :=
  if !o.lastDev then
    if !o.present then (false, { o.reset with lastDev := false, lastDisc := 0 })
    else OW.searchEnd o.searchRun
  else OW.searchEnd (false, o)

/-- Writing a list of bytes — successive calls of `write`, OTV0P2BASE_MinOW.cpp 104-111. -/
def OW.writeAll (bs : Bytes) (o : OW) : OW := bs.foldl (fun o b => o.write b) o

/-- `select`, MinOW.cpp 229-233. -/
def OW.select (a : Bytes) (o : OW) : OW := OW.writeAll a (o.write 0x55)

/-- `skip`, MinOW.cpp 236-239. -/
def OW.skip (o : OW) : OW := o.write 0xcc

/-! ## DS18B20 -/

/-- The driver, SensorDS18B20.h 53-66 (with its bus master), `value` from `Sensor`. -/
structure DS18 where
  ow : OW
  initialised : Bool := false
  precision : Nat := 9
  sensorCount : Nat := 0
deriving DecidableEq, Repr

/-- The constructor, SensorDS18B20.h 94-96. -/
def DS18.make (ow : OW) (precision : Nat) : DS18 := { ow := ow, precision := max 9 (min 12 precision) }

/-- The configuration byte, SensorDS18B20.cpp 117. -/
def DS18.cfgByte (precision : Nat) : Byte := u8 (((precision - 9) <<< 5) ||| 0x1f)

/-- SensorDS18B20.cpp 111-117: setting the precision of the device with address `a`. -/
def DS18.setup (precision : Nat) (o : OW) (a : Bytes) : OW :=
  ((((o.reset.select a).write 0x4e).write 0).write 0).write (DS18.cfgByte precision)

/-- The loop of `init`, SensorDS18B20.cpp 82-118; `none` if it has not ended after `n` rounds. -/
def DS18.initLoop (precision : Nat) : Nat → OW → Nat → Option (OW × Nat)
  | 0, _, _ => none
  | n + 1, o, count =>
    let s := o.search
    if !s.1 then some (s.2, count)
    else if s.2.addr.getD 0 0 ≠ 0x28 then DS18.initLoop precision n s.2 count
    else DS18.initLoop precision n (DS18.setup precision s.2 s.2.addr) ((count + 1) % 256)

/-- `init`, SensorDS18B20.cpp 68-130; `fuel` bounds the rounds of its loop. -/
def DS18.init (fuel : Nat) (d : DS18) : Option DS18 :=
  match DS18.initLoop d.precision fuel d.ow.resetSearch 0 with
  | none => none
  | some (o, c) => some { d with ow := o.resetSearch, initialised := true, sensorCount := c }

/-- `nap(WDTO_15MS)` for the bus. -/
def OW.nap (o : OW) : OW := { o with bus := o.bus.nap }

/-- The wait for the conversion, SensorDS18B20.cpp 194-199: `i` is the counter; `false` on a timeout. -/
def DS18.waitLoop : Nat → OW → Bool × OW
  | 0, o => (false, o) -- the counter starts at 67 and never gets here
  | i + 1, o => if o.readBit.1 then (true, o.readBit.2)
                else if i = 0 then (false, o.readBit.2) else DS18.waitLoop i o.readBit.2.nap

/-- SensorDS18B20.cpp 202-210: reading the first two bytes of the scratchpad. -/
def DS18.fetch (o : OW) (a : Bytes) : Byte × Byte × OW :=
  let r0 := ((o.reset.select a).write 0xbe).read
  let r1 := r0.2.read
  (r0.1, r1.1, r1.2.reset)

/-- `(d1 << 8) | d0` as `int16_t`, SensorDS18B20.cpp 214. -/
def DS18.raw (d0 d1 : Byte) : Int :=
  let n := (d1.toNat <<< 8) ||| d0.toNat
  if n < 32768 then n else (n : Int) - 65536

/-- The loop of `readMultiple`, SensorDS18B20.cpp 170-220, with the values stored so far; `none` if it has not ended
after `n` rounds. -/
def DS18.readLoop (count : Nat) : Nat → OW → Nat → List Int → Option (OW × List Int)
  | 0, _, _, _ => none
  | n + 1, o, index, vs =>
    let s := o.search
    if !s.1 then some (s.2, vs)
    else if s.2.addr.getD 0 0 ≠ 0x28 then DS18.readLoop count n s.2 index vs
    else if index > 0 then DS18.readLoop count n s.2 (index - 1) vs
    else
      let w := DS18.waitLoop 67 (s.2.reset.select s.2.addr)
      if !w.1 then some (w.2, vs)
      else
        let f := DS18.fetch w.2 s.2.addr
        if vs.length + 1 ≥ count then some (f.2.2, vs ++ [DS18.raw f.1 f.2.1])
        else DS18.readLoop count n f.2.2 index (vs ++ [DS18.raw f.1 f.2.1])

/-- SensorDS18B20.cpp 157-222. -/
def DS18.readBody (fuel count index : Nat) (d : DS18) : Option (DS18 × List Int) :=
  if d.sensorCount = 0 then some (d, [])
  else
    match DS18.readLoop count fuel ((d.ow.reset.skip).write 0x44).resetSearch index [] with
    | none => none
    | some (o, vs) => some ({ d with ow := o }, vs)

/-- `readMultiple`, SensorDS18B20.cpp 154-223: the driver afterwards and the values stored from `values[0]` on
(their number is the return value). -/
def DS18.readMultiple (fuel count index : Nat) (d : DS18) : Option (DS18 × List Int) :=
  if d.initialised then DS18.readBody fuel count index d
  else (d.init fuel).bind (DS18.readBody fuel count index)

/-- `read`, SensorDS18B20.cpp 136-141; `none` as value is `DEFAULT_INVALID_TEMP`. -/
def DS18.readOne (fuel : Nat) (d : DS18) : Option (DS18 × Option Int) :=
  match DS18.readMultiple fuel 1 0 d with
  | none => none
  | some (d', vs) => some (d', match vs with | [v] => some v | _ => none)

end OTR
