import Verif.Base
/-!
# Specification: the devices on a 1-Wire bus

Not code of the repository: the behaviour of 1-Wire slaves and of the DS18B20 as their data sheets give it
(Maxim application notes 126 and 187, DS18B20 data sheet), for the master code of `Verif.Model.OneWire` to run against.

The bus is a wired AND.  A time slot is started by the master, who either holds the line low (a 0) or lets go
(a 1); a read slot is a slot in which the master lets go, so a slave that expects to receive sees a 1.
Slots take no time here: time passes only while the master naps, and all conversions end in a nap.
-/

namespace OTR

/-- Bit `i` of a ROM code in the order in which it travels: least significant bit of the first (family) byte first. -/
def romBit (rom : Bytes) (i : Nat) : Bool := (rom.getD (i / 8) 0).toNat.testBit (i % 8)

/-- Two ROM codes have the same first `i` bits. -/
def romAgree (i : Nat) (a b : Bytes) : Prop := ∀ j, j < i → romBit a j = romBit b j

instance (i : Nat) (a b : Bytes) : Decidable (romAgree i a b) := by unfold romAgree; infer_instance

/-- ROM code `a` comes before `b`: where they first differ `a` has a 0. -/
def romBefore (a b : Bytes) : Prop :=
  ∃ i, i < 64 ∧ romBit a i = false ∧ romBit b i = true ∧ romAgree i a b

/-- What a slave is doing. -/
inductive OWSt where
  /-- waiting for the next reset -/
  | idle
  /-- receiving a ROM command: `n` bits so far, with value `v` -/
  | cmd (n v : Nat)
  /-- taking part in a search at bit `i`: sends the bit (0), sends its complement (1), receives the direction (2) -/
  | srch (i ph : Nat)
  /-- comparing bit `i` of the code sent after Match ROM -/
  | mtch (i : Nat)
  /-- selected, receiving a function command -/
  | func (n v : Nat)
  /-- receiving the three bytes of Write Scratchpad -/
  | wscr (n v : Nat)
  /-- sending bit `n` of the scratchpad -/
  | rscr (n : Nat)
  /-- Convert T was received: answers read slots with 0 while the conversion runs -/
  | conv
deriving DecidableEq, Repr

/-- A slave. The fields below `st` are those of the DS18B20; for another device they just sit there. -/
structure OWDev where
  rom : Bytes
  st : OWSt := .idle
  /-- scratchpad: temperature (low, high byte), alarm high, alarm low, configuration -/
  t0 : Byte := 0x50
  t1 : Byte := 0x05
  th : Byte := 0x4b
  tl : Byte := 0x46
  cfg : Byte := 0x7f
  /-- a conversion is running, and what it will give -/
  pending : Bool := false
  m0 : Byte := 0x50
  m1 : Byte := 0x05
deriving DecidableEq, Repr

/-- The scratchpad as sent (the last four bytes are not modelled). -/
def OWDev.scratch (d : OWDev) : Bytes := [d.t0, d.t1, d.th, d.tl, d.cfg]

/-- Does the slave leave the line high in this slot? -/
def OWDev.drive (d : OWDev) : Bool :=
  match d.st with
  | .srch i 0 => romBit d.rom i
  | .srch i 1 => !romBit d.rom i
  | .rscr n => romBit d.scratch n
  | .conv => !d.pending
  | _ => true

/-- The slave has received the ROM command `v`: Search ROM, Match ROM, Skip ROM. -/
def OWDev.romCmd (v : Nat) : OWSt :=
  if v = 0xf0 then .srch 0 0 else if v = 0x55 then .mtch 0 else if v = 0xcc then .func 0 0 else .idle

/-- The slave has received the function command `v`: only a DS18B20 (family 0x28) reacts. -/
def OWDev.funcCmd (d : OWDev) (v : Nat) : OWDev :=
  if d.rom.getD 0 0 ≠ 0x28 then { d with st := .idle }
  else if v = 0x44 then { d with st := .conv, pending := true }
  else if v = 0xbe then { d with st := .rscr 0 }
  else if v = 0x4e then { d with st := .wscr 0 0 }
  else { d with st := .idle }

/-- One slot as the slave sees it, `b` being the level of the line. -/
def OWDev.slot (b : Bool) (d : OWDev) : OWDev :=
  match d.st with
  | .idle => d
  | .cmd n v => if n < 7 then { d with st := .cmd (n + 1) (v + b.toNat * 2 ^ n) }
                else { d with st := OWDev.romCmd (v + b.toNat * 2 ^ n) }
  | .srch i 0 => { d with st := .srch i 1 }
  | .srch i 1 => { d with st := .srch i 2 }
  | .srch i _ => if b = romBit d.rom i then (if i < 63 then { d with st := .srch (i + 1) 0 } else { d with st := .func 0 0 })
                 else { d with st := .idle }
  | .mtch i => if b = romBit d.rom i then (if i < 63 then { d with st := .mtch (i + 1) } else { d with st := .func 0 0 })
               else { d with st := .idle }
  | .func n v => if n < 7 then { d with st := .func (n + 1) (v + b.toNat * 2 ^ n) }
                 else d.funcCmd (v + b.toNat * 2 ^ n)
  | .wscr n v => if n < 23 then { d with st := .wscr (n + 1) (v + b.toNat * 2 ^ n) }
                 else { d with st := .idle, th := u8 (v + b.toNat * 2 ^ n), tl := u8 ((v + b.toNat * 2 ^ n) / 256),
                               cfg := u8 ((v + b.toNat * 2 ^ n) / 65536) }
  | .rscr n => { d with st := .rscr (n + 1) }
  | .conv => d

/-- A nap of the master: running conversions end. -/
def OWDev.nap (d : OWDev) : OWDev := if d.pending then { d with pending := false, t0 := d.m0, t1 := d.m1 } else d

/-- The bus: its slaves, and whether the line is shorted to ground. -/
structure OWBus where
  devs : List OWDev
  short : Bool := false
deriving DecidableEq, Repr

/-- A slot: the level the line takes when the master sends `b` (lets go for `true`), and the slaves afterwards. -/
def OWBus.level (b : Bool) (s : OWBus) : Bool := b && !s.short && s.devs.all OWDev.drive

def OWBus.slot (b : Bool) (s : OWBus) : OWBus := { s with devs := s.devs.map (OWDev.slot (s.level b)) }

/-- A reset pulse: every slave then waits for a ROM command. -/
def OWBus.rst (s : OWBus) : OWBus := { s with devs := s.devs.map fun d => { d with st := .cmd 0 0 } }

/-- The line is low when the master looks for a presence pulse. -/
def OWBus.presence (s : OWBus) : Bool := s.short || !s.devs.isEmpty

def OWBus.nap (s : OWBus) : OWBus := { s with devs := s.devs.map OWDev.nap }

/-- A bus in working order: no short, 8-byte ROM codes, all different, no family code 0. -/
structure OWBus.Sound (s : OWBus) : Prop where
  noShort : s.short = false
  len : ∀ d ∈ s.devs, d.rom.length = 8
  family : ∀ d ∈ s.devs, d.rom.getD 0 0 ≠ 0
  nodup : (s.devs.map OWDev.rom).Nodup

end OTR
