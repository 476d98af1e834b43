import Verif.Model.JSONStats
import Verif.Model.Stats
import Verif.Model.CLI
import Verif.Model.FHT8VDriver
import Verif.Model.Messaging
import Verif.Model.BinaryStats
/-!
# Text sent out: LoRa modem commands, the status line, the stats dump; and the FHT8V house codes

`U/OTRN2483Link_OTRN2483Link.cpp`, `U/OTV0P2BASE_SystemStatsLine.h`, `U/OTV0P2BASE_CLI.cpp` 300-374 and
`U/OTRadValve_FHT8VRadValve.cpp` 705-844. What is printed is a list of bytes. Simplification: the serial device takes every
byte (its own behaviour is in `SoftSerial`); the reply read after a command and echoed to the console is left out; waking and
flushing the serial port are left out.
-/

namespace OTR

/-! ### RN2483 LoRa modem -/

/-- One nibble as `getHex` prints it, OTRN2483Link.cpp 411-419. -/
def rnDigit (n : Nat) : Byte := u8 (if n ≤ 9 then n + 48 else n + (65 - 10))

/-- OTRN2483Link::getHex, OTRN2483Link.cpp 401-430: `counter` is a `uint8_t`, lowered by two (modulo 256) per input byte until it
is 0; reading past the input is undefined. -/
def rnGetHex : Bytes → Nat → Res Bytes
  | [], counter => if counter = 0 then .ok [] else .ub
  | b :: t, counter =>
    if counter = 0 then .ok []                                                  -- 406
    else match rnGetHex t ((counter + 254) % 256) with                          -- 421-422
      | .ok r => .ok (rnDigit (b.toNat / 16) :: rnDigit (b.toNat % 16) :: r)    -- 407-419
      | e => e

/-- `RN2483_END`, OTRN2483Link.cpp 468. -/
def rnEnd : Bytes := [13, 10]

/-- OTRN2483Link::sendRaw, OTRN2483Link.cpp 102-140 (default build: no sleep): what goes to the modem; it then returns true whatever
happened. `outputBuf` holds `2 * buflen` bytes, but its size is passed on as a `uint8_t`, to `getHex` and to `write`; a NULL buffer
(whose `outputBuf` stays uninitialised) is not modelled. -/
def rnSend (msg : Bytes) : Res Bytes :=
  match rnGetHex msg ((2 * msg.length) % 256) with                              -- 119-120
  | .ok hex => .ok (ascii "mac " ++ ascii "tx uncnf 1 " ++ hex ++ rnEnd)        -- 121-124
  | e => e

/-- OTRN2483Link::setAdaptiveDataRate, OTRN2483Link.cpp 344-368. -/
def rnADR (minRate maxRate : Nat) : Bytes :=
  (List.range 3).flatMap (fun i =>
    ascii "mac " ++ ascii "set " ++ ascii "ch " ++ ascii "drrange " ++ [u8 (48 + i)] ++ [32] ++ [u8 (48 + minRate)] ++ [32] ++
      [u8 (48 + maxRate)] ++ rnEnd) ++
  ascii "mac " ++ ascii "set " ++ ascii "adr on" ++ rnEnd

/-- OTRN2483Link::begin, OTRN2483Link.cpp 41-87 in the default build (RN2483_ENABLE_ADR defined, settings not in the modem): the
characters sent after the break (195-199, 235-290). -/
def rnBegin : Bytes :=
  ascii "U" ++                                                                                                  -- 58, 198
  ascii "mac " ++ ascii "set " ++ ascii "devaddr " ++ ascii "02011123" ++ rnEnd ++                              -- 64
  ascii "mac " ++ ascii "set " ++ ascii "appskey " ++ ascii "2B7E151628AED2A6ABF7158809CF4F3C" ++ rnEnd ++      -- 67
  ascii "mac " ++ ascii "set " ++ ascii "nwkskey " ++ ascii "2B7E151628AED2A6ABF7158809CF4F3C" ++ rnEnd ++
  rnADR 1 5 ++                                                                                                  -- 72
  ascii "mac " ++ ascii "join abp" ++ rnEnd ++                                                                  -- 80
  ascii "mac " ++ ascii "get " ++ ascii "status" ++ rnEnd                                                       -- 83

/-! ### The status line -/

/-- A sensor as the JSON stats see it: tag and value — OTV0P2BASE_Sensor.h 62-81. -/
abbrev Tagged := Bytes × Int

/-- What SystemStatsLine is given, SystemStatsLine.h 109-143: the valve mode, the optional valve and temperature sensor, whether
the trailing JSON is enabled, and the three optional sensors it shows. -/
structure LineIn where
  warm : Bool
  bake : Bool
  valve : Option Byte
  temp : Option Int
  js : Bool
  humidity : Option Tagged
  amb : Option Tagged
  occ : Option Tagged
deriving Repr, DecidableEq

/-- The part before the JSON, SystemStatsLine.h 187-220 (`int16_t` `>> 4` and `& 0xf` on two's complement are floor and
remainder). -/
def lineHead (i : LineIn) : Bytes :=
  [0x3d] ++ [if i.warm then (if i.bake then 0x42 else 0x57) else 0x46] ++
  (match i.valve with | none => [] | some v => decNat v.toNat ++ [0x25]) ++
  (match i.temp with | none => [] | some t => [0x40] ++ decInt (t / 16) ++ [0x43] ++ [hexDigitU (t % 16).toNat])

/-- serialStatusReport, SystemStatsLine.h 171-346: what is printed and the rotation afterwards. `sys` is the text of the node's ID,
`mem` what the uninitialised 40-byte buffer holds. A NULL sensor is dereferenced all the same (305-307). -/
def statusLine (s : StatSet) (sys mem : Bytes) (i : LineIn) : Res (Bytes × StatSet) :=
  if ¬ i.js then .ok (lineHead i ++ [13, 10], s)
  else match i.humidity, i.amb, i.occ with
    | some h, some a, some o =>
      let s1 := (s.put h.1 h.2 false).2
      let s2 := (s1.put a.1 a.2 false).2
      let s3 := (s2.put o.1 o.2 false).2
      let w := writeJSON s3 sys mem 40 true false
      .ok (lineHead i ++ [0x3b] ++ (if w.1 ≠ 0 then w.2.2.mem.takeWhile (· ≠ 0) else []) ++ [13, 10], w.2.1)
    | _, _, _ => .ub

/-! ### Dumping the by-hour stats -/

/-- The name printed for a stats set, CLI.cpp 319-337. -/
def setName (setN : Nat) : Bytes :=
  if setN = 0 ∨ setN = 1 then ascii "C"
  else if setN = 2 ∨ setN = 3 then ascii "ambl"
  else if setN = 4 ∨ setN = 5 then ascii "occ%"
  else if setN = 6 ∨ setN = 7 then ascii "RH%"
  else if setN = 10 ∨ setN = 11 then ascii "u"
  else ascii "?"

/-- One entry, CLI.cpp 342-370; the 16-bit `int` arithmetic of line 356 wraps. -/
def dumpEntry (m : EE) (setN hh thisHH : Nat) : Bytes :=
  let statRaw := eeGetStat m setN hh                                            -- 344
  (if statRaw = 0xff then [0x2d]                                                -- 346
   else if setN = 0 ∨ setN = 1 then decInt (i16 (i16 (expandTempC16 statRaw) + 8) / 16)   -- 356
   else decNat statRaw.toNat) ++                                                -- 350
  (if hh = thisHH then [0x3c] else []) ++ [0x20]                                -- 364-369

/-- DumpStats::doCommand, CLI.cpp 300-374: what is printed. -/
def cliDump (m : EE) (thisHH : Nat) (buf : Bytes) : Bytes :=
  if buf.length ≥ 3 then
    match strToks [] (buf.drop 2) with
    | [] => []
    | t1 :: _ =>
      setName (atoiU8 t1) ++ [0x20] ++ (if atoiU8 t1 % 2 = 1 then ascii "smoothed" else ascii "last") ++ [0x20] ++
      (List.range 24).flatMap (fun hh => dumpEntry m (atoiU8 t1) hh thisHH) ++ [13, 10]
  else []

/-! ### FHT8V house codes -/

namespace FHT8V

/-- nvSetHC1/nvSetHC2, FHT8VRadValve.cpp 720-729: the valve object and the EEPROM writes. -/
def Drv.nvSetHC1 (v : Drv) (hc : Byte) : EM Drv := emBind (smartUpdate true 16 hc) fun _ => emRet (v.setHC1 hc)
/-- `nvSetHC2` — OTRadValve_FHT8VRadValve.cpp 725-729. -/
def Drv.nvSetHC2 (v : Drv) (hc : Byte) : EM Drv := emBind (smartUpdate true 17 hc) fun _ => emRet (v.setHC2 hc)

/-- nvClearHC, FHT8VRadValve.cpp 708-713. -/
def Drv.nvClearHC (v : Drv) : EM Drv :=
  emBind (smartErase 16) fun _ => emBind (smartErase 17) fun _ => emRet v.clearHC

/-- nvGetHC1/nvGetHC2, FHT8VRadValve.cpp 737-768: the value and the valve object afterwards. -/
def Drv.nvGetHC1 (v : Drv) (m : EE) : Byte × Drv :=
  if validHouse v.hc1 then (v.hc1, v)                                           -- 739-744
  else if validHouse (m 16) then (m 16, v.setHC1 (m 16)) else (m 16, v)         -- 746-751
/-- `nvGetHC2` — OTRadValve_FHT8VRadValve.cpp 753-768. -/
def Drv.nvGetHC2 (v : Drv) (m : EE) : Byte × Drv :=
  if validHouse v.hc2 then (v.hc2, v)
  else if validHouse (m 17) then (m 17, v.setHC2 (m 17)) else (m 17, v)

/-- nvLoadHC, FHT8VRadValve.cpp 770-775. -/
def Drv.nvLoadHC (v : Drv) (m : EE) : Drv := ((v.nvGetHC1 m).2.nvGetHC2 m).2

/-- SetHouseCode::doCommand, FHT8VRadValve.cpp 783-811 for a non-NULL valve: the valve object and the EEPROM writes (`buf` is the
line, `buf.length` its length). -/
def Drv.cliHouse (v : Drv) (buf : Bytes) : EM Drv :=
  if buf.length ≥ 5 then
    match strToks [] (buf.drop 2) with
    | [] => emRet v
    | [_] => emRet v                                                            -- 792
    | t1 :: t2 :: _ =>
      if atoi16 t1 < 0 ∨ atoi16 t1 > 99 ∨ atoi16 t2 < 0 ∨ atoi16 t2 > 99 then emRet v   -- 796
      else emBind (v.nvSetHC1 (u8 (atoi16 t1).toNat)) fun v' => v'.nvSetHC2 (u8 (atoi16 t2).toNat)   -- 800-801
  else if buf.length < 2 then v.nvClearHC                                       -- 805-808
  else emRet v

/-- populateCoreStats, FHT8VRadValve.cpp 815-844: `v` is the optional valve (which may load its codes as a side effect). -/
def populateCoreStats (v : Option Drv) (m : EE) (tempC16 : Int) (powerLow : Bool) (ambLight occ : Byte) : FullStats × Option Drv :=
  let amb := max 1 (min 254 ambLight)
  match v with
  | some v => (⟨true, true, true, (v.nvGetHC1 m).1, ((v.nvGetHC1 m).2.nvGetHC2 m).1, ⟨tempC16, powerLow⟩, amb, occ⟩,
      some ((v.nvGetHC1 m).2.nvGetHC2 m).2)
  | none => (⟨true, true, true, m 20, m 21, ⟨tempC16, powerLow⟩, amb, occ⟩, none)

end FHT8V

end OTR
