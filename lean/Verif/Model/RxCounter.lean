import Verif.Model.TxCounter
import Verif.Model.SecureFrame
import Verif.Model.CRC
/-!
# Receive message counters — `U/OTRadioLink_SecureableFrameType_V0p2Impl.cpp` (V0p2Impl.cpp below), and the unary
counter encoding of `U/OTV0P2BASE_Stats.{h,cpp}`.
-/

namespace OTR

/-- `eeprom_unary_1byte_decode` — Stats.cpp 192-207. -/
def unary1Decode (v : Byte) : Int :=
  if v = 0xff then 0 else if v = 0xfe then 1 else if v = 0xfc then 2 else if v = 0xf8 then 3
  else if v = 0xf0 then 4 else if v = 0xe0 then 5 else if v = 0xc0 then 6 else if v = 0x80 then 7
  else if v = 0x00 then 8 else -1

/-- `eeprom_unary_2byte_decode` — Stats.cpp 209-214. -/
def unary2Decode (vm vl : Byte) : Int :=
  if vm = 0xff then unary1Decode vl
  else if vl = 0 then unary1Decode vm + 8
  else -1

/-- `eeprom_unary_1byte_encode` — Stats.h 570. -/
def unary1Encode (n : Byte) : Byte := if n ≥ 8 then 0 else (0xff : Byte) <<< n

/-- `eeprom_unary_2byte_encode` — Stats.h 571, as (high byte, low byte) of the 16-bit result. -/
def unary2Encode (n : Byte) : Byte × Byte :=
  let v : UInt16 := if n ≥ 16 then 0 else (0xffff : UInt16) <<< n.toUInt16
  ((v >>> 8).toUInt8, v.toUInt8)

/-- Implicit conversion of an `int8_t` to `uint8_t`. -/
def i8u8 (x : Int) : Byte := UInt8.ofNat (x % 256).toNat

/-- `EEPROM_UNARY_2BYTE_MAX_VALUE` — Stats.h 569. -/
notation "UNARY_MAX" => (16 : Byte)

/-- CRC of a 6-byte counter — V0p2Impl.cpp 352-353, 405-406. -/
def crcCtr (c : Bytes) : Byte := c.foldl crc7_5B_update 0

/-- `getLastRXMsgCtrFromTable` — V0p2Impl.cpp 335-356: one stored copy, at address `a`. -/
def getLastRXMsgCtrFromTable (m : EE) (a : Nat) : Option Bytes :=
  let counter := (eeBlock m a 6).map (· ^^^ 0xff)                               -- 344-345
  if crcCtr counter ≠ ~~~(m (a + 6)) then none                                  -- 350-354
  else some counter

/-- Either stored copy of the row at `r`: the first if good, else the second — V0p2Impl.cpp 389-391, 457-459
(`V0P2BASE_EE_NODE_ASSOCIATIONS_MSG_CNT_0_OFFSET` = 8, `..._1_OFFSET` = 16: EEPROM.h 222, 226). -/
def rxBase (m : EE) (r : Nat) : Option Bytes :=
  match getLastRXMsgCtrFromTable m (r + 8) with
  | some c => some c
  | none => getLastRXMsgCtrFromTable m (r + 16)

/-- The unary increment of the row at `r` — V0p2Impl.cpp 385-387, 470-472. -/
def rxIncr (m : EE) (r : Nat) : Byte := i8u8 (unary2Decode (m (r + 15)) (m (r + 23)))

/-- `getLastRXMsgCtr` after the row has been found — V0p2Impl.cpp 385-392. -/
def rowLast (m : EE) (r : Nat) : Option Bytes :=
  match rxBase m r with
  | none => none
  | some c => if (msgcounteradd c (rxIncr m r)).1 then some (msgcounteradd c (rxIncr m r)).2 else none

/-- `getLastRXMsgCtr` — V0p2Impl.cpp 369-393 (non-NULL counter buffer, 8-byte ID). -/
def getLastRXMsgCtr (m : EE) (id : Bytes) : Option Bytes :=
  match getNextMatchingNodeID m 0 id with
  | none => none
  | some i => rowLast m (assocRow i)

/-- Byte loop of `updateRXMessageCount` — V0p2Impl.cpp 409-415 — then `k`. -/
def updBytes (a : Nat) : Bytes → EM Bool → EM Bool
  | [], k => k
  | b :: t, k =>
    emBind (smartUpdate true a (~~~b)) fun _ =>                                 -- 413
    eeRead a fun v => emIf (~~~b ≠ v) (emRet false) <| updBytes (a + 1) t k     -- 414

/-- `updateRXMessageCount` — V0p2Impl.cpp 399-421. -/
def updateRXMessageCount (a : Nat) (c : Bytes) : EM Bool :=
  emBind (smartClearBits (a + 6) 0x7f) fun _ =>                                 -- 402-403
  updBytes a c <|
  emBind (smartUpdate true (a + 6) (~~~(crcCtr c))) fun _ =>                    -- 417
  eeRead (a + 6) fun v => emIf (~~~(crcCtr c) ≠ v) (emRet false) (emRet true)   -- 418-420

/-- Search loop — V0p2Impl.cpp 478-497: `n` iterations left, `incr` the increment tried; result the increment that
makes `base` equal `new` (or the overflow / not-found failure, both of which return false). -/
def findIncr (base new : Bytes) : Nat → Byte → Option Byte
  | 0, _ => none                                                                -- 497
  | n + 1, incr =>
    if (msgcounteradd base incr).1 = false then none                            -- 482
    else if msgcountercmp (msgcounteradd base incr).2 new = 0 then some incr    -- 483
    else findIncr base new n (incr + 1)

/-- Write the unary increment — V0p2Impl.cpp 486-494. -/
def writeIncr (r : Nat) (incr : Byte) : EM Bool :=
  emBind (smartUpdate true (r + 23) (unary2Encode incr).2) fun _ =>             -- 491
  emBind (smartUpdate true (r + 15) (unary2Encode incr).1) fun _ =>             -- 492
  emRet true

/-- The full update — V0p2Impl.cpp 501-507. -/
def fullUpdate (r : Nat) (new : Bytes) : EM Bool :=
  emBind (updateRXMessageCount (r + 8) new) fun ok => emIf (ok = false) (emRet false) <|     -- 501
  emBind (updateRXMessageCount (r + 16) new) fun ok2 => emIf (ok2 = false) (emRet false) <|  -- 502
  emBind (smartErase (r + 23)) fun _ =>                                         -- 505
  emBind (smartErase (r + 15)) fun _ =>                                         -- 506
  emRet true

/-- `authAndUpdateRXMsgCtr` after validation, on the row at `r` — V0p2Impl.cpp 456-508. -/
def rowUpdate (r : Nat) (new : Bytes) : EM Bool := fun m =>
  match rxBase m r with
  | none => (false, [])                                                         -- 459
  | some base =>
    if (msgcounteradd base UNARY_MAX).1 = false then (false, [])                -- 463
    else if msgcountercmp (msgcounteradd base UNARY_MAX).2 new ≥ 0 then         -- 466
      match findIncr base new (17 - (rxIncr m r).toNat) (rxIncr m r) with       -- 470-478
      | none => (false, [])
      | some incr => writeIncr r incr m
    else fullUpdate r new m

/-- `authAndUpdateRXMsgCtr` — V0p2Impl.cpp 431-508, with `validateRXMsgCtr` (SecureableFrameType.cpp 672-681) inlined:
the new counter must be greater than the stored one. -/
def authAndUpdateRXMsgCtr (id new : Bytes) : EM Bool := fun m =>
  match getLastRXMsgCtr m id with
  | none => (false, [])                                                         -- 434
  | some cur =>
    if msgcountercmp new cur > 0 then
      match getNextMatchingNodeID m 0 id with
      | none => (false, [])                                                     -- 437
      | some i => rowUpdate (assocRow i) new m
    else (false, [])                                                            -- 434

/-- The receiver storage of `SimpleSecureFrame32or0BodyRXV0p2`: associations and counters in EEPROM.
`_getNextMatchingNodeID` — V0p2Impl.cpp 531-534 (always starts from row 0). -/
def eeRxStore : RxStore EE where
  matchID m h := (getNextMatchingNodeID m 0 (h.id.take h.getIl)).map (rowID m)
  last m id := getLastRXMsgCtr m id
  update m id ctr := ((authAndUpdateRXMsgCtr id ctr m).1, (authAndUpdateRXMsgCtr id ctr).post m)

end OTR
