import Verif.Base
/-!
# JeeLabs packets — `U/OTRadioLink_JeelabsOemPacket.{h,cpp}`

`_crc16_update` is avr-libc's (`<util/crc16.h>`), modelled from its documented C equivalent.  Lengths are `uint8_t` and
wrap; a buffer is a byte list and access beyond it is undefined behaviour.
-/

namespace OTR

/-- One bit of avr-libc's `_crc16_update`: `if(crc & 1) crc = (crc >> 1) ^ 0xA001; else crc = (crc >> 1);`. -/
def crc16Bit (x : BitVec 16) : BitVec 16 := if x.getLsbD 0 then (x >>> 1) ^^^ 0xA001#16 else x >>> 1

/-- avr-libc's `_crc16_update(crc, a)`: `crc ^= a;` then eight bits. -/
def crc16Update (crc : BitVec 16) (a : Byte) : BitVec 16 :=
  crc16Bit (crc16Bit (crc16Bit (crc16Bit (crc16Bit (crc16Bit (crc16Bit (crc16Bit (crc ^^^ BitVec.ofNat 16 a.toNat))))))))

/-- `calcCrc(buf, len)` on the bytes read — OTRadioLink_JeelabsOemPacket.cpp 172-179; also the loop of `filter`, OTRadioLink_JeelabsOemPacket.cpp 145-146. -/
def crc16 (m : Bytes) : BitVec 16 := m.foldl crc16Update 0xffff#16

/-- `_nodeID` and `_groupID` — OTRadioLink_JeelabsOemPacket.h 63-64. -/
structure JL where
  node : Byte
  group : Byte
deriving Repr, DecidableEq

/-- The only configuration available, OTRadioLink_JeelabsOemPacket.h 68 (the setter is commented out). -/
def JL.default : JL := ⟨5, 100⟩

/-- `encode` — OTRadioLink_JeelabsOemPacket.cpp 72-98: the buffer after the call and the returned length; 0 (`false`) if the node is out of range. -/
def JL.encode (j : JL) (buf : Bytes) (n : Nat) (nodeID : Byte) (dest ackReq ackConf : Bool) : Res (Bytes × Nat) :=
  failIf (nodeID > 31) <|
  rdBlock buf 0 n fun body =>
  wrBlock buf 3 body fun buf =>
  let b1 : Byte := if dest then nodeID ||| 0x40 else j.node
  let b1 : Byte := b1 ||| ((if ackConf then 0x80 else 0) ||| (if ackReq then 0x20 else 0))
  wrBlock buf 0 [j.group, b1, u8 n] fun buf =>
  rdBlock buf 0 ((n + 3) % 256) fun m =>
  wrBlock buf (n + 3) [u8 ((crc16 m).toNat % 256), u8 ((crc16 m).toNat / 256)] fun buf =>
  .ok (buf, (n + 5) % 256)

/-- What `decode` leaves behind when it succeeds — the out-parameters of OTRadioLink_JeelabsOemPacket.cpp 111. -/
structure JLOut where
  buf : Bytes
  buflen : Nat
  nodeID : Byte
  dest : Bool
  ackReq : Bool
  ackConf : Bool
deriving Repr, DecidableEq

/-- `decode` — OTRadioLink_JeelabsOemPacket.cpp 111-134; `fail` stands for the returns -1, -2, -3 (which as `uint8_t` are 255, 254, 253). -/
def JL.decode (j : JL) (buf : Bytes) : Res JLOut :=
  rd buf 0 fun b0 =>
  failIf (b0 ≠ j.group) <|
  rd buf 2 fun len =>
  rdBlock buf 0 ((len.toNat + 5) % 256) fun m =>
  failIf (crc16 m ≠ 0#16) <|
  rd buf 1 fun b1 =>
  let nodeID := b1 &&& 0x1f
  let dest : Bool := b1 &&& 0x40 ≠ 0
  failIf (dest = true ∧ nodeID ≠ j.node) <|
  rdBlock buf 3 len.toNat fun body =>
  wrBlock buf 0 body fun buf =>
  .ok ⟨buf, len.toNat, nodeID, dest, b1 &&& 0x20 ≠ 0, b1 &&& 0x80 ≠ 0⟩

/-- `filter` — OTRadioLink_JeelabsOemPacket.cpp 140-151: the verdict and the frame length stored. -/
def jlFilter (buf : Bytes) : Res (Bool × Nat) :=
  rd buf 2 fun len =>
  let buflen := (len.toNat + 5) % 256
  if buflen > 64 then .ok (false, buflen)
  else rdBlock buf 0 buflen fun m => .ok (crc16 m = 0#16, buflen)

end OTR
