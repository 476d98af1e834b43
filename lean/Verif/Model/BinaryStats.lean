import Verif.Model.CRC
/-!
# Binary stats messages — `U/OTV0P2BASE_SimpleBinaryStats.{h,cpp}`

Not modelled: the refusal of NULL pointers (OTV0P2BASE_SimpleBinaryStats.cpp 183-184, 284-286). The printing routines are in
`StatsText`.
-/

namespace OTR

/-- `trailingMinimalStatsPayload_t` — OTV0P2BASE_SimpleBinaryStats.h 79-83.  The temperature is a 15-bit signed field. -/
structure MinStats where
  tempC16 : Int
  powerLow : Bool
deriving Repr, DecidableEq

/-- `writeTrailingMinimalStatsPayloadBody` — OTV0P2BASE_SimpleBinaryStats.cpp 52-89, the two bytes stored (bias -320, OTV0P2BASE_SimpleBinaryStats.h 75).  All intermediate values
fit `int16_t`. -/
def MinStats.body (p : MinStats) : Byte × Byte :=
  let t : Int := if p.tempC16 < -320 then -320 else if p.tempC16 > 1727 then 1727 else p.tempC16
  let b : Nat := (t + 320).toNat
  let low : Byte := if p.powerLow then 0x10 else 0
  (0x40 ||| low ||| UInt8.ofNat (b % 16), UInt8.ofNat (b / 16))

/-- `writeTrailingMinimalStatsPayload` — OTV0P2BASE_SimpleBinaryStats.cpp 95-102, the three bytes stored. -/
def MinStats.write (p : MinStats) : Bytes := [p.body.1, p.body.2, crc7_5B_update p.body.1 p.body.2]

/-- `verifyHeaderAndCRCForTrailingMinimalStatsPayload` — OTV0P2BASE_SimpleBinaryStats.cpp 40-45, on a buffer of at least three bytes; `&&` is
short-circuit. -/
def minStatsVerify (buf : Bytes) : Res Bool :=
  rd buf 0 fun b0 =>
  if b0 &&& 0xe0 ≠ 0x40 then .ok false
  else rd buf 1 fun b1 =>
    if b1 &&& 0x80 ≠ 0 then .ok false
    else rd buf 2 fun b2 => .ok (b2 = crc7_5B_update b0 b1)

/-- `extractTrailingMinimalStatsPayload` — OTV0P2BASE_SimpleBinaryStats.cpp 108-115.  (`(b1 << 4) | (b0 & 0xf)` is `16*b1 + b0%16`.) -/
def minStatsExtract (b0 b1 : Byte) : MinStats :=
  ⟨(16 * b1.toNat + b0.toNat % 16 : Nat) - 320, b0 &&& 0x10 ≠ 0⟩

/-- `FullStatsMessageCore_t` — OTV0P2BASE_SimpleBinaryStats.h 182-200. -/
structure FullStats where
  containsID : Bool
  containsTP : Bool
  containsAmbL : Bool
  id0 : Byte
  id1 : Byte
  tp : MinStats
  ambL : Byte
  occ : Byte
deriving Repr, DecidableEq

/-- `clearFullStatsMessageCore` — OTV0P2BASE_SimpleBinaryStats.h 208. -/
def FullStats.clear : FullStats := ⟨false, false, false, 0, 0, ⟨0, false⟩, 0, 0⟩

/-- The bytes before the CRC, OTV0P2BASE_SimpleBinaryStats.cpp 214-260.  `showOcc` is `secLevel <= stTXalwaysAll`. -/
def FullStats.payload (c : FullStats) (showOcc : Bool) : Bytes :=
  let header : Byte := 0x70 ||| (if c.containsID then 4 else 0) ||| (if c.containsID && (c.id0 &&& 0x80) != 0 then 2 else 0)
  let flags : Byte := 0x60 ||| (if c.containsAmbL then 8 else 0) ||| (if showOcc then c.occ &&& 3 else 0)
  [header] ++ (if c.containsID then [c.id0 &&& 0x7f, c.id1 &&& 0x7f] else []) ++
    (if c.containsTP then [c.tp.body.1, c.tp.body.2] else []) ++ [flags] ++ (if c.containsAmbL then [c.ambL] else [])

/-- `encodeFullStatsMessageCore` — OTV0P2BASE_SimpleBinaryStats.cpp 180-273: the buffer after the call and the offset of the returned pointer (that of
the 0xff terminator).  The bytes are stored in one go here, one by one in the code. -/
def FullStats.encode (c : FullStats) (buf : Bytes) (buflen : Nat) (secLevel : Byte) (secureChannel : Bool) : Res (Bytes × Nat) :=
  failIf (secureChannel = true) <|
  let payloadLength := 1 + (if c.containsID then 2 else 0) + (if c.containsTP then 2 else 0) + 1 + (if c.containsAmbL then 1 else 0)
  failIf (buflen < payloadLength + 2) <|
  failIf (c.containsID = true ∧ (c.id0 = 0xff ∨ c.id1 = 0xff)) <|
  failIf (c.containsID = true ∧ c.id0 &&& 0x80 ≠ c.id1 &&& 0x80) <|
  failIf (c.containsAmbL = true ∧ (c.ambL = 0 ∨ c.ambL = 0xff)) <|
  let msg := c.payload (secLevel ≤ 0)
  let crc := msg.foldl crc7_5B_update 0x7f
  wrBlock buf 0 (msg ++ [crc, 0xff]) fun buf' => .ok (buf', msg.length + 1)

/-- From the CRC check to the end, OTV0P2BASE_SimpleBinaryStats.cpp 361-368, having consumed `b` bytes. -/
def fullDecodeEnd (buf : Bytes) (buflen b : Nat) (c : FullStats) : Res (FullStats × Nat) :=
  failIf (b ≥ buflen) <|
  rd buf b fun x =>
  failIf ((buf.take b).foldl crc7_5B_update 0x7f ≠ x) <|
  .ok (c, b + 1)

/-- The flags and optional ambient light, OTV0P2BASE_SimpleBinaryStats.cpp 344-358. -/
def fullDecodeFlags (buf : Bytes) (buflen b : Nat) (c : FullStats) : Res (FullStats × Nat) :=
  failIf (b ≥ buflen) <|
  rd buf b fun flags =>
  failIf (flags &&& 0xe0 ≠ 0x60) <|
  let c := { c with occ := flags &&& 3 }
  if flags &&& 8 ≠ 0 then
    failIf (b + 1 ≥ buflen) <|
    rd buf (b + 1) fun ambL =>
    failIf (ambL = 0 ∨ ambL = 0xff) <|
    fullDecodeEnd buf buflen (b + 2) { c with ambL := ambL, containsAmbL := true }
  else fullDecodeEnd buf buflen (b + 1) c

/-- The optional temperature and power, OTV0P2BASE_SimpleBinaryStats.cpp 330-340. -/
def fullDecodeTP (buf : Bytes) (buflen b : Nat) (c : FullStats) : Res (FullStats × Nat) :=
  failIf (b ≥ buflen) <|
  rd buf b fun b0 =>
  if b0 &&& 0xe0 = 0x40 then
    failIf (b + 1 ≥ buflen) <|
    rd buf (b + 1) fun b1 =>
    failIf (b1 &&& 0x80 ≠ 0) <|
    fullDecodeFlags buf buflen (b + 2) { c with tp := minStatsExtract b0 b1, containsTP := true }
  else fullDecodeFlags buf buflen b c

/-- `decodeFullStatsMessageCore` — OTV0P2BASE_SimpleBinaryStats.cpp 280-369: the content and the number of bytes consumed. -/
def fullDecode (buf : Bytes) (buflen : Nat) : Res (FullStats × Nat) :=
  failIf (buflen < 3) <|
  rd buf 0 fun header =>
  failIf (header &&& 0x70 ≠ 0x70) <|
  failIf (header &&& 0x80 ≠ 0) <|
  if header &&& 4 ≠ 0 then
    let idHigh : Byte := if header &&& 2 ≠ 0 then 0x80 else 0
    rd buf 1 fun i0 =>
    rd buf 2 fun i1 =>
    fullDecodeTP buf buflen 3 { FullStats.clear with containsID := true, id0 := i0 ||| idHigh, id1 := i1 ||| idHigh }
  else fullDecodeTP buf buflen 1 FullStats.clear

end OTR
