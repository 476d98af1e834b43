import Verif.Base
import Verif.Model.CRC
/-!
# Secureable frame header and non-secure frames

Models `U/OTRadioLink_SecureableFrameType.{h,cpp}` (`U` = /repo/content/OTRadioLink/utility).
-/

namespace OTR

/-- `FTS_NONE` — SecureableFrameType.h 77. -/
abbrev FTS_NONE : Nat := 0
/-- `FTS_INVALID_HIGH` — SecureableFrameType.h 78. -/
abbrev FTS_INVALID_HIGH : Nat := 0x7f
/-- `FTS_ALIVE` ('!') — SecureableFrameType.h 97. -/
abbrev FTS_ALIVE : Byte := 0x21
/-- `FTS_BasicSensorOrValve` ('O') — SecureableFrameType.h 114. -/
abbrev FTS_BasicSensorOrValve : Byte := 0x4f
/-- `maxSmallFrameSize` — SecureableFrameType.h 177. -/
abbrev maxSmallFrameSize : Nat := 63
/-- `maxIDLength` — SecureableFrameType.h 211. -/
abbrev maxIDLength : Nat := 8

/-- `struct SecurableFrameHeader` — SecureableFrameType.h 160-321.
Simplification: the 8-byte array `id` is represented by the list of its first `il` bytes
(the only ones any modelled routine reads); `fl` and `bl` are kept as numbers below 256. -/
structure Hdr where
  fl : Nat
  fType : Byte
  seqIl : Byte
  id : Bytes
  bl : Nat
deriving Repr, DecidableEq

namespace Hdr
/-- `isSecure()` — SecureableFrameType.h 188. -/
def isSecure (h : Hdr) : Bool := (0x80 &&& h.fType) != 0
/-- `getSeq()` — SecureableFrameType.h 198. -/
def getSeq (h : Hdr) : Nat := ((h.seqIl >>> 4) &&& 0xf).toNat
/-- `getIl()` — SecureableFrameType.h 200. -/
def getIl (h : Hdr) : Nat := (h.seqIl &&& 0xf).toNat
/-- `getHl()` — SecureableFrameType.h 215. -/
def getHl (h : Hdr) : Nat := 4 + h.getIl
/-- `getBodyOffset()` — SecureableFrameType.h 223. -/
def getBodyOffset (h : Hdr) : Nat := h.getHl
/-- `getTl()`, `uint8_t` arithmetic: `(fl - 3 - il - bl) mod 256` — SecureableFrameType.h 227. -/
def getTl (h : Hdr) : Nat := (h.fl + 768 - 3 - h.getIl - h.bl) % 256
/-- `getTrailerOffset()` — SecureableFrameType.h 229. -/
def getTrailerOffset (h : Hdr) : Nat := (4 + h.getIl + h.bl) % 256
end Hdr

/-- The frame type byte stored in the header — SecureableFrameType.cpp 113. -/
def typeByte (secure : Bool) (t : Byte) : Byte := if secure then 0x80 ||| t else 0x7f &&& t

/-- The seq/il byte: `uint8_t(il_ | (seqNum_ << 4))` — SecureableFrameType.cpp 120. -/
def seqIlByte (seqNum il : Byte) : Byte := il ||| (seqNum <<< 4)

/-- Second part of `encodeHeader`, once the ID bytes are in the structure — SecureableFrameType.cpp 134-170. -/
def encodeHeaderWithId (buflen : Nat) (secure : Bool) (fType seqNum : Byte) (idb : Bytes) (il bl tl : Byte) :
    Res (Hdr × Bytes) :=
  let hlifl := 4 + il.toNat                                                   -- 134
  failIf (hlifl > buflen) <|                                                  -- 136
  failIf ((bl.toNat : Int) > (maxSmallFrameSize : Int) - hlifl) <|            -- 139
  failIf (secure = false ∧ tl.toNat ≠ 1) <|                                   -- 142
  failIf (secure = true ∧ tl.toNat = 0) <|                                    -- 147
  failIf (secure = true ∧
    (tl.toNat : Int) > (maxSmallFrameSize : Int) + 1 - hlifl - bl.toNat) <|   -- 150
  let fl := (hlifl - 1 + bl.toNat + tl.toNat) % 256                           -- 153
  let ft := typeByte secure fType                                             -- 113
  let si := seqIlByte seqNum il                                               -- 120
  .ok ({ fl := fl, fType := ft, seqIl := si, id := idb, bl := bl.toNat },
       [u8 fl, ft, si] ++ idb ++ [bl])                                        -- 157-170

/-- `SecurableFrameHeader::encodeHeader` — SecureableFrameType.cpp 83-171.
`buflen` is the size of the output buffer; `id = none` is a NULL id pointer (non-AVR branch, line 130);
`some bs` is a pointer to exactly the accessible bytes `bs` (reading more is undefined behaviour).
On success gives the header structure and the header bytes that are stored at the start of a non-NULL buffer
(their number is the C++ return value `hlifl`). -/
def encodeHeader (buflen : Nat) (secure : Bool) (fType seqNum : Byte) (id : Option Bytes) (il bl tl : Byte) :
    Res (Hdr × Bytes) :=
  failIf (fType.toNat = FTS_NONE ∨ fType.toNat ≥ FTS_INVALID_HIGH) <|          -- 112
  failIf (il.toNat > maxIDLength) <|                                            -- 118
  if il.toNat > 0 then                                                          -- 121-132
    match id with
    | none => .fail
    | some bs => rdBlock bs 0 il.toNat fun idb => encodeHeaderWithId buflen secure fType seqNum idb il bl tl
  else encodeHeaderWithId buflen secure fType seqNum [] il bl tl

/-- `SecurableFrameHeader::decodeHeader` — SecureableFrameType.cpp 202-255, `buf` non-NULL and `buflen = buf.length`.
Every access to the buffer is a checked read. On success gives the header structure;
the C++ return value is `hlifl = 4 + il = getHl()`. -/
def decodeHeader (buf : Bytes) : Res Hdr :=
  let buflen := buf.length
  failIf (buflen < 5) <|                                                        -- 209
  rd buf 0 fun fl_ =>                                                           -- 214
  failIf (fl_.toNat < 4) <|                                                     -- 215
  failIf (fl_.toNat > maxSmallFrameSize) <|                                     -- 217
  rd buf 1 fun fType =>                                                         -- 219
  let secure := (0x80 &&& fType) != 0                                           -- 220
  let t := (fType &&& 0x7f).toNat                                               -- 221
  failIf (t = FTS_NONE ∨ t ≥ FTS_INVALID_HIGH) <|                               -- 222
  rd buf 2 fun seqIl =>                                                         -- 224
  let il := (seqIl &&& 0xf).toNat                                               -- 225
  failIf (il > maxIDLength) <|                                                  -- 226
  failIf ((il : Int) > (fl_.toNat : Int) - 4) <|                                -- 228
  let hlifl := 4 + il                                                           -- 230
  failIf (hlifl > buflen) <|                                                    -- 232
  rdBlock buf 3 il fun id =>                                                    -- 234
  rd buf (hlifl - 1) fun bl =>                                                  -- 236
  failIf ((bl.toNat : Int) > (fl_.toNat : Int) - hlifl) <|                      -- 237
  let rest : Res Hdr :=
    let tl := (fl_.toNat + 768 - 3 - il - bl.toNat) % 256                       -- 246
    failIf (secure = false ∧ tl ≠ 1) <|                                         -- 247
    failIf (secure = true ∧ tl = 0) <|                                          -- 248
    .ok { fl := fl_.toNat, fType := fType, seqIl := seqIl, id := id, bl := bl.toNat }
  if buflen > fl_.toNat then                                                    -- 240
    rd buf fl_.toNat fun lastByte =>
    failIf (lastByte = 0x00 ∨ lastByte = 0xff) rest                             -- 243
  else rest

/-- `SecurableFrameHeader::computeNonSecureCRC` — SecureableFrameType.cpp 268-282; 0 is the error value.
`buflen` is the caller-declared length, which may differ from the accessible bytes `buf`. -/
def computeNonSecureCRC (h : Hdr) (buf : Bytes) (buflen : Nat) : Res Byte :=
  if h.fl = 0 then .ok 0                                                        -- 271
  else if buflen < h.fl then .ok 0                                              -- 273
  else rdBlock buf 0 h.fl fun bs =>
    let crc := bs.foldl crc7_5B_update 0x7f                                     -- 275-278
    .ok (if crc = 0 then 0x80 else crc)                                         -- 280

/-- `encodeNonsecure` — SecureableFrameType.cpp 309-342. `ptext` is the body (length `ptextbufSize`),
`outbuf` the output buffer's prior contents (length `outbufSize`). Result: number of frame bytes, header, new buffer. -/
def encodeNonsecure (fType : Byte) (ptext outbuf : Bytes) (seqNum : Byte) (id : Option Bytes) (il : Byte) :
    Res (Nat × Hdr × Bytes) :=
  match encodeHeader outbuf.length false fType seqNum id il (u8 ptext.length) 1 with
  | .ub => .ub
  | .fail => .fail                                                              -- 328
  | .ok (h, hb) =>
    wrBlock outbuf 0 hb fun out1 =>
    failIf (h.fl ≥ outbuf.length) <|                                            -- 331
    wrBlock out1 h.getBodyOffset ptext fun out2 =>                              -- 333-336
    match computeNonSecureCRC h out2 outbuf.length with                         -- 338
    | .ub => .ub
    | .fail => .fail
    | .ok crc =>
      wrBlock out2 h.fl [crc] fun out3 =>                                       -- 339
      .ok (h.fl + 1, h, out3)                                                   -- 341

/-- `decodeNonsecure` — SecureableFrameType.cpp 366-380, after the caller has decoded the header into `h`.
`ctext` is the accessible memory; `ctextLen` is a reference to `ctext[0]` (SecureableFrameType.h 396). -/
def decodeNonsecure (h : Hdr) (ctext : Bytes) : Res Nat :=
  failIf (h.fl = 0) <|                                                          -- 370
  failIf (h.getTl ≠ 1) <|                                                       -- 373
  rd ctext 0 fun ctextLen =>
  match computeNonSecureCRC h ctext ctextLen.toNat with                         -- 375
  | .ub => .ub
  | .fail => .fail
  | .ok crc =>
    failIf (crc = 0) <|                                                         -- 376
    rd ctext h.fl fun last =>
    failIf (last ≠ crc) <|                                                      -- 377
    .ok (h.fl + 1)                                                              -- 379

/-- `generateNonsecureBeacon` — SecureableFrameType.cpp 774-780. -/
def generateNonsecureBeacon (outbuf : Bytes) (seqNum : Byte) (id : Option Bytes) (il : Byte) :
    Res (Nat × Hdr × Bytes) :=
  encodeNonsecure FTS_ALIVE [] outbuf seqNum id il

end OTR
