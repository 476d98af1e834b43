import Verif.Base

/-!
# FHT8V radio valve: bit-stream codec and percentage scaling

Models `/repo/content/OTRadioLink/utility/OTRadValve_FHT8VRadValve.{cpp,h}`.
-/

namespace OTR.FHT8V

/-- `fht8v_msg_t`, OTRadValve_FHT8VRadValve.h 63-72.  `address` is only present when `OTV0P2BASE_FHT8V_ADR_USED` is defined;
otherwise the code behaves as if it were 0 (OTRadValve_FHT8VRadValve.cpp 139). -/
structure Msg where
  hc1 : Byte
  hc2 : Byte
  address : Byte
  command : Byte
  extension : Byte
deriving DecidableEq, Repr

/-- The output area as seen by `_FHT8VCreate200usAppendEncBit()`: bytes before `bptr` (finished), and `*bptr`. -/
structure Enc where
  out : Bytes
  cur : Byte
deriving DecidableEq, Repr

/-- `_FHT8VCreate200usAppendEncBit()`, OTRadValve_FHT8VRadValve.cpp 51-96. -/
def appendEncBit (s : Enc) (is1 : Bool) : Enc :=
  let left := s.cur &&& 3
  if !is1 then
    if left = 3 then ⟨s.out, 0xcd⟩
    else if left = 2 then ⟨s.out, (s.cur &&& 0xc0) ||| 0x30⟩
    else if left = 1 then ⟨s.out ++ [(s.cur &&& 0xf0) ||| 0xc], 0xff⟩
    else ⟨s.out ++ [s.cur ||| 3], 0x3e⟩
  else
    if left = 3 then ⟨s.out, 0xe0⟩
    else if left = 2 then ⟨s.out ++ [(s.cur &&& 0xc0) ||| 0x38], 0xff⟩
    else if left = 1 then ⟨s.out ++ [(s.cur &&& 0xf0) ||| 0xe], 0x3e⟩
    else ⟨s.out ++ [s.cur ||| 3], 0x8d⟩

/-- `xor_parity_even_bit()`, OTRadValve_FHT8VRadValve.h 93-99 (the AVR `parity_even_bit` macro computes the same). -/
def xorParityEvenBit (v : Byte) : Byte :=
  let v := v ^^^ (v >>> 4)
  let v := v ^^^ (v >>> 2)
  let v := v ^^^ (v >>> 1)
  v &&& 1

/-- The loop of `_FHT8VCreate200usAppendByteEP()`, OTRadValve_FHT8VRadValve.cpp 107-108: `mask` runs 0x80 … 1; `n` counts iterations left. -/
def appendBits : Nat → Byte → Byte → Enc → Enc
  | 0, _, _, s => s
  | n + 1, mask, b, s => appendBits n (mask >>> 1) b (appendEncBit s (b &&& mask != 0))

/-- `_FHT8VCreate200usAppendByteEP()`, OTRadValve_FHT8VRadValve.cpp 105-110. -/
def appendByteEP (s : Enc) (b : Byte) : Enc :=
  appendEncBit (appendBits 8 0x80 b s) (xorParityEvenBit b != 0)

/-- Checksum, OTRadValve_FHT8VRadValve.cpp 144-148 and 328-332. -/
def checksum (m : Msg) : Byte := 0xc + m.hc1 + m.hc2 + m.address + m.command + m.extension

/-- `FHT8VCreate200usBitStreamBptr()`, OTRadValve_FHT8VRadValve.cpp 119-159.  Result: the bytes written before the terminator
(so the returned pointer is `bptr + out.length`, where the final 0xff is written).
Compiled without `OTV0P2BASE_FHT8V_ADR_USED` the address is always 0: callers then pass `address = 0`. -/
def createBody (m : Msg) : Bytes :=
  let s : Enc := ⟨[0xcc, 0xcc, 0xcc, 0xcc, 0xcc, 0xcc], 0xff⟩
  let s := appendEncBit s true
  let s := appendByteEP s m.hc1
  let s := appendByteEP s m.hc2
  let s := appendByteEP s m.address
  let s := appendByteEP s m.command
  let s := appendByteEP s m.extension
  let s := appendByteEP s (checksum m)
  let s := appendEncBit s false
  let s := appendEncBit s false
  let s := appendEncBit s false
  s.out

/-- The complete memory effect: the body and its terminating 0xff (OTRadValve_FHT8VRadValve.cpp 157). -/
def createStream (m : Msg) : Bytes := createBody m ++ [0xff]

/-- `decode_state_t`, OTRadValve_FHT8VRadValve.cpp 162-168; `bitStream` is an index into the buffer, and `lastByte` is the buffer's last index,
so `bitStream > lastByte` is `buf.length ≤ idx`. -/
structure Dec where
  idx : Nat
  mask : Byte
  failed : Bool
deriving DecidableEq, Repr

/-- `readOneBit()`, OTRadValve_FHT8VRadValve.cpp 173-251, returning the bit and the new state.  `.ub` is a read outside the buffer. -/
def readOneBit (buf : Bytes) (s : Dec) : Res (Bool × Dec) :=
  let failed := if buf.length ≤ s.idx then true else s.failed
  if failed then .ok (false, { s with failed := true })
  else
    let mask : Byte := if s.mask = 0 then 0xc0 else s.mask
    rd buf s.idx fun b0 =>
    if mask ≠ mask &&& b0 then .ok (false, ⟨s.idx, mask, true⟩)
    else
      let m1 : Byte := if mask >>> 2 = 0 then 0xc0 else mask >>> 2
      let i1 := if mask >>> 2 = 0 then s.idx + 1 else s.idx
      if mask >>> 2 = 0 ∧ buf.length ≤ i1 then .ok (false, ⟨i1, m1, true⟩)
      else
        rd buf i1 fun b1 =>
        let secondPair := m1 &&& b1
        if secondPair = 0 then
          .ok (false, ⟨if m1 >>> 2 = 0 then i1 + 1 else i1, m1 >>> 2, false⟩)
        else if secondPair = 0x80 ∨ secondPair = 0x20 ∨ secondPair = 8 ∨ secondPair = 2 then
          let m2 : Byte := if m1 >>> 2 = 0 then 0xc0 else m1 >>> 2
          let i2 := if m1 >>> 2 = 0 then i1 + 1 else i1
          if m1 >>> 2 = 0 ∧ buf.length ≤ i2 then .ok (false, ⟨i2, m2, true⟩)
          else
            rd buf i2 fun b2 =>
            if m2 &&& b2 ≠ 0 then .ok (false, ⟨i2, m2, true⟩)
            else .ok (true, ⟨if m2 >>> 2 = 0 then i2 + 1 else i2, m2 >>> 2, false⟩)
        else .ok (false, ⟨i1, m1, true⟩)

/-- Sequencing of routines that return a value and a new state. (The language in which routines are modelled; no code of its own.) -/
def Res.andThen {α β : Type} (r : Res α) (k : α → Res β) : Res β :=
  match r with
  | .ok a => k a
  | .fail => .fail
  | .ub => .ub

/-- The loop of `readOneByteWithParity()`, OTRadValve_FHT8VRadValve.cpp 264-269: `n` more bits. -/
def readBits (buf : Bytes) : Nat → Byte → Byte → Dec → Res (Byte × Byte × Dec)
  | 0, result, parity, s => .ok (result, parity, s)
  | n + 1, result, parity, s =>
    Res.andThen (readOneBit buf s) fun (bit, s) =>
      let v : Byte := if bit then 1 else 0
      readBits buf n ((result <<< 1) ||| v) (parity ^^^ v) s

/-- `readOneByteWithParity()`, OTRadValve_FHT8VRadValve.cpp 255-279. -/
def readOneByteWithParity (buf : Bytes) (s : Dec) : Res (Byte × Dec) :=
  if s.failed then .ok (0, s)
  else
    Res.andThen (readOneBit buf s) fun (b7, s) =>
    let v : Byte := if b7 then 1 else 0
    Res.andThen (readBits buf 7 v v s) fun (result, parity, s) =>
    Res.andThen (readOneBit buf s) fun (p, s) =>
    .ok (result, if parity ≠ (if p then 1 else 0) then { s with failed := true } else s)

/-- `while(0 == readOneBit(&state)) { if(state.failed) { return(NULL); } }`, OTRadValve_FHT8VRadValve.cpp 304.
`.fail` is the NULL return.  `fuel` bounds the iterations; running out of it is `.ub` here (non-termination),
so "never `.ub`" includes termination. -/
def skipZeros (buf : Bytes) : Nat → Dec → Res Dec
  | 0, _ => .ub
  | n + 1, s =>
    Res.andThen (readOneBit buf s) fun (b, s) =>
      if b then .ok s else if s.failed then .fail else skipZeros buf n s

/-- `FHT8VDecodeBitStream()`, OTRadValve_FHT8VRadValve.cpp 285-363.  `.fail` is NULL; otherwise the command read and the returned pointer
(as an index).  The address is reported even when the build does not store it. -/
def decodeStream (buf : Bytes) : Res (Msg × Nat) :=
  Res.andThen (skipZeros buf (4 * buf.length + 1) ⟨0, 0, false⟩) fun s =>
  Res.andThen (readOneByteWithParity buf s) fun (hc1, s) =>
  Res.andThen (readOneByteWithParity buf s) fun (hc2, s) =>
  Res.andThen (readOneByteWithParity buf s) fun (address, s) =>
  Res.andThen (readOneByteWithParity buf s) fun (command, s) =>
  Res.andThen (readOneByteWithParity buf s) fun (extension, s) =>
  Res.andThen (readOneByteWithParity buf s) fun (checksumRead, s) =>
  if s.failed then .fail
  else
    let m : Msg := ⟨hc1, hc2, address, command, extension⟩
    if checksum m ≠ checksumRead then .fail
    else
      Res.andThen (readOneBit buf s) fun (b, s) =>
      if b then .fail
      else if s.failed then .fail
      else .ok (m, s.idx + 1)

/-- `convertPercentTo255Scale()`, OTRadValve_FHT8VRadValve.h 136-180 (argument and result are `uint8_t`). -/
def percentTo255 (pc : Nat) : Nat := if pc ≥ 100 then 255 else (pc * 2 + pc / 2 + pc / 16) % 256

/-- `convert255ScaleToPercent()`, OTRadValve_FHT8VRadValve.h 189-209. -/
def percentFrom255 (s : Nat) : Nat :=
  if s = 0 then 0 else if s = 255 then 100 else ((s * 100 + 199) / 256) % 256

end OTR.FHT8V
