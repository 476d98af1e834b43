import Verif.Base
/-!
# Message counters — `U/OTRadioLink_SecureableFrameType.{h,cpp}`
-/

namespace OTR

/-- `fullMsgCtrBytes` — SecureableFrameType.h 472. -/
abbrev fullMsgCtrBytes : Nat := 6

/-- C library `memcmp` on equal-length buffers: the sign is that of the first differing byte pair.
(The C++ result is then narrowed to `int16_t`; the model returns the byte difference, which fits.) -/
def memcmp : Bytes → Bytes → Int
  | a :: as, b :: bs => if a = b then memcmp as bs else (a.toNat : Int) - b.toNat
  | _, _ => 0

/-- `msgcountercmp` — SecureableFrameType.h 812-813: memcmp over 6 bytes. -/
def msgcountercmp (c1 c2 : Bytes) : Int := memcmp (c1.take fullMsgCtrBytes) (c2.take fullMsgCtrBytes)

/-- The carry loop of `msgcounteradd` — SecureableFrameType.cpp 400:
`for(int8_t i = fullMsgCtrBytes-1; --i > 0; ) { if(0 != ++counter[i]) { break; } }`;
called with the index about to be incremented (4 first), stops before index 0. -/
def msgRipple (c : Bytes) : Nat → Bytes
  | 0 => c
  | i + 1 =>
    let v := (c[i + 1]?.getD 0) + 1
    let c' := c.set (i + 1) v
    if v ≠ 0 then c' else msgRipple c' i

/-- `msgcounteradd` — SecureableFrameType.cpp 385-403, on a 6-byte counter. Returns success flag and new counter. -/
def msgcounteradd (c : Bytes) (delta : Byte) : Bool × Bytes :=
  if delta = 0 then (true, c)                                                   -- 387
  else
    let lsbyte := c[5]?.getD 0                                                  -- 390
    let bumped := lsbyte + delta                                                -- 391
    if bumped > lsbyte then (true, c.set 5 bumped)                              -- 393
    else if (c.take 5).all (· = 0xff) then (false, c)                           -- 395-397
    else (true, msgRipple (c.set 5 bumped) 4)                                   -- 399-402

end OTR
