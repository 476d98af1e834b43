import Verif.Base
/-!
# CRC routines — `U/OTV0P2BASE_CRC.cpp`
-/

namespace OTR

/-- One iteration of the bit loop of `crc7_5B_update` with mask `i` — OTV0P2BASE_CRC.cpp 47-50. -/
def crc7_5B_bit (datum crc i : Byte) : Byte :=
  let bit : Bool := (crc &&& 0x40) != 0                 -- 47
  let bit := if (datum &&& i) != 0 then !bit else bit   -- 48
  let crc := crc <<< 1                                  -- 49
  if bit then crc ^^^ 0x37 else crc                     -- 50

/-- `crc7_5B_update` — OTV0P2BASE_CRC.cpp 43-53: the mask runs 0x80, 0x40, ..., 0x01. -/
def crc7_5B_update (crc datum : Byte) : Byte :=
  ([0x80, 0x40, 0x20, 0x10, 0x08, 0x04, 0x02, 0x01].foldl (fun c i => crc7_5B_bit datum c i) crc) &&& 0x7f

/-- `crc7_5B_update_nz_final` — OTV0P2BASE_CRC.cpp 60-65 (ALT = 0x80, OTV0P2BASE_CRC.h 50). -/
def crc7_5B_update_nz_final (crc datum : Byte) : Byte :=
  let result := crc7_5B_update crc datum
  if result ≠ 0 then result else 0x80

end OTR
