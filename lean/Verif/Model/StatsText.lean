import Verif.Model.TextOut
/-!
# Printing of received binary stats — `U/OTV0P2BASE_SimpleBinaryStats.cpp` 118-170

What is printed is a list of bytes. Simplification: the print channel takes every byte.
-/
namespace OTR

/-- `Print::print(n, 16)`: hex digits, upper case, without leading zeros. (Environment: the Arduino core, not code of /repo.) -/
def printHexNat (n : Nat) : Bytes :=
  if n < 16 then [hexDigitU n] else printHexNat (n / 16) ++ [hexDigitU (n % 16)]
termination_by n

/-- `outputCoreStats` — OTV0P2BASE_SimpleBinaryStats.cpp 123-153. (`tempC16 >> 4` and `tempC16 & 0xf` on two's complement are floor
and remainder; the start character is `SERLINE_START_CHAR_RSTATS`, OTV0P2BASE_Serial_LineType_InitChar.h 42.) -/
def FullStats.text (c : FullStats) : Bytes :=
  if c.containsID then                                                          -- 125
    [0x40] ++ printHexNat (c.id0.toNat * 256 + c.id1.toNat) ++                  -- 130-131
    (if c.containsTP then
      ascii ";T" ++ decInt (c.tp.tempC16 / 16) ++ ascii "C" ++ printHexNat (c.tp.tempC16 % 16).toNat ++   -- 134-137
        (if c.tp.powerLow then ascii ";P" else [])                              -- 138
     else []) ++
    (if c.containsAmbL then ascii ";L" ++ decNat c.ambL.toNat else []) ++       -- 140-144
    (if c.occ ≠ 0 then ascii ";O" ++ decNat c.occ.toNat else []) ++             -- 145-149
    [13, 10]                                                                    -- 150
  else []

/-- `outputMinimalStats` — OTV0P2BASE_SimpleBinaryStats.cpp 159-170. -/
def MinStats.text (p : MinStats) (id0 id1 : Byte) : Bytes :=
  FullStats.text { FullStats.clear with id0 := id0, id1 := id1, containsID := true, tp := p, containsTP := true }

end OTR
