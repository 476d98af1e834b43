import Verif.Base
/-!
# Hex conversion and scratch space — `U/OTV0P2BASE_Util.{h,cpp}`

Characters are bytes.  C strings are byte lists; a read beyond the list is undefined behaviour.
Addresses are naturals, `none` is `NULL`.
-/

namespace OTR

/-- `hexDigit(value)` — Util.h 87. -/
def hexDigit (value : Byte) : Byte :=
  let v := 0xf &&& value
  if v < 10 then 48 + v else 97 + (v - 10)

/-- `hexDigits(value, buf)` — Util.h 91: the two characters stored. -/
def hexDigits (value : Byte) : Byte × Byte := (hexDigit (value >>> 4), hexDigit value)

/-- `parseHexDigit(hexchar)` — Util.h 99-105; -1 on error.  (`char` may be signed: characters 0x80 and up fail every
range test either way.) -/
def parseHexDigit (c : Byte) : Int :=
  if c ≥ 48 ∧ c ≤ 57 then (c.toNat : Int) - 48
  else if c ≥ 97 ∧ c ≤ 102 then (c.toNat : Int) - 97 + 10
  else if c ≥ 65 ∧ c ≤ 70 then (c.toNat : Int) - 65 + 10
  else -1

/-- `parseHexByte(s)` — Util.cpp 35-48; `none` is the `NULL` pointer.  `(d0 << 4) | d1` is `16*d0+d1` as both are nibbles. -/
def parseHexByte (s : Option Bytes) : Res Int :=
  match s with
  | none => .ok (-1)
  | some s =>
    rd s 0 fun c0 =>
    if c0 = 0 then .ok (-1)
    else
      let d0 := parseHexDigit c0
      if d0 = -1 then .ok (-1)
      else
        rd s 1 fun c1 =>
        if c1 = 0 then .ok d0
        else
          let d1 := parseHexDigit c1
          if d1 = -1 then .ok (-1) else .ok (16 * d0 + d1)

/-- `ScratchSpaceL` and `ScratchSpaceTemplate` — Util.h 131-163, 169-210: `buf` and `bufsize`. -/
structure Scratch where
  buf : Option Nat
  size : Nat
deriving Repr, DecidableEq

/-- Constructor — Util.h 150-151, 190-191. -/
def Scratch.mk' (buf : Option Nat) (size : Nat) : Scratch :=
  ⟨if size = 0 then none else buf, if buf = none then 0 else size⟩

/-- `subSpaceCannotBeMade` — Util.h 154-155, 194-195. -/
def subSpaceCannotBeMade (oldSize reserveN : Nat) : Bool := reserveN = 0 || oldSize ≤ reserveN

/-- Sub-space constructor — Util.h 159-162, 199-202. -/
def Scratch.sub (p : Scratch) (n : Nat) : Scratch :=
  ⟨if subSpaceCannotBeMade p.size n then none else p.buf.map (· + n),
   if subSpaceCannotBeMade p.size n then 0 else p.size - n⟩

/-- Conversion from the large form, capping the size — Util.h 206-209. -/
def Scratch.small (p : Scratch) : Scratch := ⟨p.buf, if p.size > 255 then 255 else p.size⟩

end OTR
