import Verif.Model.Messaging
/-!
# Model: frame helpers of the radio link — `content/OTRadioLink/utility/OTRadioLink_OTRadioLink.cpp`

A buffer that is read without a length is a function from indices to bytes.
-/

namespace OTR

/-- The loop of `frameLenFFTerminated`, OTRadioLink_OTRadioLink.cpp 45-49; `len` is the value before the test; stops when `++len` wraps to 0. -/
def ffLoop (buf : Nat → Byte) : Nat → Nat → Nat
  | 0, _ => 0
  | n + 1, len => if buf len = 0xff then len else if (len + 1) % 256 = 0 then 0 else ffLoop buf n (len + 1)

/-- `frameLenFFTerminated`, OTRadioLink_OTRadioLink.cpp 41-51 (`none` is NULL). -/
def frameLenFF (buf : Option (Nat → Byte)) : Nat :=
  match buf with
  | none => 0
  | some b => ffLoop b 256 0

/-- The loop `while(0 == *--b) { if(b == buf) { ... } }`, OTRadioLink_OTRadioLink.cpp 105-106: `i` is the index of `b` before the decrement. -/
def tzLoop (buf : Bytes) : Nat → Nat
  | 0 => 1 -- never entered with index 0
  | i + 1 => if buf.getD i 0 = 0 then (if i = 0 then 1 else tzLoop buf i) else i + 2

/-- `frameFilterTrailingZeros`, OTRadioLink_OTRadioLink.cpp 99-108: keeps the frame, and gives its new length. -/
def filterTrailingZeros (buf : Bytes) (len : Nat) : Bool × Nat :=
  if len ≤ 1 then (true, len)
  else if buf.getD (len - 1) 0 ≠ 0 then (true, len)
  else (true, tzLoop buf (len - 1))

/-- One byte as printed by `printRXMsg`, OTRadioLink_OTRadioLink.cpp 75-78. -/
def rxByte (b : Byte) : Bytes :=
  if b.toNat < 16 then 48 :: printHex b
  else if b.toNat < 32 ∨ b.toNat ≥ 126 then printHex b
  else [32, b]

/-- `Print::print((int)len)` in decimal, for a length below 256. -/
def printDec (n : Nat) : Bytes :=
  if n < 10 then [u8 (48 + n)]
  else if n < 100 then [u8 (48 + n / 10), u8 (48 + n % 10)]
  else [u8 (48 + n / 100), u8 (48 + n / 10 % 10), u8 (48 + n % 10)]

/-- `printRXMsg`, OTRadioLink_OTRadioLink.cpp 68-81. -/
def printRXMsg (buf : Bytes) : Bytes := [124] ++ printDec buf.length ++ [32] ++ buf.flatMap rxByte ++ [13, 10]

end OTR
