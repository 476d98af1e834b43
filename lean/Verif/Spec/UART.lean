/-! # Asynchronous serial framing (8N1)

A character on the line: one low start bit, eight data bits, least significant first, one high stop bit, then idle high.
-/

namespace OTR

/-- Level of bit cell `k` of a frame carrying `c`. -/
def uartCell (c k : Nat) : Bool := if k = 0 then false else if k ≤ 8 then c.testBit (k - 1) else true

/-- The line, `t` after the start of the start bit, for a sender with bit time `T`. -/
def uartLine (T c t : Nat) : Bool := uartCell c (t / T)

end OTR
