import Verif.Base

/-!
# FS20 / FHT8V air format (specification)

Each byte on the air is four 2-bit pairs, most significant first, at 200us per bit.
A logical 0 is sent as `11 00`; a logical 1 as `11 10 00`.
A message is twelve 0s, a 1, six bytes each MSB first and followed by an even-parity bit, and trailing 0s.
(From the comments of OTRadValve_FHT8VRadValve.cpp 46-50, 112-118 and the FS20 protocol.)
-/

namespace OTR.FS20

abbrev Pair := Fin 4

/-- The pairs that carry one logical bit. -/
def encBit : Bool → List Pair
  | false => [3, 0]
  | true => [3, 2, 0]

/-- The pairs that carry a sequence of logical bits. -/
def encBits (bs : List Bool) : List Pair := bs.flatMap encBit

/-- The `k`-th pair of a byte, most significant first. -/
def pairAt (b : Byte) (k : Nat) : Pair := ⟨b.toNat / 4 ^ (3 - k) % 4, Nat.mod_lt _ (by decide)⟩

/-- The four pairs of a byte in order of transmission. -/
def pairsOfByte (b : Byte) : List Pair := [pairAt b 0, pairAt b 1, pairAt b 2, pairAt b 3]

/-- The pairs of a buffer in order of transmission. -/
def pairs (buf : Bytes) : List Pair := buf.flatMap pairsOfByte

/-- Bit `k` of a byte (0 is least significant). -/
def bit (b : Byte) (k : Nat) : Bool := b.toNat / 2 ^ k % 2 = 1

/-- The eight bits of a byte, most significant first. -/
def bitsOfByte (b : Byte) : List Bool := [7, 6, 5, 4, 3, 2, 1, 0].map (bit b)

/-- Even parity bit: makes the number of 1s among the nine bits even. -/
def parity (b : Byte) : Bool := (bitsOfByte b).count true % 2 = 1

/-- A byte with its parity bit. -/
def byteBits (b : Byte) : List Bool := bitsOfByte b ++ [parity b]

/-- The logical bits of a message carrying `bytes`, up to and including the first trailing 0. -/
def msgBits (preamble : Nat) (bytes : Bytes) : List Bool :=
  List.replicate preamble false ++ [true] ++ bytes.flatMap byteBits ++ [false]

end OTR.FS20
