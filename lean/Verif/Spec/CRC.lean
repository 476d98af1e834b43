import Verif.Base
import Mathlib.Algebra.Polynomial.Div
import Mathlib.Data.ZMod.Basic
import Mathlib.Algebra.Field.ZMod
/-! # Specification of the 7-bit CRC: message bits and polynomials over GF(2) -/

namespace OTR

/-- The bits of a byte, most significant first. -/
def byteBits (b : Byte) : List Bool := [7, 6, 5, 4, 3, 2, 1, 0].map (fun i => b.toNat.testBit i)

/-- The bits of a message in the order they are sent: byte by byte, most significant bit first. -/
def msgBits (m : Bytes) : List Bool := m.flatMap byteBits


open Polynomial

/-- A bit as an element of GF(2). -/
def z2 (b : Bool) : ZMod 2 := if b then 1 else 0

/-- The polynomial over GF(2) whose coefficients, highest power first, are the given bits. -/
noncomputable def bitsPoly (l : List Bool) : (ZMod 2)[X] := l.foldl (fun p b => p * X + C (z2 b)) 0

/-- The low 7 bits of a byte as a polynomial: bit i is the coefficient of x^i. -/
noncomputable def regPoly (c : Byte) : (ZMod 2)[X] := bitsPoly ([6, 5, 4, 3, 2, 1, 0].map (fun i => c.toNat.testBit i))

/-- The generator x^7 + x^5 + x^4 + x^2 + x + 1. -/
noncomputable def genPoly : (ZMod 2)[X] := X ^ 7 + X ^ 5 + X ^ 4 + X ^ 2 + X + 1

end OTR
