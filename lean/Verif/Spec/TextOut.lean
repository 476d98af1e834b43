import Verif.Spec.JSON
/-!
# Readers of the text sent out

Independent of the writers: a LoRa modem taking a transmit command, and a server reading a status line.
-/

namespace OTR.Spec

/-- The value of a hex digit, upper case as the modem and the status line use. -/
def hexUp (c : Byte) : Option Nat :=
  if 48 ≤ c.toNat ∧ c.toNat ≤ 57 then some (c.toNat - 48) else if 65 ≤ c.toNat ∧ c.toNat ≤ 70 then some (c.toNat - 55) else none

/-- Pairs of hex digits up to CR LF, which must end the text. -/
def readHexLine : Bytes → Option Bytes
  | [] => none
  | [_] => none
  | a :: b :: t =>
    if a = 13 then (if b = 10 ∧ t = [] then some [] else none)
    else match hexUp a, hexUp b, readHexLine t with
      | some x, some y, some r => some (UInt8.ofNat (16 * x + y) :: r)
      | _, _, _ => none

/-- The text "mac tx uncnf 1 ". -/
def txCommand : Bytes := [0x6d, 0x61, 0x63, 0x20, 0x74, 0x78, 0x20, 0x75, 0x6e, 0x63, 0x6e, 0x66, 0x20, 0x31, 0x20]

/-- What the modem transmits for a command line: the data of "mac tx uncnf 1 <hex>". -/
def modemTX (line : Bytes) : Option Bytes :=
  if line.take 15 = txCommand then readHexLine (line.drop 15) else none

/-- An optional valve position "nn%". -/
def readValve (l : Bytes) : Option (Option Int × Bytes) :=
  match l with
  | [] => some (none, l)
  | c :: _ => if isDig c then
      match readInt l with
      | some (v, p :: r) => if p = 0x25 then some (some v, r) else none
      | _ => none
    else some (none, l)

/-- An optional temperature "@nnCh": whole degrees and sixteenths to add to them. In sixteenths. -/
def readTemp (l : Bytes) : Option (Option Int × Bytes) :=
  match l with
  | [] => some (none, l)
  | c :: t => if c = 0x40 then
      match readInt t with
      | some (v, p :: h :: r) => if p = 0x43 then
          match hexUp h with
          | some d => some (some (16 * v + (d : Int)), r)
          | none => none
        else none
      | _ => none
    else some (none, l)

/-- A status line: the mode letter, the valve position, the temperature, and what follows. -/
def readStatus (l : Bytes) : Option (Byte × Option Int × Option Int × Bytes) :=
  match l with
  | e :: m :: r => if e = 0x3d then
      match readValve r with
      | some (v, r) => (readTemp r).map fun t => (m, v, t.1, t.2)
      | none => none
    else none
  | _ => none

example : readStatus "=W20%@-1C8;{}\r\n".toUTF8.toList = some (0x57, some 20, some (-8), ";{}\r\n".toUTF8.toList) := by decide +kernel
example : modemTX "mac tx uncnf 1 0AFF\r\n".toUTF8.toList = some [0x0a, 0xff] := by decide +kernel
example : modemTX "mac tx uncnf 1 0AF\r\n".toUTF8.toList = none := by decide +kernel

end OTR.Spec
