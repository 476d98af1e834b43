import Verif.Base
/-!
# A GPRS modem reading its serial line

From the SIM900 AT command manual, independent of the driver: a command line ends with CR, a LF right after it is ignored; after
`AT+CIPSEND=<n>`, if the modem accepts it, the next `n` bytes are the data of one packet, whatever they are. Simplification:
editing characters, echo and replies are left out.
-/
namespace OTR.Spec

/-- What the modem does: executes a command line, or sends a packet. -/
inductive ModemEv where
  | cmd (line : Bytes)
  | packet (d : Bytes)
deriving Repr, DecidableEq

/-- The modem's input state: the line so far, whether a LF is to be ignored, how many bytes of packet data are still to come and those
that have come, and what it has done. -/
structure Modem where
  line : Bytes := []
  skip : Bool := false
  want : Nat := 0
  got : Bytes := []
  log : List ModemEv := []
deriving Repr, DecidableEq

/-- The text `AT+CIPSEND=`. -/
def sendText : Bytes := [0x41, 0x54, 0x2b, 0x43, 0x49, 0x50, 0x53, 0x45, 0x4e, 0x44, 0x3d]

/-- The value of decimal digits. -/
def modemNat (ds : Bytes) : Option Nat :=
  if ds.all (fun c => decide (48 ≤ c.toNat) && decide (c.toNat ≤ 57)) then some (ds.foldl (fun a d => 10 * a + (d.toNat - 48)) 0) else none

/-- Packet length announced by a command line; 0 if it announces none. -/
def announced (line : Bytes) : Nat :=
  if line.take 11 = sendText then (modemNat (line.drop 11)).getD 0 else 0

/-- One byte. `acc`: the modem accepts announcements. -/
def Modem.byte (acc : Bool) (m : Modem) (b : Byte) : Modem :=
  if m.skip = true ∧ b = 10 then { m with skip := false }
  else if m.want = 0 then
    if b = 13 then { line := [], skip := true, want := if acc then announced m.line else 0, got := [], log := m.log ++ [.cmd m.line] }
    else { m with skip := false, line := m.line ++ [b] }
  else if m.want = 1 then { m with skip := false, want := 0, got := [], log := m.log ++ [.packet (m.got ++ [b])] }
  else { m with skip := false, want := m.want - 1, got := m.got ++ [b] }

/-- A stream of bytes. -/
def Modem.feed (acc : Bool) (m : Modem) (l : Bytes) : Modem := l.foldl (Modem.byte acc) m

example : (Modem.feed true {} "AT+CIPSEND=2\r\nA\rAT\r\n".toUTF8.toList).log =
    [.cmd "AT+CIPSEND=2".toUTF8.toList, .packet [65, 13], .cmd "AT".toUTF8.toList] := by decide +kernel

end OTR.Spec
