import Verif.Base
/-!
# EEPROM

`U/OTV0P2BASE_EEPROM.{h,cpp}`. The device is modelled as a total map from address to byte. A routine that uses it is a
function from the contents it starts with to its result and the *list of cell writes it performs, in order*; power
failing during the routine is then any prefix of that list taking effect.
Simplification: one byte write is atomic unless a theorem says "torn" (then the byte being written may end up as
anything); cells never wear out (a read gives the last value written).
-/

namespace OTR

/-- EEPROM contents. (Environment: hardware and its data sheet, not code of /repo.) -/
abbrev EE := Nat → Byte
/-- One cell write. (Environment: hardware and its data sheet, not code of /repo.) -/
abbrev Wr := Nat × Byte

/-- Contents after writing one cell. (Environment: hardware and its data sheet, not code of /repo.) -/
def EE.upd (m : EE) (a : Nat) (v : Byte) : EE := fun x => if x = a then v else m x

/-- Contents after a list of writes. (Environment: hardware and its data sheet, not code of /repo.) -/
def applyW (m : EE) (ws : List Wr) : EE := ws.foldl (fun m w => m.upd w.1 w.2) m

/-- A routine using the EEPROM: result and writes performed, given the initial contents. (The language in which the EEPROM routines are modelled; no code of its own.) -/
abbrev EM (α : Type) := EE → α × List Wr

/-- The routine that does nothing. (The language in which the EEPROM routines are modelled; no code of its own.) -/
def emRet {α : Type} (a : α) : EM α := fun _ => (a, [])
/-- One routine and then another, which sees the contents as left by the first. (The language in which the EEPROM routines are modelled; no code of its own.) -/
def emBind {α β : Type} (x : EM α) (f : α → EM β) : EM β := fun m =>
  ((f (x m).1 (applyW m (x m).2)).1, (x m).2 ++ (f (x m).1 (applyW m (x m).2)).2)
/-- Conditional. (The language in which the EEPROM routines are modelled; no code of its own.) -/
def emIf {α : Type} (c : Prop) [Decidable c] (x y : EM α) : EM α := fun m => if c then x m else y m
/-- Contents after the routine has run to completion. (Environment: hardware and its data sheet, not code of /repo.) -/
def EM.post {α : Type} (x : EM α) (m : EE) : EE := applyW m (x m).2

/-- avr-libc `eeprom_read_byte`, passing the byte read to the rest of the routine. (Environment: avr-libc or the Arduino core, not code of /repo.) -/
def eeRead {α : Type} (a : Nat) (k : Byte → EM α) : EM α := fun m => k (m a) m
/-- avr-libc `eeprom_write_byte` (also the split erase-only and write-only operations). (Environment: avr-libc or the Arduino core, not code of /repo.) -/
def eeWrite (a : Nat) (v : Byte) : EM Unit := fun _ => ((), [(a, v)])

/-- avr-libc `eeprom_read_block` of `n` bytes. (Environment: avr-libc or the Arduino core, not code of /repo.) -/
def eeBlock (m : EE) (a n : Nat) : Bytes := (List.range n).map fun i => m (a + i)

/-- `eeprom_smart_erase_byte` — EEPROM.cpp 64-108 (both the split and the plain build: write 0xff if not already).
Result: whether a write was done. -/
def smartErase (a : Nat) : EM Bool :=
  eeRead a fun old =>
  emIf (old = 0xff) (emRet false) <|
  emBind (eeWrite a 0xff) fun _ => emRet true

/-- `eeprom_smart_clear_bits` — EEPROM.cpp 117-165 (both builds). -/
def smartClearBits (a : Nat) (mask : Byte) : EM Bool :=
  eeRead a fun old =>
  emIf (old = old &&& mask) (emRet false) <|
  emBind (eeWrite a (old &&& mask)) fun _ => emRet true

/-- `eeprom_smart_update_byte` — EEPROM.cpp 44-56. `split` says whether `V0P2BASE_EEPROM_SPLIT_ERASE_WRITE` is defined
(EEPROM.h 58). -/
def smartUpdate (split : Bool) (a : Nat) (v : Byte) : EM Bool :=
  emIf (v = 0xff) (smartErase a) <|                                             -- 47
  eeRead a fun old =>                                                  -- 49
  emIf (v = old) (emRet false) <|                                               -- 50
  emIf (split = true ∧ v = (v &&& old)) (smartClearBits a v) <|                 -- 52
  emBind (eeWrite a v) fun _ => emRet true                                      -- 54-55

end OTR
