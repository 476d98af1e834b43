import Verif.Model.AssocTable
import Verif.Model.TxCounter
import Verif.Model.RxCounter
import Verif.Model.Stats
import Verif.Model.Schedule
import Verif.Model.Target
import Verif.Model.TempControl
import Verif.Model.MemCheck
import Verif.Model.RTC
import Verif.Model.CLI
import Verif.Model.TextOut
import Verif.Model.Boiler
/-!
# Everything in /repo that writes the EEPROM

All callers of the EEPROM write functions in `content/OTRadioLink/utility` (found by text search for `eeprom_write`, `eeprom_update` and
`eeprom_smart`), as one type of calls. Not among them: `HardwareTests` and `resetCLI`, which write none; and the application's own code, which is
not in /repo.
-/

namespace OTR
open OTR.FHT8V

/-- The seed bytes saved by `seedPRNGs()`, Entropy.cpp 205-217: `pick` and `noise` stand for what is computed from clocks, noise and the EEPROM. -/
def seedSave (pick noise : Byte) : EM Unit :=
  eeRead (2 + ((3 : Byte) &&& pick).toNat) fun erv =>
  emIf (erv = 0) (emBind (smartErase (2 + ((3 : Byte) &&& pick).toNat)) fun _ => emRet ())
    (emBind (smartClearBits (2 + ((3 : Byte) &&& pick).toNat) noise) fun _ => emRet ())

/-- `setMinBoilerOnMinutes()`, BoilerDriver.h 63-65. -/
def boilerSave (split useEEPROM : Bool) (mins : Byte) : EM Unit :=
  match setMinBoilerOnMinutes useEEPROM mins with
  | none => emRet ()
  | some b => emBind (smartUpdate split 18 b) fun _ => emRet ()

/-- A call that may write the EEPROM; the lines below give the code of each. -/
inductive EECall where
  | seedPRNGs (pick noise : Byte)
  | persistRTC (r : RTC)
  | setHoursMinutes (r : RTC) (h m : Nat)
  | setSimpleSchedule (split : Bool) (t which : Nat)
  | clearSimpleSchedule (which : Nat)
  | setFrost (split : Bool) (p : VCP) (t : Byte)
  | setWarm (split : Bool) (p : VCP) (t : Byte)
  | houseCode1 (v : Drv) (hc : Byte)
  | houseCode2 (v : Drv) (hc : Byte)
  | clearHouseCode (v : Drv)
  | cliHouse (v : Drv) (buf : Bytes)
  | setMinBoilerOnMinutes (split useEEPROM : Bool) (mins : Byte)
  | setMinValvePcReallyOpen (split : Bool) (pc : Byte)
  | ensureIDCreated (force : Bool) (rnd : Bytes)
  | storeID (id : Bytes)
  | privacy (v : Byte)
  | countDownSetbackLockout (split : Bool)
  | parameter (n : Nat) (v : Byte)
  | resetTXCounter (zeros : Bool) (r : Bytes)
  | incrementTXCounter
  | getNextTXMsgCtr (ram : TxRam) (r r' : Bytes)
  | setKey (key : Option Bytes)
  | setStat (split : Bool) (set hh : Nat) (v : Byte)
  | zapStats (n : UInt16)
  | clearAllNodeAssociations
  | addNodeAssociation (id : Bytes)
  | tableSet (index : Nat) (src : Option Bytes)
  | updateRXCounter (id new : Bytes)

/-- The writes the call makes, in order: Entropy.cpp 205-217; RTC.cpp 98-130, 259-273; SimpleValveSchedule.cpp 168-189; TempControl.h 193-209;
FHT8VRadValve.cpp 708-811; BoilerDriver.h 63-65; ModelledRadValve.h 109-118, 922-932; Security.cpp 56-278; CLI.cpp 377-405 (a number above 32 is
refused, 389), 448-449, 558-569; V0p2Impl.cpp 85-328, 399-508; EEPROM.h 294-299; EEPROM.cpp 180-185. -/
def EECall.writes : EECall → EE → List Wr
  | .seedPRNGs p n, m => (seedSave p n m).2
  | .persistRTC r, m => (r.persist m).2
  | .setHoursMinutes r h mi, m => if h > 23 ∨ mi > 59 then [] else if 60 * h + mi ≠ r.mins then (({ r with mins := 60 * h + mi } : RTC).persist m).2 else []
  | .setSimpleSchedule s t w, m => (schedSet s t w m).2
  | .clearSimpleSchedule w, m => (schedClear w m).2
  | .setFrost s p t, m => (eeSetFrost s p t m).2
  | .setWarm s p t, m => (eeSetWarm s p t m).2
  | .houseCode1 v hc, m => (v.nvSetHC1 hc m).2
  | .houseCode2 v hc, m => (v.nvSetHC2 hc m).2
  | .clearHouseCode v, m => (v.nvClearHC m).2
  | .cliHouse v b, m => (v.cliHouse b m).2
  | .setMinBoilerOnMinutes s u x, m => (boilerSave s u x m).2
  | .setMinValvePcReallyOpen s pc, m => (setMinOpen s pc m).2
  | .ensureIDCreated f r, m => (OTR.ensureIDCreated f r m).2
  | .storeID id, m => (OTR.storeID id m).2
  | .privacy v, m => (smartUpdate true 28 v m).2
  | .countDownSetbackLockout s, m => (OTR.countDownSetbackLockout s m).2
  | .parameter n v, m => if n > 32 then [] else (smartUpdate true (32 + n) v m).2
  | .resetTXCounter z r, m => (resetRaw z r m).2
  | .incrementTXCounter, m => (incrementTXNVCtrPrefix m).2
  | .getNextTXMsgCtr ram r r', m => (OTR.getNextTXMsgCtr ram r r' m).2
  | .setKey k, m => (OTR.setKey k m).2
  | .setStat s set hh v, m => (eeSetStat s set hh v m).2
  | .zapStats n, m => (OTR.zapStats n m).2
  | .clearAllNodeAssociations, m => (OTR.clearAllNodeAssociations m).2
  | .addNodeAssociation id, m => (OTR.addNodeAssociation id m).2
  | .tableSet i s, m => (OTR.tableSet i s m).2
  | .updateRXCounter id new, m => (authAndUpdateRXMsgCtr id new m).2

end OTR
