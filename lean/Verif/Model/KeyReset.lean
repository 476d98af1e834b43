import Verif.Model.CLI
import Verif.Model.TxCounter
import Verif.Model.SecureFrame
/-!
# Changing the key and the transmit counter

`U/OTRadioLink_SecureableFrameType_V0p2Impl.h` 284-296 (the routine made to be given to the `K` command as `keysClearedFn`) and
`U/OTV0P2BASE_CLI.cpp` 464-534.
-/

namespace OTR

/-- `resetRaw3BytePersistentTXRestartCounterCond` — OTRadioLink_SecureableFrameType_V0p2Impl.h 290-296; `r`: three random bytes, used for a reset. -/
def resetCond (r : Bytes) : EM Bool := fun m =>
  match getTXNVCtrPrefix m with
  | none => (false, [])                                                         -- 294
  | some p => if p[0]?.getD 0 < 0x20 then incrementTXNVCtrPrefix m else resetRaw false r m   -- 295-296

/-- "K B *": the key is erased, then the callback runs — OTV0P2BASE_CLI.cpp 479-495. (Printing left out.) -/
def keyClear (r : Bytes) : EM Bool := emBind (setKey none) fun _ => resetCond r

/-- Any line given to the `K` command, with this callback — OTV0P2BASE_CLI.cpp 464-534: the EEPROM afterwards. -/
def cliKeyLine (buf r : Bytes) (m : EE) : EE :=
  if (cliKey buf m).2 then (resetCond r).post (cliKey buf m).1 else (cliKey buf m).1

/-- `SimpleSecureFrame32or0BodyTXV0p2Null`: `getTXID`, `getNextTXMsgCtr` — OTRadioLink_SecureableFrameType_V0p2Impl.h 64, 178. -/
def nullTx : TxSource := ⟨none, none⟩

end OTR
