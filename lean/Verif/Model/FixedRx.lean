import Verif.Model.SecureFrame
/-!
# Model: the fixed-counter receiver — `SimpleSecureFrame32or0BodyRXFixedCounter`, `U/OTRadioLink_SecureableFrameType.h` 1131-1218

`U` is `content/OTRadioLink/utility`.
-/

namespace OTR

/-- `mockID` (8 bytes) and `mockCounter` (6 bytes), SecureableFrameType.h 1143-1147. -/
structure FixedRx where
  id : Bytes
  ctr : Bytes
deriving DecidableEq, Repr

/-- The singleton as constructed, SecureableFrameType.h 1149-1153. -/
def FixedRx.new : FixedRx := ⟨List.replicate 8 0, List.replicate 6 0⟩

/-- `setMockIDValue`, SecureableFrameType.h 1202-1205. -/
def FixedRx.setID (s : FixedRx) (newID : Bytes) : FixedRx := { s with id := newID.take 8 }

/-- `setMockCounterValue`, SecureableFrameType.h 1210-1213. -/
def FixedRx.setCtr (s : FixedRx) (newCounter : Bytes) : FixedRx := { s with ctr := newCounter.take 6 }

/-- The three virtual methods, SecureableFrameType.h 1160-1164 (six bytes are copied; the two of the 8-byte buffer after them keep `junk`, what the
scratch space held), 1181-1185, 1194-1197. -/
def fixedStore (junk : Bytes) : RxStore FixedRx where
  matchID s _ := some (s.id.take 6 ++ junk)
  last s _ := some s.ctr
  update s _ _ := (true, s)

/-- What a user of the singleton can do: set the ID or counter, or give it a frame. -/
inductive FixedOp where
  | setID (id : Bytes)
  | setCtr (c : Bytes)
  | rx (frame : Bytes) (want : Bool) (scratch : Nat) (d : DecFn) (key : Option Bytes) (junk : Bytes)

/-- One operation, SecureableFrameType.h 1202-1213 and `decode` (SecureableFrameType.cpp 1037-1088). -/
def FixedRx.step (s : FixedRx) : FixedOp → FixedRx
  | .setID i => s.setID i
  | .setCtr c => s.setCtr c
  | .rx f w n d k j => (rxSecure (fixedStore j) s f w n d k).2

end OTR
