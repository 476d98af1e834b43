import Verif.Model.Security
/-!
# Transmit message counter — `U/OTRadioLink_SecureableFrameType_V0p2Impl.cpp` (V0p2Impl.cpp below)
-/

namespace OTR

/-- avr-libc `_crc8_ccitt_update` (util/crc16.h documentation): the shift-and-xor step with polynomial 0x07. -/
def crc8Step (d : Byte) : Byte := if (d &&& 0x80) != 0 then (d <<< 1) ^^^ 0x07 else d <<< 1
/-- `_crc8_ccitt_update`. (Environment: avr-libc or the Arduino core, not code of /repo.) -/
def crc8 (crc data : Byte) : Byte :=
  crc8Step (crc8Step (crc8Step (crc8Step (crc8Step (crc8Step (crc8Step (crc8Step (crc ^^^ data))))))))

/-- `VOP2BASE_EE_START_PERSISTENT_MSG_RESTART_CTR` — EEPROM.h 173. -/
notation "EE_TXCTR" => (104 : Nat)

/-- CRC of a 3-byte counter prefix — V0p2Impl.cpp 140-141, 159-160, 217-218. -/
def crcPrefix (b : Bytes) : Byte := (b.take 3).foldl crc8 0

/-- `loadRaw3BytePersistentTXRestartCounterFromEEPROM` — V0p2Impl.cpp 67-75. -/
def loadRaw (m : EE) : Bytes := (eeBlock m EE_TXCTR 8).map (· ^^^ 0xff)

/-- Loop of `saveRaw3BytePersistentTXRestartCounterToEEPROM` — V0p2Impl.cpp 89-95, at address `a`. -/
def saveFrom (a : Nat) : Bytes → EM Bool
  | [] => emRet true                                                            -- 95
  | b :: t =>
    emBind (smartUpdate true a (~~~b)) fun _ =>                                 -- 91-92
    eeRead a fun r =>
    emIf (~~~b ≠ r) (emRet false) <|                                            -- 93
    saveFrom (a + 1) t

/-- `saveRaw3BytePersistentTXRestartCounterToEEPROM` — V0p2Impl.cpp 85-96, of an 8-byte image. -/
def saveRaw (img : Bytes) : EM Bool := saveFrom EE_TXCTR img

/-- The counter prefix and its CRC, twice — V0p2Impl.cpp 142-148, 221-225. -/
def image (b : Bytes) : Bytes := b.take 3 ++ [crcPrefix b] ++ (b.take 3 ++ [crcPrefix b])

/-- Loop of `resetRaw3BytePersistentTXRestartCounterInEEPROM(true)` — V0p2Impl.cpp 123-127. -/
def eraseFrom : Nat → Nat → EM Bool
  | 0, _ => emRet true
  | k + 1, a =>
    emBind (smartErase a) fun _ =>
    eeRead a fun r =>
    emIf (r ≠ 0xff) (emRet false) <| eraseFrom k (a + 1)

/-- The initial random prefix — V0p2Impl.cpp 134-138. `r` is three bytes from the secure random source. -/
def noise (r : Bytes) : Bytes :=
  let n0 : Byte := r[0]?.getD 0
  let n1 := r[1]?.getD 0
  let n2 := r[2]?.getD 0
  let n0' : Byte := (0xf : Byte) &&& (n0 ^^^ (n0 >>> 4))                                        -- 136
  [n0', n1, if n1 = 0 ∧ n0' = 0 then n2 ||| 1 else n2]                          -- 138

/-- `resetRaw3BytePersistentTXRestartCounterInEEPROM` — V0p2Impl.cpp 109-152 (the result of the save, line 149, is
ignored by the code). -/
def resetRaw (allZeros : Bool) (r : Bytes) : EM Bool :=
  if allZeros then eraseFrom 8 EE_TXCTR
  else emBind (saveRaw (image (noise r))) fun _ => emRet true

/-- `readOne3BytePersistentTXRestartCounter` — V0p2Impl.cpp 155-174 on a 4-byte copy. -/
def readOne (b : Bytes) : Option Bytes :=
  if crcPrefix b ≠ b[3]?.getD 0 then none                                       -- 168
  else if b.take 3 = [0xff, 0xff, 0xff] then none                               -- 170
  else some (b.take 3)

/-- `read3BytePersistentTXRestartCounter` — V0p2Impl.cpp 184-190. -/
def read3 (img : Bytes) : Option Bytes :=
  match readOne (img.take 4) with
  | some b => some b
  | none => readOne (img.drop 4)

/-- `getTXNVCtrPrefix` — V0p2Impl.cpp 196-201. -/
def getTXNVCtrPrefix (m : EE) : Option Bytes := read3 (loadRaw m)

/-- Ripple increment of a 3-byte big-endian number; also whether it overflowed —
V0p2Impl.cpp 211-215 and 302-310. -/
def inc3 (b : Bytes) : Bytes × Bool :=
  let b0 := b[0]?.getD 0
  let b1 := b[1]?.getD 0
  let b2 := b[2]?.getD 0
  if b2 + 1 ≠ 0 then ([b0, b1, b2 + 1], false)
  else if b1 + 1 ≠ 0 then ([b0, b1 + 1, 0], false)
  else if b0 + 1 ≠ 0 then ([b0 + 1, 0, 0], false)
  else ([0, 0, 0], true)

/-- `incrementTXNVCtrPrefix(loadBuf)` — V0p2Impl.cpp 207-227: the new 8-byte image. -/
def incrementImage (img : Bytes) : Option Bytes :=
  match read3 img with
  | none => none                                                                -- 210
  | some b => if (inc3 b).2 then none else some (image (inc3 b).1)              -- 211-225

/-- `incrementTXNVCtrPrefix()` — V0p2Impl.cpp 232-240. -/
def incrementTXNVCtrPrefix : EM Bool := fun m =>
  match incrementImage (loadRaw m) with
  | none => (false, [])
  | some img => saveRaw img m

/-- The two static variables in `getNextTXMsgCtr` — V0p2Impl.cpp 254, 274. They are lost on restart. -/
structure TxRam where
  initialised : Bool
  ephemeral : Bytes
deriving DecidableEq

/-- RAM after power-up — static variables, OTRadioLink_SecureableFrameType_V0p2Impl.cpp 254, 274, cleared at start-up. -/
def TxRam.boot : TxRam := ⟨false, [0, 0, 0]⟩

/-- The random start of the ephemeral part — V0p2Impl.cpp 279-288. -/
def tmpE (r : Bytes) : Bytes :=
  let n0 : Byte := r[0]?.getD 0
  [(0xf : Byte) &&& (n0 ^^^ (n0 >>> 4)), r[1]?.getD 0, r[2]?.getD 0]

/-- `getNextTXMsgCtr` — V0p2Impl.cpp 247-328. `r`: random bytes for the persistent part, `r'`: for the ephemeral part.
Result: the counter (or failure) and the new RAM variables. Simplification: the routine is atomic with respect to
other code on the same device (the code itself guards only lines 292-314). -/
def getNextTXMsgCtr (ram : TxRam) (r r' : Bytes) : EM (Option Bytes × TxRam) := fun m =>
  let doInit := !ram.initialised                                                -- 255
  let ram1 : TxRam := { ram with initialised := true }                          -- 256
  let finish (incrementPersistent : Bool) : EM (Option Bytes × TxRam) :=
    let e0 := if doInit then tmpE r' else ram1.ephemeral                        -- 294-299
    let (e1, wrapped) := inc3 e0                                                -- 302-310
    let ram2 : TxRam := { ram1 with ephemeral := e1 }
    let last : EM (Option Bytes × TxRam) := fun m => match getTXNVCtrPrefix m with   -- 325
      | none => ((none, ram2), [])
      | some p => ((some (p ++ e1), ram2), [])                                  -- 313, 327
    if incrementPersistent || wrapped then                                      -- 318
      emBind incrementTXNVCtrPrefix fun ok =>
      emIf (ok = false) (emRet (none, ram2)) last                               -- 321
    else last
  if doInit then                                                                -- 264
    match getTXNVCtrPrefix m with
    | none => ((none, ram1), [])                                                -- 266
    | some p =>
      if p = [0, 0, 0] then                                                     -- 267
        emBind (resetRaw false r) (fun ok => emIf (ok = false) (emRet (none, ram1)) (finish false)) m   -- 268
      else finish true m                                                        -- 270
  else finish false m

end OTR
