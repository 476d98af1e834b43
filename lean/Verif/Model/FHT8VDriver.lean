import Verif.Model.FHT8V

/-!
# FHT8V radio valve: synchronisation and transmission schedule

Models `FHT8VRadValveBase` / `FHT8VRadValve` of
`/repo/content/OTRadioLink/utility/OTRadValve_FHT8VRadValve.{cpp,h}`, built without `IGNORE_FHT_SYNC` and with no
trailer function (a trailer only appends after the frame, OTRadValve_FHT8VRadValve.h 553-557).  Sleeping until a half-second boundary and
radio polling (OTRadValve_FHT8VRadValve.cpp 432-464) have no effect on this state; a transmission is recorded instead of sent.
-/

namespace OTR.FHT8V

/-- Fixed parameters: `MAX_HSC` (OTRadValve_FHT8VRadValve.h 281-285: 3 with a 2s tick, else 1), extra preamble (OTRadValve_FHT8VRadValve.h 487). -/
structure Cfg where
  maxHSC : Nat
  preamble : Bytes

/-- State of the driver, OTRadValve_FHT8VRadValve.h 226-317; `frame` is the content of the command buffer before its 0xff terminator. -/
structure Drv where
  hc1 : Byte
  hc2 : Byte
  radio : Bool
  syncState : Nat
  hsNext : Nat
  hsc : Nat
  synced : Bool
  isOpen : Bool
  value : Nat
  frame : Bytes
deriving DecidableEq, Repr

/-- `isValidFHTV8HouseCode()`, OTRadValve_FHT8VRadValve.h 125. -/
def validHouse (hc : Byte) : Bool := hc ≤ 99

/-- `isValidHC()`, OTRadValve_FHT8VRadValve.h 333. -/
def Drv.validHC (s : Drv) : Bool := validHouse s.hc1 && validHouse s.hc2

/-- `isAvailable()`, OTRadValve_FHT8VRadValve.h 359: as written, with `!isValidHC()`. -/
def Drv.isAvailable (s : Drv) : Bool := s.radio && !s.validHC

/-- `resyncWithValve()`, OTRadValve_FHT8VRadValve.h 372-378. -/
def Drv.resync (s : Drv) : Drv := { s with synced := false, syncState := 0, hsNext := 0, isOpen := false }

/-- `clearHC()`, OTRadValve_FHT8VRadValve.h 321. -/
def Drv.clearHC (s : Drv) : Drv := Drv.resync { s with hc1 := 0xff, hc2 := 0xff }

/-- `setHC1()`, `setHC2()`, OTRadValve_FHT8VRadValve.h 325-326. -/
def Drv.setHC1 (s : Drv) (hc : Byte) : Drv := if hc ≠ s.hc1 then Drv.resync { s with hc1 := hc } else s
/-- `setHC2` — OTRadValve_FHT8VRadValve.h 326. -/
def Drv.setHC2 (s : Drv) (hc : Byte) : Drv := if hc ≠ s.hc2 then Drv.resync { s with hc2 := hc } else s

/-- Construction, OTRadValve_FHT8VRadValve.h 243-252 and 571-573 (`value` starts 0). -/
def Drv.init (radio : Bool) : Drv := ⟨0xff, 0xff, radio, 0, 0, 0, false, false, 0, []⟩

/-- `FHT8VCreateValveSetCmdFrame()` without trailer, OTRadValve_FHT8VRadValve.h 512-565. -/
def Drv.createSetFrame (c : Cfg) (s : Drv) (pc : Nat) (force : Bool) : Drv :=
  { s with frame := (if force then c.preamble else []) ++
      createBody ⟨s.hc1, s.hc2, 0, 0x26, UInt8.ofNat (percentTo255 pc)⟩ }

/-- `FHT8VRadValve::set()`, OTRadValve_FHT8VRadValve.h 578-585; `getMinPercentOpen()` is 10 (OTRadValve_FHT8VRadValve.h 79, 363). -/
def Drv.set (c : Cfg) (s : Drv) (v : Nat) : Drv :=
  if v > 100 then s else Drv.createSetFrame c { s with value := v } v (decide (10 ≤ v))

/-- `FHT8VTXFHTQueueAndSendCmd()`, OTRadValve_FHT8VRadValve.cpp 382-392: what is sent, if anything. -/
def Drv.tx (s : Drv) : List Bytes := if s.frame = [] then [] else if s.radio then [s.frame] else []

/-- `FHT8VTXGapHalfSeconds(hc2)`, OTRadValve_FHT8VRadValve.h 349 and with the position in the minor cycle, OTRadValve_FHT8VRadValve.h 354-355. -/
def gapHS (hc2 : Byte) : Nat := (hc2.toNat % 8) + 230
/-- The gap in half seconds, and that at the `halfSecondCount` given — OTRadValve_FHT8VRadValve.h 354-355. -/
def gapHSAt (c : Cfg) (hc2 : Byte) (hsc : Nat) : Nat := gapHS hc2 - (c.maxHSC - hsc)

/-- `--x == 0` on a `uint8_t`. -/
def dec8 (x : Nat) : Nat := (x + 255) % 256

/-- `valveSettingTX()`, OTRadValve_FHT8VRadValve.cpp 414-421. -/
def Drv.valveSettingTX (s : Drv) : Drv × List Bytes := ({ s with isOpen := decide (10 ≤ s.value) }, s.tx)

/-- `doSync()`, OTRadValve_FHT8VRadValve.cpp 472-582; `rnd` is `randRNG8()`.  Result: return value, state, transmissions. -/
def Drv.doSync (c : Cfg) (s : Drv) (rnd : Byte) : Bool × Drv × List Bytes :=
  if !s.isAvailable then (false, { s with synced := false }, [])
  else if s.syncState = 0 ∧ (0x1e &&& rnd) ≠ 0 then (false, { s with synced := false }, [])
  else
    let s := if s.syncState = 0 then { s with syncState := 241 } else s
    if s.syncState ≥ 2 then
      let odd := s.syncState % 2 = 1
      let s1 := if odd then { s with frame := createBody ⟨s.hc1, s.hc2, 0, 0x2c, UInt8.ofNat s.syncState⟩ } else s
      let out := if odd then s1.tx else []
      let s2 := { s1 with syncState := s1.syncState - 1 }
      if s2.syncState = 1 then
        (false, { s2 with hsNext := s2.hc2.toNat % 8 + 8 - (c.maxHSC - s2.hsc) }, out)
      else (true, s2, out)
    else
      let s1 := { s with hsNext := dec8 s.hsNext }
      if s1.hsNext = 0 then
        let s2 := { s1 with isOpen := false, frame := createBody ⟨s1.hc1, s1.hc2, 0, 0x20, 0⟩ }
        let out := s2.tx
        let s3 := Drv.createSetFrame c { s2 with synced := true } s2.value false
        (false, { s3 with hsNext := gapHSAt c s3.hc2 s3.hsc }, out)
      else (true, s1, [])

/-- `FHT8VPollSyncAndTX_First()`, OTRadValve_FHT8VRadValve.cpp 598-642. -/
def Drv.pollFirst (c : Cfg) (s : Drv) (rnd : Byte) : Bool × Drv × List Bytes :=
  let s := { s with hsc := 0 }
  if !s.synced then s.doSync c rnd
  else if s.hsNext > c.maxHSC + 1 then (false, { s with hsNext := s.hsNext - (c.maxHSC + 1) }, [])
  else
    let s := { s with hsNext := dec8 s.hsNext }
    if s.hsNext = 0 then
      (false, { s.valveSettingTX.1 with hsNext := gapHSAt c s.hc2 0 }, s.valveSettingTX.2)
    else (true, s, [])

/-- `FHT8VPollSyncAndTX_Next()`, OTRadValve_FHT8VRadValve.cpp 655-700. -/
def Drv.pollNext (c : Cfg) (s : Drv) (rnd : Byte) : Bool × Drv × List Bytes :=
  let s := { s with hsc := s.hsc + 1 }
  if !s.synced then s.doSync c rnd
  else
    let s := { s with hsNext := dec8 s.hsNext }
    if s.hsNext = 0 then
      (false, { s.valveSettingTX.1 with hsNext := gapHSAt c s.hc2 s.hsc }, s.valveSettingTX.2)
    else (true, s, [])

/-- The remaining half-second slots of one minor cycle: `_Next` is called while the previous call returned true
(OTRadValve_FHT8VRadValve.h 410-437), at most `k` more times.  Each transmission is tagged with its half-second slot. -/
def Drv.nexts (c : Cfg) (rnd : Nat → Byte) : Nat → Drv → Drv × List (Nat × Bytes)
  | 0, s => (s, [])
  | k + 1, s =>
    let r := s.pollNext c (rnd (s.hsc + 1))
    let here := r.2.2.map fun f => (s.hsc + 1, f)
    if r.1 then
      let q := Drv.nexts c rnd k r.2.1
      (q.1, here ++ q.2)
    else (r.2.1, here)

/-- One minor cycle (1s or 2s): `_First`, then `_Next` as long as requested. -/
def Drv.cycle (c : Cfg) (s : Drv) (rnd : Nat → Byte) : Drv × List (Nat × Bytes) :=
  let r := s.pollFirst c (rnd 0)
  let here := r.2.2.map fun f => (0, f)
  if r.1 then
    let q := Drv.nexts c rnd c.maxHSC r.2.1
    (q.1, here ++ q.2)
  else (r.2.1, here)

/-- What can be done to the driver between minor cycles. (Vocabulary of histories and observations; it stands for the order in which an application makes calls and has no code of its own in /repo.) -/
inductive DOp where
  | setHC1 (hc : Byte)
  | setHC2 (hc : Byte)
  | clearHC
  | setRadio (present : Bool)
  | set (v : Nat)
  | cycle (rnd : Nat → Byte)

/-- One operation. (Vocabulary of histories and observations; it stands for the order in which an application makes calls and has no code of its own in /repo.) -/
def Drv.step (c : Cfg) (s : Drv) : DOp → Drv × List (Nat × Bytes)
  | .setHC1 hc => (s.setHC1 hc, [])
  | .setHC2 hc => (s.setHC2 hc, [])
  | .clearHC => (s.clearHC, [])
  | .setRadio b => ({ s with radio := b }, [])
  | .set v => (s.set c v, [])
  | .cycle rnd => s.cycle c rnd

/-- State after a history of operations. (Vocabulary of histories and observations; it stands for the order in which an application makes calls and has no code of its own in /repo.) -/
def Drv.run (c : Cfg) (s : Drv) (ops : List DOp) : Drv := ops.foldl (fun s op => (s.step c op).1) s

/-- `n` minor cycles, with values set before each cycle (`vals k` before cycle `k`); transmissions are tagged with the
absolute half-second slot. (Vocabulary of histories and observations; it stands for the order in which an application makes calls and has no code of its own in /repo.) -/
def Drv.cycles (c : Cfg) (vals : Nat → List Nat) (rnd : Nat → Nat → Byte) : Nat → Drv → Drv × List (Nat × Bytes)
  | 0, s => (s, [])
  | n + 1, s =>
    let p := Drv.cycles c vals rnd n s
    let s1 := (vals n).foldl (fun s v => Drv.set c s v) p.1
    let r := s1.cycle c (rnd n)
    (r.1, p.2 ++ r.2.map fun x => (n * (c.maxHSC + 1) + x.1, x.2))

end OTR.FHT8V
