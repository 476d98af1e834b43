import Verif.Model.TempControl
import Verif.Model.Schedule
/-!
# Target temperature and the modelled valve — `U/OTRadValve_ModelledRadValve.h`

The answers of the sensors, schedule and statistics at the moment of the computation are inputs, unconstrained here:
`hlThis`, `hlNext` are the numbers of hours usually less occupied than this and the next.
-/

namespace OTR

/-- What the target computation looks at — the parameters of `computeTargetTemp`, OTRadValve_ModelledRadValve.h 167-175. -/
structure TTIn where
  mode : VMode
  frostC : Nat
  warmC : Nat
  vacancyH : Nat            -- occupancy->getVacancyH()
  likelyOccupied : Bool
  soon : Bool               -- schedule.isAnyScheduleOnWARMSoon
  now : Bool                -- schedule.isAnyScheduleOnWARMNow
  recentUI : Bool
  lockout : Bool            -- setbackLockout present and true
  dm : Nat                  -- ambLight.getDarkMinutes
  hlThis : Nat
  hlNext : Nat
deriving Repr, DecidableEq

/-- `longVacant`, `confidentlyVacant` — SensorOccupancy.h 245-266. -/
def TTIn.longVacant (x : TTIn) : Bool := decide (x.vacancyH > 24)
/-- `confidentlyVacant()` — OTV0P2BASE_SensorOccupancy.h 245-266. -/
def TTIn.confVacant (x : TTIn) : Bool := decide (x.vacancyH > 2)

/-- uint8 subtraction. -/
def sub8 (a b : Nat) : Nat := (a + 256 - b) % 256

/-- Size of setback once some setback is allowed — ModelledRadValve.h 244-334. -/
def setbackOf (p : VCP) (x : TTIn) : Nat :=
  let longDark := decide (x.dm < 7 * 60)                                        -- 252 (dark for less than 7 hours)
  let thr := if p.ecoBias x.warmC then 17 else 14                               -- 264-268
  let relActive := decide (x.hlThis > thr)                                      -- 269
  let inhibitEco := !x.longVacant && (x.soon || (longDark && relActive))        -- 276
  let likely := x.longVacant || x.confVacant || !x.likelyOccupied               -- 229-231
  if !inhibitEco && ((x.longVacant || x.confVacant) || (likely && decide (x.hlThis ≤ 1)) || decide (x.dm ≠ 0)) then  -- 282-285
    let relActiveSoon := decide (x.hlNext > 2 + thr)                            -- 299
    let thrF := min (thr - 4) (thr / 4 + (x.dm / 32) % 256)                     -- 307-309
    let notInactive := decide (x.hlThis > thrF)                                 -- 310
    let inhibitFull := p.isCom x.warmC || (longDark && (notInactive || relActiveSoon))  -- 314-317
    let veryQuiet := decide (x.hlThis ≤ 1) || decide (x.hlNext ≤ 1)             -- 327
    if !inhibitFull && (x.longVacant || decide (x.dm ≥ if veryQuiet then 2 else 10)) then p.sbFull else p.sbEco  -- 329-332, 286
  else p.sbDefault                                                              -- 244

/-- `CTTBasicLogic::computeTargetTemp` — ModelledRadValve.h 167-345. -/
def computeTarget (p : VCP) (x : TTIn) : Nat :=
  if !x.mode.warm then
    if !x.longVacant && x.soon && !x.recentUI then                              -- 200-202
      max x.frostC (sub8 x.warmC (if p.isEco x.warmC then p.sbEco else p.sbDefault))  -- 205-210
    else x.frostC                                                               -- 214
  else if x.mode.inBake then min ((x.warmC + p.bakeUplift) % 256) maxTargetC    -- 217
  else if x.lockout then x.warmC                                                -- 225
  else
    let likely := x.longVacant || x.confVacant || !x.likelyOccupied             -- 229-231
    let allow := likely && (x.longVacant || !x.now)                             -- 236-239
    if allow then max (sub8 x.warmC (setbackOf p x)) x.frostC                   -- 337
    else x.warmC                                                                -- 343

/-- Further inputs of the valve at a tick. (Vocabulary of histories and observations; it stands for the order in which an application makes calls and has no code of its own in /repo.) -/
structure MVIn where
  tt : TTIn
  temp16 : Int              -- temperatureC16.get()
  glacial : Bool
  veryRecentUI : Bool
  newOcc : Bool             -- occupancy.reportedNewOccupancyRecently
  dark : Bool               -- ambLight.isRoomDark
  phys : Option (Nat × Nat)
  physOpen : Bool           -- physicalDeviceOpt->isControlledValveReallyOpen(), if there is one
  minOpen : Nat             -- getMinPercentOpen()
deriving Repr, DecidableEq

/-- `setupInputState` — ModelledRadValve.h 361-414. -/
def setupInput (maxPC : Nat) (x : MVIn) (target : Nat) : VIn :=
  let wt := x.tt.warmC
  let fast := x.veryRecentUI || x.newOcc                                        -- 393-395
  ({ target := target                                                           -- 375
     maxTarget := wt                                                            -- 377
     maxPC := maxPC                                                             -- 379
     glacial := x.glacial || decide (maxPC < callForHeatPC)                     -- 384
     bake := x.tt.mode.inBake                                                   -- 385
     fast := fast                                                               -- 396
     wide := !fast && (decide (target < wt) || x.dark)                          -- 410
     ref16 := 0 } : VIn).setTemp x.temp16                                       -- 413


/-- `ModelledRadValve` state — ModelledRadValve.h 693-718. -/
structure MV where
  value : Nat
  st : VState
  mode : VMode
  target : Nat
  calling : Bool
  under : Bool
  setbackC : Nat
deriving Repr, DecidableEq

/-- `ModelledRadValve::read`, i.e. `computeCallForHeat` and `computeTargetTemperature` — ModelledRadValve.h 728-738,
785, 949-979.  The valve's own mode object is the one in the state: `x.tt.mode` is ignored. -/
def MV.read (p : VCP) (c : VCfg) (maxPC0 : Nat) (s : MV) (x : MVIn) : MV :=
  let mode := s.mode.read                                                       -- 730
  let maxPC := min maxPC0 100                                                   -- 759
  let x := { x with tt := { x.tt with mode := mode } }
  let target := computeTarget p x.tt                                            -- 952
  let i := setupInput maxPC x target                                          -- 955
  let setback := if mode.warm then (if target < x.tt.warmC then x.tt.warmC - target else 0) else 0  -- 962-967
  let reached := decide ((target : Int) ≤ i.ref16 / 16)                         -- 970 (arithmetic shift)
  let mode := if reached then mode.cancelBake else mode                         -- 973
  let reallyOpen := (x.phys.isNone || x.physOpen) && decide (s.value ≥ x.minOpen)  -- 814-819
  let calling := !reached && decide (s.value ≥ callForHeatPC) && reallyOpen     -- 976-978
  let r := s.st.tick c s.value i x.phys                                         -- 737
  { value := r.2, st := r.1, mode := mode, target := target, calling := calling, under := !reached, setbackC := setback }

/-- `getMinValvePcReallyOpen` — ModelledRadValve.h 908-913 (`V0P2BASE_EE_START_MIN_VALVE_PC_REALLY_OPEN` = 19). -/
def getMinOpen (m : EE) : Nat := let b := (m 19).toNat; if b > 0 ∧ b ≤ 100 then b else 15

/-- `setMinValvePcReallyOpen` — ModelledRadValve.h 922-932. -/
def setMinOpen (split : Bool) (pc : Byte) : EM Unit :=
  emIf (pc.toNat > 100 ∨ pc.toNat = 0 ∨ pc.toNat = 15) (emBind (smartErase 19) fun _ => emRet ())
    (emBind (smartUpdate split 19 pc) fun _ => emRet ())

end OTR
