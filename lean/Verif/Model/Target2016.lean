import Verif.Model.Target
/-!
# The other target policy: `ModelledRadValveComputeTargetTemp2016` — `U/OTRadValve_ModelledRadValve.h` 498-680

The library offers it beside the one of `Target`. As there, the answers of sensors, schedule and statistics are inputs. `setupInputState` calls
`reportedRecently()` of the occupancy tracker (663), which the library's own tracker does not have: the class can only be used with another tracker;
its answer is an input here.
-/

namespace OTR

/-- What the 2016 policy looks at: as `TTIn` (OTRadValve_ModelledRadValve.h 167-175) and more (516-641). -/
structure TT16 extends TTIn where
  dark : Bool               -- ambLight->isRoomDark()
  veryDark : Bool           -- ambLight->isRoomVeryDark()
  rhHigh : Bool             -- relHumidityOpt present, available and high with hysteresis
  neverHere : Bool          -- last occupancy sample for this hour of day is 0
deriving Repr, DecidableEq

/-- `longLongVacant()` — OTV0P2BASE_SensorOccupancy.h 256, 273. -/
def TTIn.longLongVacant (x : TTIn) : Bool := decide (x.vacancyH > 39)

/-- `longVacant` as computed at ModelledRadValve.h 575. -/
def TT16.lv (x : TT16) : Bool := x.longLongVacant || x.longVacant

/-- `notLikelyOccupiedSoon` — ModelledRadValve.h 574-593. -/
def TT16.unlikely (p : VCP) (x : TT16) : Bool :=
  let thr := if p.ecoBias x.warmC then 15 else 12                               -- 584
  let likelyVacant := x.lv || !x.likelyOccupied                                 -- 576
  x.longLongVacant ||
    (likelyVacant && decide (x.hlThis < thr) &&                                 -- 588-590
      (decide (x.dm > 245) || decide (x.hlNext < thr + 1)))                     -- 593

/-- Whether some setback applies — ModelledRadValve.h 594-597. -/
def TT16.allow (p : VCP) (x : TT16) : Bool :=
  let eco := p.ecoBias x.warmC
  x.lv || ((x.unlikely p || decide (x.dm > (if eco then 10 else 20)) || (eco && decide (x.vacancyH > 0) && x.neverHere)) &&
    !x.now && !x.recentUI)

/-- Whether only the least setback applies — ModelledRadValve.h 622-627. -/
def TT16.minimal (p : VCP) (x : TT16) : Bool :=
  let thr := if p.ecoBias x.warmC then 15 else 12
  (p.isCom x.warmC && !x.veryDark) ||                                           -- 622
  x.likelyOccupied ||                                                           -- 623
  (!x.lv && !x.dark && !p.isEco x.warmC && x.rhHigh) ||                         -- 624
  (!x.lv && !x.dark && decide (x.hlThis > 4)) ||                                -- 625
  (!x.lv && !x.dark && !decide (x.dm > 245) && decide (x.hlNext ≥ thr - 1)) ||  -- 626
  (!x.lv && x.soon)                                                             -- 627

/-- Whether else the full setback applies — ModelledRadValve.h 629-631. -/
def TT16.full (p : VCP) (x : TT16) : Bool :=
  !p.isCom x.warmC && (x.longLongVacant ||
    (x.unlikely p && (p.isEco x.warmC || (decide (x.dm > min 254 (60 * 2) % 256) && decide (x.vacancyH ≥ 2)))))

/-- `computeTargetTemp` — ModelledRadValve.h 516-642. -/
def computeTarget16 (p : VCP) (x : TT16) : Nat :=
  if !x.mode.warm then                                                          -- 519
    if !x.longVacant && x.soon && !x.recentUI then                              -- 533
      let pre := max (sub8 x.warmC (if p.isEco x.warmC then p.sbEco else p.sbDefault)) x.frostC  -- 535-537
      if x.frostC < pre then pre else x.frostC                                  -- 538-539, 543
    else x.frostC                                                               -- 543
  else if x.mode.inBake then min ((x.warmC + p.bakeUplift) % 256) maxTargetC    -- 548
  else if x.lockout then x.warmC                                                -- 556-557
  else if x.allow p then
    max (sub8 x.warmC (if x.minimal p then p.sbDefault else if x.full p then p.sbFull else p.sbEco)) x.frostC  -- 622-637
  else x.warmC                                                                  -- 641

/-- Further inputs of the valve at a tick (see `MVIn`). -/
structure MV16 where
  tt : TT16
  temp16 : Int
  glacial : Bool
  veryRecentUI : Bool
  reported : Bool           -- occupancy->reportedRecently()
  phys : Option (Nat × Nat)
  physOpen : Bool
  minOpen : Nat
deriving Repr, DecidableEq

/-- `setupInputState` — ModelledRadValve.h 648-679; `maxTargetTempC` is not set: it stays at its initial 0 (ModelledRadValveState.h 88). -/
def setupInput16 (maxPC : Nat) (filtering : Bool) (x : MV16) (target : Nat) : VIn :=
  let fast := x.veryRecentUI || (x.reported && x.tt.likelyOccupied)             -- 662-664
  ({ target := target                                                           -- 653
     maxTarget := 0
     maxPC := maxPC                                                             -- 655
     glacial := x.glacial                                                       -- 656
     bake := x.tt.mode.inBake                                                   -- 657
     fast := fast
     wide := !fast && (filtering || x.tt.dark || decide (target < x.tt.warmC))  -- 672-675
     ref16 := 0 } : VIn).setTemp x.temp16                                       -- 678

/-- `ModelledRadValve::read` with this policy — ModelledRadValve.h 728-738, 785, 949-979, as `MV.read`. -/
def MV.read16 (p : VCP) (c : VCfg) (maxPC0 : Nat) (s : MV) (x : MV16) : MV :=
  let mode := s.mode.read                                                       -- 730
  let maxPC := min maxPC0 100                                                   -- 759
  let x := { x with tt := { x.tt with mode := mode } }
  let target := computeTarget16 p x.tt                                          -- 952
  let i := setupInput16 maxPC (decide (s.st.filtering ≠ 0)) x target            -- 955-957
  let setback := if mode.warm then (if target < x.tt.warmC then x.tt.warmC - target else 0) else 0  -- 962-967
  let reached := decide ((target : Int) ≤ i.ref16 / 16)                         -- 970 (arithmetic shift)
  let mode := if reached then mode.cancelBake else mode                         -- 973
  let reallyOpen := (x.phys.isNone || x.physOpen) && decide (s.value ≥ x.minOpen)  -- 814-819
  let calling := !reached && decide (s.value ≥ callForHeatPC) && reallyOpen     -- 976-978
  let r := s.st.tick c s.value i x.phys                                         -- 737
  { value := r.2, st := r.1, mode := mode, target := target, calling := calling, under := !reached, setbackC := setback }

end OTR
