import Verif.Base
/-!
# Current-sense motorised valve driver — `U/OTRadValve_CurrentSenseValveMotorDirect.{h,cpp}`

Both the binary-only class and the proportional one (`prop = true`). The hardware is an oracle: each motor run may or may
not report an end stop and delivers any number of sub-cycle ticks; the sub-cycle clock, battery and "minimise activity"
answers are arbitrary. Error reporting and serial output are not modelled. `uint8_t` counters are naturals: the
invariant `Motor.Inv` (Props) shows they stay below 256. `valveDecalcinating` (never entered) is merged with the error
state, as `poll` treats it.
-/

namespace OTR

/-- `CalibrationParameters` — CurrentSenseValveMotorDirect.h 477-538. -/
structure Calib where
  otc : Nat := 0
  cto : Nat := 0
  prec : Nat := 100
  otcS : Nat := 0
  ctoS : Nat := 0
deriving Repr, DecidableEq

/-- `cannotRunProportional` — CurrentSenseValveMotorDirect.h 532-537. -/
def Calib.cannot (c : Calib) : Bool := decide (c.prec > 15)

/-- The halving loop — CurrentSenseValveMotorDirect.cpp 100-106. Not entered with `m = 0` (83). -/
def halve (m a b : Nat) : Nat × Nat :=
  if max a b > m ∧ max a b ≠ 0 then halve m (a / 2) (b / 2) else (a, b)
termination_by max a b
decreasing_by omega

/-- `updateAndCompute` — CurrentSenseValveMotorDirect.cpp 70-123. -/
def Calib.update (tfotc tfcto minDR : Nat) : Bool × Calib :=
  let c : Calib := { otc := tfotc, cto := tfcto }                               -- 76-80
  if minDR = 0 then (false, c)                                                  -- 83
  else if min tfotc tfcto = 0 then (false, c)                                   -- 84-87
  else if tfotc / 2 > tfcto ∨ tfcto / 2 > tfotc then (false, c)                 -- 93-95
  else
    let s := halve minDR tfotc tfcto                                            -- 100-106
    let c := { c with otcS := s.1 % 256, ctoS := s.2 % 256 }                    -- 107-108
    if min s.1 s.2 < 8 then (false, c)                                          -- 110
    else
      let p := max 1 (min 100 ((128 * minDR) / min tfotc tfcto))                -- 115-116
      let c := { c with prec := p }
      (decide (p ≤ 15), c)                                                      -- 119-122

/-- The reverse-folding loop of `computePosition` — CurrentSenseValveMotorDirect.cpp 136-142. -/
def Calib.fold (c : Calib) (tfo trev : Nat) : Nat × Nat :=
  if trev ≥ c.ctoS ∧ c.ctoS ≠ 0 then
    c.fold (if tfo > c.otcS then tfo - c.otcS else 0) (trev - c.ctoS)
  else (tfo, trev)
termination_by trev
decreasing_by omega

/-- `computePosition` — CurrentSenseValveMotorDirect.cpp 129-153. Result: percentage and the two tick counts after. -/
def Calib.position (c : Calib) (tfo trev : Nat) : Nat × Nat × Nat :=
  let f := c.fold tfo trev
  if f.1 = 0 then (100, f)                                                      -- 147
  else if f.1 ≥ c.otc then (0, f)                                               -- 148
  else ((c.otc - f.1) * 100 / c.otc, f)                                         -- 151-152

/-- `driverState` — CurrentSenseValveMotorDirect.h 125-145. -/
inductive MState where
  | init | initWaiting | withdrawing | withdrawn | calibrating | normal | error
deriving Repr, DecidableEq

/-- The driver object — CurrentSenseValveMotorDirect.h 147-245, 540-577. The per-state union (194-233) is flattened: every
field is zeroed at each change of state. -/
structure Motor where
  prop : Bool
  limit : Nat
  minDR : Nat
  st : MState := .init
  waited : Nat := 0
  wall : Nat := 0
  hits : Nat := 0
  calib : Nat := 0
  cOtc : Nat := 0
  cCto : Nat := 0
  fitted : Bool := false
  cur : Nat := 100
  target : Nat := 49
  need : Bool := true
  cp : Calib := {}
  tfo : Nat := 0
  trev : Nat := 0
deriving Repr, DecidableEq

/-- What the hardware does during one run: is an end stop reported, how many sub-cycle ticks are delivered, and the
sub-cycle time afterwards. (Environment: hardware and its data sheet, not code of /repo.) -/
structure MRun where
  hit : Bool
  ticks : Nat
  after : Nat
deriving Repr, DecidableEq

/-- Everything outside the driver during one `poll()`: the sub-cycle time at entry, the outcome of the first motor run
and of any further ones, ticks delivered by a wiggle (opening, closing), whether calibration should be deferred
(CurrentSenseValveMotorDirect.cpp 224-235) and whether the battery is low (410). -/
structure MIn where
  sct : Nat
  first : MRun
  more : List MRun := []
  wigO : Nat := 0
  wigC : Nat := 0
  defer : Bool := false
  low : Bool := false
deriving Repr, DecidableEq

/-- Commands given to the motor hardware: off; the shortest run (a wiggle); a run in one direction, with whether the
hardware reported an end stop during it — the calls of `HardwareMotorDriverInterface::motorRun`, OTRadValve_AbstractRadValve.h 277-301. -/
inductive Drive where
  | off
  | nudge (opening : Bool)
  | drive (opening hit : Bool)
deriving Repr, DecidableEq

namespace Motor

/-- `changeState` — CurrentSenseValveMotorDirect.h 186-187, 232-233. -/
def changeState (m : Motor) (s : MState) : Motor :=
  { m with st := s, waited := 0, wall := 0, hits := 0, calib := 0, cOtc := 0, cCto := 0, fitted := false }

/-- `signalRunSCTTick`, `k` times — CurrentSenseValveMotorDirect.cpp 41-61 (nothing in the binary-only class, .h 407). -/
def ticks (m : Motor) (opening : Bool) (k : Nat) : Motor :=
  if ¬ m.prop then m
  else if opening then { m with trev := min 65535 (m.trev + k) } else { m with tfo := min 65535 (m.tfo + k) }

/-- `wiggle` — CurrentSenseValveMotorDirect.cpp 172-178. -/
def wiggle (m : Motor) (i : MIn) : Motor := (m.ticks true i.wigO).ticks false i.wigC

/-- Commands a wiggle gives — OTRadValve_CurrentSenseValveMotorDirect.cpp 172-178. -/
def wiggleCmds : List Drive := [.off, .nudge true, .nudge false, .off]

/-- `runTowardsEndStop` — CurrentSenseValveMotorDirect.cpp 208-220: the driver afterwards (the result is `r.hit`). -/
def run (m : Motor) (toOpen : Bool) (r : MRun) : Motor := m.ticks toOpen r.ticks

/-- Commands one run gives — `runTowardsEndStop`, OTRadValve_CurrentSenseValveMotorDirect.cpp 208-220. -/
def runCmds (toOpen : Bool) (r : MRun) : List Drive := [.drive toOpen r.hit, .off]

/-- `hitEndstop` — CurrentSenseValveMotorDirect.h 289-290, 600-605. -/
def hitEndstop (m : Motor) (isOpen : Bool) : Motor :=
  if m.prop then { m with cur := if isOpen then 100 else 0, trev := 0, tfo := if isOpen then 0 else m.cp.otc }
  else { m with cur := if isOpen then 100 else 0 }

/-- `recomputeIntermediatePosition` — CurrentSenseValveMotorDirect.h 277, 589-597. -/
def recompute (m : Motor) : Motor :=
  if m.prop ∧ ¬ m.need then
    let p := m.cp.position m.tfo m.trev
    { m with cur := max 1 (min 99 p.1), tfo := p.2.1, trev := p.2.2 }
  else m

/-- One pass of the loop body below: counts consecutive end-stop reports — OTRadValve_CurrentSenseValveMotorDirect.cpp 328-337. -/
def seekOne (need : Nat) (toOpen : Bool) (m : Motor) (r : MRun) : Bool × Motor :=
  let m1 := m.run toOpen r
  if ¬ r.hit then (false, { m1 with hits := 0 })
  else (decide (m1.hits + 1 ≥ need), { m1 with hits := m1.hits + 1 })

/-- The `do … while(getSubCycleTimeFn() <= computeSctAbsLimitDR())` loop looking for `need` consecutive end-stop reports,
as used in CurrentSenseValveMotorDirect.cpp 328-337, 505-518, 526-541, 548-566: was it found, the driver, the commands.
`computeSctAbsLimitDR` is truncated to `uint8_t` (.h 167). When the list runs out no further run happened. -/
def seek (need : Nat) (toOpen : Bool) (m : Motor) (r : MRun) : List MRun → Bool × Motor × List Drive
  | [] => ((m.seekOne need toOpen r).1, (m.seekOne need toOpen r).2, runCmds toOpen r)
  | r' :: t =>
    let x := m.seekOne need toOpen r
    if x.1 = true ∨ ¬ r.after ≤ (m.limit + 256 - m.minDR) % 256 then (x.1, x.2, runCmds toOpen r)
    else
      let y := seek need toOpen x.2 r' t
      (y.1, y.2.1, runCmds toOpen r ++ y.2.2)

/-- `do_valveCalibrating_prop` of the proportional class (always returns `true`) —
CurrentSenseValveMotorDirect.cpp 459-616. -/
def calibrate (m : Motor) (i : MIn) : Motor × List Drive :=
  let m := { m with need := true }                                              -- 462
  if i.defer then (m.changeState .normal, [])                                   -- 466-470
  else
  let m := { m with wall := m.wall + 1 }
  if m.wall > 120 then (m.changeState .error, [])                               -- 475-480
  else if m.calib = 0 then ({ m with wall := 0, hits := 0, calib := 1 }, [])    -- 492-501
  else if m.calib = 1 then                                                      -- 502-520
    let x := m.seek 5 true i.first i.more
    (if x.1 then { x.2.1 with tfo := 0, trev := 0, wall := 0, hits := 0, calib := 2 } else x.2.1, x.2.2)
  else if m.calib = 2 then                                                      -- 521-543
    let x := m.seek 5 false i.first i.more
    (if x.1 then { x.2.1 with cOtc := x.2.1.tfo, wall := 0, hits := 0, calib := 3 } else x.2.1, x.2.2)
  else if m.calib = 3 then                                                      -- 544-568
    let x := m.seek 5 true i.first i.more
    (if x.1 then { x.2.1 with cCto := x.2.1.trev, tfo := 0, trev := 0, calib := 4 } else x.2.1, x.2.2)
  else if m.calib = 4 then                                                      -- 569-609
    let m := { m with cp := (Calib.update m.cOtc m.cCto m.minDR).2, need := false }
    ((m.hitEndstop true).changeState .normal, [])
  else (m.changeState .error, [])                                               -- 611

/-- `reportTrackingError` — CurrentSenseValveMotorDirect.h 554-563. -/
def trackingError (m : Motor) : Motor := { m with need := true }

/-- `inNonProportionalMode` — CurrentSenseValveMotorDirect.h 650-651. -/
def nonProp (m : Motor) : Bool := m.need || m.cp.cannot

/-- Widened end zones of the proportional range — CurrentSenseValveMotorDirect.cpp 646-652. -/
def weps (m : Motor) : Nat := max 11 (2 * m.cp.prec)

/-- `do_valveNormal_prop` of the proportional class — CurrentSenseValveMotorDirect.cpp 623-754: `none`: returned `false`
with the driver unchanged. -/
def normalProp (m : Motor) (i : MIn) : Option (Motor × List Drive) :=
  if m.need ∧ ¬ i.defer then some (m.changeState .calibrating, [])              -- 626-634
  else if m.nonProp then none                                                   -- 638
  else
  let eps := m.cp.prec
  if m.target ≥ 100 - m.weps + eps ∨ m.target ≤ m.weps - eps then none          -- 654-659
  else if (m.target ≥ 100 - m.weps ∧ m.cur = 100) ∨ (m.target ≤ m.weps ∧ m.cur = 0) then none-- 663-665
  else if (m.target ≥ m.cur ∧ m.target ≤ m.cur + eps) ∨ (m.cur ≥ m.target ∧ m.cur ≤ m.target + eps) then
    some ({ m with hits := 0 }, [])                                             -- 673-680
  else
    let toOpen := decide (m.target > m.cur)                                     -- 692, 722
    let m1 := (m.run toOpen i.first).recompute                                  -- 695-696, 725-726
    if i.first.hit then
      let m2 := if (toOpen = true ∧ m1.cur < 100 - 19) ∨ (toOpen = false ∧ m1.cur > 19) then m1.trackingError else m1
      let m3 := { m2 with hits := m2.hits + 1 }                                 -- 707, 737
      some (if m3.hits ≥ 4 then { m3.hitEndstop toOpen with hits := 0 } else m3, runCmds toOpen i.first)
    else some ({ m1 with hits := 0 }, runCmds toOpen i.first)                     -- 716, 746

/-- The `valvePinWithdrawing` state of `poll` — CurrentSenseValveMotorDirect.cpp 304-340. -/
def withdraw (m : Motor) (i : MIn) : Motor × List Drive :=
  let m := { m with wall := m.wall + 1 }                                        -- 311
  if m.wall > 120 then (m.changeState .error, [])                               -- 311-316
  else
    let x := m.seek 4 true i.first i.more                                       -- 328-337
    (if x.1 then (x.2.1.hitEndstop true).changeState .withdrawn else x.2.1, x.2.2)

/-- The non-proportional part of the `valveNormal` state of `poll` — CurrentSenseValveMotorDirect.cpp 400-436. -/
def normalBin (m : Motor) (i : MIn) : Motor × List Drive :=
  let binOpen := decide (m.target ≥ 50)                                         -- 400
  if m.cur = (if binOpen then 100 else 0) then ({ m with hits := 0 }, [])       -- 401-405
  else if i.low ∧ m.target < m.cur then (m, [])                                 -- 410-411
  else
    let m1 := m.run binOpen i.first                                             -- 421
    if ¬ i.first.hit then ({ m1 with hits := 0 }.recompute, runCmds binOpen i.first)   -- 424-426
    else
      let m2 := { m1 with hits := m1.hits + 1 }                                 -- 428
      (if m2.hits ≥ 4 then { m2.hitEndstop binOpen with hits := 0 } else m2, runCmds binOpen i.first)  -- 431-433

/-- `poll` — CurrentSenseValveMotorDirect.cpp 241-453. -/
def poll (m : Motor) (i : MIn) : Motor × List Drive :=
  if i.sct ≥ m.limit then (m, [])                                               -- 257
  else match m.st with
  | .init => ((m.wiggle i).changeState .initWaiting, wiggleCmds)                -- 263-277
  | .initWaiting =>                                                             -- 282-301
    if m.waited < 30 / 2 then ({ m with waited := m.waited + 1 }, [])
    else ((m.wiggle i).changeState .withdrawing, wiggleCmds)
  | .withdrawing =>                                                             -- 304-340
    m.withdraw i
  | .withdrawn =>                                                               -- 343-357
    if m.fitted then ((m.wiggle i).changeState .calibrating, wiggleCmds) else (m, [])
  | .calibrating =>                                                             -- 360-373
    if m.prop then m.calibrate i else (m.changeState .normal, [])
  | .normal =>                                                                  -- 376-437
    if m.cur = m.target then ({ m with hits := 0 }, [])                         -- 382-383
    else match (if m.prop then m.normalProp i else none) with                   -- 385
    | some r => r
    | none => m.normalBin i
  | .error => (m.changeState .error, [.off])                                    -- 441-451

/-- `signalValveFitted` — CurrentSenseValveMotorDirect.h 410-411. -/
def signalFitted (m : Motor) : Motor := if m.st = .withdrawn then { m with fitted := true } else m

/-- `setTargetPC` — CurrentSenseValveMotorDirect.h 359-360. -/
def setTarget (m : Motor) (pc : Nat) : Motor := { m with target := min pc 100 }

/-- `getMinPercentOpen` — CurrentSenseValveMotorDirect.h 363-364, .cpp 156-161. -/
def minPercentOpen (m : Motor) : Nat := if m.prop then max ((10 + m.cp.prec) % 256) 15 else 67

/-- `isControlledValveReallyOpen` — CurrentSenseValveMotorDirect.h 373-374. -/
def reallyOpen (m : Motor) : Bool := decide (m.st = .normal) && decide (m.cur ≥ m.minPercentOpen)

/-- A newly constructed driver — CurrentSenseValveMotorDirect.h 325-340. `limit`: `sctAbsLimit`; `minDR`:
`minMotorDRTicks`; `tfo`, `trev` are not initialised by the constructor (573-575). -/
def new (prop : Bool) (limit minDR tfo trev : Nat) : Motor := { prop, limit, minDR, tfo, trev }

end Motor

/-- What can happen to a driver. (Vocabulary of histories and observations; it stands for the order in which an application makes calls and has no code of its own in /repo.) -/
inductive MEv where
  | poll (i : MIn)
  | fitted
  | target (pc : Nat)
  | wiggle (i : MIn)
deriving Repr, DecidableEq

/-- One event: the driver afterwards and the commands to the motor. (Vocabulary of histories and observations; it stands for the order in which an application makes calls and has no code of its own in /repo.) -/
def Motor.step (m : Motor) : MEv → Motor × List Drive
  | .poll i => m.poll i
  | .fitted => (m.signalFitted, [])
  | .target pc => (m.setTarget pc, [])
  | .wiggle i => (m.wiggle i, Motor.wiggleCmds)

/-- A history of events: the driver at the end and all commands given, in order. (Vocabulary of histories and observations; it stands for the order in which an application makes calls and has no code of its own in /repo.) -/
def Motor.runAll (m : Motor) : List MEv → Motor × List Drive
  | [] => (m, [])
  | e :: t => (((m.step e).1.runAll t).1, (m.step e).2 ++ ((m.step e).1.runAll t).2)

end OTR
