import Verif.Base
/-!
# Valve position control — `U/OTRadValve_ModelledRadValveState.h`

Temperatures are in 1/16 C as `Int`.  `int_fast16_t` arithmetic on them is taken as exact: on the AVR it is exact while
temperatures are within ±127 C (`smallIntMean` sums 16 of them in 16 bits). Event reporting is compiled out in the
source (line 364) and not modelled.
-/

namespace OTR

/-- `_proportionalRange` — ModelledRadValveState.h 166. -/
notation "propRange" => 7
/-- `MIN_TARGET_C`, `MAX_TARGET_C` — OTRadValve_Parameters.h 46, 48. -/
notation "minTargetC" => 5
notation "maxTargetC" => 95
/-- `DEFAULT_ANTISEEK_VALVE_RECLOSE_DELAY_M` — OTRadValve_Parameters.h 301-304. -/
notation "recloseDelayM" => 10
/-- `DEFAULT_ANTISEEK_VALVE_REOPEN_DELAY_M` — OTRadValve_Parameters.h 314-316. -/
notation "reopenDelayM" => 11
/-- `filterLength` — ModelledRadValveState.h 456. -/
notation "filterLength" => 16
/-- `DEFAULT_VALVE_PC_SAFER_OPEN` — OTRadValve_Parameters.h 260. -/
notation "callForHeatPC" => 50

/-- `ModelledRadValveInputState` — ModelledRadValveState.h 50-120 (`hasEcoBias` is not used by the computation). -/
structure VIn where
  target : Nat
  maxTarget : Nat
  maxPC : Nat
  wide : Bool
  glacial : Bool
  bake : Bool
  fast : Bool
  ref16 : Int
deriving Repr, DecidableEq

/-- `setReferenceTemperatures` — ModelledRadValveState.h 68-76. -/
def VIn.setTemp (i : VIn) (t16 : Int) : VIn := { i with ref16 := t16 + 8 }

/-- Template parameters and constructor argument — ModelledRadValveState.h 136, 192. -/
structure VCfg where
  binary : Bool
  aggressive : Bool
  alwaysGlacial : Bool
deriving Repr, DecidableEq

/-- `ModelledRadValveState` — ModelledRadValveState.h 335-465. -/
structure VState where
  initialised : Bool
  filtering : Nat
  moved : Bool
  turndownM : Nat
  turnupM : Nat
  cumulative : Nat
  prevPC : Nat
  temps : List Int
deriving Repr, DecidableEq

/-- As default-constructed; the temperature memory is then unspecified (`junk`) — OTRadValve_ModelledRadValveState.h 188. -/
def VState.new (junk : List Int) : VState :=
  { initialised := false, filtering := 0, moved := false, turndownM := 0, turnupM := 0, cumulative := 0, prevPC := 0,
    temps := junk }

/-- `smallIntMean<filterLength>` — ModelledRadValveState.h 30-39 (C++ division truncates towards zero). -/
def smallIntMean (ts : List Int) : Int := (ts.sum + 8).tdiv 16

/-- `getRawDelta(n)` — ModelledRadValveState.h 476, 479. -/
def VState.rawDelta (s : VState) (n : Nat) : Int := s.temps.getD 0 0 - s.temps.getD (min n 15) 0

/-- Cast to `int_fast8_t`. -/
def i8cast (x : Int) : Int := (x + 128) % 256 - 128

/-- `adjustedTempC16` — ModelledRadValveState.h 561-563. -/
def VState.adj16 (s : VState) (i : VIn) : Int := if s.filtering ≠ 0 then smallIntMean s.temps + 8 else i.ref16

/-- `higherTargetC` — ModelledRadValveState.h 614-615. -/
def VIn.higher (i : VIn) : Nat := max i.target i.maxTarget

/-- `fnconstrain` on `int` — OTV0P2BASE_Util.h 71. -/
def constrainI (x l h : Int) : Int := if x < l then l else if x > h then h else x

/-- Proportional part of `computeRequiredTRVPercentOpen` once BAKE is excluded — ModelledRadValveState.h 668-932.
`err` is `errorC16`, `rise` is `getRawDelta()`. -/
def propCompute (aggressive beGlacial filtering noUp noDown : Bool) (valve : Nat) (i : VIn) (err rise : Int) : Nat :=
  let belowTarget := decide (err < 0)                                           -- 672
  if belowTarget && noUp then valve                                             -- 675-676
  else if !belowTarget && noDown then valve                                     -- 677-678
  else if belowTarget && decide (valve ≥ i.maxPC) then valve                    -- 681-682
  else if !belowTarget && valve == 0 then valve                                 -- 683-684
  else
    let worf := i.wide || filtering                                             -- 575
    let wOTbasic : Int := if worf then 12 else 6                                -- 696-698
    let wOThigh : Int := if filtering then 28 else 6                            -- 707-712
    let wellAbove := decide (err > wOThigh)                                     -- 713
    let wellBelow := decide (err < -wOTbasic)                                   -- 714
    let herr := err - ((i.higher - i.target : Nat) : Int) * 16                  -- 717-718
    let wellAboveMax := decide (herr > wOThigh)                                 -- 725
    let slewRaw := err.natAbs / (if worf then 8 else 4)                         -- 730-735
    let slewF := min 21 (slewRaw % 256)                                         -- 733
    let sweet := slewF == 0                                                     -- 736
    if !beGlacial && (i.fast || wellBelow) && decide (slewF > 0) then           -- 760-762
      if belowTarget then i.maxPC                                               -- 768
      else (constrainI ((valve : Int) - slewF) 0 (callForHeatPC - 1)).toNat     -- 789-792
    else
      let calling := decide (valve ≥ callForHeatPC)                             -- 797-798
      if !calling && sweet then valve                                           -- 809
      else if !calling && belowTarget && (if wellBelow then decide (rise > 0) else decide (rise ≥ 0)) then valve  -- 816
      else if !calling && !belowTarget && (if wellAboveMax then decide (rise < 0) else decide (rise ≤ 0)) then valve -- 839
      else if !beGlacial && wellAbove && decide (rise > 0) then                 -- 849-865
        (constrainI ((valve : Int) - 2) 0 (callForHeatPC - 1)).toNat            -- 868-896
      else if !belowTarget && decide (rise ≥ 0) then valve - 1                  -- 909, 921
      else if belowTarget && decide (rise ≤ 0) then                             -- 908, 922
        if aggressive && !beGlacial then i.maxPC else valve + 1                 -- 924-925
      else valve                                                                -- 932

/-- "Well under target" test — ModelledRadValveState.h 617-619. -/
def isCold (binary : Bool) (t16 : Int) (i : VIn) : Bool :=
  let tC := i8cast (t16 / 16)                                                   -- 567
  if binary then decide (tC < i.target) else decide (tC < max ((i.target : Int) - propRange) minTargetC)

/-- "Well over target" test — ModelledRadValveState.h 640-642. -/
def isHot (binary : Bool) (t16 : Int) (i : VIn) : Bool :=
  let tC := i8cast (t16 / 16)
  if binary then decide (tC > i.target)
  else decide (tC > (min ((i.higher + propRange) % 256) maxTargetC : Nat))

/-- `computeRequiredTRVPercentOpen` — ModelledRadValveState.h 557-933. -/
def VState.compute (c : VCfg) (s : VState) (valve : Nat) (i : VIn) : Nat :=
  let adj := s.adj16 i
  let beGlacial := c.alwaysGlacial || i.glacial                                 -- 570
  let noUp := decide (s.turndownM ≠ 0)                                          -- 397
  let noDown := decide (s.turnupM ≠ 0)                                          -- 412
  if isCold c.binary adj i then
    if noUp && !i.bake then valve                                               -- 622
    else if !c.binary && beGlacial && decide (valve < i.maxPC) then valve + 1   -- 626
    else i.maxPC                                                                -- 630
  else if isHot c.binary adj i then
    if noDown then valve else 0                                                 -- 645-647
  else if !c.binary then
    if i.bake then i.maxPC                                                      -- 665
    else propCompute c.aggressive beGlacial (decide (s.filtering ≠ 0)) noUp noDown valve i
      (adj - (i.target : Int) * 16 - 12) (s.rawDelta 1)                         -- 668-670, 801
  else valve                                                                    -- 932

/-- Initialisation and filter part of `tick` — ModelledRadValveState.h 230-291; `physPC` is the physical device's
position, if there is one. -/
def VState.prepare (s : VState) (valve : Nat) (i : VIn) (physPC : Option Nat) : VState :=
  let raw := i.ref16 - 8                                                        -- 230, 944
  let s := if s.initialised then s
    else { s with temps := List.replicate filterLength raw, prevPC := physPC.getD valve, initialised := true }  -- 232-239
  let s := { s with temps := raw :: s.temps.take 15 }                           -- 242-243
  let s := if s.filtering > 1 then { s with filtering := s.filtering - 1 }      -- 255-256
    else if s.filtering = 1 ∧ (smallIntMean s.temps - raw).natAbs ≤ 3 then { s with filtering := 0 }  -- 258
    else s
  let s := if s.filtering = 0 ∧ (s.rawDelta 5).natAbs > 8 then { s with filtering := 64 } else s  -- 266-279
  { s with turndownM := s.turndownM - 1, turnupM := s.turnupM - 1 }             -- 290-291

/-- `tick` — ModelledRadValveState.h 218-331.  `phys` gives the physical device's `get()` before and after it is
`set()`, if there is one. Result: new state, new valve position. -/
def VState.tick (c : VCfg) (s : VState) (valve : Nat) (i : VIn) (phys : Option (Nat × Nat)) : VState × Nat :=
  let s := s.prepare valve i (phys.map Prod.fst)
  let new := s.compute c valve i                                                -- 297-298
  let s := if new > valve then { s with turnupM := recloseDelayM }              -- 303, 410
    else if new < valve then { s with turndownM := reopenDelayM }               -- 305, 395
    else s
  let newPC := (phys.map Prod.snd).getD new                                     -- 311-325
  ({ s with cumulative := (s.cumulative + (max s.prevPC newPC - min s.prevPC newPC)) % 1024,  -- 326-328
            prevPC := newPC,                                                    -- 329
            moved := new != valve },                                            -- 330
   new)

/-- One minute's inputs. (Vocabulary of histories and observations; it stands for the order in which an application makes calls and has no code of its own in /repo.) -/
abbrev VTick := VIn × Option (Nat × Nat)

/-- State and position after a sequence of ticks. (Vocabulary of histories and observations; it stands for the order in which an application makes calls and has no code of its own in /repo.) -/
def VState.after (c : VCfg) (s : VState) (v : Nat) (ts : List VTick) : VState × Nat :=
  ts.foldl (fun p t => p.1.tick c p.2 t.1 t.2) (s, v)

/-- The positions after each of a sequence of ticks. (Vocabulary of histories and observations; it stands for the order in which an application makes calls and has no code of its own in /repo.) -/
def VState.positions (c : VCfg) : VState → Nat → List VTick → List Nat
  | _, _, [] => []
  | s, v, t :: ts => (s.tick c v t.1 t.2).2 :: (s.tick c v t.1 t.2).1.positions c (s.tick c v t.1 t.2).2 ts

end OTR
