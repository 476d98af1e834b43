import Verif.Base
/-!
# Occupancy tracking — `U/OTV0P2BASE_SensorOccupancy.{h,cpp}`, atomics of `U/OTV0P2BASE_Concurrency.h`

An interrupt runs one or more whole `markAs...()` calls between two steps of the main loop's code; the steps are the
individual atomic loads, stores and compare-and-exchanges.
-/

namespace OTR

/-- `OCCUPATION_TIMEOUT_M` — SensorOccupancy.h 54. -/
notation "occTimeoutM" => 50
/-- `OCCUPATION_TIMEOUT_LIKELY_M` = max(50*4/5, 3) — SensorOccupancy.h 76. -/
notation "occLikelyM" => 40
/-- `OCCUPATION_TIMEOUT_MAYBE_M` = max(40/2, 2) — SensorOccupancy.h 78. -/
notation "occMaybeM" => 20
/-- `NEW_OCCUPANCY_TIMEOUT_M` — SensorOccupancy.h 72. -/
notation "occNewM" => 3
/-- `weakVacantHThrH` — SensorOccupancy.h 245. -/
notation "weakVacantH" => 2

/-- `PseudoSensorOccupancyTracker` object — SensorOccupancy.h 93-105 and the inherited `value`. -/
structure Occ where
  value : Nat
  occ : Nat
  new : Nat
  vacH : Nat
  vacM : Nat
deriving Repr, DecidableEq

/-- As constructed or after `reset()` — SensorOccupancy.h 108-119. -/
def Occ.init : Occ := { value := 0, occ := 0, new := 0, vacH := 0, vacM := 0 }

/-- Evidence of occupancy — the three calls of OTV0P2BASE_SensorOccupancy.cpp 76-131. -/
inductive Mark where
  | occupied
  | possibly
  | justPossibly
deriving Repr, DecidableEq

/-- `markAsOccupied` — SensorOccupancy.cpp 76-84, uninterrupted. -/
def Occ.markAsOccupied (s : Occ) : Occ :=
  { s with value := 100, new := if s.occ = 0 then occNewM else s.new, occ := occTimeoutM }

/-- `markAsPossiblyOccupied` — SensorOccupancy.cpp 95-108, uninterrupted. -/
def Occ.markAsPossiblyOccupied (s : Occ) : Occ :=
  { s with new := if s.occ = 0 then occNewM else s.new, occ := max s.occ occLikelyM }

/-- `markAsJustPossiblyOccupied` — SensorOccupancy.cpp 118-131, uninterrupted. -/
def Occ.markAsJustPossiblyOccupied (s : Occ) : Occ :=
  if s.vacH > weakVacantH then s else { s with occ := max s.occ occMaybeM }

/-- A whole `markAs...()` call — OTV0P2BASE_SensorOccupancy.cpp 76-131. -/
def Occ.mark (s : Occ) : Mark → Occ
  | .occupied => s.markAsOccupied
  | .possibly => s.markAsPossiblyOccupied
  | .justPossibly => s.markAsJustPossiblyOccupied

/-- What interrupts do at one point of the main loop's code: any number of whole calls. (Vocabulary of histories and observations; it stands for the order in which an application makes calls and has no code of its own in /repo.) -/
def Occ.isr (s : Occ) (ms : List Mark) : Occ := ms.foldl Occ.mark s

/-- `compare_exchange_strong` on the occupancy countdown — Concurrency.h 157-163. -/
def Occ.casOcc (s : Occ) (expected desired : Nat) : Occ := if s.occ = expected then { s with occ := desired } else s
/-- The same on the new-occupancy countdown — OTV0P2BASE_Concurrency.h 157-163. -/
def Occ.casNew (s : Occ) (expected desired : Nat) : Occ := if s.new = expected then { s with new := desired } else s

/-- Vacancy part of `read` — SensorOccupancy.cpp 60-62, for the countdown snapshot `ocM`. -/
def Occ.vacUpdate (s : Occ) (ocM : Nat) : Occ :=
  if ocM > 0 then { s with vacM := 0, vacH := 0 }
  else if s.vacH < 255 then
    if s.vacM + 1 ≥ 60 then { s with vacM := 0, vacH := s.vacH + 1 } else { s with vacM := s.vacM + 1 }
  else s

/-- The percentage reported — SensorOccupancy.cpp 63-64 (`OCCCP_SHIFT` is 1; the subtraction is of a `uint8_t`). -/
def occPercent (ocM : Nat) : Nat := if ocM = 0 then 0 else min 100 (100 - ((occTimeoutM - ocM) * 2) % 256)

/-- Interrupt activity at each point of `read` — the points between the accesses to shared bytes in OTV0P2BASE_SensorOccupancy.cpp 40-67. -/
structure ReadGaps where
  g1 : List Mark := []
  g2 : List Mark := []
  g3 : List Mark := []
  g4 : List Mark := []
  g5 : List Mark := []
  g6 : List Mark := []

/-- `read` — SensorOccupancy.cpp 40-67 with `safeDecIfNZWeak` — Concurrency.h 209-215; `g1`.. are interrupts between
the atomic steps. -/
def Occ.readI (s : Occ) (g : ReadGaps) : Occ :=
  let o := s.occ                                                                -- load, 54
  let s := s.isr g.g1
  let s := if o = 0 then s else s.casOcc o (o - 1)                              -- 54
  let s := s.isr g.g2
  let n := s.new                                                                -- load, 56
  let s := s.isr g.g3
  let s := if n = 0 then s else s.casNew n (n - 1)                              -- 56
  let s := s.isr g.g4
  let ocM := s.occ                                                              -- load, 59
  let s := s.isr g.g5
  let s := s.vacUpdate ocM                                                      -- 60-62
  let s := s.isr g.g6
  { s with value := occPercent ocM }                                            -- 63-65

/-- `read` with no interrupts — OTV0P2BASE_SensorOccupancy.cpp 40-67. -/
def Occ.read (s : Occ) : Occ := s.readI {}

/-- `markAsPossiblyOccupied` called from the main loop — SensorOccupancy.cpp 95-108; interrupts between its load (99),
its store of the new-occupancy countdown (102) and its compare-and-exchange (107). -/
def Occ.possiblyI (s : Occ) (g1 g2 : List Mark) : Occ :=
  let ocM := s.occ
  let s := s.isr g1
  let s := if ocM = 0 then { s with new := occNewM } else s
  let s := s.isr g2
  s.casOcc ocM (max ocM occLikelyM)

/-- `markAsOccupied` called from the main loop — SensorOccupancy.cpp 76-84; interrupts between its steps. -/
def Occ.occupiedI (s : Occ) (g1 g2 g3 : List Mark) : Occ :=
  let s := ({ s with value := 100 } : Occ).isr g1
  let z := s.occ
  let s := s.isr g2
  let s := if z = 0 then { s with new := occNewM } else s
  let s := s.isr g3
  { s with occ := occTimeoutM }

/-- `markAsVacant` — SensorOccupancy.h 210. -/
def Occ.markAsVacant (s : Occ) : Occ := { s with value := 0, new := 0, occ := 0 }

/-- `setHolidayMode` — SensorOccupancy.h 281. -/
def Occ.setHolidayMode (s : Occ) : Occ := { s with value := 0, vacH := 255, new := 0, occ := 0 }

/-- `isLikelyOccupied` — SensorOccupancy.h 155. -/
def Occ.isLikelyOccupied (s : Occ) : Bool := s.occ != 0
/-- `isLikelyRecentlyOccupied` — SensorOccupancy.h 165. -/
def Occ.isLikelyRecentlyOccupied (s : Occ) : Bool := decide (s.occ > occLikelyM)
/-- `reportedNewOccupancyRecently` — SensorOccupancy.h 147. -/
def Occ.reportedNewOccupancyRecently (s : Occ) : Bool := s.new != 0
/-- `getVacancyH` — SensorOccupancy.h 229. -/
def Occ.getVacancyH (s : Occ) : Nat := if s.value ≠ 0 then 0 else s.vacH
/-- `twoBitOccupancyValue` — SensorOccupancy.h 215. -/
def Occ.twoBit (s : Occ) : Nat := if s.isLikelyRecentlyOccupied then 3 else if s.isLikelyOccupied then 2 else 1

/-- `n` undisturbed minute reads. (Vocabulary of histories and observations; it stands for the order in which an application makes calls and has no code of its own in /repo.) -/
def Occ.reads (s : Occ) : Nat → Occ
  | 0 => s
  | n + 1 => (s.reads n).read

end OTR
