import Verif.Model.OneWire
import Verif.Model.Sleep
import Verif.Spec.OneWireLine
/-!
# The 1-Wire primitives in time — `U/OTV0P2BASE_MinOW.h` 78-104, 174-225, `U/OTV0P2BASE_MinOW.cpp` 53-87 (AVR)

`Model/OneWire.lean` takes `reset`, `read_bit` and `write_bit` as whole slots; here they are the pin operations and delays they consist of. Pin operations cost
some CPU cycles, which depend on the compiler and are parameters. Whenever interrupts are on, an interrupt routine may run for any time
before the next operation.
-/

namespace OTR

/-- The operations: interrupts off (entry of `ATOMIC_BLOCK(ATOMIC_RESTORESTATE)`), interrupt flag restored (its exit), pin low and output (`bitWriteLow`,
`bitModeOutput`), pin input (`bitModeInput`), read pin (`bitReadIn`), `OTV0P2BASE_delay_us` — OTV0P2BASE_MinOW.h 81-104, 182-186. -/
inductive OWI where
  | cli | restore | low | release | look
  | wait (us : Int)
deriving DecidableEq, Repr

/-- Cycles for each operation up to and including its effect — the code compiled for OTV0P2BASE_MinOW.h 94-105. (Parameters.) -/
structure OWCost where
  cli : Nat
  restore : Nat
  low : Nat
  release : Nat
  look : Nat
deriving DecidableEq, Repr

/-- `OTV0P2BASE_busy_spin_delay(us)` for a constant at 1 MHz — OTV0P2BASE_Sleep.h 103-109; `us` is an `int`, which can be negative (`delayG`). -/
def busy1Int (us : Int) : Nat :=
  if us = 0 then 0
  else (if us % 2 = 1 then 1 else 0) + (if us / 2 % 2 = 1 then 2 else 0) + (if us ≥ 4 then avrX4 (us / 4 % 256).toNat else 0)

/-- `OTV0P2BASE_busy_spin_delay(us)` for a constant at 16 MHz — OTV0P2BASE_Sleep.h 111-116; the count of blocks is a `uint8_t`. -/
def busy16Int (us : Int) : Nat :=
  if us = 0 then 0 else (us / 64 % 256).toNat * avrX4 0 + avrX4 ((us % 64).toNat * 4)

/-- `stdDelayReduction` — OTV0P2BASE_MinOW.h 80. -/
def stdDelayReduction : Int := 5
/-- `delayA` — OTV0P2BASE_MinOW.h 81. -/
def delayA : OWI := .wait (6 - stdDelayReduction)
/-- `delayB` — OTV0P2BASE_MinOW.h 82. -/
def delayB : OWI := .wait (64 - stdDelayReduction)
/-- `delayC` — OTV0P2BASE_MinOW.h 83. -/
def delayC : OWI := .wait (60 - stdDelayReduction)
/-- `delayD` — OTV0P2BASE_MinOW.h 84. -/
def delayD : OWI := .wait (10 - stdDelayReduction)
/-- `delayE` — OTV0P2BASE_MinOW.h 85. -/
def delayE : OWI := .wait (9 - stdDelayReduction)
/-- `delayF` — OTV0P2BASE_MinOW.h 86. -/
def delayF : OWI := .wait (55 - stdDelayReduction)
/-- `delayG` — OTV0P2BASE_MinOW.h 87. -/
def delayG : OWI := .wait (0 - stdDelayReduction)
/-- `delayH` — OTV0P2BASE_MinOW.h 88. -/
def delayH : OWI := .wait (480 - stdDelayReduction)
/-- `delayI` — OTV0P2BASE_MinOW.h 89. -/
def delayI : OWI := .wait (70 - stdDelayReduction)
/-- `delayJ` — OTV0P2BASE_MinOW.h 90. -/
def delayJ : OWI := .wait (410 - stdDelayReduction)

/-- The calls of the base class that move the line — OTV0P2BASE_MinOW.h 112, 118, 124. -/
inductive OWOp where
  | reset | read | write (b : Bool)
deriving DecidableEq, Repr

/-- `reset` — OTV0P2BASE_MinOW.cpp 59-78; `read_bit` — OTV0P2BASE_MinOW.h 182-198; `write_bit` — OTV0P2BASE_MinOW.h 212-224. -/
def OWOp.prog : OWOp → List OWI
  | .reset => [.cli, delayG, .low, delayH, .release, delayI, .look, .restore, delayJ]
  | .read => [.cli, .low, delayA, .release, delayE, .look, .restore, delayF]
  | .write b => [.cli, .low, (if b then delayA else delayC), .release, .restore, (if b then delayB else delayD)]

/-- The CPU: time, interrupts on, the flag saved by the block, operations so far — the CPU running OTV0P2BASE_MinOW.cpp 53-87, OTV0P2BASE_MinOW.h 174-225. -/
structure OWCpu where
  t : Nat := 0
  ie : Bool := true
  saved : Bool := true
  i : Nat := 0
deriving DecidableEq, Repr

/-- Cycles of one operation — OTV0P2BASE_MinOW.h 81-104. -/
def OWI.cycles (c : OWCost) (busy : Int → Nat) : OWI → Nat
  | .cli => c.cli
  | .restore => c.restore
  | .low => c.low
  | .release => c.release
  | .look => c.look
  | .wait us => busy us

/-- One operation; `irq i` is the time taken by interrupts before operation number `i`, if they are on — OTV0P2BASE_MinOW.h 182-186 for the interrupt flag. -/
def OWI.step (c : OWCost) (busy : Int → Nat) (irq : Nat → Nat) (s : OWCpu) (op : OWI) : OWCpu × List (Nat × LineEv) :=
  let t := s.t + (if s.ie then irq s.i else 0) + op.cycles c busy
  match op with
  | .cli => ({ s with t := t, i := s.i + 1, saved := s.ie, ie := false }, [])
  | .restore => ({ s with t := t, i := s.i + 1, ie := s.saved }, [])
  | .low => ({ s with t := t, i := s.i + 1 }, [(t, .fall)])
  | .release => ({ s with t := t, i := s.i + 1 }, [(t, .rise)])
  | .look => ({ s with t := t, i := s.i + 1 }, [(t, .look)])
  | .wait _ => ({ s with t := t, i := s.i + 1 }, [])

/-- A sequence of operations, and what they do to the line — OTV0P2BASE_MinOW.cpp 53-87, OTV0P2BASE_MinOW.h 174-225. -/
def owiRun (c : OWCost) (busy : Int → Nat) (irq : Nat → Nat) : OWCpu → List OWI → OWCpu × List (Nat × LineEv)
  | s, [] => (s, [])
  | s, op :: ops => ((owiRun c busy irq (op.step c busy irq s).1 ops).1, (op.step c busy irq s).2 ++ (owiRun c busy irq (op.step c busy irq s).1 ops).2)

/-- What the call returns, from the level it saw: `reset` inverts it, `write_bit` returns nothing — OTV0P2BASE_MinOW.cpp 74, OTV0P2BASE_MinOW.h 194. -/
def OWOp.answer : OWOp → List Bool → List Bool
  | .reset, vs => vs.map (!·)
  | .read, vs => vs
  | .write _, _ => []

/-- A sequence of calls on the line, each some time (`gap`) after the one before — e.g. the loops of OTV0P2BASE_MinOW.cpp 91-111, 125-204: what they return. `none`: the
line was used outside the data sheet. -/
def owCalls (f : Nat) (ck : SlaveClocks) (c : OWCost) (busy : Int → Nat) (irq : Nat → Nat) :
    OWCpu → Line → List (Nat × OWOp) → Option (Line × List Bool)
  | _, l, [] => some (l, [])
  | s, l, (gap, op) :: ops =>
    match l.evs f ck (owiRun c busy irq { s with t := s.t + gap } op.prog).2 with
    | none => none
    | some (l1, vs) =>
      match owCalls f ck c busy irq (owiRun c busy irq { s with t := s.t + gap } op.prog).1 l1 ops with
      | none => none
      | some (l2, rs) => some (l2, op.answer vs ++ rs)

end OTR
