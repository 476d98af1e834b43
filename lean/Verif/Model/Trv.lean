import Verif.Model.Motor
import Verif.Model.Target
/-!
# A whole radiator valve — `U/OTRadValve_ModelledRadValve.h` driving `U/OTRadValve_ValveMotorDirectV1.h`

The valve controller (`MV`), its motor logic (`Motor`) and the actuator object between them, which reports the position last
seen and passes the controller's position on as the motor's target.
-/

namespace OTR

/-- Controller, motor logic, and the `value` of the actuator object — OTRadValve_ValveMotorDirectV1.h 218-246 (the base
class's `value` starts at 0), OTRadValve_ModelledRadValve.h 693-763. -/
structure Trv where
  mv : MV
  motor : Motor
  shown : Nat
deriving Repr, DecidableEq

/-- What can happen to it: the controller is read (once a minute; the user may have changed the mode before), the actuator is
polled (about every two seconds), the user says that the valve is fitted, or the motor is wiggled. (Vocabulary of histories; the
order of calls is the application's.) -/
inductive TrvEv where
  | minute (ops : List VOp) (x : MVIn)
  | poll (i : MIn)
  | fitted
  | wiggle (i : MIn)
deriving Repr, DecidableEq

namespace Trv

/-- What the controller sees of its actuator: `get()` before and after setting the target
(OTRadValve_ModelledRadValveState.h 236-237, 324), and `isControlledValveReallyOpen()`
(OTRadValve_ValveMotorDirectV1.h 286-287). -/
def sees (t : Trv) (x : MVIn) : MVIn := { x with phys := some (t.shown, t.shown), physOpen := t.motor.reallyOpen }

/-- `ValveMotorDirectV1::set` — OTRadValve_ValveMotorDirectV1.h 259-264. -/
def setActuator (m : Motor) (pc : Nat) : Motor := if pc > 100 then m else m.setTarget pc

/-- One reading of the controller — OTRadValve_ModelledRadValve.h 728-738, ending in the unconditional `set` of
OTRadValve_ModelledRadValveState.h 312-325. -/
def minute (p : VCP) (c : VCfg) (maxPC : Nat) (t : Trv) (ops : List VOp) (x : MVIn) : Trv :=
  let mv := ({ t.mv with mode := t.mv.mode.run ops }).read p c maxPC (t.sees x)
  { t with mv := mv, motor := setActuator t.motor mv.value }

/-- `ValveMotorDirectV1::read` — OTRadValve_ValveMotorDirectV1.h 250-255. -/
def poll (t : Trv) (i : MIn) : Trv := { t with motor := (t.motor.poll i).1, shown := (t.motor.poll i).1.cur }

/-- One event; `signalValveFitted` and `wiggle` go straight to the motor logic — OTRadValve_ValveMotorDirectV1.h 271-272,
294-295. -/
def step (p : VCP) (c : VCfg) (maxPC : Nat) (t : Trv) : TrvEv → Trv
  | .minute ops x => t.minute p c maxPC ops x
  | .poll i => t.poll i
  | .fitted => { t with motor := t.motor.signalFitted }
  | .wiggle i => { t with motor := t.motor.wiggle i }

/-- A history. (Vocabulary of histories.) -/
def run (p : VCP) (c : VCfg) (maxPC : Nat) (t : Trv) (l : List TrvEv) : Trv := l.foldl (step p c maxPC) t

end Trv
end OTR
