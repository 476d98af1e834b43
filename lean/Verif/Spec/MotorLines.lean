import Verif.Model.MotorHW
/-!
# What the motor does for a given state of the control lines

Independent of the drivers' code: the two H-bridges' truth tables and what it means for a waveform to be safe.
-/

namespace OTR

/-- What the bridge does. -/
inductive Power where
  | off | closing | opening | short
deriving Repr, DecidableEq

/-- A line is pulled low only when it is an output with its latch low; otherwise it is high (driven or pulled up). -/
def PinSt.low (p : PinSt) : Bool := p.out && !p.port

/-- REV7/DORM1 bridge: a low line switches that side on; both low is a short circuit ("board may be destroyed"). -/
def bridgeV1 (s : Pins) : Power :=
  match s.ml.low, s.mr.low with
  | false, false => .off
  | false, true => .closing
  | true, false => .opening
  | true, true => .short

/-- DRV8850 bridge with its inputs tied in pairs: asleep or both lines low = off, one line high = drive, both high = the
shoot-through combination. -/
def bridge8850 (s : Pins) : Power :=
  if s.nsleep.low then .off
  else match s.ml.low, s.mr.low with
  | true, true => .off
  | true, false => .closing
  | false, true => .opening
  | false, false => .short

/-- The step takes time. -/
def HAct.lasting : HAct → Prop
  | .nap _ => True
  | .spin _ _ _ => True
  | _ => False

/-- While power is applied in a direction for any length of time, the driver is monitoring a run in that direction. -/
def Monitored (bridge : Pins → Power) (w : List (HAct × Pins)) : Prop :=
  ∀ e ∈ w, e.1.lasting →
    (bridge e.2 = .closing → ∃ n m, e.1 = .spin n m .closing) ∧
    (bridge e.2 = .opening → ∃ n m, e.1 = .spin n m .opening)

/-- Between power one way and power the other way, the motor rests unpowered for at least `ms` milliseconds. -/
def RestsOnReversal (bridge : Pins → Power) (ms : Nat) (w : List (HAct × Pins)) : Prop :=
  ∀ a x b y c, w = a ++ [x] ++ b ++ [y] ++ c →
    (bridge x.2 = .closing ∧ bridge y.2 = .opening ∨ bridge x.2 = .opening ∧ bridge y.2 = .closing) →
    ∃ e ∈ b, bridge e.2 = .off ∧ ∃ k, e.1 = .nap k ∧ ms ≤ k

end OTR
