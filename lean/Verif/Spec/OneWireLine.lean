import Verif.Spec.OneWire
/-!
# Specification: the 1-Wire line in time

Not code of the repository: the line as the DS18B20 data sheet gives it, at standard speed, for the pin operations of the master in
`Verif.Model.OneWireLine`. `Verif.Spec.OneWire` has whole time slots; here they are made of edges, and every slave has its own clock.

Times are in CPU cycles; `f` is the number of cycles in a microsecond.
-/

namespace OTR

/-- What the master does to the line: pulls it low, lets go, looks at it. -/
inductive LineEv where
  | fall | rise | look
deriving DecidableEq, Repr

/-- The times of one slave in one slot: after the falling edge, when it starts to hold the line low if it sends a 0, when it lets go, when
it looks at the line; after a reset pulse, when its presence pulse starts and how long that is. -/
structure SlaveTimes where
  react : Nat
  hold : Nat
  look : Nat
  pres : Nat
  presLen : Nat
deriving DecidableEq, Repr

/-- The limits of the data sheet: the bit sent is on the line from 1 to (at least) 15 us and gone at 60 us; the line is sampled from 15 to 60 us;
the presence pulse comes 15 to 60 us after the reset pulse and is 60 to 240 us long. -/
structure SlaveTimes.Ok (f : Nat) (s : SlaveTimes) : Prop where
  react : s.react ≤ f
  hold : 15 * f ≤ s.hold ∧ s.hold ≤ 60 * f
  look : 15 * f ≤ s.look ∧ s.look < 60 * f
  pres : 15 * f ≤ s.pres ∧ s.pres ≤ 60 * f
  presLen : 60 * f ≤ s.presLen ∧ s.presLen ≤ 240 * f

/-- The last pulse of the master. -/
inductive Pulse where
  /-- none yet -/
  | idle
  /-- low since `t` -/
  | low (t : Nat)
  /-- a slot: low from `t` to `r`; `devs` are the slaves as they were when it began -/
  | slot (t r : Nat) (devs : List OWDev)
  /-- a reset pulse that ended at `r` -/
  | reset (r : Nat)
deriving DecidableEq, Repr

/-- The line with its slaves; `n` counts the pulses. -/
structure Line where
  bus : OWBus
  pulse : Pulse := .idle
  n : Nat := 0
deriving DecidableEq, Repr

/-- The clocks of the slaves: pulse number, number of the slave. -/
abbrev SlaveClocks := Nat → Nat → SlaveTimes

/-- Slaves `devs`, numbered from `i`, all leave the line high at time `x` after the falling edge of pulse `n`. -/
def slavesHigh (ck : SlaveClocks) (n : Nat) (x : Nat) : Nat → List OWDev → Bool
  | _, [] => true
  | i, d :: ds => (d.drive || decide (x < (ck n i).react) || decide ((ck n i).hold ≤ x)) && slavesHigh ck n x (i + 1) ds

/-- `k` slaves, numbered from `i`, all leave the line high at time `x` after the end of reset pulse `n`. -/
def noPresence (ck : SlaveClocks) (n : Nat) (x : Nat) : Nat → Nat → Bool
  | _, 0 => true
  | i, k + 1 => (decide (x < (ck n i).pres) || decide ((ck n i).pres + (ck n i).presLen ≤ x)) && noPresence ck n x (i + 1) k

/-- The level of the line in slot `n` at time `x` after the falling edge, the master having let go `len` after it. -/
def slotLevel (ck : SlaveClocks) (n : Nat) (short : Bool) (devs : List OWDev) (len x : Nat) : Bool :=
  !decide (x < len) && !short && slavesHigh ck n x 0 devs

/-- Every slave takes what it sees on the line at its own time. -/
def takeSlot (ck : SlaveClocks) (n : Nat) (level : Nat → Bool) : Nat → List OWDev → List OWDev
  | _, [] => []
  | i, d :: ds => d.slot (level (ck n i).look) :: takeSlot ck n level (i + 1) ds

/-- An event at time `t`. `none`: outside the data sheet, anything may happen — a pulse of less than 1 us, or of more than 120 but less than 480 us; a new pulse
less than 61 us after the start of a slot (60 us and 1 us recovery) or less than 480 us after a reset pulse; an edge out of order. -/
def Line.ev (f : Nat) (ck : SlaveClocks) (l : Line) (t : Nat) : LineEv → Option (Line × Option Bool)
  | .fall =>
    match l.pulse with
    | .idle => some ({ l with pulse := .low t }, none)
    | .low _ => none
    | .slot t0 _ _ => if t0 + 61 * f ≤ t then some ({ l with pulse := .low t }, none) else none
    | .reset r => if r + 480 * f ≤ t then some ({ l with pulse := .low t }, none) else none
  | .rise =>
    match l.pulse with
    | .low t0 =>
      if t0 + f ≤ t ∧ t ≤ t0 + 120 * f then
        some ({ bus := { l.bus with devs := takeSlot ck l.n (slotLevel ck l.n l.bus.short l.bus.devs (t - t0)) 0 l.bus.devs },
                pulse := .slot t0 t l.bus.devs, n := l.n + 1 }, none)
      else if t0 + 480 * f ≤ t then some ({ bus := l.bus.rst, pulse := .reset t, n := l.n + 1 }, none)
      else none
    | _ => none
  | .look =>
    match l.pulse with
    | .idle => some (l, some (!l.bus.short))
    | .low _ => some (l, some false)
    | .slot t0 r devs => some (l, some (slotLevel ck (l.n - 1) l.bus.short devs (r - t0) (t - t0)))
    | .reset r => some (l, some (!l.bus.short && noPresence ck (l.n - 1) (t - r) 0 l.bus.devs.length))

/-- A sequence of events, with the levels seen. -/
def Line.evs (f : Nat) (ck : SlaveClocks) : Line → List (Nat × LineEv) → Option (Line × List Bool)
  | l, [] => some (l, [])
  | l, (t, e) :: es =>
    match l.ev f ck t e with
    | none => none
    | some (l1, v) => match Line.evs f ck l1 es with
      | none => none
      | some (l2, vs) => some (l2, v.toList ++ vs)

end OTR
