import Verif.Model.JSONStats
/-!
# Statistics taken from a set of sensors — `JSONStatsHolder`, `U/OTV0P2BASE_JSONStats.h` 185-205, 370-433

`readAll()` (line 415) cannot be instantiated: it calls `read` without its index argument.
-/

namespace OTR

/-- A sensor as seen by the statistics: its tag, whether low priority by default (`SubSensor::lowPriority`; false for a full sensor), and `get()` if `isAvailable()` — OTV0P2BASE_Sensor.h 62-96, 169-173. -/
structure StatSrc where
  tag : Bytes
  low : Bool
  val : Option Int
deriving Repr, DecidableEq

/-- `putOrRemove` — OTV0P2BASE_JSONStats.h 198-205. -/
def StatSet.putOrRemove (s : StatSet) (x : StatSrc) : Bool × StatSet :=
  match x.val with
  | some v => s.put x.tag v x.low
  | none => (true, (s.remove x.tag).2)

/-- `putOrRemoveAll` — OTV0P2BASE_JSONStats.h 399-406, 417: the holder's arguments in order, `none` a placeholder (a key or an int); stops at the first failure. -/
def StatSet.putOrRemoveAll (s : StatSet) : List (Option StatSrc) → Bool × StatSet
  | [] => (true, s)
  | none :: t => s.putOrRemoveAll t
  | some x :: t => match s.putOrRemove x with
    | (true, s') => s'.putOrRemoveAll t
    | (false, s') => (false, s')

end OTR
