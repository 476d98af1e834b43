import Verif.Base
/-!
# Error reporter — `U/OTV0P2BASE_ErrorReport.h`

`set()` is documented as not safe to interleave with anything else, so each call is one step.
-/

namespace OTR

/-- `ErrorReport`: `value` (an `int8_t`) and `timeoutTicks` — ErrorReport.h 149, 158. -/
structure Err where
  value : Int
  timeout : Nat
deriving Repr, DecidableEq

/-- `DEFAULT_TIMEOUT` — ErrorReport.h 153. -/
notation "errTimeout" => 10

/-- As constructed — ErrorReport.h 149, 162. -/
def Err.init : Err := ⟨0, 0⟩

/-- `isAged()` — ErrorReport.h 202-203. -/
def Err.isAged (s : Err) : Bool := s.timeout = 0

/-- `isAvailable()` — ErrorReport.h 206-207. -/
def Err.isAvailable (s : Err) : Bool := !s.isAged

/-- `get()` — ErrorReport.h 190-191. -/
def Err.get (s : Err) : Int := s.value

/-- `set(newValue)` — ErrorReport.h 169-179. -/
def Err.set (s : Err) (v : Int) : Err × Bool :=
  if v > 0 ∨ s.isAged = true then (⟨v, errTimeout⟩, true) else (s, false)

/-- `read()` — ErrorReport.h 198-199, with `safeDecIfNZWeak` (OTV0P2BASE_Concurrency.h 209-215) uninterrupted. -/
def Err.read (s : Err) : Err × Int :=
  let s' : Err := { s with timeout := if s.timeout = 0 then 0 else s.timeout - 1 }
  (s', s'.get)

/-- A call made on the reporter. (Vocabulary of histories and observations; it stands for the order in which an application makes calls and has no code of its own in /repo.) -/
inductive ErrOp where
  | set (v : Int)
  | read
deriving Repr, DecidableEq

/-- State after one call. (Vocabulary of histories and observations; it stands for the order in which an application makes calls and has no code of its own in /repo.) -/
def Err.step (s : Err) : ErrOp → Err
  | .set v => (s.set v).1
  | .read => s.read.1

/-- State after a history of calls. (Vocabulary of histories and observations; it stands for the order in which an application makes calls and has no code of its own in /repo.) -/
def Err.run (s : Err) (h : List ErrOp) : Err := h.foldl Err.step s

end OTR
