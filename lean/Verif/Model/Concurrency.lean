import Verif.Base
/-!
# Model: `content/OTRadioLink/utility/OTV0P2BASE_Concurrency.h`

The shared byte, the weak increment and decrement, and the AVR critical section they rest on.
-/

namespace OTR

/-- `compare_exchange_strong` on the byte, Concurrency.h 157-163: the value and the result. -/
def cas (v expected desired : Byte) : Byte × Bool :=
  if v = expected then (desired, true) else (v, false)

/-- The two calls — OTV0P2BASE_Concurrency.h 209-215 and 223-229. -/
inductive WOp where
  | inc
  | dec
deriving DecidableEq, Repr

/-- The first half of `safeIncIfNotMaxWeak` (h 225-227) and `safeDecIfNZWeak` (h 211-213) on the value loaded: none if the call
returns at once, otherwise what it will ask the exchange to store. -/
def WOp.want : WOp → Byte → Option Byte
  | .inc, o => if o = 0xff then none else some (o + 1)
  | .dec, o => if o = 0 then none else some (o - 1)

/-- The shared byte and, for each thread, the call it is in, the value it loaded and the value it wants. (Vocabulary of histories and observations; it stands for the order in which an application makes calls and has no code of its own in /repo.) -/
structure Shared where
  v : Byte
  pend : Nat → Option (WOp × Byte × Byte)

/-- What can happen: thread `t` enters a call and loads the byte (h 211-212, 225-226); thread `t` does its exchange and the
call returns (h 214, 228); anybody stores a value (h 152). Between a thread's load and its exchange anything else can happen.
The two halves are single atomic accesses (`Mach` below shows it for the exchange on AVR; on the host it is `std::atomic`). -/
inductive ShEv where
  | load (t : Nat) (o : WOp)
  | xchg (t : Nat)
  | store (d : Byte)

/-- One event. (Vocabulary of histories and observations; it stands for the order in which an application makes calls and has no code of its own in /repo.) -/
def Shared.step (s : Shared) : ShEv → Shared
  | .load t o => { s with pend := fun u => if u = t then (o.want s.v).map (fun w => (o, s.v, w)) else s.pend u }
  | .xchg t => match s.pend t with
    | none => s
    | some (_, o, w) => { v := (cas s.v o w).1, pend := fun u => if u = t then none else s.pend u }
  | .store d => { s with v := d }

/-- The program counter of main-line code inside `compare_exchange_strong` on AVR (h 157-163 with `RAII_AtomicBlock`, h
86-94): before the block; status saved; interrupts off; compared equal; compared unequal; after the update; done. -/
inductive XPc where
  | start | saved | off | eq | exit | done
deriving DecidableEq, Repr

/-- The AVR machine: the byte, the global interrupt flag, the saved flag, the program counter. The locals of Concurrency.h 157-163 with `RAII_AtomicBlock`, 86-94. -/
structure Mach where
  v : Byte
  ie : Bool
  sv : Bool
  pc : XPc
deriving DecidableEq, Repr

/-- One instruction of main-line code, with its `expected` and `desired` values — Concurrency.h 157-163 with 86-94. -/
def Mach.main (o w : Byte) (m : Mach) : Mach :=
  match m.pc with
  | .start => { m with sv := m.ie, pc := .saved }
  | .saved => { m with ie := false, pc := .off }
  | .off => if m.v = o then { m with pc := .eq } else { m with pc := .exit }
  | .eq => { m with v := w, pc := .exit }
  | .exit => { m with ie := m.sv, pc := .done }
  | .done => m

/-- An interrupt routine runs to its end, leaving `x` in the byte, if interrupts are on; it restores the flag (RETI). (Environment: hardware and its data sheet, not code of /repo.) -/
def Mach.isr (x : Byte) (m : Mach) : Mach := if m.ie then { m with v := x } else m

end OTR
