import Verif.Base
/-!
# `OTAtomic_t<T>` for values of more than one byte, on the AVR

`U/OTV0P2BASE_Concurrency.h` 86-131, byte by byte: an AVR reads and writes one byte at a time, and an interrupt may come between any two
instructions while interrupts are on.
-/

namespace OTR

/-- Straight-line code that reads and writes the bytes of one variable. The status register is saved, interrupts turned off and the register put back
as in OTV0P2BASE_Concurrency.h 91, 93. -/
inductive AProg (α : Type) where
  | ret (a : α)
  | rd (k : Nat) (next : Byte → AProg α)
  | wr (k : Nat) (b : Byte) (next : AProg α)
  | save (next : AProg α)
  | cli (next : AProg α)
  | restore (next : AProg α)

/-- The variable (a byte list, low byte first), the global interrupt flag, the saved flag, and the interrupt routines that have run, oldest first. (Vocabulary: the machine OTV0P2BASE_Concurrency.h 80-131 is compiled for.) -/
structure AMach where
  v : Bytes
  ie : Bool
  sv : Bool
  log : List (Bytes → Bytes)

/-- Interrupts that come up before an instruction: each runs to its end if interrupts are on, doing anything it likes to the variable. (Environment: hardware, not code of /repo.) -/
def AMach.isrs (m : AMach) (fs : List (Bytes → Bytes)) : AMach :=
  if m.ie then { m with v := fs.foldl (fun v f => f v) m.v, log := m.log ++ fs } else m

/-- The program run to its end; `sch k`: the interrupts that come up before its `k`-th instruction from here (and, at the end, after the last). (Environment.) -/
def AProg.run {α : Type} : AProg α → (Nat → List (Bytes → Bytes)) → AMach → α × AMach
  | .ret a, sch, m => (a, m.isrs (sch 0))
  | .rd k n, sch, m => (n ((m.isrs (sch 0)).v[k]?.getD 0)).run (fun i => sch (i + 1)) (m.isrs (sch 0))
  | .wr k b n, sch, m => n.run (fun i => sch (i + 1)) { m.isrs (sch 0) with v := (m.isrs (sch 0)).v.set k b }
  | .save n, sch, m => n.run (fun i => sch (i + 1)) { m.isrs (sch 0) with sv := (m.isrs (sch 0)).ie }
  | .cli n, sch, m => n.run (fun i => sch (i + 1)) { m.isrs (sch 0) with ie := false }
  | .restore n, sch, m => n.run (fun i => sch (i + 1)) { m.isrs (sch 0) with ie := (m.isrs (sch 0)).sv }

/-- Reading the variable, `n` bytes from byte `k` on, in order. (The compiler's code for `value` in OTV0P2BASE_Concurrency.h 114, 128, 129.) -/
def readFrom {α : Type} : Nat → Nat → Bytes → (Bytes → AProg α) → AProg α
  | 0, _, acc, c => c acc
  | n + 1, k, acc, c => .rd k fun b => readFrom n (k + 1) (acc ++ [b]) c

/-- Writing the bytes `bs` from byte `k` on. (The compiler's code for `value = desired` in OTV0P2BASE_Concurrency.h 119, 128.) -/
def writeFrom {α : Type} : Bytes → Nat → AProg α → AProg α
  | [], _, c => c
  | b :: t, k, c => .wr k b (writeFrom t (k + 1) c)

/-- `RAII_AtomicBlock` around a piece of code — OTV0P2BASE_Concurrency.h 86-94. -/
def lockd {α : Type} (body : (AProg α → AProg α) → AProg α) : AProg α := .save (.cli (body .restore))

/-- `load()` — OTV0P2BASE_Concurrency.h 113-114. `n`: the number of bytes of `T`. -/
def aLoad (n : Nat) : AProg Bytes := lockd fun out => readFrom n 0 [] fun x => out (.ret x)

/-- `store(desired)` — OTV0P2BASE_Concurrency.h 118-119. -/
def aStore (d : Bytes) : AProg Unit := lockd fun out => writeFrom d 0 (out (.ret ()))

/-- `compare_exchange_strong(expected, desired)` — OTV0P2BASE_Concurrency.h 124-130: the result and `expected` afterwards. -/
def aCas (n : Nat) (expd d : Bytes) : AProg (Bool × Bytes) := lockd fun out =>
  readFrom n 0 [] fun x =>
    if x = expd then writeFrom d 0 (out (.ret (true, expd)))                    -- 128
    else readFrom n 0 [] fun y => out (.ret (false, y))                         -- 129

/-- `load()` of the one-byte specialisations, with no lock — OTV0P2BASE_Concurrency.h 148, 181. -/
def aLoad1 : AProg Bytes := readFrom 1 0 [] .ret

/-- `store()` of the one-byte specialisations, with no lock — OTV0P2BASE_Concurrency.h 152, 185. -/
def aStore1 (b : Byte) : AProg Unit := writeFrom [b] 0 (.ret ())

end OTR
