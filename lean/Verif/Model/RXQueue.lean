import Verif.Base
/-!
# RX queues — `U/OTRadioLink_ISRRXQueue.{h,cpp}`

An operation returns `none` if it touches memory outside the queue's buffer.
-/

namespace OTR

/-- What users do with a queue.  `isr data len` is one whole interrupt: `_getRXBufForInbound()`; if that is not NULL,
`data` is stored there and then `_loadedBuf(len)` called (0 to abandon the upload). -/
inductive QOp where
  | isr (data : Bytes) (len : Nat)
  | peek
  | remove
  | count
  | isFull
deriving Repr, DecidableEq

/-- What they observe: whether a buffer was offered, the frame peeked at, the queued count, fullness. (Vocabulary of histories and observations; it stands for the order in which an application makes calls and has no code of its own in /repo.) -/
inductive QOut where
  | offered (b : Bool)
  | frame (f : Option Bytes)
  | done
  | num (n : Nat)
  | full (b : Bool)
deriving Repr, DecidableEq

/-- `ISRRX_BUFSIZ` — ISRRXQueue.h 355, for `maxRXBytes` and `targetISRRXMinQueueCapacity`. -/
def qBufSiz (maxRX cap : Nat) : Nat := min 256 (maxRX * (1 + cap))

/-- `MinQueueCapacityMsgs` — ISRRXQueue.h 364. -/
def qMinCapacity (maxRX cap : Nat) : Nat := (qBufSiz maxRX cap / (maxRX + 1)) % 256

/-- `ISRRXQueueVarLenMsg` object — ISRRXQueue.h 236-248, 355-362 (`siz` is the size of `b`; `bsm1` is `siz - 1`). -/
structure VQ where
  siz : Nat
  mf : Nat
  b : Nat → Byte
  oldest : Nat
  next : Nat
  count : Nat

/-- Constructor — ISRRXQueue.h 247-249, 362; the buffer contents are unspecified. -/
def VQ.new (maxRX cap : Nat) (junk : Nat → Byte) : VQ :=
  { siz := qBufSiz maxRX cap, mf := maxRX, b := junk, oldest := 0, next := 0, count := 0 }

/-- `lui` — ISRRXQueue.h 248, in `uint8_t`. -/
def VQ.lui (q : VQ) : Nat := (q.siz - 1 + 256 - q.mf) % 256

/-- `isEmpty` — ISRRXQueue.h 70. -/
def VQ.isEmpty (q : VQ) : Bool := q.count == 0

/-- `_isFull` — ISRRXQueue.h 253-267. -/
def VQ.isFull (q : VQ) : Bool :=
  if q.next > q.oldest then false                                               -- 260
  else if q.next = q.oldest then !q.isEmpty                                     -- 262
  else decide (q.oldest - q.next ≤ q.mf)                                        -- 265-266

/-- `newIndex` — ISRRXQueue.h 272-277. -/
def VQ.newIndex (q : VQ) (prev len : Nat) : Nat :=
  if 1 + prev + len > q.lui then 0 else 1 + prev + len

/-- Store bytes at an index; `none` if that leaves the buffer — writes through the pointer of `_getRXBufForInbound`, OTRadioLink_ISRRXQueue.h 292-299. -/
def VQ.store (q : VQ) (i : Nat) (data : Bytes) : Option VQ :=
  if i + data.length ≤ q.siz then
    some { q with b := fun j => if i ≤ j ∧ j < i + data.length then data.getD (j - i) 0 else q.b j }
  else none

/-- `_loadedBuf` — ISRRXQueue.h 305-315. -/
def VQ.loadedBuf (q : VQ) (len : Nat) : Option VQ :=
  if len = 0 then some q                                                        -- 308
  else (q.store q.next [u8 len]).map fun q' =>                                  -- 311
    { q' with next := q.newIndex q.next len, count := (q.count + 1) % 256 }     -- 312-313

/-- The frame at an index as its user sees it: the length byte and that many bytes after it — what the pointer of `peekRXMsg` and the byte before it show, OTRadioLink_ISRRXQueue.h 328-340. -/
def VQ.frameAt (q : VQ) (i : Nat) : Option Bytes :=
  if i < q.siz ∧ i + 1 + (q.b i).toNat ≤ q.siz then
    some ((List.range (q.b i).toNat).map fun j => q.b (i + 1 + j))
  else none

/-- `removeRXMsg` after the emptiness check — ISRRXQueue.cpp 46-54. -/
def VQ.removeBlock (q : VQ) : Option VQ :=
  if q.oldest < q.siz then
    some { q with oldest := q.newIndex q.oldest (q.b q.oldest).toNat, count := (q.count + 255) % 256 }
  else none

/-- One whole operation. (Vocabulary of histories and observations; it stands for the order in which an application makes calls and has no code of its own in /repo.) -/
def VQ.step (q : VQ) : QOp → Option (VQ × QOut)
  | .isr data len =>
    if q.isFull then some (q, .offered false)                                   -- ISRRXQueue.h 295
    else
      match q.store (q.next + 1) data with                                      -- 297: b + next + 1
      | none => none
      | some q' => match q'.loadedBuf len with
        | none => none
        | some q'' => some (q'', .offered true)
  | .peek =>
    if q.isEmpty then some (q, .frame none)                                     -- 330
    else match q.frameAt q.oldest with                                          -- 333
      | none => none
      | some f => some (q, .frame (some f))
  | .remove =>
    if q.isEmpty then some (q, .done)                                           -- ISRRXQueue.cpp 44
    else match q.removeBlock with
      | none => none
      | some q' => some (q', .done)
  | .count => some (q, .num q.count)                                            -- ISRRXQueue.h 65
  | .isFull => some (q, .full q.isFull)                                         -- ISRRXQueue.cpp 33-34

/-- A run: the observations of a sequence of operations. (Vocabulary of histories and observations; it stands for the order in which an application makes calls and has no code of its own in /repo.) -/
def VQ.run (q : VQ) : List QOp → Option (VQ × List (QOp × QOut))
  | [] => some (q, [])
  | op :: ops => match q.step op with
    | none => none
    | some (q', out) => match q'.run ops with
      | none => none
      | some (q'', tr) => some (q'', (op, out) :: tr)

/-! ## One-deep queue -/

/-- `ISRRXQueue1Deep` object — ISRRXQueue.h 154 (`fullBuf` has 1 + maxRXBytes bytes). -/
structure OQ where
  mx : Nat
  b : Nat → Byte
  count : Nat

/-- As constructed — OTRadioLink_ISRRXQueue.h 165-222. -/
def OQ.new (maxRX : Nat) (junk : Nat → Byte) : OQ := { mx := maxRX, b := junk, count := 0 }

/-- Operations of the one-deep queue — ISRRXQueue.h 165-222. -/
def OQ.step (q : OQ) : QOp → Option (OQ × QOut)
  | .isr data len =>
    if q.count ≠ 0 then some (q, .offered false)                                -- 178
    else if 1 + data.length ≤ 1 + q.mx then                                     -- 179: fullBuf + 1
      let b1 : Nat → Byte := fun j => if 1 ≤ j ∧ j < 1 + data.length then data.getD (j - 1) 0 else q.b j
      if len = 0 then some ({ q with b := b1 }, .offered true)                  -- 189
      else
        let l := if len > q.mx then q.mx else len                               -- 191
        some ({ q with b := fun j => if j = 0 then u8 l else b1 j, count := 1 }, .offered true)  -- 192-193
    else none
  | .peek =>
    if q.count = 0 then some (q, .frame none)                                   -- 210
    else if 1 + (q.b 0).toNat ≤ 1 + q.mx then
      some (q, .frame (some ((List.range (q.b 0).toNat).map fun j => q.b (1 + j))))  -- 211
    else none
  | .remove => some ({ q with count := 0 }, .done)                              -- 221
  | .count => some (q, .num q.count)
  | .isFull => some (q, .full (decide (q.count ≠ 0)))                           -- 165

/-- A run of the one-deep queue, OTRadioLink_ISRRXQueue.h 165-222: the observations of a sequence of operations. -/
def OQ.run (q : OQ) : List QOp → Option (OQ × List (QOp × QOut))
  | [] => some (q, [])
  | op :: ops => match q.step op with
    | none => none
    | some (q', out) => match q'.run ops with
      | none => none
      | some (q'', tr) => some (q'', (op, out) :: tr)

end OTR
