import Verif.Base
/-!
# Software UARTs — `U/OTV0P2BASE_SoftSerialAsync.h`, `U/OTV0P2BASE_SoftSerial2.h`, `U/OTV0P2BASE_SoftSerial.{h,cpp}`

Time is counted in units of four CPU cycles (one turn of the delay loops); instruction time outside the delay loops is a
parameter of the model. The receive line is an arbitrary function of time. Interrupt latency is part of the time of the
first sample.
-/

namespace OTR

/-! ## Transmission (the same loop in all three classes) -/

/-- The data-bit loop `while(mask != 0)`: SoftSerialAsync.h 115-120, SoftSerial2.h 103-108, SoftSerial.cpp 177-181.
`fuel` bounds the eight turns. -/
def txBits (c : Nat) : Nat → Nat → List Bool
  | 0, _ => []
  | fuel + 1, mask =>
    if mask = 0 then [] else (decide (mask &&& c ≠ 0)) :: txBits c fuel ((mask <<< 1) % 256)

/-- `write(byte)`: levels put on the TX line, each held for one bit delay: SoftSerialAsync.h 101-130 (111-124),
SoftSerial2.h 90-115, SoftSerial.cpp 164-187. -/
def txFrame (c : Nat) : List Bool := false :: (txBits c 9 1 ++ [true])

/-! ## `OTSoftSerialAsync` -/

/-- Times of the receive interrupt routine — `handle_interrupt`, OTV0P2BASE_SoftSerialAsync.h 208-240. -/
structure AsyncTiming where
  /-- from the falling edge of the start bit to the first sample (interrupt latency and `startDelay`) -/
  first : Nat
  /-- between samples of a bit -/
  q : Nat
  /-- from the last sample of a bit to the first of the next, normally -/
  half : Nat
  /-- added or subtracted to re-synchronise -/
  adj : Nat
deriving Repr, DecidableEq

/-- The delays of the class for `bitCycles`, with the time of the surrounding instructions: `oS` (interrupt entry), `oQ`
(per sample), `oH` (per bit) — SoftSerialAsync.h 55-61. -/
def asyncTiming (bitCycles oS oQ oH : Nat) : AsyncTiming :=
  { first := 3 * bitCycles / 4 - 2 + oS, q := bitCycles / 4 - 1 + oQ, half := bitCycles / 2 - 6 + oH, adj := bitCycles / 4 - 1 }

/-- Three samples as a number — SoftSerialAsync.h 220-230. -/
def bitval (a b c : Bool) : Nat := 2 * (2 * a.toNat + b.toNat) + c.toNat

/-- The sampling loop of `handle_interrupt`, `n` bits to go, next sample at `t` — SoftSerialAsync.h 217-249. -/
def asyncLoop (tm : AsyncTiming) (line : Nat → Bool) : Nat → Nat → Nat → Nat
  | 0, _, val => val
  | n + 1, t, val =>
    let bv := bitval (line t) (line (t + tm.q)) (line (t + 2 * tm.q))                      -- 224-230
    if bv ≥ 5 ∨ bv = 3 then                                                               -- 234
      let d := if bv = 3 then tm.half + tm.adj else if bv = 6 then tm.half - tm.adj else tm.half    -- 237-241
      asyncLoop tm line n (t + 2 * tm.q + d) (((val + 128) % 256) / 2)                    -- 235, 248
    else
      let d := if bv = 4 then tm.half + tm.adj else if bv = 1 then tm.half - tm.adj else tm.half    -- 244-246
      asyncLoop tm line n (t + 2 * tm.q + d) (val / 2)                                    -- 243, 248

/-- The value received by `handle_interrupt` for a start bit at time 0 — SoftSerialAsync.h 211-249. -/
def asyncRx (tm : AsyncTiming) (line : Nat → Bool) : Nat := asyncLoop tm line 7 tm.first 0

/-- The receive buffer — SoftSerialAsync.h 63-65. -/
structure AsyncBuf where
  head : Nat := 0
  tail : Nat := 0
  buf : List Nat := List.replicate 32 0
deriving Repr, DecidableEq

/-- Storing a received character — SoftSerialAsync.h 269-272. -/
def AsyncBuf.store (s : AsyncBuf) (v : Nat) : AsyncBuf :=
  if s.tail < 32 then { s with buf := s.buf.set s.tail v, tail := s.tail + 1 } else s

/-- `read()` — SoftSerialAsync.h 149-158; `none` is -1. -/
def AsyncBuf.read (s : AsyncBuf) : Option Nat × AsyncBuf :=
  if s.tail > 0 ∧ s.head < s.tail then (s.buf[s.head]?, { s with head := s.head + 1 }) else (none, s)

/-- `peek()` — SoftSerialAsync.h 136-144. -/
def AsyncBuf.peek (s : AsyncBuf) : Option Nat :=
  if s.tail > 0 ∧ s.head < s.tail then s.buf[s.head]? else none

/-- `available()` — SoftSerialAsync.h 163. -/
def AsyncBuf.available (s : AsyncBuf) : Int := (s.tail : Int) - s.head

/-- What `write()` does to the receive buffer — SoftSerialAsync.h 108, 126-127. -/
def AsyncBuf.reset (_ : AsyncBuf) : AsyncBuf := { head := 0, tail := 0, buf := List.replicate 32 0 }

/-! ## `OTSoftSerial2` and `OTSoftSerial` reception -/

/-- `while(line != want) { if(--timer == 0) return error; }` over the successive polls `ps` (from number `k` on): the number
of the poll that ended it — SoftSerial2.h 130 and 149, SoftSerial.cpp 90-92, 104-106, 132-134, 152-154. -/
def pollWait (want : Bool) (ps : Nat → Bool) : Nat → Nat → Option Nat
  | 0, _ => none
  | timer + 1, k => if ps k = want then some k else if timer = 0 then none else pollWait want ps timer (k + 1)

/-- The data-bit loop `val |= read << i` — SoftSerial2.h 140-143, SoftSerial.cpp 98-101 and 140-143; sample `i` at `t0 + (i+1)*p`. -/
def sampleByte (line : Nat → Bool) (t0 p : Nat) : Nat :=
  (List.range 8).foldl (fun val i => val ||| ((line (t0 + (i + 1) * p)).toNat <<< i)) 0

/-- `OTSoftSerial2::read()` — SoftSerial2.h 122-151: polls before the start bit, line during the byte (time 0 = edge of the
start bit, noticed `lat` later), polls after it. `none` is -1. -/
def ss2Read (pre : Nat → Bool) (line : Nat → Bool) (lat half p : Nat) (post : Nat → Bool) : Option Nat :=
  match pollWait false pre 60000 0 with                                         -- 130
  | none => none
  | some _ =>
    let v := sampleByte line (lat + half) p                                     -- 137-143
    match pollWait true post 60000 0 with                                       -- 148-149
    | none => none
    | some _ => some v

/-- `OTSoftSerial::begin(baud)`: `halfDelay` and `fullDelay`, both `uint8_t` — SoftSerial.cpp 56-61, with F_CPU = 1 MHz and
`readTuning` = 22 (SoftSerial.h 72). -/
def ss1Begin (baud : Nat) : Nat × Nat :=
  let bitCycles := (1000000 / 4 / baud) % 65536                                 -- 59
  ((bitCycles / 2 + 65536 - 22) % 256, bitCycles % 256)                         -- 60-61

/-- `readFullDelay` — SoftSerial.cpp 84. -/
def ss1ReadDelay (baud : Nat) : Nat := ((ss1Begin baud).2 + 256 - 22) % 256

/-- What one turn of the multi-byte read finds on the line. (Vocabulary of histories and observations; it stands for the order in which an application makes calls and has no code of its own in /repo.) -/
inductive SSByte where
  /-- no start bit in time -/
  | quiet
  /-- a byte, and whether the line went back to idle in time -/
  | byte (v : Nat) (idle : Bool)
deriving Repr, DecidableEq

/-- `OTSoftSerial::read(buf, len)` — SoftSerial.cpp 119-158: the bytes stored and the number returned. -/
def ss1ReadBuf (len : Nat) : Nat → List SSByte → Option (List Nat)
  | count, env =>
    if count < len then                                                         -- 127
      match env with
      | [] => none
      | .quiet :: _ => some []                                                  -- 132-134
      | .byte v idle :: env =>
        if idle then (ss1ReadBuf len (count + 1) env).map (v :: ·)              -- 146-148, 152
        else some [v]                                                           -- 153
    else some []                                                                -- 157
termination_by _ env => env.length

end OTR
