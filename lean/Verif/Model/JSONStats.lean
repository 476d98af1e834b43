import Verif.Base
import Verif.Model.Util
/-!
# The rotating set of JSON statistics — `U/OTV0P2BASE_JSONStats.{h,cpp}` 175-559

Keys are C strings without their terminating null (never NULL). A buffer is the memory from `buf` on, of any length: `oob` records
any write outside it. The `sensitivity` argument is ignored by the code.
-/

namespace OTR

/-- `isValidSimpleStatsKey` — OTV0P2BASE_JSONStats.cpp 175-194. -/
def validKey (k : Bytes) : Bool :=
  k.all fun c => decide (32 ≤ c.toNat) && decide (c.toNat ≤ 126) && decide (c ≠ 0x22) && decide (c ≠ 0x5c)

/-- `DescValueTuple` — OTV0P2BASE_JSONStats.h 91-129, 277-302. -/
structure Stat where
  key : Bytes
  low : Bool
  value : Int
  changed : Bool
deriving Repr, DecidableEq

/-- `SimpleStatsRotationBase` — OTV0P2BASE_JSONStats.h 305-348: `stats` holds the first `nStats` slots. -/
structure StatSet where
  cap : Nat
  stats : List Stat := []
  lastTXed : Nat := 255
  id : Option Bytes := none
  enabled : Bool := false
  count : Nat := 0
deriving Repr, DecidableEq

namespace StatSet

/-- `findByKey` — OTV0P2BASE_JSONStats.cpp 198-225: the index found. -/
def find (s : StatSet) (k : Bytes) : Option Nat := s.stats.findIdx? fun x => x.key = k

/-- `containsKey` — OTV0P2BASE_JSONStats.h 264-265. -/
def containsKey (s : StatSet) (k : Bytes) : Bool := (s.find k).isSome

/-- `isLowPriority` — OTV0P2BASE_JSONStats.h 269-274. -/
def isLowPriority (s : StatSet) (k : Bytes) : Bool :=
  match s.find k with
  | none => false
  | some i => match s.stats[i]? with | some x => x.low | none => false

/-- `remove` — OTV0P2BASE_JSONStats.cpp 229-241. -/
def remove (s : StatSet) (k : Bytes) : Bool × StatSet :=
  match s.find k with
  | none => (false, s)
  | some i =>
    if i = s.stats.length - 1 then (true, { s with stats := s.stats.dropLast })
    else match s.stats.getLast? with
      | none => (true, s)
      | some l => (true, { s with stats := (s.stats.set i l).dropLast })

/-- `putDescriptor` — OTV0P2BASE_JSONStats.cpp 245-262. -/
def putDescriptor (s : StatSet) (k : Bytes) (low : Bool) : Bool × StatSet :=
  if ¬ validKey k then (false, s)
  else match s.find k with
  | some i => (true, { s with stats := s.stats.modify i fun x => { x with key := k, low } })
  | none =>
    if s.stats.length < s.cap then (true, { s with stats := s.stats ++ [{ key := k, low, value := 0, changed := false }] })
    else (false, s)

/-- `put` — OTV0P2BASE_JSONStats.cpp 268-314. -/
def put (s : StatSet) (k : Bytes) (v : Int) (low : Bool) : Bool × StatSet :=
  if ¬ validKey k then (false, s)
  else match s.find k with
  | some i => (true, { s with stats := s.stats.modify i fun x => if x.value ≠ v then { x with value := v, changed := true } else x })
  | none =>
    if s.stats.length < s.cap then (true, { s with stats := s.stats ++ [{ key := k, low, value := v, changed := true }] })
    else (false, s)

/-- `setID` — OTV0P2BASE_JSONStats.h 212-216. -/
def setID (s : StatSet) (i : Bytes) : Bool × StatSet := if validKey i then (true, { s with id := some i }) else (false, s)

/-- `changedValue` — OTV0P2BASE_JSONStats.cpp 333-339: with no stats `--i` wraps to 255 and memory before the array is read. -/
def changedValue (s : StatSet) : Res Bool :=
  match s.stats with
  | [] => .ub
  | _ :: t => .ok (t.any (·.changed))

end StatSet

/-- `BufPrintT` — OTV0P2BASE_JSONStats.h 133-162. -/
structure BP where
  mem : Bytes
  cap : Nat
  size : Nat := 0
  mark : Nat := 0
  oob : Bool := false
deriving Repr, DecidableEq

namespace BP

/-- Store one byte of memory. (The `buf[...] = ` of OTV0P2BASE_JSONStats.h 144-162.) -/
def store (b : BP) (i : Nat) (c : Byte) : BP := { b with mem := b.mem.set i c, oob := b.oob || decide (b.mem.length ≤ i) }

/-- Constructor — OTV0P2BASE_JSONStats.h 144-145. -/
def new (mem : Bytes) (bufSize : Nat) : BP := { mem, cap := bufSize - 1 : BP }.store 0 0

/-- `write` — OTV0P2BASE_JSONStats.h 147-151. -/
def write (b : BP) (c : Byte) : BP :=
  if b.size < b.cap then ({ b.store b.size c with size := b.size + 1 }.store (b.size + 1) 0) else b

/-- `print` of a string: one `write` for each character. (Environment: avr-libc or the Arduino core, not code of /repo.) -/
def print (b : BP) (s : Bytes) : BP := s.foldl write b

/-- `setMark` — OTV0P2BASE_JSONStats.h 157. -/
def setMark (b : BP) : BP := { b with mark := b.size }

/-- `rewind` — OTV0P2BASE_JSONStats.h 159. -/
def rewind (b : BP) : BP := { b with size := b.mark }.store b.mark 0

/-- `isFull` — OTV0P2BASE_JSONStats.h 153. -/
def isFull (b : BP) : Bool := decide (b.size = b.cap)

end BP

/-- Decimal text of a number, as printed by `Print::print(int)`. (Environment: avr-libc or the Arduino core, not code of /repo.) -/
def decNat (n : Nat) : Bytes := (Nat.toDigits 10 n).map fun c => u8 c.toNat

/-- Decimal text with sign. (Environment: avr-libc or the Arduino core, not code of /repo.) -/
def decInt (v : Int) : Bytes := if v < 0 then 0x2d :: decNat v.natAbs else decNat v.natAbs

/-- The text of one field, without a comma: `"key":value` — OTV0P2BASE_JSONStats.cpp 321-327. -/
def renderStat (s : Stat) : Bytes :=
  [0x22] ++ s.key ++ [0x22] ++ [0x3a] ++
    (if 0 ≤ s.value ∧ s.value ≤ 9 then [u8 (48 + s.value.toNat)] else decInt s.value)

/-- `SimpleStatsRotationBase::print` — OTV0P2BASE_JSONStats.cpp 317-330 (`commaPending` is always set after). -/
def printStat (b : BP) (s : Stat) (comma : Bool) : BP := b.print ((if comma then [0x2c] else []) ++ renderStat s)

/-- `if(++next >= nStats) { next = 0; }` with `uint8_t next` — OTV0P2BASE_JSONStats.cpp 444, 476, 516. -/
def nextIdx (n next : Nat) : Nat := if (next + 1) % 256 ≥ n then 0 else (next + 1) % 256

/-- The indices a loop over `nStats` steps visits — OTV0P2BASE_JSONStats.cpp 441-444, 473-476, 513-516. -/
def visit (n : Nat) : Nat → Nat → List Nat
  | 0, _ => []
  | k + 1, next => nextIdx n next :: visit n k (nextIdx n next)

/-- State of `writeJSON`'s three loops — OTV0P2BASE_JSONStats.cpp 426-545. -/
structure JW where
  bp : BP
  stats : List Stat
  comma : Bool
  hi : Nat := 255
  last : Nat
deriving Repr, DecidableEq

namespace JW

/-- Slot `i` (only ever in range) — `stats[next]`, OTV0P2BASE_JSONStats.cpp 441-535. -/
def at' (w : JW) (i : Nat) : Stat := w.stats.getD i ⟨[], false, 0, false⟩

/-- `stats[next].flags.changed = false` unless suppressed — OTV0P2BASE_JSONStats.cpp 461, 499. -/
def clear (w : JW) (i : Nat) (suppress : Bool) : JW :=
  if suppress then w else { w with stats := w.stats.modify i fun x => { x with changed := false } }

/-- Loop for one changed stat first — OTV0P2BASE_JSONStats.cpp 440-464. -/
def pass1 (maxLen : Nat) (suppress : Bool) : List Nat → JW → JW
  | [], w => w
  | i :: t, w =>
    if ¬ (w.at' i).changed then pass1 maxLen suppress t w                       -- 449
    else
      let w1 := { w with hi := i, bp := printStat w.bp (w.at' i) w.comma, comma := true }   -- 451-453
      if w1.bp.size > maxLen then pass1 maxLen suppress t { w1 with bp := w1.bp.rewind }    -- 457
      else { w1 with bp := w1.bp.setMark }.clear i suppress                     -- 460-462

/-- Loop for normal stats in rotation — OTV0P2BASE_JSONStats.cpp 472-503. -/
def pass2 (maxLen : Nat) (maximise suppress doChangedFirst : Bool) : List Nat → JW → JW
  | [], w => w
  | i :: t, w =>
    if w.hi = i then pass2 maxLen maximise suppress doChangedFirst t w          -- 478
    else if (w.at' i).low ∧ ¬ (w.at' i).changed ∧ doChangedFirst then pass2 maxLen maximise suppress doChangedFirst t w   -- 485-486
    else
      let w1 := { w with bp := printStat w.bp (w.at' i) w.comma, comma := true }     -- 489
      if w1.bp.size > maxLen then { w1 with bp := w1.bp.rewind }                -- 494-495
      else
        let w2 := { { w1 with bp := w1.bp.setMark }.clear i suppress with last := i }   -- 498-500
        if maximise then pass2 maxLen maximise suppress doChangedFirst t w2 else w2     -- 502

/-- Loop filling up with changed stats — OTV0P2BASE_JSONStats.cpp 512-535. -/
def pass3 (maxLen : Nat) : List Nat → JW → JW
  | [], w => w
  | i :: t, w =>
    if ¬ (w.at' i).changed then pass3 maxLen t w                                -- 521
    else
      let w1 := { w with bp := printStat w.bp (w.at' i) w.comma, comma := true }     -- 524
      if w1.bp.size > maxLen then pass3 maxLen t { w1 with bp := w1.bp.rewind } -- 528-529
      else pass3 maxLen t ({ w1 with bp := w1.bp.setMark }.clear i false)       -- 532-533

end JW

/-- The three loops — OTV0P2BASE_JSONStats.cpp 438-536, with `n` stats, `dcf` being `doChangedFirst`. -/
def JW.loops (bufSize n : Nat) (maximise suppress dcf : Bool) (w : JW) : JW :=
  let w := if dcf then w.pass1 (bufSize - 3) suppress (visit n n w.last) else w    -- 438-465
  let w := w.pass2 (bufSize - 3) maximise suppress dcf (visit n n w.last)          -- 471-504
  if maximise ∧ ¬ suppress ∧ w.bp.size ≤ bufSize - 9 then w.pass3 (bufSize - 3) (visit n n w.last) else w   -- 510-536

/-- The text of the ID field and count field — OTV0P2BASE_JSONStats.cpp 384-421: `sys` is the text of the first two bytes of the unit's
ID in hexadecimal (402-407). -/
def jsonHeader (s : StatSet) (sys : Bytes) : Bytes :=
  let idText : Option Bytes := match s.id with | none => some sys | some [] => none | some i => some i      -- 387-398
  (match idText with | some t => [0x22, 0x40, 0x22, 0x3a, 0x22] ++ t ++ [0x22] | none => []) ++             -- 397-410
  (if s.enabled then (if idText.isSome then [0x2c] else []) ++ [0x22, 0x2b, 0x22, 0x3a] ++ decNat s.count else [])   -- 415-421

/-- Is a comma pending after the ID and count fields? — OTV0P2BASE_JSONStats.cpp 411, 420. -/
def jsonComma (s : StatSet) : Bool := decide (s.id ≠ some []) || s.enabled

/-- `writeJSON` — OTV0P2BASE_JSONStats.cpp 367-559: result, the set afterwards and the memory afterwards. -/
def writeJSON (s : StatSet) (sys mem : Bytes) (bufSize : Nat) (maximise suppress : Bool) : Nat × StatSet × BP :=
  if bufSize < 10 then (0, s, { mem, cap := 0 })                                -- 373
  else
    let bp := (((BP.new mem bufSize).write 0x7b).print (jsonHeader s sys)).setMark   -- 376-424
    let w : JW := { bp, stats := s.stats, comma := jsonComma s, last := s.lastTXed }
    let dcf := decide (s.count % 4 ≠ 0) && (match s.changedValue with | .ok b => b | _ => false)   -- 430
    let w := if s.stats.length = 0 then w else w.loops bufSize s.stats.length maximise suppress dcf   -- 426
    let bp := w.bp.write 0x7d                                                   -- 540
    let s' := { s with stats := w.stats, lastTXed := w.last }
    if bp.isFull then (0, s', bp.store 0 0)                                     -- 547-553
    else (bp.size, { s' with count := (s.count + 1) % 8 }, bp)                  -- 556-558

end OTR
