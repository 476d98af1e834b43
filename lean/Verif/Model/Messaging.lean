import Verif.Model.RxCounter
import Verif.Model.Boiler
/-!
# Handling a received message — `U/OTRadioLink_Messaging.h`

The secure 'O' frame handler, the operations it can run (print, relay, call for heat) and the router. The decoded body is
written to a 31-byte stack buffer that is not initialised: `stack` is whatever it held. The second handler is the
default dummy. Diagnostics printed for rejected frames and serial power-up are not modelled. The relaying radio's queue
is not modelled beyond the bytes handed to it.
-/

namespace OTR

/-- Externally visible actions: a line printed, bytes queued on the relaying radio, a call to the boiler driver — the calls made by OTRadioLink_Messaging.h 255-420. -/
inductive Eff where
  | serial (line : Bytes)
  | relay (bytes : Bytes)
  | heat (pct : Nat)
deriving Repr, DecidableEq

/-- What an operation sees — `OTDecodeData_T`, SecureableFrameType.h 383-405: sequence number, sender ID, the received
bytes with the length byte in front, the body buffer and the number of body bytes. -/
structure FD where
  seq : Nat
  id : Bytes
  ctext : Bytes
  mem : Bytes
  len : Nat

/-- One upper-case hex digit, as Arduino `Print` emits it. (Environment: avr-libc or the Arduino core, not code of /repo.) -/
def hexDigitU (n : Nat) : Byte := u8 (if n < 10 then 48 + n else 55 + n)

/-- `Print::print(b, 16)`: hex without leading zeros. -/
def printHex (b : Byte) : Bytes :=
  if b.toNat < 16 then [hexDigitU b.toNat] else [hexDigitU (b.toNat / 16), hexDigitU (b.toNat % 16)]

/-- `Print::print(n)` in decimal for `n < 16` (a sequence number). -/
def printSeq (n : Nat) : Bytes := if n < 10 then [u8 (48 + n)] else [u8 (48 + n / 10), u8 (48 + n % 10)]

/-- ASCII bytes. (Environment: avr-libc or the Arduino core, not code of /repo.) -/
def ascii (s : String) : Bytes := s.toList.map fun c => u8 c.toNat

/-- The "worth forwarding" test of the serial and relay operations — Messaging.h 107, 149. `.ub`: reads outside the
body buffer. -/
def hasJSON (fd : FD) : Res Bool :=
  rd fd.mem 1 fun b1 =>
  if b1 &&& 0x10 = 0 then .ok false
  else if ¬ fd.len > 3 then .ok false
  else rd fd.mem 2 fun b2 => .ok (decide (b2 = 0x7b))

/-- The available operations — Messaging.h 82, 100-127, 140-153, 168-178. -/
inductive FrameOp where
  | null | serial | relay | boiler
deriving Repr, DecidableEq

/-- What one operation does — Messaging.h 82, 100-127, 140-153, 168-178. -/
def FrameOp.run (fd : FD) : FrameOp → Res (List Eff)
  | .null => .ok []                                                             -- 82
  | .serial =>                                                                  -- 100-127
    match hasJSON fd with
    | .ub => .ub
    | .fail => .fail
    | .ok false => .ok []
    | .ok true =>
      rdBlock fd.id 0 8 fun id =>                                               -- 112
      rdBlock fd.mem 3 (fd.len - 3) fun data =>                                 -- 116
      .ok [.serial (ascii "{\"@\":\"" ++ id.flatMap printHex ++ ascii "\",\"+\":" ++ printSeq fd.seq ++ ascii "," ++
        data ++ ascii "}\r\n")]
  | .relay =>                                                                   -- 140-153
    match hasJSON fd with
    | .ub => .ub
    | .fail => .fail
    | .ok false => .ok []
    | .ok true =>
      rd fd.ctext 0 fun l => rdBlock fd.ctext 1 l.toNat fun bs => .ok [.relay bs]   -- 150
  | .boiler =>                                                                  -- 168-178
    rd fd.mem 0 fun pct => .ok (if pct.toNat ≤ 100 then [.heat pct.toNat] else [])

/-- The receiver's configuration at one call: scratch space, cipher, `getKey` (`none`: no key set), the previous contents
of the body buffer, and the two operations — the parameters of the handler of OTRadioLink_Messaging.h 255-420. -/
structure HCfg where
  scratch : Nat
  dec : DecFn
  key : Option Bytes
  stack : Bytes
  o1 : FrameOp
  o2 : FrameOp

/-- `decodeAndHandleOTSecureOFrame` — Messaging.h 313-357, with `authAndDecodeOTSecurableFrame` 199-257. `msg`: the
received bytes (the length is in the byte before them). Result: the return value, the receiver's storage afterwards and
what was done, in order. -/
def handleSecureO (m : EE) (c : HCfg) (msg : Bytes) : Res Bool × EE × List Eff :=
  let frame := u8 msg.length :: msg                                             -- 315-317
  match decodeHeader frame with                                                 -- 330
  | .ub => (.ub, m, [])
  | .fail => (.ok false, m, [])                                                 -- 333
  | .ok h =>
  if h.fType ≠ 0xcf then (.ok false, m, [])                                     -- 335-336
  else if (h.fType &&& 0x80) = 0 then (.ok false, m, [])                        -- 339
  else if c.scratch < 16 then (.ok true, m, [])                                 -- 202-203, 346-347
  else match c.key with
  | none => (.ok true, m, [])                                                   -- 213-216, 346-347
  | some key =>
  match decode eeRxStore m h frame true (c.scratch - 16) c.dec (some key) with  -- 219-231
  | (.ub, m') => (.ub, m', [])
  | (.fail, m') => (.ok true, m', [])                                           -- 346-347
  | (.ok (_, body, node), m') =>
    let fd : FD := { seq := h.getSeq, id := node, ctext := frame, mem := body ++ c.stack.drop body.length,
                     len := body.length }
    -- 351: `2 < fd.ptextLenMax` compares with the constant 31 and so is always true.
    match c.o1.run fd with                                                      -- 352
    | .ub => (.ub, m', [])
    | .fail => (.ub, m', [])
    | .ok e1 =>
    match c.o2.run fd with                                                      -- 353
    | .ub => (.ub, m', e1)
    | .fail => (.ub, m', e1)
    | .ok e2 => (.ok true, m', e1 ++ e2)                                        -- 357

/-- `decodeAndHandleRawRXedMessage` with the secure handler first and the dummy second — Messaging.h 383-394, 266-269. -/
def handleRaw (m : EE) (c : HCfg) (msg : Bytes) : Res Unit × EE × List Eff :=
  if msg.length < 2 then (.ok (), m, [])                                        -- 388
  else
    match handleSecureO m c msg with
    | (.ub, m', e) => (.ub, m', e)
    | (_, m', e) => (.ok (), m', e)

/-- What a call for heat does to the boiler driver — Messaging.h 174. -/
def Boiler.apply (b : Boiler) (minuteCount : Nat) : List Eff → Boiler
  | [] => b
  | .heat p :: t => (b.remoteCall p minuteCount).apply minuteCount t
  | _ :: t => b.apply minuteCount t

/-- A hub over a history of received messages: storage, boiler driver, everything done so far. (Vocabulary of histories and observations; it stands for the order in which an application makes calls and has no code of its own in /repo.) -/
def hubRun (m : EE) (b : Boiler) : List (HCfg × Nat × Bytes) → EE × Boiler × List (Bytes × List Eff)
  | [] => (m, b, [])
  | (c, minute, msg) :: t =>
    let (_, m', e) := handleRaw m c msg
    let (m'', b'', l) := hubRun m' (b.apply minute e) t
    (m'', b'', (msg, e) :: l)

end OTR
