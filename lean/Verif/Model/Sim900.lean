import Verif.Base

/-!
# Model: the SIM900 (GPRS) radio link

`content/OTRadioLink/utility/OTSIM900Link_OTSIM900Link.h`, class `OTSIM900Link` (lines 237-1087), as compiled by default:
`OTSIM900LINK_SPLIT_SEND_TEST` defined (line 53), `OTSIM900LINK_SUBCYCLE_SEND_TIMEOUT_TEST` not defined (line 57).

What one call of `poll()` can see is its `SimEnv`: the seconds clock (sampled at most once per call on every path),
whether it is near the start of the major cycle, and the characters the modem's serial line delivers for the (at most two)
queries made in the call. What it does to the outside is its list of `SimOut` events, in order.

Simplifications: AT commands are constructors here (their text is in `SimText`); the serial line delivers a
whole reply before the first `read()` that returns -1; the configuration is present (`configure()` succeeded); a read
past the end of a reply buffer gives the arbitrary byte `SimEnv.oob`.
-/

namespace OTR

/-- `enum OTSIM900LinkState`, lines 156-175. -/
inductive SimSt where
  | init | getState | waitPwrHigh | waitPwrLow | startUp | checkPin | waitReg | setApn | startGprs | getIp
  | openUdp | idle | waitUdp | initSend | writePacket | reset | panic
deriving Repr, DecidableEq

/-- What the link does to the modem. Command texts: OTSIM900Link.cpp 34-49 and the calls cited. -/
inductive SimOut where
  /-- power pin set high / low, lines 253-260 -/
  | pinHigh
  | pinLow
  /-- `AT`, line 1015 -/
  | at
  /-- `AT+CPIN?`, lines 883-885 -/
  | pinQ
  /-- `AT+CREG?`, lines 695-697 -/
  | regQ
  /-- `AT+CSTT=<apn>`, lines 714-718 -/
  | setApn (apn : Bytes)
  /-- `AT+CIPSTATUS`, lines 808-809 -/
  | status
  /-- `AT+CIICR`, lines 734-735 -/
  | startGprs
  /-- `AT+CIFSR`, lines 769-770 -/
  | getIp
  /-- `AT+CIPSTART="UDP","<addr>","<port>"`, lines 959-966 -/
  | startUdp (addr port : Bytes)
  /-- `AT+CIPSEND=<n>`, lines 997-1000 -/
  | send (n : Nat)
  /-- raw frame bytes, line 1004 -/
  | data (d : Bytes)
  /-- `AT+CIPCLOSE`, lines 983-984 -/
  | close
deriving Repr, DecidableEq

/-- `OTSIM900LinkConfig`, lines 102-150: the strings (the PIN is never sent: nothing calls `setPIN`, 859-874). -/
structure SimCfg where
  apn : Bytes
  addr : Bytes
  port : Bytes
deriving Repr, DecidableEq

/-- Fields of the link object, lines 551-562 and 1039-1044. `retryTimer = -1` is `none`.
`powerTimer`/`retryTimer` hold a value of the seconds clock. -/
structure Sim where
  st : SimSt := .init
  old : SimSt := .init
  avail : Bool := false
  pin : Bool := false
  powerTimer : Nat := 0
  msgCount : Nat := 0
  retries : Nat := 0
  retryTimer : Option Nat := none
  queued : Nat := 0
  msgLen : Nat := 0
  buf : Bytes := List.replicate 64 0
deriving Repr, DecidableEq

/-- What a call of `poll()` observes. (Vocabulary of histories and observations; it stands for the order in which an application makes calls and has no code of its own in /repo.) -/
structure SimEnv where
  sec : Nat
  near : Bool := true
  r1 : Bytes := []
  r2 : Bytes := []
  oob : Byte := 0
deriving Repr, DecidableEq

/-- `getElapsedSecondsLT`, OTV0P2BASE_RTC.h 130-131, for clock values below 60. -/
def elapsedLT (start now : Nat) : Nat := if now ≥ start then now - start else 60 + now - start

/-- `waitedLongEnough`, lines 266-267. -/
def waitedLong (old dur now : Nat) : Bool := decide (elapsedLT old now > dur)

/-- `readMany`, lines 612-630: the buffer after the call (zero-filled, at most `n` characters, the rest is drained). -/
def readMany (n : Nat) (reply : Bytes) : Bytes := (reply ++ List.replicate n 0).take n

/-- The loop of `getResponse`, lines 942-945, from index `i`: index just after the first `c`, or `none` (NULL). -/
def getRespFrom (c : Byte) : Bytes → Nat → Option Nat
  | [], _ => none
  | x :: t, i => if x = c then some (i + 1) else getRespFrom c t (i + 1)

/-- `getResponse`, lines 937-947: the returned pointer as an offset into the buffer. -/
def getResp (data : Bytes) (c : Byte) : Option Nat := getRespFrom c data 0

/-- `dataCut[k]` where `dataCut = data + off`; past the end of the buffer an arbitrary byte — the pointers of OTSIM900Link.h 690-823. -/
def cutAt (data : Bytes) (off k : Nat) (oob : Byte) : Byte := (data[off + k]?).getD oob

/-- `isSIM900Replying`, lines 1012-1018 (16-byte buffer). -/
def isReplying (r : Bytes) : Bool := (readMany 16 r)[0]? = some 65

/-- `isPINRequired`, lines 880-893 (true when the reply says READY; 40-byte buffer). -/
def isPinReady (r : Bytes) (oob : Byte) : Bool :=
  match getResp (readMany 40 r) 32 with
  | none => false
  | some o => cutAt (readMany 40 r) o 0 oob == 82

/-- `isRegistered`, lines 690-704. -/
def isRegistered (r : Bytes) (oob : Byte) : Bool :=
  match getResp (readMany 64 r) 32 with
  | none => false
  | some o => cutAt (readMany 64 r) o 2 oob == 49 || cutAt (readMany 64 r) o 2 oob == 53

/-- `setAPN`, lines 711-724. `return(-1)` in a `bool` function is `true`. -/
def apnAccepted (r : Bytes) (oob : Byte) : Bool :=
  match getResp (readMany 64 r) 10 with
  | none => true
  | some o => cutAt (readMany 64 r) o 2 oob == 79

/-- `checkUDPStatus`, lines 805-823. -/
def udpStatus (r : Bytes) (oob : Byte) : Nat :=
  match getResp (readMany 64 r) 32 with
  | none => 0
  | some o =>
    if cutAt (readMany 64 r) o 0 oob = 67 then 1
    else if cutAt (readMany 64 r) o 0 oob = 80 then 2
    else if cutAt (readMany 64 r) o 3 oob = 71 then 3
    else 0

/-- `openUDPSocket`, lines 955-974. -/
def udpOpened (r : Bytes) (oob : Byte) : Bool :=
  match getResp (readMany 64 r) 10 with
  | none => false
  | some o => !(cutAt (readMany 64 r) o 0 oob == 69)

/-- `setRetryLock`, lines 596-602. -/
def Sim.setRetryLock (s : Sim) (now : Nat) : Sim :=
  { s with retries := if s.retries ≠ 0 then s.retries - 1 else 0, retryTimer := some now }

/-- `retryLockOut`, lines 583-592, for `retryTimer = t`. -/
def Sim.retryLockOut (s : Sim) (t now : Nat) : Sim :=
  if s.retries = 0 then { s with retryTimer := none, st := .reset }
  else if waitedLong t 2 now then { s with retryTimer := none }
  else s

/-- `onStateChange`, lines 569-577, for `newState = state`. -/
def Sim.onStateChange (s : Sim) : Sim :=
  if s.st ≠ s.old then
    { s with old := s.st, retryTimer := none, retries := if s.st = .waitReg then 30 else 10 }
  else s

/-- `initUDPSend`, lines 994-1001 (`messageCounter` is a `uint8_t`). -/
def Sim.bump (s : Sim) : Sim := { s with msgCount := (s.msgCount + 1) % 256 }

/-- The `switch` of `poll()`, lines 380-527. -/
def Sim.body (cfg : SimCfg) (s : Sim) (e : SimEnv) : Sim × List SimOut :=
  match s.st with
  | .init => -- 381-390
    ({ s with buf := List.replicate 64 0, msgCount := 0, retryTimer := none, msgLen := 0, queued := 0,
              avail := false, st := .getState }, [])
  | .getState => -- 391-399
    ({ s with avail := s.avail || isReplying e.r1, pin := true, powerTimer := e.sec, st := .waitPwrHigh },
     [.at, .pinHigh])
  | .waitPwrHigh => -- 400-406
    if waitedLong s.powerTimer 2 e.sec then ({ s with pin := false, st := .waitPwrLow }, [.pinLow]) else (s, [])
  | .waitPwrLow => -- 407-410
    if waitedLong s.powerTimer 12 e.sec then ({ s with st := .startUp }, []) else (s, [])
  | .startUp => -- 411-418
    ({ s with st := if isReplying e.r1 then .checkPin else .getState }, [.at])
  | .checkPin => -- 419-426
    (({ s with st := if isPinReady e.r1 e.oob then .waitReg else .checkPin } : Sim).setRetryLock e.sec, [.pinQ])
  | .waitReg => -- 427-433
    (({ s with st := if isRegistered e.r1 e.oob then .setApn else .waitReg } : Sim).setRetryLock e.sec, [.regQ])
  | .setApn => -- 434-441
    (({ s with st := if apnAccepted e.r1 e.oob then .startGprs else .setApn,
               msgCount := if apnAccepted e.r1 e.oob then 0 else s.msgCount } : Sim).setRetryLock e.sec,
     [.setApn cfg.apn])
  | .startGprs => -- 442-455
    (({ s with st := if udpStatus e.r1 e.oob = 3 then .getIp else .startGprs } : Sim).setRetryLock e.sec,
     if udpStatus e.r1 e.oob = 0 then [.status, .startGprs] else [.status])
  | .getIp => -- 456-463
    ({ s with st := .openUdp }, [.getIp])
  | .openUdp => -- 464-470
    (({ s with st := if udpOpened e.r1 e.oob then .idle else .openUdp } : Sim).setRetryLock e.sec,
     [.startUdp cfg.addr cfg.port])
  | .idle => -- 471-475
    ({ s with st := if s.queued > 0 then .waitUdp else .idle }, [])
  | .waitUdp => -- 476-490
    if udpStatus e.r1 e.oob = 1 then ({ s with st := .initSend }, [.status])
    else if udpStatus e.r1 e.oob = 2 then ({ s with st := .reset }, [.status])
    else (s.setRetryLock e.sec, [.status])
  | .initSend => -- 502-510: the RESET assigned at 504 is always overwritten at 508 or 509
    if 0 < s.queued then ({ s.bump with st := .writePacket }, [.at, .send s.msgLen])
    else ({ s with st := .idle }, [.at])
  | .writePacket => -- 511-515
    ({ s with queued := (s.queued + 255) % 256, st := .initSend }, [.data (s.buf.take s.msgLen)])
  | .reset => -- 518-521
    ({ s with st := .getState }, [])
  | .panic => (s, []) -- 522-524

/-- `poll()`, lines 368-530. -/
def Sim.poll (cfg : SimCfg) (s : Sim) (e : SimEnv) : Sim × List SimOut :=
  match s.retryTimer with
  | some t => (s.retryLockOut t e.sec, [])
  | none =>
    if s.msgCount = 255 then ({ s with msgCount := 0, st := .reset }, [])
    else if e.near = false then (s, [])
    else ((s.body cfg e).1.onStateChange, (s.body cfg e).2)

/-- `begin()`, lines 285-294. -/
def Sim.begin (s : Sim) : Sim × List SimOut := ({ s with pin := false, st := .init }, [.pinLow])

/-- `end()`, lines 299-304. -/
def Sim.fin (s : Sim) : Sim × List SimOut := (s, [.close])

/-- `queueToSend`, lines 345-358; `none` is a NULL pointer. -/
def Sim.queueToSend (s : Sim) (b : Option Bytes) : Sim × Bool :=
  match b with
  | none => (s, false)
  | some m =>
    if m.length > 64 then (s, false)
    else ({ s with queued := 1, buf := m ++ s.buf.drop m.length, msgLen := m.length }, true)

/-- One turn of the loop of `flushUntil`, lines 909-920: the clock value tested by `while`, then the value of `uint8_t(ser.read())`
(255 when nothing is there). -/
abbrev FlushTick := Nat × Byte

/-- The loop of `flushUntil`, lines 909-925; `none` when all the given turns were used and it has not returned. -/
def flushLoop (endTime : Nat) (c : Byte) : List FlushTick → Option Bool
  | [] => none
  | (now, b) :: t => if now ≤ endTime then (if b = c then some true else flushLoop endTime c t) else some false

/-- `flushUntil`, lines 901-926; `start` is the clock value at the call. -/
def flushUntil (start : Nat) (c : Byte) (ts : List FlushTick) : Option Bool := flushLoop ((start + 1) % 256) c ts

/-- `sendRaw`, lines 315-334. -/
def Sim.sendRaw (s : Sim) (m : Bytes) (start : Nat) (ts : List FlushTick) : Option (Sim × List SimOut × Bool) :=
  match flushUntil start 62 ts with
  | none => none
  | some true => some (s.bump, [.send m.length, .data m], true)
  | some false => some (s.bump, [.send m.length], false)

/-- Calls on the link, each at an absolute time in seconds (`poll` reads the clock as that time modulo 60).
`sendRaw ok` is a `sendRaw` that returned `ok`. -/
inductive SimOp where
  | begin
  | fin
  | queue (b : Option Bytes)
  | sendRaw (m : Bytes) (ok : Bool)
  | poll (near : Bool) (r1 r2 : Bytes) (oob : Byte)
deriving Repr, DecidableEq

/-- Effect of one call made at time `t`. (Vocabulary of histories and observations; it stands for the order in which an application makes calls and has no code of its own in /repo.) -/
def Sim.op (cfg : SimCfg) (s : Sim) (t : Nat) : SimOp → Sim × List SimOut
  | .begin => s.begin
  | .fin => s.fin
  | .queue b => ((s.queueToSend b).1, [])
  | .sendRaw m ok => (s.bump, if ok then [.send m.length, .data m] else [.send m.length])
  | .poll near r1 r2 oob => s.poll cfg { sec := t % 60, near := near, r1 := r1, r2 := r2, oob := oob }

/-- State after a history of timed calls (newest first) on a new link object. (Vocabulary of histories and observations; it stands for the order in which an application makes calls and has no code of its own in /repo.) -/
def Sim.after (cfg : SimCfg) : List (Nat × SimOp) → Sim
  | [] => {}
  | (t, o) :: h => ((Sim.after cfg h).op cfg t o).1

/-- The events of the newest call of a history. (Vocabulary of histories and observations; it stands for the order in which an application makes calls and has no code of its own in /repo.) -/
def Sim.outs (cfg : SimCfg) (h : List (Nat × SimOp)) (t : Nat) (o : SimOp) : List SimOut :=
  ((Sim.after cfg h).op cfg t o).2

end OTR
