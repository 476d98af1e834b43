import Verif.Model.Util
import Verif.Model.Security
import Verif.Model.RTC
/-!
# Model: the serial command-line interface

`content/OTRadioLink/utility/OTV0P2BASE_CLI.cpp` (AVR build). What is printed is not modelled. Commands are functions
of the command line (the bytes before the terminating NUL) and the EEPROM contents; power failures inside a command are
not modelled here.
-/

namespace OTR

/-- One pass of the input loop sees either a waiting character or none, and then the sub-cycle time — the loop of `promptAndReadCommandLine`, OTV0P2BASE_CLI.cpp 109-160. -/
inductive SerEv where
  | ch (c : Byte)
  | idle (sct : Nat)
deriving Repr, DecidableEq

/-- `toupper` (C locale). Used at OTV0P2BASE_CLI.cpp 135. (Environment: avr-libc or the Arduino core, not code of /repo.) -/
def toUpper (c : Byte) : Byte := if 97 ≤ c ∧ c ≤ 122 then c - 32 else c

/-- The input loop of promptAndReadCommandLine, CLI.cpp 108-168, from the characters collected so far; `none` while it is
still waiting for input. `cap` is `bufsize - 1`. -/
def cliLoop (maxSCT cap : Nat) : List SerEv → Bytes → Option Bytes
  | [], acc => if acc.length < cap then none else some acc
  | .ch c :: t, acc =>
    if acc.length < cap then
      if c = 13 ∨ c = 10 then some acc
      else if c < 32 ∨ c > 126 then cliLoop maxSCT cap t acc
      else if acc.length = 0 then
        if toUpper c ≠ 43 ∧ toUpper c ≠ 63 ∧ (toUpper c < 65 ∨ toUpper c > 90) then cliLoop maxSCT cap t acc
        else cliLoop maxSCT cap t (acc ++ [toUpper c])
      else cliLoop maxSCT cap t (acc ++ [c])
    else some acc
  | .idle sct :: t, acc =>
    if acc.length < cap then
      if sct ≥ maxSCT then some [] else cliLoop maxSCT cap t acc
    else some acc

/-- promptAndReadCommandLine, CLI.cpp 84-203: the line left in the buffer (its length is the result). `sct0` is the
sub-cycle time at entry and `minPoll` is MIN_CLI_POLL_SCT. Buffer size `none` is a NULL buffer. -/
def readCommandLine (minPoll maxSCT sct0 : Nat) (bufsize : Option Nat) (evs : List SerEv) : Option Bytes :=
  match bufsize with
  | none => some []
  | some n =>
    if n < 2 then some []
    else if sct0 ≥ (if maxSCT ≤ minPoll then 0 else maxSCT - 1 - minPoll) then some []
    else
      match cliLoop maxSCT (n - 1) evs [] with
      | none => none
      | some l =>
        match l with
        | [] => some []
        | c :: t => if c > 32 ∧ c ≤ 122 then some (c :: t) else some []

/-- The tokens that successive `strtok_r(.., " ", ..)` calls return for a string ended by NUL or by the end of the list;
`cur` is the token being collected. Used at OTV0P2BASE_CLI.cpp 221, 243, 271, 313, 382, 389, 428, 437. (Environment: avr-libc or the Arduino core, not code of /repo.) -/
def strToks : Bytes → Bytes → List Bytes
  | cur, [] => if cur = [] then [] else [cur]
  | cur, c :: t =>
    if c = 0 then (if cur = [] then [] else [cur])
    else if c = 32 then (if cur = [] then strToks [] t else cur :: strToks [] t)
    else strToks (cur ++ [c]) t

/-- `parseHexByte` of a token (strtok_r leaves each token NUL-terminated). OTV0P2BASE_CLI.cpp 246, 276, 442; OTV0P2BASE_Util.cpp `parseHexByte` is modelled in Model/Util. -/
def hexTok (t : Bytes) : Int :=
  match parseHexByte (some (t ++ [0])) with
  | .ok v => v
  | _ => -1

/-- Digits of `atoi`. Used at OTV0P2BASE_CLI.cpp 315, 384, 397. (Environment: avr-libc or the Arduino core, not code of /repo.) -/
def atoiDigits : Bytes → Nat → Nat
  | [], acc => acc
  | c :: t, acc => if 48 ≤ c ∧ c ≤ 57 then atoiDigits t (10 * acc + (c.toNat - 48)) else acc

/-- `atoi` of a token (no leading white space possible: only printable characters reach here and blanks are
separators). `int` is 16 bits on AVR and avr-libc's atoi computes modulo 2^16. -/
def atoi16 (t : Bytes) : Int :=
  let wrap := fun x : Int => (x + 32768) % 65536 - 32768
  match t with
  | 45 :: r => wrap (-(atoiDigits r 0 : Nat))
  | 43 :: r => wrap (atoiDigits r 0 : Nat)
  | _ => wrap (atoiDigits t 0 : Nat)

/-- `(uint8_t) atoi(..)`. -/
def atoiU8 (t : Bytes) : Nat := (atoi16 t % 256).toNat

/-- The ID-collecting loop, CLI.cpp 267-280 and 433-446: `junk` is what the uninitialised array holds. -/
def idLoop : Bytes → List Bytes → Option Bytes
  | [], _ => some []
  | j :: js, [] => (idLoop js []).map (j :: ·)
  | _ :: js, t :: ts =>
    if hexTok t = -1 ∨ validIDByte (u8 (hexTok t).toNat) = false then none
    else (idLoop js ts).map (u8 (hexTok t).toNat :: ·)

/-- SetNodeAssoc::doCommand, CLI.cpp 216-295: the EEPROM afterwards. -/
def cliAssoc (junk buf : Bytes) (m : EE) : EE :=
  if buf.length ≥ 3 then
    match strToks [] (buf.drop 2) with
    | [] => m
    | t1 :: ts =>
      if t1.head? = some 63 then m
      else if t1.head? = some 42 then clearAllNodeAssociations.post m
      else if buf.length ≥ 1 + 3 * 8 then
        match idLoop junk (t1 :: ts) with
        | none => m
        | some id => (addNodeAssociation id).post m
      else m
  else m

/-- GenericParam::doCommand, CLI.cpp 377-405: the EEPROM afterwards. -/
def cliParam (buf : Bytes) (m : EE) : EE :=
  if buf.length ≥ 3 then
    match strToks [] (buf.drop 2) with
    | [] => m
    | t1 :: ts =>
      if atoiU8 t1 > 32 then m
      else
        match ts with
        | [] => m
        | t2 :: _ =>
          if atoi16 t2 < 0 ∨ atoi16 t2 > 255 then m
          else (smartUpdate true (32 + atoiU8 t1) (u8 (atoi16 t2).toNat)).post m
  else m

/-- The ID store loop of NodeIDWithSet::doCommand, CLI.cpp 448-449. -/
def storeID (id : Bytes) : EM Unit :=
  emForEach (fun i => smartUpdate true (EE_ID + i) (id[i]?.getD 0)) (List.range 8)

/-- NodeIDWithSet::doCommand, CLI.cpp 423-456, other than the random reset "I *" of NodeID::doCommand (408-420). -/
def cliSetID (junk buf : Bytes) (m : EE) : EE :=
  if buf.length ≥ 1 + 3 * 8 then
    match strToks [] (buf.drop 2) with
    | [] => m
    | t1 :: ts =>
      match idLoop junk (t1 :: ts) with
      | none => m
      | some id => (storeID id).post m
  else m

/-- The key-collecting loop, CLI.cpp 505-511: the remaining 15 bytes (`parseHexByte(NULL)` is -1). -/
def keyLoop : Nat → List Bytes → Option Bytes
  | 0, _ => some []
  | _ + 1, [] => none
  | n + 1, t :: ts => if hexTok t = -1 then none else (keyLoop n ts).map (u8 (hexTok t).toNat :: ·)

/-- SetSecretKey::doCommand, CLI.cpp 464-534: the EEPROM afterwards and whether `keysClearedFn` was called.
The first key byte is stored unchecked: -1 becomes 0xff. -/
def cliKey (buf : Bytes) (m : EE) : EE × Bool :=
  if buf.length ≥ 5 then
    match strToks [] (buf.drop 2) with
    | [] => (m, false)
    | t1 :: ts =>
      if t1.head?.map toUpper = some 66 then
        match ts with
        | [] => (m, false)
        | t2 :: rest =>
          if t2.head? = some 42 then ((setKey none).post m, true)
          else if buf.length ≥ 3 + 2 * 16 then
            match keyLoop 15 rest with
            | none => (m, false)
            | some ks => ((setKey (some (u8 (hexTok t2 % 256).toNat :: ks))).post m, false)
          else (m, false)
      else (m, false)
  else (m, false)

/-- SetTime::doCommand, CLI.cpp 537-554; the two `int`s are truncated to `uint8_t` by the call. -/
def cliTime (buf : Bytes) (r : RTC) (m : EE) : RTC × EE :=
  if buf.length ≥ 5 then
    match strToks [] (buf.drop 2) with
    | t1 :: t2 :: _ => ((r.setHM (atoiU8 t1) (atoiU8 t2) m).1, (r.setHM (atoiU8 t1) (atoiU8 t2) m).2.2)
    | _ => (r, m)
  else (r, m)

/-- SetTXPrivacy::doCommand, CLI.cpp 558-569. -/
def cliPrivacy (buf : Bytes) (m : EE) : EE :=
  if buf.length ≥ 3 then
    match strToks [] (buf.drop 2) with
    | [] => m
    | t1 :: _ => (smartUpdate true 28 (u8 (atoiU8 t1))).post m
  else m

/-- The CLI activity timer, CLI.cpp 54-67: resetCLIActiveTimer, makeCLIInactive, countDownCLI, isCLIActive. -/
def cliReset : Nat := 2
/-- `countDownCLI()` — OTV0P2BASE_CLI.cpp 67. -/
def cliCountDown (t : Nat) : Nat := if t = 0 then 0 else t - 1
/-- `isCLIActive()` — OTV0P2BASE_CLI.cpp 61. -/
def cliActive (t : Nat) : Bool := t != 0

end OTR
