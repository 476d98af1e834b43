import Verif.Model.CRC
/-!
# JSON messages on the wire — `U/OTV0P2BASE_JSONStats.cpp` 43-170

A buffer is a list of bytes; reading past its end is `.ub`. `char` may be signed or not: bytes over 127 fail the
printable-range tests either way (negative, or over 126).
-/

namespace OTR

/-- `'{'` -/
notation "jOpen" => (0x7b : UInt8)
/-- `'}'` -/
notation "jClose" => (0x7d : UInt8)
/-- `'}' | 0x80` -/
notation "jCloseTX" => (0xfd : UInt8)

/-- Loop of `quickValidateRawSimpleJSONMessage` — OTV0P2BASE_JSONStats.cpp 48-58: `n` iterations left, `p` at the list. -/
def qvLoop : Nat → Bytes → Res Bool
  | 0, _ => .ok false                                                           -- 58
  | _ + 1, [] => .ub
  | n + 1, c :: t =>
    let cont : Res Bool := if c.toNat < 32 ∨ c.toNat > 126 then .ok false else qvLoop n t    -- 54-56
    if c = jClose then rd t 0 fun d => if d = 0 then .ok true else cont         -- 52
    else cont

/-- `quickValidateRawSimpleJSONMessage` — OTV0P2BASE_JSONStats.cpp 43-59 (MSG_JSON_MAX_LENGTH = 54, OTV0P2BASE_JSONStats.h 67). -/
def quickValidateJSON : Bytes → Res Bool
  | [] => .ub
  | c :: t => if c ≠ jOpen then .ok false else qvLoop 53 t

/-- Loop of `adjustJSONMsgForTXAndComputeCRC` — OTV0P2BASE_JSONStats.cpp 75-89: result and bytes from here on. -/
def adjLoop (crc : Byte) : Bytes → Res (Byte × Bytes)
  | [] => .ub
  | c :: t =>
    if c = 0 then .ok (0xff, c :: t)                                            -- 75, 89
    else
    let cont : Res (Byte × Bytes) := match adjLoop (crc7_5B_update crc c) t with    -- 87
      | .ok (r, t') => .ok (r, c :: t')
      | .fail => .fail
      | .ub => .ub
    if c = jClose then rd t 0 fun d =>
      if d = 0 then .ok (crc7_5B_update crc jCloseTX, jCloseTX :: t) else cont     -- 79-86
    else cont

/-- `adjustJSONMsgForTXAndComputeCRC` — OTV0P2BASE_JSONStats.cpp 68-91: result (0xff: refused) and the buffer after. -/
def adjustJSON (buf : Bytes) : Res (Byte × Bytes) :=
  match quickValidateJSON buf with
  | .ub => .ub
  | .fail => .fail
  | .ok false => .ok (0xff, buf)                                                -- 71
  | .ok true => match adjLoop jOpen buf.tail with                               -- 74-75
    | .ok (r, t) => .ok (r, jOpen :: t)
    | .fail => .fail
    | .ub => .ub

/-- Loop of `checkJSONMsgRXCRC` — OTV0P2BASE_JSONStats.cpp 130-165: `n` iterations left, index `i`. -/
def chkLoop : Nat → Nat → Byte → Bytes → Res Nat
  | 0, _, _, _ => .fail                                                         -- 169
  | _ + 1, _, _, [] => .ub
  | n + 1, i, crc, c :: t =>
    let crc := crc7_5B_update crc c                                             -- 133
    let cont : Res Nat := if c.toNat < 32 ∨ c.toNat > 126 then .fail else chkLoop n (i + 1) crc t  -- 153-161
    if c = jClose then rd t 0 fun d => if d = 0 then .ok (i + 1) else cont      -- 135-142
    else if c = jCloseTX then rd t 0 fun d => if crc = d ∨ (crc = 0 ∧ d = 0x80) then .ok (i + 1) else cont  -- 145-151
    else cont

/-- `checkJSONMsgRXCRC` — OTV0P2BASE_JSONStats.cpp 120-170: the length, or `.fail` for −1. MSG_JSON_ABS_MAX_LENGTH = 55
(OTV0P2BASE_JSONStats.h 65). -/
def checkJSON (buf : Bytes) (bufLen : Nat) : Res Nat :=
  match buf with
  | [] => .ub
  | c :: t => if c ≠ jOpen then .fail else chkLoop (min 55 bufLen - 1) 1 jOpen t

/-- Loop of `outputJSONStats` — OTV0P2BASE_JSONStats.cpp 102-110: what is printed, without the end of line. `n`: bytes left before
`je`. "` ... bad`" is the failure text (104), here `none` with what was printed before it. -/
def outLoop : Nat → Bytes → Res (Option Bytes)
  | 0, _ => .ok none                                                            -- 104
  | _ + 1, [] => .ub
  | n + 1, c :: t =>
    let cont : Res (Option Bytes) := match outLoop n t with                     -- 107
      | .ok (some l) => .ok (some (c :: l))
      | r => r
    if c = jCloseTX then .ok (some [jClose])                                    -- 105, 110
    else if c = jClose then rd t 0 fun d => if d = 0 then .ok (some [jClose]) else cont    -- 106, 110
    else cont

/-- `outputJSONStats` — OTV0P2BASE_JSONStats.cpp 96-111. -/
def outputJSON (buf : Bytes) (bufsize : Nat) : Res (Option Bytes) := outLoop bufsize buf

end OTR
