import Verif.Model.Header
import Verif.Model.Counter
/-!
# Secure frames — `U/OTRadioLink_SecureableFrameType.{h,cpp}`

The authenticated cipher is a parameter. Simplification: the scratch workspace handed to the cipher is not
represented (a cipher that runs out of workspace is one that returns `none`).
-/

namespace OTR

/-- Type of `fixed32BTextSize12BNonce16BTagSimpleEnc_fn_t` — SecureableFrameType.h 525-530:
key, iv, authtext, plaintext (`none` = NULL) to ciphertext and tag, or failure. -/
abbrev EncFn := (key iv aad : Bytes) → (pt : Option Bytes) → Option (Bytes × Bytes)

/-- Type of `fixed32BTextSize12BNonce16BTagSimpleDec_fn_t` — SecureableFrameType.h 856-861:
key, iv, authtext, ciphertext (`none` = NULL), tag to the contents of the decrypt buffer, or failure. -/
abbrev DecFn := (key iv aad : Bytes) → (ct : Option Bytes) → (tag : Bytes) → Option Bytes

/-- `ENC_BODY_SMALL_FIXED_CTEXT_SIZE` — SecureableFrameType.h 128. -/
notation "ENC_CTEXT" => (32 : Nat)
/-- `ENC_BODY_SMALL_FIXED_PTEXT_MAX_SIZE` — SecureableFrameType.h 131-132. -/
notation "ENC_PTEXT_MAX" => (31 : Nat)

/-- `pad32BBuffer` — SecureableFrameType.cpp 640-648. `buf = none` is NULL.
On success the new buffer contents (the return value is then always 32). -/
def pad32BBuffer (buf : Option Bytes) (datalen : Nat) : Res Bytes :=
  match buf with
  | none => .fail                                                               -- 642
  | some b =>
    failIf (datalen > ENC_PTEXT_MAX) <|                                         -- 643
    let paddingZeros := ENC_CTEXT - 1 - datalen                                 -- 644
    wrBlock b (ENC_CTEXT - 1) [u8 paddingZeros] fun b1 =>                       -- 645
    wrBlock b1 datalen (List.replicate paddingZeros 0) fun b2 => .ok b2         -- 646

/-- `unpad32BBuffer` — SecureableFrameType.cpp 661-667. -/
def unpad32BBuffer (buf : Bytes) : Res Nat :=
  rd buf (ENC_CTEXT - 1) fun p =>                                               -- 663
  if p.toNat > 31 then .ok 0                                                    -- 664
  else .ok (ENC_CTEXT - 1 - p.toNat)                                            -- 665

/-- `SimpleSecureFrame32or0BodyTXBase::encodeRaw` — SecureableFrameType.cpp 465-520.
`ptext`: the body buffer (`none` = NULL); `ptextLen`: body length; `outbuf`: prior contents of the output buffer.
Result: return value (`fl+1`), header, new output buffer. -/
def encodeRaw (fType : Byte) (ptext : Option Bytes) (ptextLen : Nat) (outbuf : Bytes) (id : Option Bytes) (il : Byte)
    (iv : Bytes) (e : EncFn) (key : Option Bytes) : Res (Nat × Hdr × Bytes) :=
  match key with
  | none => .fail                                                               -- 475
  | some key =>
  failIf (ptextLen > ENC_PTEXT_MAX) <|                                          -- 485
  let encBodyLen := if ptextLen = 0 then 0 else ENC_CTEXT                       -- 486
  rd iv 11 fun iv11 =>
  match encodeHeader outbuf.length true fType (iv11 &&& 0xf) id il (u8 encBodyLen) 23 with  -- 489-500
  | .ub => .ub
  | .fail => .fail                                                              -- 502
  | .ok (h, hb) =>
  wrBlock outbuf 0 hb fun out1 =>
  failIf (h.fl ≥ outbuf.length) <|                                              -- 505
  match (if ptextLen ≠ 0 then pad32BBuffer ptext ptextLen else .ok []) with     -- 507-510
  | .ub => .ub
  | .fail => .fail
  | .ok padded =>
  match e key iv (out1.take hb.length) (if ptextLen = 0 then none else some (padded.take 32)) with  -- 513
  | none => .fail
  | some (ct, tag) =>
  wrBlock out1 hb.length (ct.take encBodyLen) fun out2 =>
  wrBlock out2 (h.fl - 16) (tag.take 16) fun out3 =>
  rdBlock iv 6 6 fun ctr =>
  wrBlock out3 (h.fl - 22) ctr fun out4 =>                                      -- 515
  wrBlock out4 h.fl [0x80] fun out5 =>                                          -- 517
  .ok (h.fl + 1, h, out5)                                                       -- 519

/-- `SimpleSecureFrame32or0BodyRXBase::decodeRaw` — SecureableFrameType.cpp 574-628, after the header has been decoded
into `sfh`. `ctext`: accessible frame memory; `scratch`: scratch space size. Result: return value and delivered body. -/
def decodeRaw (sfh : Hdr) (ctext : Bytes) (ptextWanted : Bool) (scratch : Nat) (d : DecFn) (key iv : Option Bytes) :
    Res (Nat × Bytes) :=
  failIf (32 > scratch) <|                                                      -- 584
  match key, iv with
  | none, _ => .fail                                                            -- 588
  | some _, none => .fail
  | some key, some iv =>
  rd ctext 0 fun b0 =>
  let buflen := (b0.toNat + 1) % 256                                            -- 591
  failIf (sfh.fl = 0) <|                                                        -- 595
  failIf (sfh.fl ≥ buflen) <|                                                   -- 598
  failIf (sfh.getTl ≠ 23) <|                                                    -- 599
  rd ctext sfh.fl fun last =>
  failIf (last ≠ 0x80) <|                                                       -- 600
  failIf (sfh.bl ≠ 0 ∧ sfh.bl ≠ ENC_CTEXT) <|                                   -- 602
  rd iv 11 fun iv11 =>
  failIf (sfh.getSeq ≠ (iv11 &&& 0xf).toNat) <|                                 -- 604
  rdBlock ctext 0 sfh.getHl fun aad =>
  rdBlock ctext sfh.getBodyOffset sfh.bl fun body =>
  rdBlock ctext (sfh.fl - 16) 16 fun tag =>
  match d key iv aad (if sfh.bl = 0 then none else some body) tag with          -- 610-613
  | none => .fail
  | some decryptBuf =>
  if ptextWanted = true ∧ sfh.bl ≠ 0 then                                       -- 614
    match unpad32BBuffer decryptBuf with                                        -- 617
    | .ub => .ub
    | .fail => .fail
    | .ok upbl =>
    failIf (upbl > ENC_PTEXT_MAX) <|                                            -- 618-619
    rdBlock decryptBuf 0 upbl fun body => .ok (sfh.fl + 1, body)                -- 620-621, 627
  else .ok (sfh.fl + 1, [])                                                     -- 625, 627

/-- `fixed32BTextSize12BNonce16BTagSimpleEnc_NULL_IMPL` — SecureableFrameType.cpp 701-717 (non-NULL pointers). -/
def nullEnc : EncFn := fun _ iv _ pt => some (pt.getD [], iv.take 12 ++ [0, 0, 0, 0])

/-- `fixed32BTextSize12BNonce16BTagSimpleDec_NULL_IMPL` — SecureableFrameType.cpp 737-753 (non-NULL pointers). -/
def nullDec : DecFn := fun _ iv _ ct tag =>
  if tag[0]? ≠ iv[0]? ∨ tag[15]? ≠ some 0 then none else some (ct.getD [])

/-- Source of transmitter identity and counters: `getTXID` (8 bytes) and `getNextTXMsgCtr` (6 bytes), each of which may
fail. Used by `computeIVForTX12B` — SecureableFrameType.h 659-666. -/
structure TxSource where
  txid : Option Bytes
  nextCtr : Option Bytes

/-- `computeIVForTX12B` — SecureableFrameType.h 659-666: `getTXID` fills 8 bytes, then the counter overwrites from
offset 6. -/
def computeIVForTX12B (s : TxSource) : Option Bytes :=
  match s.txid with
  | none => none
  | some id => match s.nextCtr with
    | none => none
    | some c => some (id.take 6 ++ c)

/-- `encode_total_scratch_usage_OTAESGCM_2p0` — SecureableFrameType.h 521-523, 591-594, 706-709. -/
notation "encodeScratchTotal" => (292 : Nat)

/-- Return value of `encode()`: besides a frame and the documented 0, the C++ can return 255. -/
inductive EncRet where
  | frame (n : Nat) (h : Hdr) (out : Bytes)
  | ret (v : Nat)
  | ub
deriving Repr, DecidableEq

/-- The result of a frame encoder as the return value of `encode()` — OTRadioLink_SecureableFrameType.cpp 820-849. -/
def EncRet.ofRes : Res (Nat × Hdr × Bytes) → EncRet
  | .ok (n, h, o) => .frame n h o
  | .fail => .ret 0
  | .ub => .ub

/-- `SimpleSecureFrame32or0BodyTXBase::encode` — SecureableFrameType.cpp 820-849.
`txidAgain` is the result of the second `getTXID` call (line 841). -/
def encode (fType : Byte) (ptext : Option Bytes) (ptextLen : Nat) (outbuf : Bytes) (il : Byte) (s : TxSource)
    (txidAgain : Option Bytes) (e : EncFn) (scratch : Nat) (key : Option Bytes) : EncRet :=
  if scratch < encodeScratchTotal then .ret 0                                   -- 830
  else if fType.toNat ≥ FTS_INVALID_HIGH ∨ fType.toNat = FTS_NONE then .ret 0   -- 832
  else match computeIVForTX12B s with
    | none => .ret 0                                                            -- 835
    | some iv =>
      if il.toNat > 6 then                                                      -- 839
        match txidAgain with
        | none => .ret 255                                                      -- 841
        | some id => .ofRes (encodeRaw fType ptext ptextLen outbuf (some id) il iv e key)
      else .ofRes (encodeRaw fType ptext ptextLen outbuf (some iv) il iv e key) -- 846-848

/-- `generateSecureBeacon` — SecureableFrameType.h 729-739: note that the caller's buffer is passed as the *plaintext*
buffer and the output buffer is NULL with size 0. -/
def generateSecureBeacon (buf : Bytes) (il : Byte) (s : TxSource) (txidAgain : Option Bytes) (e : EncFn)
    (scratch : Nat) (key : Option Bytes) : EncRet :=
  encode FTS_ALIVE (some buf) 0 [] il s txidAgain e scratch key

/-- C library `strlen` over the bytes at a pointer: undefined behaviour if there is no terminator. (Environment: avr-libc or the Arduino core, not code of /repo.) -/
def strlen : Bytes → Option Nat
  | [] => none
  | b :: t => if b = 0 then some 0 else (strlen t).map (· + 1)

/-- `encodeValveFrame_total_scratch_usage_OTAESGCM_2p0` — SecureableFrameType.h 777-780. -/
notation "encodeValveScratchTotal" => (284 : Nat)

/-- `encodeValveFrame` — SecureableFrameType.cpp 887-927. `ptext`: the caller's body buffer with any JSON text from
offset 2 (`none` = NULL, which the code then dereferences: undefined behaviour). -/
def encodeValveFrame (ptext : Option Bytes) (outbuf : Bytes) (il valvePC : Byte) (s : TxSource) (e : EncFn)
    (scratch : Nat) (key : Option Bytes) : Res (Nat × Hdr × Bytes) :=
  failIf (scratch < encodeValveScratchTotal) <|                                 -- 898
  match computeIVForTX12B s with
  | none => .fail                                                               -- 905
  | some iv =>
  match ptext with
  | none => .ub                                                                 -- 912: write through NULL
  | some p =>
  rd p 2 fun c2 =>
  let hasStats := c2 = 0x7b                                                     -- 908: '{'
  match (if hasStats then strlen (p.drop 2) else some 1) with                   -- 909
  | none => .ub
  | some slp1 =>
  failIf (slp1 > ENC_PTEXT_MAX - 1) <|                                          -- 910
  let statslen := slp1 - 1                                                      -- 911
  wrBlock p 0 [if valvePC.toNat ≤ 100 then valvePC else 0x7f, if hasStats then 0x10 else 0] fun p1 =>  -- 912-913
  failIf (il.toNat > 6) <|                                                      -- 917
  encodeRaw FTS_BasicSensorOrValve (some p1) (if hasStats then 2 + statslen else 2) outbuf (some iv) il iv e key

/-- `_decodeFromID` — SecureableFrameType.cpp 972-997: the IV is the first 6 ID bytes then the 6 counter bytes
from the start of the trailer. -/
def decodeFromID (sfh : Hdr) (ctext : Bytes) (ptextWanted : Bool) (scratch : Nat) (d : DecFn) (adjID : Bytes)
    (key : Option Bytes) : Res (Nat × Bytes) :=
  failIf (12 > scratch) <|                                                      -- 981
  failIf (adjID.length < 6) <|                                                  -- 985
  rd ctext 0 fun b0 =>
  failIf (sfh.getTrailerOffset + 6 > (b0.toNat + 1) % 256) <|                   -- 987-988
  rdBlock ctext sfh.getTrailerOffset 6 fun ctr =>                               -- 994
  decodeRaw sfh ctext ptextWanted (scratch - 12) d key (some (adjID.take 6 ++ ctr))   -- 996

/-- The receiver-side storage used by `decode` — virtual methods `_getNextMatchingNodeID`, `getLastRXMsgCtr`,
`authAndUpdateRXMsgCtr` (SecureableFrameType.h 806, 944, 956). -/
structure RxStore (S : Type) where
  matchID : S → Hdr → Option Bytes
  last : S → Bytes → Option Bytes
  update : S → Bytes → Bytes → Bool × S

/-- `validateRXMsgCtr` — SecureableFrameType.cpp 672-681. -/
def validateRXMsgCtr {S : Type} (st : RxStore S) (s : S) (id ctr : Bytes) : Bool :=
  match st.last s id with
  | none => false
  | some cur => decide (msgcountercmp ctr cur > 0)

/-- `decode` — SecureableFrameType.cpp 1037-1088, after the header has been decoded into `sfh`.
Result: return value, delivered body and sender ID; and the new storage state. -/
def decode {S : Type} (st : RxStore S) (s : S) (sfh : Hdr) (ctext : Bytes) (ptextWanted : Bool) (scratch : Nat)
    (d : DecFn) (key : Option Bytes) : Res (Nat × Bytes × Bytes) × S :=
  if 14 > scratch then (.fail, s)                                               -- 1047
  else if sfh.fl = 0 then (.fail, s)                                            -- 1055
  else if sfh.getTl ≠ 23 then (.fail, s)                                        -- 1058
  else match st.matchID s sfh with
    | none => (.fail, s)                                                        -- 1065-1066
    | some nodeID =>
      if ctext.length < sfh.getTrailerOffset + 6 then (.ub, s)                  -- 1074: memcpy source
      else
        let ctr := (ctext.drop sfh.getTrailerOffset).take 6
        if validateRXMsgCtr st s nodeID ctr = false then (.fail, s)             -- 1077
        else match decodeFromID sfh ctext ptextWanted (scratch - 14) d nodeID key with   -- 1081
          | .ub => (.ub, s)
          | .fail => (.fail, s)                                                 -- 1082
          | .ok (n, body) =>
            match st.update s nodeID ctr with                                   -- 1084
            | (false, s') => (.fail, s')
            | (true, s') => (.ok (n, body, nodeID), s')                         -- 1086-1087

/-- The whole secure receive path for one received frame: decode the header from the frame memory, then `decode`
(as `decodeAndHandleOTSecureOFrame` does, OTRadioLink_Messaging.h 313-357). -/
def rxSecure {S : Type} (st : RxStore S) (s : S) (frame : Bytes) (ptextWanted : Bool) (scratch : Nat)
    (d : DecFn) (key : Option Bytes) : Res (Nat × Bytes × Bytes) × S :=
  match decodeHeader frame with
  | .ub => (.ub, s)
  | .fail => (.fail, s)
  | .ok h => decode st s h frame ptextWanted scratch d key

end OTR
