import Verif.Model.TextOut
/-!
# RN2483 LoRa modem: the whole interface

`U/OTRN2483Link_OTRN2483Link.cpp` 102-388: each call of the link that writes to the modem, and a history of such calls. Same
simplifications as in `TextOut`.
-/

namespace OTR

/-- A call of the link object (OTRN2483Link.h 130-170). -/
inductive RnCall where
  | reset | devAddr | keys | join | status | save
  | dataRate (n : Nat) | adaptive (lo hi : Nat) | txPower (n : Nat)
  | send (msg : Bytes)
  deriving DecidableEq, Repr

/-- What one call writes to the modem. The numbers are `uint8_t`; `'0' + n` is cut down to a `char`. -/
def rnCall : RnCall → Res Bytes
  | .reset => .ok (ascii "sys " ++ ascii "reset" ++ rnEnd)                                                     -- OTRN2483Link.cpp 217-226
  | .devAddr => .ok (ascii "mac " ++ ascii "set " ++ ascii "devaddr " ++ ascii "02011123" ++ rnEnd)            -- OTRN2483Link.cpp 235-243
  | .keys =>                                                                                                   -- OTRN2483Link.cpp 253-266
    .ok (ascii "mac " ++ ascii "set " ++ ascii "appskey " ++ ascii "2B7E151628AED2A6ABF7158809CF4F3C" ++ rnEnd ++
      (ascii "mac " ++ ascii "set " ++ ascii "nwkskey " ++ ascii "2B7E151628AED2A6ABF7158809CF4F3C" ++ rnEnd))
  | .join => .ok (ascii "mac " ++ ascii "join abp" ++ rnEnd)                                                   -- OTRN2483Link.cpp 271-276
  | .status => .ok (ascii "mac " ++ ascii "get " ++ ascii "status" ++ rnEnd)                                   -- OTRN2483Link.cpp 283-290
  | .save => .ok (ascii "mac " ++ ascii "save" ++ rnEnd)                                                       -- OTRN2483Link.cpp 294-299
  | .dataRate n => .ok (ascii "mac " ++ ascii "set " ++ ascii "dr " ++ [u8 (48 + n)] ++ rnEnd)                 -- OTRN2483Link.cpp 317-324
  | .adaptive lo hi => .ok (rnADR lo hi)                                                                       -- OTRN2483Link.cpp 344-368
  | .txPower n => .ok (ascii "mac " ++ ascii "set " ++ ascii "pwridx " ++ [u8 (48 + n)] ++ rnEnd)              -- OTRN2483Link.cpp 381-388
  | .send msg => rnSend msg                                                                                    -- OTRN2483Link.cpp 102-140

/-- A history of calls: what has been written to the modem, one after the other. -/
def rnCalls : List RnCall → Res Bytes
  | [] => .ok []
  | c :: t =>
    match rnCall c with
    | .ok a => match rnCalls t with
      | .ok b => .ok (a ++ b)
      | e => e
    | e => e

end OTR
