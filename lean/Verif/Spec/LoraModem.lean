import Verif.Base
/-!
# A LoRa modem reading its command line

Written from the RN2483 command reference's command syntax, not from the library: commands are lines ended by CR LF, made of words
separated by single spaces; numbers are decimal, data is pairs of hex digits.
-/

namespace OTR.Spec

inductive LoraCmd where
  | sysReset | devAddr (a : Bytes) | appKey (k : Bytes) | netKey (k : Bytes)
  | dataRate (n : Nat) | power (n : Nat) | range (channel lo hi : Nat) | adrOn
  | joinABP | status | save | tx (port : Nat) (data : Bytes)
  deriving DecidableEq, Repr

/-- The complete lines of a text; `cur` holds what has been read of the current one. -/
def linesFrom (cur : Bytes) : Bytes → List Bytes
  | [] => []
  | 13 :: 10 :: t => cur :: linesFrom [] t
  | c :: t => linesFrom (cur ++ [c]) t

/-- The words of a line. -/
def wordsFrom (cur : Bytes) : Bytes → List Bytes
  | [] => [cur]
  | 32 :: t => cur :: wordsFrom [] t
  | c :: t => wordsFrom (cur ++ [c]) t

/-- A decimal number. -/
def decimal (w : Bytes) : Option Nat :=
  if w ≠ [] ∧ ∀ c ∈ w, 48 ≤ c.toNat ∧ c.toNat ≤ 57 then some (w.foldl (fun v c => 10 * v + (c.toNat - 48)) 0) else none

/-- A hex digit of either case. -/
def modemHexVal (c : Byte) : Option Nat :=
  if 48 ≤ c.toNat ∧ c.toNat ≤ 57 then some (c.toNat - 48)
  else if 65 ≤ c.toNat ∧ c.toNat ≤ 70 then some (c.toNat - 55)
  else if 97 ≤ c.toNat ∧ c.toNat ≤ 102 then some (c.toNat - 87)
  else none

/-- Pairs of hex digits. -/
def hexData : Bytes → Option Bytes
  | [] => some []
  | a :: b :: t =>
    match modemHexVal a, modemHexVal b, hexData t with
    | some x, some y, some r => some (UInt8.ofNat (16 * x + y) :: r)
    | _, _, _ => none
  | _ => none

/-- A keyword. -/
def kw (s : String) : Bytes := s.toUTF8.toList

/-- What a line means to the modem; `none`: `invalid_param`. -/
def command (line : Bytes) : Option LoraCmd :=
  match wordsFrom [] line with
  | [a, b] =>
    if a = kw "sys" ∧ b = kw "reset" then some .sysReset
    else if a = kw "mac" ∧ b = kw "save" then some .save
    else none
  | [a, b, c] =>
    if a = kw "mac" ∧ b = kw "join" ∧ c = kw "abp" then some .joinABP
    else if a = kw "mac" ∧ b = kw "get" ∧ c = kw "status" then some .status
    else none
  | [a, b, c, d] =>
    if a = kw "mac" ∧ b = kw "set" then
      if c = kw "devaddr" then (hexData d).map .devAddr
      else if c = kw "appskey" then (hexData d).map .appKey
      else if c = kw "nwkskey" then (hexData d).map .netKey
      else if c = kw "dr" then (decimal d).map .dataRate
      else if c = kw "pwridx" then (decimal d).map .power
      else if c = kw "adr" ∧ d = kw "on" then some .adrOn
      else none
    else none
  | [a, b, c, d, e] =>
    if a = kw "mac" ∧ b = kw "tx" ∧ c = kw "uncnf" then
      match decimal d, hexData e with
      | some p, some m => some (.tx p m)
      | _, _ => none
    else none
  | [a, b, c, d, e, f, g] =>
    if a = kw "mac" ∧ b = kw "set" ∧ c = kw "ch" ∧ d = kw "drrange" then
      match decimal e, decimal f, decimal g with
      | some n, some lo, some hi => some (.range n lo hi)
      | _, _, _ => none
    else none
  | _ => none

/-- What the modem makes of everything it is sent. -/
def modemReads (text : Bytes) : List (Option LoraCmd) := (linesFrom [] text).map command

end OTR.Spec
