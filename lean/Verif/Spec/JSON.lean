import Verif.Base
/-!
# A reader of flat JSON objects

Independent of the writer: `{"name":value,...}` where a value is a string without quotes or backslashes, or a decimal integer.
-/

namespace OTR.Spec

/-- A value. -/
inductive JVal where
  | str (s : Bytes)
  | num (v : Int)
deriving Repr, DecidableEq

/-- A string in quotes; gives the rest. -/
def readStr : Bytes → Option (Bytes × Bytes)
  | [] => none
  | c :: t => if c = 0x22 then
      match t.dropWhile (· != 0x22) with
      | [] => none
      | _ :: r => some (t.takeWhile (· != 0x22), r)
    else none

/-- Is it a decimal digit? -/
def isDig (c : Byte) : Bool := decide (48 ≤ c.toNat) && decide (c.toNat ≤ 57)

/-- The number a string of digits stands for. -/
def digitsVal (ds : Bytes) : Nat := ds.foldl (fun a d => 10 * a + (d.toNat - 48)) 0

/-- A decimal number with optional minus sign. -/
def readInt : Bytes → Option (Int × Bytes)
  | [] => none
  | c :: t =>
    if c = 0x2d then
      if t.takeWhile isDig = [] then none else some (- (digitsVal (t.takeWhile isDig) : Int), t.dropWhile isDig)
    else if (c :: t).takeWhile isDig = [] then none
    else some ((digitsVal ((c :: t).takeWhile isDig) : Int), (c :: t).dropWhile isDig)

/-- A string or a number. -/
def readVal (b : Bytes) : Option (JVal × Bytes) :=
  match readStr b with
  | some (s, r) => some (.str s, r)
  | none => match readInt b with
    | some (v, r) => some (.num v, r)
    | none => none

/-- `"name":value`. -/
def readField (b : Bytes) : Option ((Bytes × JVal) × Bytes) :=
  match readStr b with
  | some (k, c :: r) => if c = 0x3a then
      match readVal r with
      | some (v, r') => some ((k, v), r')
      | none => none
    else none
  | _ => none

/-- Fields separated by commas up to a final `}` that ends the text. -/
def readFields : Nat → Bytes → Option (List (Bytes × JVal))
  | 0, _ => none
  | n + 1, b => match readField b with
    | some (f, c :: r) =>
      if c = 0x2c then
        match readFields n r with
        | some fs => some (f :: fs)
        | none => none
      else if c = 0x7d ∧ r = [] then some [f] else none
    | _ => none

/-- A whole object. -/
def readObj (b : Bytes) : Option (List (Bytes × JVal)) :=
  match b with
  | [] => none
  | c :: t => if c = 0x7b then (if t = [0x7d] then some [] else readFields b.length t) else none

example : readObj [0x7b, 0x22, 0x61, 0x22, 0x3a, 0x2d, 0x31, 0x32, 0x7d] = some [([0x61], .num (-12))] := by decide +kernel
example : readObj [0x7b, 0x2c, 0x22, 0x61, 0x22, 0x3a, 0x31, 0x7d] = none := by decide +kernel

end OTR.Spec
