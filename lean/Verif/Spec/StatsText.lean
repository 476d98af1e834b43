import Verif.Spec.TextOut
/-!
# A reader of remote stats lines

`@<hexnodeID>[;TnnCh[;P]][;Lnn][;On]` CR LF, from the comment on the printing routine; independent of the writer.
-/
namespace OTR.Spec

/-- What a line about a remote node says: its ID as a number, temperature in sixteenths of a degree, low power, light, occupancy. -/
structure RemoteLine where
  id : Nat
  temp : Option Int
  low : Bool
  amb : Option Int
  occ : Option Int
deriving Repr, DecidableEq

/-- An upper-case hex digit. -/
def isHexUp (c : Byte) : Bool := (hexUp c).isSome

/-- After `;` and the given letter, if the text starts so. -/
def afterTag (c : Byte) : Bytes → Option Bytes
  | a :: b :: t => if a = 0x3b ∧ b = c then some t else none
  | _ => none

/-- An optional `;TnnCh`: degrees and sixteenths to be added to them. -/
def readTField (l : Bytes) : Option (Option Int × Bytes) :=
  match afterTag 0x54 l with
  | none => some (none, l)
  | some t =>
    match readInt t with
    | some (v, p :: h :: r) => if p = 0x43 then (hexUp h).map fun (d : Nat) => (some (16 * v + (d : Int)), r) else none
    | _ => none

/-- An optional `;P`. -/
def readPField (l : Bytes) : Bool × Bytes :=
  match afterTag 0x50 l with
  | none => (false, l)
  | some t => (true, t)

/-- An optional `;` letter number. -/
def readNField (c : Byte) (l : Bytes) : Option (Option Int × Bytes) :=
  match afterTag c l with
  | none => some (none, l)
  | some t => (readInt t).map fun x => (some x.1, x.2)

/-- A whole line. -/
def readRemote : Bytes → Option RemoteLine
  | [] => none
  | a :: r =>
    if a ≠ 0x40 ∨ r.takeWhile isHexUp = [] then none
    else
      match readTField (r.dropWhile isHexUp) with
      | none => none
      | some (t, r1) =>
        match readNField 0x4c (readPField r1).2 with
        | none => none
        | some (l, r2) =>
          match readNField 0x4f r2 with
          | none => none
          | some (o, r3) =>
            if r3 = [13, 10] then
              some ⟨(r.takeWhile isHexUp).foldl (fun x d => 16 * x + (hexUp d).getD 0) 0, t, (readPField r1).1, l, o⟩
            else none

example : readRemote "@80AF;T-1C8;P;L42;O1\r\n".toUTF8.toList = some ⟨0x80af, some (-8), true, some 42, some 1⟩ := by decide +kernel
example : readRemote "@5\r\n".toUTF8.toList = some ⟨5, none, false, none, none⟩ := by decide +kernel
example : readRemote "@5;T20C\r\n".toUTF8.toList = none := by decide +kernel

end OTR.Spec
