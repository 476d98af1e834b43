import Verif.Model.Security
/-!
# Association table objects — `U/OTV0P2BASE_Security.{h,cpp}`: `NodeAssociationTableV0p2`, `NodeAssociationTableMock`, and the search that is
generic in the table

`src = none` is a NULL pointer; otherwise it is the 8 accessible bytes at the pointer.
-/

namespace OTR

/-- avr-libc `eeprom_update_block`: the bytes in order, each written only if it differs. (Environment: avr-libc, not code of /repo.) -/
def eeUpdateBlock (a : Nat) (src : Bytes) (n : Nat) : EM Unit :=
  emForEach (fun j => eeRead (a + j) fun old =>
    emIf (old = src[j]?.getD 0) (emRet ()) (eeWrite (a + j) (src[j]?.getD 0))) (List.range n)

/-- `NodeAssociationTableV0p2::set` — Security.cpp 261-270. -/
def tableSet (index : Nat) (src : Option Bytes) : EM Bool :=
  match src with
  | none => emRet false                                                         -- 263
  | some id => emIf (index ≥ MAX_SETS) (emRet false) <|                         -- 263
      emBind (eeUpdateBlock (EE_ASSOC + index * SET_SIZE) id 8) fun _ => emRet true   -- 265-269

/-- `NodeAssociationTableV0p2::get` — Security.cpp 272-278: what is then at `dest`, where `was` was before. -/
def tableGet (m : EE) (index : Nat) (was : Bytes) : Bytes :=
  if index ≥ MAX_SETS then was else eeBlock m (EE_ASSOC + index * SET_SIZE) 8   -- 274, 276-277

/-- `NodeAssociationTableMock` — Security.h 116-136: `buf`, 8 rows of 8 bytes, all 255 when constructed (Security.cpp 236-239). -/
def mockNew : Bytes := List.replicate (MAX_SETS * 8) 255

/-- `NodeAssociationTableMock::set` — Security.cpp 241-250. -/
def mockSet (buf : Bytes) (index : Nat) (src : Option Bytes) : Bool × Bytes :=
  match src with
  | none => (false, buf)                                                        -- 243
  | some id =>
    if index ≥ MAX_SETS then (false, buf)                                       -- 243
    else (true, buf.take (index * 8) ++ id.take 8 ++ buf.drop (index * 8 + 8))  -- 245-249

/-- `NodeAssociationTableMock::get` — Security.cpp 252-258. -/
def mockGet (buf : Bytes) (index : Nat) (was : Bytes) : Bytes :=
  if index ≥ MAX_SETS then was else (buf.drop (index * 8)).take 8               -- 254-257

/-- Loop of `getNextMatchingNodeIDGeneric` — Security.h 180-198, for a table given by its `get`; `k` rows are left. -/
def genFrom (get : Nat → Bytes → Bytes) (pre : Bytes) (plen : Nat) : Nat → Nat → Option (Nat × Bytes)
  | 0, _ => none
  | k + 1, i =>
    let temp := get i (List.replicate 8 0)
    if temp[0]?.getD 0 = 0xff then none
    else if plen = 0 ∨ memcmp (temp.take plen) (pre.take plen) = 0 then some (i, temp)
    else genFrom get pre plen k (i + 1)

/-- `getNextMatchingNodeIDGeneric` — Security.h 171-201: -1 is `none`; otherwise the index, and the ID as copied to `nodeID` if that is not NULL.
`pre = none` is a NULL prefix; otherwise at least `plen` accessible bytes. -/
def getNextGeneric (get : Nat → Bytes → Bytes) (index : Nat) (pre : Option Bytes) (plen : Nat) : Option (Nat × Bytes) :=
  if index ≥ MAX_SETS then none
  else if plen > 8 then none
  else match pre with
    | none => if plen ≠ 0 then none else genFrom get [] plen (MAX_SETS - index) index
    | some p => genFrom get p plen (MAX_SETS - index) index

end OTR
