import Verif.Model.EEPROM
import Verif.Model.Counter
/-!
# Node associations and building key in EEPROM — `U/OTV0P2BASE_Security.{h,cpp}`
-/

namespace OTR

/-- Run a routine for each element in order. (The language in which the EEPROM routines are modelled; no code of its own.) -/
def emForEach {α β : Type} (f : β → EM α) : List β → EM Unit
  | [] => emRet ()
  | x :: t => emBind (f x) fun _ => emForEach f t

/-- `V0P2BASE_EE_START_NODE_ASSOCIATIONS` — EEPROM.h 216. -/
notation "EE_ASSOC" => (768 : Nat)
/-- `V0P2BASE_EE_NODE_ASSOCIATIONS_SET_SIZE` — EEPROM.h 217. -/
notation "SET_SIZE" => (32 : Nat)
/-- `V0P2BASE_EE_NODE_ASSOCIATIONS_MAX_SETS` — EEPROM.h 233. -/
notation "MAX_SETS" => (8 : Nat)
/-- `VOP2BASE_EE_START_16BYTE_PRIMARY_BUILDING_KEY` — EEPROM.h 177. -/
notation "EE_KEY" => (112 : Nat)

/-- Address of association row `i` — Security.cpp 196, 265. -/
def assocRow (i : Nat) : Nat := EE_ASSOC + i * SET_SIZE

/-- `NodeAssociationTableV0p2::get` — Security.cpp 272-278 (index in range): the row's 8 ID bytes. -/
def rowID (m : EE) (i : Nat) : Bytes := eeBlock m (assocRow i) 8

/-- `clearAllNodeAssociations` — Security.cpp 160-172. -/
def clearAllNodeAssociations : EM Unit := emForEach (fun i => smartErase (assocRow i)) (List.range MAX_SETS)

/-- Loop of `countNodeAssociations` — Security.cpp 182-183, at row `i` with `k` rows left. -/
def countFrom (m : EE) : Nat → Nat → Nat
  | 0, _ => MAX_SETS                                                            -- 184
  | k + 1, i => if m (assocRow i) = 0xff then i else countFrom m k (i + 1)      -- 183

/-- `countNodeAssociations` — Security.cpp 177-185. -/
def countNodeAssociations (m : EE) : Nat := countFrom m MAX_SETS 0

/-- `getNodeAssociation` — Security.cpp 192-199 (non-NULL buffer). -/
def getNodeAssociation (m : EE) (index : Nat) : Option Bytes :=
  if index ≥ countNodeAssociations m then none else some (rowID m index)

/-- Inner loop of `addNodeAssociation` — Security.cpp 214-221: the ID bytes, then erase the rest of the row. -/
def writeRow (row : Nat) (id : Bytes) : EM Unit :=
  emForEach (fun j => if j < 8 then smartUpdate true (row + j) (id[j]?.getD 0) else smartErase (row + j))
    (List.range SET_SIZE)

/-- Outer loop of `addNodeAssociation` — Security.cpp 212-226. Result `none` is -1. -/
def addFrom (id : Bytes) : Nat → Nat → EM (Option Nat)
  | 0, _ => emRet none                                                          -- 226
  | k + 1, i => eeRead (assocRow i) fun b =>                                    -- 213
      emIf (b = 0xff) (emBind (writeRow (assocRow i) id) fun _ => emRet (some i)) <|   -- 214-222
      addFrom id k (i + 1)                                                      -- 224

/-- `addNodeAssociation` — Security.cpp 208-227. `id` is the 8 accessible bytes at the pointer. -/
def addNodeAssociation (id : Bytes) : EM (Option Nat) := addFrom id MAX_SETS 0

/-- Loop of `getNextMatchingNodeID` — Security.h 251-266. -/
def findFrom (m : EE) (pre : Bytes) : Nat → Nat → Option Nat
  | 0, _ => none                                                                -- 269
  | k + 1, i =>
    if (rowID m i)[0]?.getD 0 = 0xff then none                                  -- 255
    else if pre.length = 0 ∨ memcmp ((rowID m i).take pre.length) pre = 0 then some i   -- 259-264
    else findFrom m pre k (i + 1)

/-- `getNextMatchingNodeID` — Security.h 236-270, for a prefix of exactly the given bytes; -1 is `none`.
(The matched row's ID is also copied out: `rowID m i`.) -/
def getNextMatchingNodeID (m : EE) (index : Nat) (pre : Bytes) : Option Nat :=
  if index ≥ MAX_SETS then none                                                 -- 244
  else if pre.length > 8 then none                                              -- 245
  else findFrom m pre (MAX_SETS - index) index

/-- `setPrimaryBuilding16ByteSecretKey` — Security.cpp 107-126; `none` is a NULL key (erase). -/
def setKey (key : Option Bytes) : EM Bool :=
  match key with
  | none => emBind (emForEach (fun i => smartErase (EE_KEY + i)) (List.range 16)) fun _ => emRet true   -- 110-115
  | some k => emBind (emForEach (fun i => smartUpdate true (EE_KEY + i) (k[i]?.getD 0)) (List.range 16)) fun _ =>  -- 118-121
      fun m => ((List.range 16).all fun i => k[i]?.getD 0 == m (EE_KEY + i), [])    -- 124, 131-137

/-- `getPrimaryBuilding16ByteSecretKey` — Security.cpp 144-154: success flag and the bytes copied out. -/
def getKey (m : EE) : Bool × Bytes :=
  let key := eeBlock m EE_KEY 16
  (key.any (· != 0xff), key)

/-- `validIDByte` — Security.h 65. -/
def validIDByte (v : Byte) : Bool := (0x80 &&& v) != 0 && v != 0xff

/-- The retry loop of `ensureIDCreated`, Security.cpp 67-77. The random source (`getSecureRandomByte`) is the list `rnd`; bytes are
consumed until `0x80 | r` is not 0xff. `none`: the supplied randomness ran out inside the loop (the call does not return). -/
def ensureCell (rnd : Bytes) : Option (Byte × Bytes) :=
  match rnd with
  | [] => none
  | r :: t => if (0x80 ||| r) = 0xff then ensureCell t else some (0x80 ||| r, t)

notation "EE_ID" => (20 : Nat)

/-- The loop of `ensureIDCreated` over the ID bytes `i` to `i + k - 1`, Security.cpp 59-92. -/
def ensureFrom (force : Bool) : Nat → Nat → Bytes → EM (Option Bool)
  | 0, _, _ => emRet (some true)                                                -- 94
  | k + 1, i, rnd => eeRead (EE_ID + i) fun b =>
    match (if force ∨ b = 0xff then ensureCell rnd else some (b, rnd)) with    -- 62, 67-77
    | none => emRet none
    | some (v, rnd') =>
      emBind (if force ∨ b = 0xff then smartUpdate true (EE_ID + i) v else emRet false) fun _ =>   -- 74
      eeRead (EE_ID + i) fun v2 =>                                              -- 81
      emIf (validIDByte v2 = false) (emRet (some false)) <|                     -- 82-91
      ensureFrom force k (i + 1) rnd'

/-- `ensureIDCreated(force)`, Security.cpp 56-95; `none`: did not return (randomness ran out). -/
def ensureIDCreated (force : Bool) (rnd : Bytes) : EM (Option Bool) := ensureFrom force 8 0 rnd

end OTR
