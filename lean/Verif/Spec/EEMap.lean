/-! # The EEPROM map

Specification, from the memory map in `OTV0P2BASE_EEPROM.h` 84-240: which cells belong to what. Each area is `[lo, hi)`. Two areas are as the code
has them, one longer than the map says: the parameters end at 64, not 63 (see C124), and the statistics area ends after 15 sets of 24, not 14
(`V0P2BASE_EE_END_STATS`); both extra ranges belong to nothing else.
-/

namespace OTR.Spec

inductive EEUse where
  | seed | clock | schedule | thresholds | houseCode | boilerMins | minOpen | nodeID | privacy | parameters | txCounter | key | stats | associations
deriving DecidableEq, Repr

def EEUse.area : EEUse → Nat × Nat
  | .seed => (2, 6)
  | .clock => (8, 11)
  | .schedule => (12, 14)
  | .thresholds => (14, 16)
  | .houseCode => (16, 18)
  | .boilerMins => (18, 19)
  | .minOpen => (19, 20)
  | .nodeID => (20, 28)
  | .privacy => (28, 29)
  | .parameters => (32, 65)
  | .txCounter => (104, 112)
  | .key => (112, 128)
  | .stats => (256, 616)
  | .associations => (768, 1024)

/-- Address `a` belongs to `u`. -/
def EEUse.owns (u : EEUse) (a : Nat) : Prop := u.area.1 ≤ a ∧ a < u.area.2

end OTR.Spec
