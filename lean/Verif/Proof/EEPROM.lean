import Verif.Model.EEPROM
/-! # EEPROM lemmas -/

namespace OTR

@[simp] theorem EE.upd_same (m : EE) (a : Nat) (v : Byte) : m.upd a v a = v := by simp [EE.upd]
theorem EE.upd_other (m : EE) {a b : Nat} (v : Byte) (h : b ≠ a) : m.upd a v b = m b := by simp [EE.upd, h]
@[simp] theorem applyW_nil (m : EE) : applyW m [] = m := rfl
@[simp] theorem applyW_cons (m : EE) (w : Wr) (ws : List Wr) : applyW m (w :: ws) = applyW (m.upd w.1 w.2) ws := rfl
theorem applyW_append (m : EE) (u w : List Wr) : applyW m (u ++ w) = applyW (applyW m u) w := by
  simp [applyW, List.foldl_append]

theorem EE.upd_eq_self (m : EE) (a : Nat) (v : Byte) (h : m a = v) : m.upd a v = m := by
  funext x; unfold EE.upd; split
  · rename_i hx; rw [hx, h]
  · rfl

/-- A write list that touches no address in a set leaves it alone. -/
theorem applyW_other (m : EE) (ws : List Wr) (a : Nat) (h : ∀ w ∈ ws, w.1 ≠ a) : applyW m ws a = m a := by
  induction ws generalizing m with
  | nil => rfl
  | cons w ws ih =>
    rw [applyW_cons, ih _ (fun w' hw' => h w' (by simp [hw']))]
    exact EE.upd_other _ _ (fun hh => h w (by simp) hh.symm)

/-- The writes of a "smart" update: none if the cell already has the value. -/
def wr1 (m : EE) (a : Nat) (v : Byte) : List Wr := if m a = v then [] else [(a, v)]

theorem applyW_wr1 (m : EE) (a : Nat) (v : Byte) : applyW m (wr1 m a v) = m.upd a v := by
  unfold wr1; split
  · rename_i h; rw [EE.upd_eq_self m a v h]; rfl
  · rfl

theorem smartErase_eq (a : Nat) (m : EE) : smartErase a m = (decide (m a ≠ 0xff), wr1 m a 0xff) := by
  simp only [smartErase, emBind, emIf, emRet, eeRead, eeWrite, wr1, List.append_nil]
  by_cases h : m a = 0xff
  · simp [h]
  · simp [h]

theorem smartClearBits_eq (a : Nat) (mask : Byte) (m : EE) :
    smartClearBits a mask m = (decide (m a ≠ m a &&& mask), wr1 m a (m a &&& mask)) := by
  simp only [smartClearBits, emBind, emIf, emRet, eeRead, eeWrite, wr1, List.append_nil]
  generalize m a &&& mask = w
  by_cases h : m a = w
  · simp [h]
  · simp [h]

/-- Both builds of `eeprom_smart_update_byte` do the same to the cell. -/
theorem smartUpdate_eq (split : Bool) (a : Nat) (v : Byte) (m : EE) :
    smartUpdate split a v m = (decide (m a ≠ v), wr1 m a v) := by
  simp only [smartUpdate, emIf]
  by_cases hv : v = 0xff
  · rw [if_pos hv, hv, smartErase_eq]
  rw [if_neg hv]
  simp only [emIf, eeRead]
  by_cases h : v = m a
  · simp [h, emRet, wr1]
  · have hne : m a ≠ v := fun hh => h hh.symm
    rw [if_neg h]
    split
    · rename_i h2
      rw [smartClearBits_eq]
      have h3 : m a &&& v = v := by
        have e : m a &&& v = v &&& m a := by
          apply UInt8.toBitVec_inj.mp; simp [BitVec.and_comm]
        rw [e]; exact h2.2.symm
      rw [h3]
    · simp [emRet, emBind, eeWrite, wr1, hne]

theorem eeBlock_length (m : EE) (a n : Nat) : (eeBlock m a n).length = n := by simp [eeBlock]

theorem eeBlock_get (m : EE) (a n i : Nat) (h : i < n) : (eeBlock m a n)[i]? = some (m (a + i)) := by
  simp [eeBlock, h]

theorem eeBlock_congr {m m' : EE} {a n : Nat} (h : ∀ i, i < n → m (a + i) = m' (a + i)) :
    eeBlock m a n = eeBlock m' a n := by
  apply List.ext_getElem?
  intro i
  by_cases hi : i < n
  · rw [eeBlock_get m a n i hi, eeBlock_get m' a n i hi, h i hi]
  · rw [List.getElem?_eq_none (by rw [eeBlock_length]; omega), List.getElem?_eq_none (by rw [eeBlock_length]; omega)]

end OTR
