import Verif.Model.Jeelabs
/-! # The 16-bit CRC: linearity, residue, error detection -/

namespace OTR

theorem crc16Bit_xor (x y : BitVec 16) : crc16Bit (x ^^^ y) = crc16Bit x ^^^ crc16Bit y := by
  unfold crc16Bit
  rw [BitVec.getLsbD_xor, BitVec.ushiftRight_xor_distrib]
  cases x.getLsbD 0 <;> cases y.getLsbD 0 <;> simp
  · rw [BitVec.xor_assoc]
  · rw [BitVec.xor_assoc, BitVec.xor_assoc, BitVec.xor_comm (y >>> 1)]
  · rw [BitVec.xor_comm (y >>> 1) 0xA001#16, ← BitVec.xor_assoc, BitVec.xor_assoc (x >>> 1), BitVec.xor_self, BitVec.xor_zero]

theorem crc16Bit_zero (x : BitVec 16) (h : crc16Bit x = 0#16) : x = 0#16 := by
  unfold crc16Bit at h
  by_cases hb : x.getLsbD 0 = true
  · rw [if_pos hb] at h
    have := congrArg (fun v => v.getLsbD 15) h
    simp [BitVec.getLsbD_xor, BitVec.getLsbD_ushiftRight] at this
  · rw [if_neg hb] at h
    apply BitVec.eq_of_getLsbD_eq
    intro i hi
    cases i with
    | zero => simpa using hb
    | succ k =>
      have := congrArg (fun v => v.getLsbD k) h
      simp [BitVec.getLsbD_ushiftRight] at this
      rw [Nat.add_comm] at this
      simpa using this

/-- Eight bits. -/
def crc16Byte (x : BitVec 16) : BitVec 16 :=
  crc16Bit (crc16Bit (crc16Bit (crc16Bit (crc16Bit (crc16Bit (crc16Bit (crc16Bit x)))))))

theorem crc16Update_eq (c : BitVec 16) (a : Byte) : crc16Update c a = crc16Byte (c ^^^ BitVec.ofNat 16 a.toNat) := rfl

theorem crc16Byte_xor (x y : BitVec 16) : crc16Byte (x ^^^ y) = crc16Byte x ^^^ crc16Byte y := by
  simp only [crc16Byte, crc16Bit_xor]

theorem crc16Byte_zero (x : BitVec 16) (h : crc16Byte x = 0#16) : x = 0#16 := by
  unfold crc16Byte at h
  iterate 8 replace h := crc16Bit_zero _ h
  exact h

theorem bv_xor_eq_zero {x y : BitVec 16} (h : x ^^^ y = 0#16) : x = y := by
  have : (x ^^^ y) ^^^ y = y := by rw [h, BitVec.zero_xor]
  rwa [BitVec.xor_assoc, BitVec.xor_self, BitVec.xor_zero] at this

theorem crc16Byte_inj (x y : BitVec 16) (h : crc16Byte x = crc16Byte y) : x = y := by
  have : crc16Byte (x ^^^ y) = 0#16 := by rw [crc16Byte_xor, h, BitVec.xor_self]
  exact bv_xor_eq_zero (crc16Byte_zero _ this)

theorem bv_xor_cancel_right {x y z : BitVec 16} (h : x ^^^ z = y ^^^ z) : x = y := by
  have := congrArg (· ^^^ z) h
  simpa [BitVec.xor_assoc] using this

theorem crc16Update_inj (c d : BitVec 16) (a : Byte) (h : crc16Update c a = crc16Update d a) : c = d := by
  rw [crc16Update_eq, crc16Update_eq] at h
  exact bv_xor_cancel_right (crc16Byte_inj _ _ h)

theorem crc16Update_inj_byte (c : BitVec 16) (a b : Byte) (h : crc16Update c a = crc16Update c b) : a = b := by
  rw [crc16Update_eq, crc16Update_eq] at h
  have h := crc16Byte_inj _ _ h
  rw [BitVec.xor_comm c, BitVec.xor_comm c] at h
  have h := congrArg BitVec.toNat (bv_xor_cancel_right h)
  simp only [BitVec.toNat_ofNat] at h
  have := byte_lt a
  have := byte_lt b
  apply byte_ext
  omega

theorem crc16_foldl_inj (m : Bytes) (c d : BitVec 16) (h : m.foldl crc16Update c = m.foldl crc16Update d) : c = d := by
  induction m generalizing c d with
  | nil => exact h
  | cons a m ih => exact crc16Update_inj _ _ a (ih _ _ h)

/-- Changing one byte changes the CRC. -/
theorem crc16_byte_error (p s : Bytes) (x y : Byte) (h : x ≠ y) : crc16 (p ++ x :: s) ≠ crc16 (p ++ y :: s) := by
  intro e
  unfold crc16 at e
  simp only [List.foldl_append, List.foldl_cons] at e
  exact h (crc16Update_inj_byte _ _ _ (crc16_foldl_inj s _ _ e))

theorem crc16Bit_low (x : BitVec 16) (h : x.getLsbD 0 = false) : crc16Bit x = x >>> 1 := by
  unfold crc16Bit; rw [if_neg (by rw [h]; exact Bool.false_ne_true)]

theorem crc16Byte_low (x : BitVec 16) (h : ∀ i, i < 8 → x.getLsbD i = false) : crc16Byte x = x >>> 8 := by
  have key : ∀ k, k ≤ 7 → crc16Bit (x >>> k) = x >>> (k + 1) := by
    intro k hk
    rw [crc16Bit_low, BitVec.shiftRight_add]
    simp [BitVec.getLsbD_ushiftRight]
    exact h k (by omega)
  have h0 : crc16Bit x = x >>> 1 := by have := key 0 (by omega); simpa using this
  unfold crc16Byte
  rw [h0, key 1 (by omega), key 2 (by omega), key 3 (by omega), key 4 (by omega), key 5 (by omega), key 6 (by omega), key 7 (by omega)]

/-- Feeding a byte equal to the low half of the register just shifts the register. -/
theorem crc16Update_low (c : BitVec 16) : crc16Update c (u8 (c.toNat % 256)) = c >>> 8 := by
  have hlow : ∀ i, (BitVec.ofNat 16 (u8 (c.toNat % 256)).toNat).getLsbD i = (decide (i < 8) && c.getLsbD i) := by
    intro i
    have : (u8 (c.toNat % 256)).toNat = c.toNat % 2 ^ 8 := by
      simp [u8]
    rw [this, BitVec.getLsbD_ofNat, Nat.testBit_mod_two_pow]
    by_cases hi : i < 8
    · simp [hi, show i < 16 by omega, BitVec.getLsbD]
    · simp [hi]
  rw [crc16Update_eq, crc16Byte_low]
  · apply BitVec.eq_of_getLsbD_eq
    intro i _
    rw [BitVec.getLsbD_ushiftRight, BitVec.getLsbD_ushiftRight, BitVec.getLsbD_xor, hlow, show decide (8 + i < 8) = false from decide_eq_false (by omega), Bool.false_and, Bool.xor_false]
  · intro i hi
    rw [BitVec.getLsbD_xor, hlow]
    simp [hi]

/-- Residue: a message followed by its CRC, low byte first, has CRC zero. -/
theorem crc16_residue (m : Bytes) :
    crc16 (m ++ [u8 ((crc16 m).toNat % 256), u8 ((crc16 m).toNat / 256)]) = 0#16 := by
  generalize hc : crc16 m = c
  unfold crc16 at hc ⊢
  rw [List.foldl_append, hc]
  simp only [List.foldl_cons, List.foldl_nil]
  rw [crc16Update_low]
  have h2 : (c >>> 8).toNat = c.toNat / 256 := by
    rw [BitVec.toNat_ushiftRight, Nat.shiftRight_eq_div_pow]
  have hl : c.toNat / 256 % 256 = c.toNat / 256 := by have := c.isLt; omega
  have : u8 (c.toNat / 256) = u8 ((c >>> 8).toNat % 256) := by rw [h2, hl]
  rw [this, crc16Update_low]
  apply BitVec.eq_of_toNat_eq
  rw [BitVec.toNat_ushiftRight, h2, Nat.shiftRight_eq_div_pow]
  have := c.isLt
  simp
  omega

end OTR
