import Verif.Proof.CRCBits
/-!
# Properties C30-C31: the 7-bit CRC
-/

namespace OTR.Props
open OTR Polynomial

/-! ## C30 -/

/-- **C30.** Two messages whose bit strings (most significant bit first) agree except within one run of at most
7 bits, and do differ there, have different CRCs from any start value.  A single wrong bit is the run of length 1. -/
theorem C30_burst (init : Byte) (m1 m2 : Bytes) (pre b1 b2 suf : List Bool)
    (h1 : msgBits m1 = pre ++ b1 ++ suf) (h2 : msgBits m2 = pre ++ b2 ++ suf)
    (hlen : b1.length = b2.length) (h7 : b1.length ≤ 7) (hne : b1 ≠ b2) :
    m1.foldl crc7_5B_update init ≠ m2.foldl crc7_5B_update init := by
  intro heq
  have hb : b1 ≠ [] := by rintro rfl; exact hne (List.eq_nil_of_length_eq_zero (by simpa using hlen.symm)).symm
  have hb2 : b2 ≠ [] := by rintro rfl; exact hb (List.eq_nil_of_length_eq_zero (by simpa using hlen))
  have n1 : m1 ≠ [] := by rintro rfl; simp [msgBits] at h1; exact hb h1.2.1
  have n2 : m2 ≠ [] := by rintro rfl; simp [msgBits] at h2; exact hb2 h2.2.1
  have e1 := crc7_bits init m1 (Or.inr n1)
  have e2 := crc7_bits init m2 (Or.inr n2)
  unfold crc7 at e1 e2
  rw [e1, e2, h1, h2] at heq
  simp only [List.foldl_append] at heq
  have hi : (init &&& 0x7f).toNat < 128 := by clear * -; revert init; apply forall_byte; decide +kernel
  have hp := foldl_step7_lt pre _ hi
  have h3 := foldl_step7_inj suf _ _ (foldl_step7_lt _ _ hp) (foldl_step7_lt _ _ hp) heq
  have h4 := foldl_step7_xor b1 b2 hlen (pre.foldl step7 (init &&& 0x7f)) (pre.foldl step7 (init &&& 0x7f))
  rw [h3, UInt8.xor_self, UInt8.xor_self] at h4
  exact hne (zipWith_xor_false b1 b2 hlen (short_ne _ (by simp [hlen]; omega) h4))

/-- **C30, one bit.** Flipping any one bit of any byte of a message changes its CRC. -/
theorem C30_single_bit (init : Byte) (p s : Bytes) (x : Byte) (k : Nat) (hk : k < 8) :
    (p ++ x :: s).foldl crc7_5B_update init ≠ (p ++ (x ^^^ u8 (2 ^ k)) :: s).foldl crc7_5B_update init := by
  have hx : x ^^^ (x ^^^ u8 (2 ^ k)) = u8 (2 ^ k) := by rw [← UInt8.xor_assoc, UInt8.xor_self, UInt8.zero_xor]
  apply crc7_byte_error init p
  · rw [hx]; have : k = 0 ∨ k = 1 ∨ k = 2 ∨ k = 3 ∨ k = 4 ∨ k = 5 ∨ k = 6 ∨ k = 7 := by omega
    rcases this with h | h | h | h | h | h | h | h <;> subst h <;> decide +kernel
  · rw [hx]; have : k = 0 ∨ k = 1 ∨ k = 2 ∨ k = 3 ∨ k = 4 ∨ k = 5 ∨ k = 6 ∨ k = 7 := by omega
    rcases this with h | h | h | h | h | h | h | h <;> subst h <;> decide +kernel

/-- Non-vacuity: a 7-bit burst across a byte boundary. -/
example : msgBits [0x12, 0x34, 0x56] = [false, false, false, true, false, false] ++
      [true, false, false, false, true, true, false] ++ [true, false, false, false, true, false, true, false, true, true, false]
    ∧ msgBits [0x11, 0xd4, 0x56] = [false, false, false, true, false, false] ++
      [false, true, true, true, false, true, false] ++ [true, false, false, false, true, false, true, false, true, true, false] := by
  decide +kernel

/-- The bound 7 is tight: the 8-bit burst 0xB7 goes undetected. -/
theorem C30_bound_tight : [0x00].foldl crc7_5B_update 0x7f = [0xB7].foldl crc7_5B_update 0x7f := by decide +kernel

/-! ## C31 -/

/-- **C31, range.** The CRC of any non-empty message, from any start value, is a 7-bit value (and one update of
the never-zero final variant is in 1..128). -/
theorem C31_range (init : Byte) (m : Bytes) (x : Byte) :
    ((m ++ [x]).foldl crc7_5B_update init).toNat < 128 ∧
    (crc7_5B_update_nz_final (m.foldl crc7_5B_update init) x ≠ 0 ∧
     (crc7_5B_update_nz_final (m.foldl crc7_5B_update init) x).toNat ≤ 128) := by
  have h : ((m ++ [x]).foldl crc7_5B_update init).toNat < 128 := by
    rw [List.foldl_append]; exact crc7_update_lt _ _
  refine ⟨h, ?_⟩
  rw [List.foldl_append, List.foldl_cons, List.foldl_nil] at h
  unfold crc7_5B_update_nz_final
  dsimp only
  split
  · exact ⟨by assumption, by omega⟩
  · decide

/-- **C31, remainder.** Read as polynomials over GF(2), the CRC of message `m` with start value `init` is the
remainder of `init·x^(8n) + m·x^7` modulo `x^7+x^5+x^4+x^2+x+1`. -/
theorem C31_remainder (init : Byte) (m : Bytes) (h : m ≠ []) :
    regPoly (m.foldl crc7_5B_update init)
      = (regPoly init * X ^ (8 * m.length) + bitsPoly (msgBits m) * X ^ 7) %ₘ genPoly := by
  have e1 := crc7_bits init m (Or.inr h)
  unfold crc7 at e1
  rw [e1, regPoly_mod, msgBits_length]
  have : regPoly (init &&& 0x7f) = regPoly init := by
    have hb : ([6, 5, 4, 3, 2, 1, 0].map (fun i => (init &&& 0x7f).toNat.testBit i))
        = [6, 5, 4, 3, 2, 1, 0].map (fun i => init.toNat.testBit i) := by
      clear * -; revert init; apply forall_byte; decide +kernel
    unfold regPoly; rw [hb]
  rw [this]

/-- The polynomial determines the CRC value: distinct 7-bit values are distinct polynomials. -/
theorem C31_regPoly_inj (a b : Byte) (ha : a.toNat < 128) (hb : b.toNat < 128) (h : regPoly a = regPoly b) : a = b := by
  rw [regPoly_eq, regPoly_eq] at h
  have hz : ∀ x y : Bool, z2 x = z2 y → x = y := by decide
  have hc : ∀ i, i < 7 → a.toNat.testBit i = b.toNat.testBit i := by
    intro i hi
    have hco := congrArg (fun p => coeff p i) h
    have : i = 0 ∨ i = 1 ∨ i = 2 ∨ i = 3 ∨ i = 4 ∨ i = 5 ∨ i = 6 := by omega
    rcases this with h | h | h | h | h | h | h <;> subst h <;>
      simp [coeff_X, coeff_C, coeff_X_pow, -Nat.testBit_zero] at hco <;> exact hz _ _ hco
  apply byte_ext
  apply Nat.eq_of_testBit_eq
  intro i
  by_cases hi : i < 7
  · exact hc i hi
  · rw [Nat.testBit_lt_two_pow (Nat.lt_of_lt_of_le ha (Nat.pow_le_pow_right (n := 2) (i := 7) (by omega) (by omega))),
        Nat.testBit_lt_two_pow (Nat.lt_of_lt_of_le hb (Nat.pow_le_pow_right (n := 2) (i := 7) (by omega) (by omega)))]

/-- Non-vacuity: a concrete non-empty message. -/
example : ([0x01, 0xfe] : Bytes) ≠ [] ∧ [0x01, 0xfe].foldl crc7_5B_update 0x7f = 0x58 := by decide +kernel

end OTR.Props
