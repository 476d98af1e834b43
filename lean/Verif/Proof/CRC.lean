import Verif.Model.CRC
/-! # CRC algebra: helper lemmas -/

namespace OTR

/-- The whole-message CRC from start value `init`. -/
def crc7 (init : Byte) (msg : Bytes) : Byte := msg.foldl crc7_5B_update init

def masks : List Byte := [0x80, 0x40, 0x20, 0x10, 0x08, 0x04, 0x02, 0x01]

theorem and_mask (i : Byte) (hi : i ∈ masks) (x : Byte) :
    x &&& i = 0 ∨ x &&& i = i := by
  revert x
  simp only [masks, List.mem_cons, List.not_mem_nil, or_false] at hi
  rcases hi with h | h | h | h | h | h | h | h <;> subst h <;> apply forall_byte <;> decide +kernel

theorem xor_and_distrib8 (x y i : Byte) : (x ^^^ y) &&& i = (x &&& i) ^^^ (y &&& i) := by
  rw [← UInt8.toBitVec_inj]
  simp only [UInt8.toBitVec_and, UInt8.toBitVec_xor]
  ext j hj
  simp only [BitVec.getElem_and, BitVec.getElem_xor]
  cases x.toBitVec[j] <;> cases y.toBitVec[j] <;> cases i.toBitVec[j] <;> rfl

theorem xor_cancel8 (p q k : Byte) : (p ^^^ k) ^^^ (q ^^^ k) = p ^^^ q := by
  rw [← UInt8.toBitVec_inj]
  simp only [UInt8.toBitVec_xor]
  ext j hj
  simp only [BitVec.getElem_xor]
  cases p.toBitVec[j] <;> cases q.toBitVec[j] <;> cases k.toBitVec[j] <;> rfl

theorem xor_right8 (p q k : Byte) : (p ^^^ q) ^^^ k = (p ^^^ k) ^^^ q := by
  rw [← UInt8.toBitVec_inj]
  simp only [UInt8.toBitVec_xor]
  ext j hj
  simp only [BitVec.getElem_xor]
  cases p.toBitVec[j] <;> cases q.toBitVec[j] <;> cases k.toBitVec[j] <;> rfl

theorem xor_eq_zero8 {x y : Byte} : x ^^^ y = 0 ↔ x = y := UInt8.xor_eq_zero_iff

theorem mask_xor (i : Byte) (hi : i ∈ masks) (x y : Byte) :
    (((x ^^^ y) &&& i) != 0) = (((x &&& i) != 0) ^^ ((y &&& i) != 0)) := by
  rw [xor_and_distrib8]
  rcases and_mask i hi x with h1 | h1 <;> rcases and_mask i hi y with h2 | h2 <;> simp [h1, h2]

theorem shl_xor (x y : Byte) : (x ^^^ y) <<< 1 = (x <<< 1) ^^^ (y <<< 1) := by
  rw [← UInt8.toBitVec_inj]; simp [BitVec.shiftLeft_xor_distrib]

theorem crc7_bit_xor (i : Byte) (hi : i ∈ masks) (x y a b : Byte) :
    crc7_5B_bit (x ^^^ y) (a ^^^ b) i = crc7_5B_bit x a i ^^^ crc7_5B_bit y b i := by
  unfold crc7_5B_bit
  rw [mask_xor i hi, mask_xor 0x40 (by decide), shl_xor]
  generalize a <<< 1 = p
  generalize b <<< 1 = q
  cases ((x &&& i) != 0) <;> cases ((y &&& i) != 0) <;> cases ((a &&& 0x40) != 0) <;> cases ((b &&& 0x40) != 0) <;>
    simp <;> first | exact (xor_cancel8 p q 0x37).symm | exact xor_right8 p q 0x37 | exact UInt8.xor_assoc p q 0x37

theorem foldl_bit_xor (l : List Byte) (hl : ∀ i ∈ l, i ∈ masks) (x y a b : Byte) :
    l.foldl (fun c i => crc7_5B_bit (x ^^^ y) c i) (a ^^^ b) =
      l.foldl (fun c i => crc7_5B_bit x c i) a ^^^ l.foldl (fun c i => crc7_5B_bit y c i) b := by
  induction l generalizing a b with
  | nil => rfl
  | cons i l ih =>
    simp only [List.foldl_cons]
    rw [crc7_bit_xor i (hl i (by simp)), ih (fun j hj => hl j (by simp [hj]))]

/-- One byte of CRC is linear over XOR. -/
theorem crc7_update_xor (a b x y : Byte) :
    crc7_5B_update (a ^^^ b) (x ^^^ y) = crc7_5B_update a x ^^^ crc7_5B_update b y := by
  unfold crc7_5B_update
  rw [foldl_bit_xor _ (by decide), xor_and_distrib8]

theorem crc7_update_lt (a x : Byte) : (crc7_5B_update a x).toNat < 128 := by
  unfold crc7_5B_update
  generalize List.foldl _ _ _ = z
  revert z; apply forall_byte; decide +kernel

theorem crc7_lt (init : Byte) (h : init.toNat < 128) (m : Bytes) : (crc7 init m).toNat < 128 := by
  induction m generalizing init with
  | nil => simpa [crc7]
  | cons b m ih => exact ih _ (crc7_update_lt _ _)

theorem xor_lt128 {a b : Byte} (ha : a.toNat < 128) (hb : b.toNat < 128) : (a ^^^ b).toNat < 128 := by
  rw [UInt8.toNat_xor]
  exact Nat.xor_lt_two_pow (n := 7) ha hb

/-- A non-zero register stays non-zero when zero bits are shifted in. -/
theorem crc7_update_zero_ne (d : Byte) (hd : d.toNat < 128) (hne : d ≠ 0) : crc7_5B_update d 0 ≠ 0 := by
  revert d; apply forall_byte; decide +kernel

/-- For equal data, the CRC step is injective in the register. -/
theorem crc7_update_inj_reg (a b x : Byte) (ha : a.toNat < 128) (hb : b.toNat < 128)
    (h : crc7_5B_update a x = crc7_5B_update b x) : a = b := by
  have h1 := crc7_update_xor a b x x
  rw [h, UInt8.xor_self, UInt8.xor_self] at h1
  by_cases hab : a ^^^ b = 0
  · exact xor_eq_zero8.mp hab
  · exact absurd h1 (crc7_update_zero_ne _ (xor_lt128 ha hb) hab)

theorem crc7_inj_init (m : Bytes) (a b : Byte) (ha : a.toNat < 128) (hb : b.toNat < 128)
    (h : crc7 a m = crc7 b m) : a = b := by
  induction m generalizing a b with
  | nil => exact h
  | cons x m ih =>
    exact crc7_update_inj_reg a b x ha hb (ih _ _ (crc7_update_lt _ _) (crc7_update_lt _ _) h)

theorem crc7_append (a : Byte) (m n : Bytes) : crc7 a (m ++ n) = crc7 (crc7 a m) n := by
  simp [crc7, List.foldl_append]

/-- The only single-byte error pattern the 7-bit CRC misses is 0xB7 (the generator itself). -/
theorem crc7_update_err (e : Byte) (he : e ≠ 0) (he2 : e ≠ 0xB7) : crc7_5B_update 0 e ≠ 0 := by
  revert e; apply forall_byte; decide +kernel

theorem crc7_update_ne_of_err (c x y : Byte) (h : x ^^^ y ≠ 0) (h2 : x ^^^ y ≠ 0xB7) :
    crc7_5B_update c x ≠ crc7_5B_update c y := by
  intro heq
  have h1 := crc7_update_xor c c x y
  rw [heq, UInt8.xor_self, UInt8.xor_self] at h1
  exact crc7_update_err _ h h2 h1

/-- Messages differing in one byte, by any pattern other than 0xB7, have different CRCs. -/
theorem crc7_byte_error (init : Byte) (p : Bytes) (x y : Byte) (s : Bytes)
    (h : x ^^^ y ≠ 0) (h2 : x ^^^ y ≠ 0xB7) :
    crc7 init (p ++ x :: s) ≠ crc7 init (p ++ y :: s) := by
  intro heq
  rw [crc7_append, crc7_append] at heq
  exact crc7_update_ne_of_err _ _ _ h h2
    (crc7_inj_init s _ _ (crc7_update_lt _ _) (crc7_update_lt _ _) heq)

end OTR
