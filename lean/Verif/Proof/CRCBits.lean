import Verif.Proof.CRC
import Verif.Spec.CRC
import Mathlib.Algebra.Field.ZMod
import Mathlib.Data.ZMod.Basic
import Mathlib.Tactic.LinearCombination
import Mathlib.Algebra.CharP.Two
import Mathlib.Tactic.ComputeDegree
/-! # Bit-serial view of the 7-bit CRC: helper lemmas -/

namespace OTR

/-- One bit of a 7-bit shift-register CRC. -/
def step7 (c : Byte) (d : Bool) : Byte :=
  ((c <<< 1) ^^^ (if ((c &&& 0x40 != 0) ^^ d) then 0x37 else 0)) &&& 0x7f

theorem bit_step7 (i : Byte) (d c : Byte) :
    crc7_5B_bit d c i &&& 0x7f = step7 (c &&& 0x7f) (d &&& i != 0) := by
  have h : ∀ c : Byte, ∀ b : Bool,
      (if (if b = true then !(c &&& 0x40 != 0) else (c &&& 0x40 != 0)) then (c <<< 1) ^^^ 0x37 else c <<< 1) &&& 0x7f
        = step7 (c &&& 0x7f) b := by
    apply forall_byte; decide +kernel
  exact h c (d &&& i != 0)

theorem step7_mask (c : Byte) (d : Bool) : step7 (c &&& 0x7f) d = step7 c d := by
  revert c; apply forall_byte; revert d; decide +kernel

theorem step7_lt (c : Byte) (d : Bool) : (step7 c d).toNat < 128 := by
  revert c; apply forall_byte; revert d; decide +kernel

theorem masked_self (c : Byte) (h : c.toNat < 128) : c &&& 0x7f = c := by
  revert c; apply forall_byte; decide +kernel

theorem foldl_bit_step7 (l : List Byte) (d c : Byte) :
    (l.foldl (fun c i => crc7_5B_bit d c i) c) &&& 0x7f
      = (l.map (fun i => (d &&& i != 0))).foldl step7 (c &&& 0x7f) := by
  induction l generalizing c with
  | nil => rfl
  | cons i l ih => simp only [List.foldl_cons, List.map_cons]; rw [ih, bit_step7]

theorem mask_bits (d : Byte) :
    ([0x80, 0x40, 0x20, 0x10, 0x08, 0x04, 0x02, 0x01] : List Byte).map (fun i => (d &&& i != 0)) = byteBits d := by
  revert d; apply forall_byte; decide +kernel

theorem crc7_update_bits (c d : Byte) :
    crc7_5B_update c d = (byteBits d).foldl step7 (c &&& 0x7f) := by
  unfold crc7_5B_update
  rw [foldl_bit_step7, mask_bits]

/-- The CRC of a non-empty message is the bit-serial CRC of its bits. -/
theorem crc7_bits (init : Byte) (m : Bytes) (h : init.toNat < 128 ∨ m ≠ []) :
    crc7 init m = (msgBits m).foldl step7 (init &&& 0x7f) := by
  have key : ∀ (m : Bytes) (i : Byte), i.toNat < 128 → crc7 i m = (msgBits m).foldl step7 i := by
    intro m
    induction m with
    | nil => intro i _; rfl
    | cons b m ih =>
      intro i hi
      have := ih (crc7_5B_update i b) (crc7_update_lt _ _)
      simp only [crc7, msgBits, List.foldl_cons, List.flatMap_cons, List.foldl_append] at *
      rw [this, crc7_update_bits, masked_self i hi]
  cases m with
  | nil =>
    rcases h with h | h
    · rw [masked_self init h]; rfl
    · exact absurd rfl h
  | cons b m =>
    have := key m (crc7_5B_update init b) (crc7_update_lt _ _)
    simp only [crc7, msgBits, List.foldl_cons, List.flatMap_cons, List.foldl_append] at *
    rw [this, crc7_update_bits]

theorem step7_xor (a b : Byte) (x y : Bool) : step7 (a ^^^ b) (x ^^ y) = step7 a x ^^^ step7 b y := by
  unfold step7
  rw [mask_xor 0x40 (by decide), shl_xor, ← xor_and_distrib8]
  congr 1
  generalize a <<< 1 = p
  generalize b <<< 1 = q
  cases (a &&& 0x40 != 0) <;> cases (b &&& 0x40 != 0) <;> cases x <;> cases y <;> simp <;>
    first | exact (xor_cancel8 p q 0x37).symm | exact xor_right8 p q 0x37 | exact UInt8.xor_assoc p q 0x37

theorem foldl_step7_xor (l1 l2 : List Bool) (hl : l1.length = l2.length) (a b : Byte) :
    (l1.zipWith (· ^^ ·) l2).foldl step7 (a ^^^ b) = l1.foldl step7 a ^^^ l2.foldl step7 b := by
  induction l1 generalizing l2 a b with
  | nil => cases l2 with
    | nil => rfl
    | cons => simp at hl
  | cons x l1 ih => cases l2 with
    | nil => simp at hl
    | cons y l2 =>
      simp only [List.zipWith_cons_cons, List.foldl_cons]
      rw [step7_xor, ih _ (by simpa using hl)]

theorem foldl_step7_lt (l : List Bool) (a : Byte) (h : a.toNat < 128) : (l.foldl step7 a).toNat < 128 := by
  induction l generalizing a with
  | nil => exact h
  | cons x l ih => exact ih _ (step7_lt _ _)

theorem step7_inj (a b : Byte) (ha : a.toNat < 128) (hb : b.toNat < 128) (x : Bool)
    (h : step7 a x = step7 b x) : a = b := by
  have h1 := step7_xor a b x x
  rw [h, UInt8.xor_self, Bool.xor_self] at h1
  have h2 : ∀ c : Byte, c.toNat < 128 → step7 c false = 0 → c = 0 := by apply forall_byte; decide +kernel
  exact xor_eq_zero8.mp (h2 _ (xor_lt128 ha hb) h1)

theorem foldl_step7_inj (l : List Bool) (a b : Byte) (ha : a.toNat < 128) (hb : b.toNat < 128)
    (h : l.foldl step7 a = l.foldl step7 b) : a = b := by
  induction l generalizing a b with
  | nil => exact h
  | cons x l ih => exact step7_inj a b ha hb x (ih _ _ (step7_lt _ _) (step7_lt _ _) h)

theorem foldl_step7_replicate (k : Nat) : (List.replicate k false).foldl step7 0 = 0 := by
  induction k with
  | zero => rfl
  | succ k ih => rw [List.replicate_succ, List.foldl_cons]; exact ih

theorem seven_ne : ∀ a b c d e f g : Bool, [a, b, c, d, e, f, g].foldl step7 0 = 0 →
    [a, b, c, d, e, f, g] = List.replicate 7 false := by
  decide +kernel

theorem short_ne (l : List Bool) (hl : l.length ≤ 7) (h : l.foldl step7 0 = 0) :
    l = List.replicate l.length false := by
  have h7 : (List.replicate (7 - l.length) false ++ l).foldl step7 0 = 0 := by
    rw [List.foldl_append, foldl_step7_replicate, h]
  have hlen : (List.replicate (7 - l.length) false ++ l).length = 7 := by simp; omega
  have : List.replicate (7 - l.length) false ++ l = List.replicate 7 false := by
    generalize List.replicate (7 - l.length) false ++ l = m at *
    match m, hlen with
    | [a, b, c, d, e, f, g], _ => exact seven_ne a b c d e f g h7
  rw [List.eq_replicate_iff] at this ⊢
  exact ⟨rfl, fun b hb => this.2 b (by simp [hb])⟩

theorem zipWith_xor_false (l1 l2 : List Bool) (hl : l1.length = l2.length)
    (h : l1.zipWith (· ^^ ·) l2 = List.replicate (l1.zipWith (· ^^ ·) l2).length false) : l1 = l2 := by
  induction l1 generalizing l2 with
  | nil => cases l2 with
    | nil => rfl
    | cons => simp at hl
  | cons x l1 ih => cases l2 with
    | nil => simp at hl
    | cons y l2 =>
      simp only [List.zipWith_cons_cons, List.length_cons, List.replicate_succ, List.cons.injEq] at h
      rw [ih l2 (by simpa using hl) h.2]
      have : x = y := by have := h.1; cases x <;> cases y <;> simp_all
      rw [this]

/-! ## Polynomials over GF(2) -/

open Polynomial

theorem z2_xor (a b : Bool) : z2 (a ^^ b) = z2 a + z2 b := by cases a <;> cases b <;> decide

theorem regPoly_eq (c : Byte) : regPoly c =
    C (z2 (c.toNat.testBit 6)) * X ^ 6 + C (z2 (c.toNat.testBit 5)) * X ^ 5 + C (z2 (c.toNat.testBit 4)) * X ^ 4
    + C (z2 (c.toNat.testBit 3)) * X ^ 3 + C (z2 (c.toNat.testBit 2)) * X ^ 2 + C (z2 (c.toNat.testBit 1)) * X
    + C (z2 (c.toNat.testBit 0)) := by
  simp only [regPoly, bitsPoly, List.map_cons, List.map_nil, List.foldl_cons, List.foldl_nil]
  ring

theorem two0 : (2 : (ZMod 2)[X]) = 0 := CharTwo.two_eq_zero

theorem step7_bit (c : Byte) (d : Bool) :
    let f := c.toNat.testBit 6 ^^ d
    (step7 c d).toNat.testBit 0 = f ∧
    (step7 c d).toNat.testBit 1 = (c.toNat.testBit 0 ^^ f) ∧
    (step7 c d).toNat.testBit 2 = (c.toNat.testBit 1 ^^ f) ∧
    (step7 c d).toNat.testBit 3 = c.toNat.testBit 2 ∧
    (step7 c d).toNat.testBit 4 = (c.toNat.testBit 3 ^^ f) ∧
    (step7 c d).toNat.testBit 5 = (c.toNat.testBit 4 ^^ f) ∧
    (step7 c d).toNat.testBit 6 = c.toNat.testBit 5 := by
  revert c; apply forall_byte; revert d; decide +kernel

theorem regPoly_step (c : Byte) (d : Bool) :
    regPoly (step7 c d) = X * regPoly c + C (z2 d) * X ^ 7 + C (z2 (c.toNat.testBit 6 ^^ d)) * genPoly := by
  obtain ⟨h0, h1, h2, h3, h4, h5, h6⟩ := step7_bit c d
  rw [regPoly_eq, regPoly_eq, h0, h1, h2, h3, h4, h5, h6, genPoly]
  simp only [z2_xor, C_add]
  linear_combination (-(C (z2 (c.toNat.testBit 6)) + C (z2 d)) * X ^ 7) * two0

theorem regPoly_foldl (l : List Bool) (c : Byte) :
    ∃ q, regPoly (l.foldl step7 c) = regPoly c * X ^ l.length + bitsPoly l * X ^ 7 + q * genPoly := by
  induction l using List.reverseRecOn with
  | nil => exact ⟨0, by simp [bitsPoly]⟩
  | append_singleton l d ih =>
    obtain ⟨q, hq⟩ := ih
    refine ⟨X * q + C (z2 ((l.foldl step7 c).toNat.testBit 6 ^^ d)), ?_⟩
    rw [List.foldl_append, List.foldl_cons, List.foldl_nil, regPoly_step, hq]
    simp only [bitsPoly, List.foldl_append, List.foldl_cons, List.foldl_nil, List.length_append, List.length_singleton]
    ring

theorem genPoly_monic : genPoly.Monic := by
  have : genPoly = X ^ 7 + (X ^ 5 + X ^ 4 + X ^ 2 + X + 1) := by unfold genPoly; ring
  rw [this]
  apply monic_X_pow_add
  compute_degree!

theorem genPoly_degree : genPoly.degree = 7 := by
  unfold genPoly; compute_degree!

theorem regPoly_degree (c : Byte) : (regPoly c).degree < 7 := by
  rw [regPoly_eq]
  refine lt_of_le_of_lt (b := (6 : WithBot ℕ)) ?_ (by decide)
  compute_degree

theorem regPoly_mod (l : List Bool) (c : Byte) :
    regPoly (l.foldl step7 c) = (regPoly c * X ^ l.length + bitsPoly l * X ^ 7) %ₘ genPoly := by
  obtain ⟨q, hq⟩ := regPoly_foldl l c
  refine ((div_modByMonic_unique (-q) (regPoly (l.foldl step7 c)) genPoly_monic ⟨?_, ?_⟩).2).symm
  · rw [hq]; ring
  · rw [genPoly_degree]; exact regPoly_degree _

theorem msgBits_length (m : Bytes) : (msgBits m).length = 8 * m.length := by
  induction m with
  | nil => rfl
  | cons b m ih => simp only [msgBits, List.flatMap_cons, List.length_append, List.length_cons] at *; rw [ih]; simp [byteBits]; omega

end OTR
