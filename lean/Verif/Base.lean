/-!
# Common definitions

Bytes, buffers, checked reads, EEPROM cells.
-/

namespace OTR

notation "Byte" => UInt8
abbrev Bytes := List UInt8

/-- Outcome of a C++ routine: a normal result, the routine's own error return (usually 0/false),
or undefined behaviour (here: an access outside the memory the caller supplied). -/
inductive Res (α : Type) where
  | ok (a : α)
  | fail
  | ub
deriving Repr, DecidableEq

/-- Checked read of `buf[i]`; out of range is undefined behaviour. -/
def rd {α : Type} (buf : Bytes) (i : Nat) (k : Byte → Res α) : Res α :=
  match buf[i]? with
  | some b => k b
  | none => .ub

/-- Checked block read (memcpy source) of `n` bytes from offset `i`. -/
def rdBlock {α : Type} (buf : Bytes) (i n : Nat) (k : Bytes → Res α) : Res α :=
  if i + n ≤ buf.length then k ((buf.drop i).take n) else .ub

theorem rd_lt {α : Type} {buf : Bytes} {i : Nat} (h : i < buf.length) (k : Byte → Res α) :
    rd buf i k = k buf[i] := by
  simp [rd, h]

theorem rd_of_some {α : Type} {buf : Bytes} {i : Nat} {b : Byte} (h : buf[i]? = some b) (k : Byte → Res α) :
    rd buf i k = k b := by
  simp [rd, h]

theorem rd_ge {α : Type} {buf : Bytes} {i : Nat} (h : buf.length ≤ i) (k : Byte → Res α) :
    rd buf i k = .ub := by
  simp [rd, h]

theorem rd_eq_ok {α : Type} {buf : Bytes} {i : Nat} {k : Byte → Res α} {a : α} :
    rd buf i k = .ok a ↔ ∃ h : i < buf.length, k buf[i] = .ok a := by
  by_cases h : i < buf.length
  · simp [rd_lt h, h]
  · simp [rd_ge (Nat.le_of_not_lt h), h]

theorem rdBlock_eq_ok {α : Type} {buf : Bytes} {i n : Nat} {k : Bytes → Res α} {a : α} :
    rdBlock buf i n k = .ok a ↔ i + n ≤ buf.length ∧ k ((buf.drop i).take n) = .ok a := by
  unfold rdBlock; split
  · simp_all
  · simp only [reduceCtorEq, false_iff]; omega

/-- `if(c) { return(error); }` followed by the rest of the routine. -/
def failIf {α : Type} (c : Prop) [Decidable c] (k : Res α) : Res α := if c then .fail else k

theorem failIf_eq_ok {α : Type} {c : Prop} [Decidable c] {k : Res α} {a : α} :
    failIf c k = .ok a ↔ ¬ c ∧ k = .ok a := by
  unfold failIf; split <;> simp_all

theorem failIf_eq_ub {α : Type} {c : Prop} [Decidable c] {k : Res α} :
    failIf c k = .ub ↔ ¬ c ∧ k = .ub := by
  unfold failIf; split <;> simp_all

theorem rd_eq_ub {α : Type} {buf : Bytes} {i : Nat} {k : Byte → Res α} :
    rd buf i k = .ub ↔ ∀ h : i < buf.length, k buf[i] = .ub := by
  by_cases h : i < buf.length
  · simp [rd_lt h, h]
  · simp [rd_ge (Nat.le_of_not_lt h), h]

theorem rdBlock_eq_ub {α : Type} {buf : Bytes} {i n : Nat} {k : Bytes → Res α} :
    rdBlock buf i n k = .ub ↔ (i + n ≤ buf.length → k ((buf.drop i).take n) = .ub) := by
  unfold rdBlock; split <;> rename_i h
  · simp [h]
  · simp [h]

/-- Checked block write (memcpy/array store destination): bytes `bs` at offset `i`. -/
def wrBlock {α : Type} (buf : Bytes) (i : Nat) (bs : Bytes) (k : Bytes → Res α) : Res α :=
  if i + bs.length ≤ buf.length then k (buf.take i ++ bs ++ buf.drop (i + bs.length)) else .ub

theorem wrBlock_eq_ok {α : Type} {buf : Bytes} {i : Nat} {bs : Bytes} {k : Bytes → Res α} {a : α} :
    wrBlock buf i bs k = .ok a ↔
      i + bs.length ≤ buf.length ∧ k (buf.take i ++ bs ++ buf.drop (i + bs.length)) = .ok a := by
  unfold wrBlock; split
  · simp_all
  · simp only [reduceCtorEq, false_iff]; omega

theorem wrBlock_eq_ub {α : Type} {buf : Bytes} {i : Nat} {bs : Bytes} {k : Bytes → Res α} :
    wrBlock buf i bs k = .ub ↔
      (i + bs.length ≤ buf.length → k (buf.take i ++ bs ++ buf.drop (i + bs.length)) = .ub) := by
  unfold wrBlock; split <;> rename_i h
  · simp [h]
  · simp [h]

/-- A statement about every byte follows from the 256 numeric cases. -/
theorem forall_byte {P : Byte → Prop} (h : ∀ n, n < 256 → P (UInt8.ofNat n)) : ∀ b, P b := by
  intro b
  have := h b.toNat b.toNat_lt
  simpa using this

/-- Truncation of a number to `uint8_t`. -/
def u8 (n : Nat) : Byte := UInt8.ofNat n

@[simp] theorem u8_toNat (n : Nat) : (u8 n).toNat = n % 256 := by simp [u8]
@[simp] theorem u8_of_toNat (b : Byte) : u8 b.toNat = b := by simp [u8]

theorem byte_ext {a b : Byte} (h : a.toNat = b.toNat) : a = b := UInt8.toNat_inj.mp h

theorem byte_lt (b : Byte) : b.toNat < 256 := b.toNat_lt

/-- Big-endian value of a byte string. -/
def beVal (bs : Bytes) : Nat := bs.foldl (fun a b => a * 256 + b.toNat) 0

end OTR
