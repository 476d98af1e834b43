import Verif.Proof.Counter
/-!
# Properties C07-C08: message counter comparison and addition
-/

namespace OTR.Props
open OTR

/-! ## C07 -/

/-- **C07.** `msgcountercmp` orders 6-byte counters exactly as the 48-bit big-endian numbers they represent. -/
theorem C07_counter_cmp (c1 c2 : Bytes) (h1 : c1.length = 6) (h2 : c2.length = 6) :
    (msgcountercmp c1 c2 < 0 ↔ beVal c1 < beVal c2) ∧
    (msgcountercmp c1 c2 = 0 ↔ c1 = c2) ∧
    (0 < msgcountercmp c1 c2 ↔ beVal c2 < beVal c1) := by
  have e1 : c1.take fullMsgCtrBytes = c1 := List.take_of_length_le (by simp [h1])
  have e2 : c2.take fullMsgCtrBytes = c2 := List.take_of_length_le (by simp [h2])
  unfold msgcountercmp
  rw [e1, e2]
  have := memcmp_spec c1 c2 (by omega)
  refine ⟨this.1, ?_, this.2.2⟩
  rw [this.2.1]
  exact ⟨fun h => beVal_inj (by omega) h, fun h => by rw [h]⟩

/-- Non-vacuity: a comparison decided by the most significant byte although later bytes are the other way round. -/
example : ([1,0,0,0,0,0] : Bytes).length = 6 ∧ 0 < msgcountercmp [1,0,0,0,0,0] [0,255,255,255,255,255] := by
  decide +kernel

/-! ## C08 -/

/-- The full documented claim: adding `delta` either yields the counter whose value is the sum, or fails without
change exactly when the sum does not fit in 48 bits. -/
def C08_claim : Prop := ∀ (c : Bytes) (delta : Byte), c.length = 6 →
  ((msgcounteradd c delta).1 = true ∧ beVal (msgcounteradd c delta).2 = beVal c + delta.toNat) ∨
  ((msgcounteradd c delta).1 = false ∧ (msgcounteradd c delta).2 = c ∧ 2 ^ 48 ≤ beVal c + delta.toNat)

/-- **C08 is false of the code.** The carry loop never reaches the most significant byte: adding 1 to
00 ff ff ff ff ff "succeeds" and yields zero. -/
theorem C08_refuted : ¬ C08_claim := by
  intro h
  have := h [0, 0xff, 0xff, 0xff, 0xff, 0xff] 1 rfl
  revert this; decide +kernel

/-- The witness: the result of adding one to 2^40-1. -/
theorem C08_witness : msgcounteradd [0, 0xff, 0xff, 0xff, 0xff, 0xff] 1 = (true, [0, 0, 0, 0, 0, 0]) := by
  decide +kernel

/-- **C08 (partial).** The claim holds unless the low 40 bits overflow while the whole 48-bit sum still fits.
Missing from the full claim: exactly those cases, where the code is wrong (`C08_exact`). -/
theorem C08_counter_add_partial (c : Bytes) (delta : Byte) (hc : c.length = 6)
    (hr : beVal c % 2 ^ 40 + delta.toNat < 2 ^ 40 ∨ 2 ^ 48 ≤ beVal c + delta.toNat) :
    ((msgcounteradd c delta).1 = true ∧ beVal (msgcounteradd c delta).2 = beVal c + delta.toNat) ∨
    ((msgcounteradd c delta).1 = false ∧ (msgcounteradd c delta).2 = c ∧ 2 ^ 48 ≤ beVal c + delta.toNat) := by
  obtain ⟨_, h2, h3, h4⟩ := msgcounteradd_val hc delta
  by_cases h : (msgcounteradd c delta).1 = false
  · exact Or.inr ⟨h, h3 h, h2.1 h⟩
  · have ht : (msgcounteradd c delta).1 = true := by simpa using h
    refine Or.inl ⟨ht, ?_⟩
    rw [h4 ht]
    rcases hr with hr | hr
    · rw [if_pos hr]
    · exact absurd (h2.2 hr) h

/-- Non-vacuity: a carry through several bytes. -/
example : beVal [7, 0, 0xff, 0xff, 0xff, 0xf8] % 2 ^ 40 + (0x10 : Byte).toNat < 2 ^ 40 ∧
    msgcounteradd [7, 0, 0xff, 0xff, 0xff, 0xf8] 0x10 = (true, [7, 1, 0, 0, 0, 8]) := by decide +kernel

/-- The exact behaviour in all cases: fails (leaving the counter alone) exactly when the sum exceeds 48 bits; otherwise
the sum, less 2^40 when the low 40 bits overflow. -/
theorem C08_exact (c : Bytes) (delta : Byte) (hc : c.length = 6) :
    ((msgcounteradd c delta).1 = false ↔ 2 ^ 48 ≤ beVal c + delta.toNat) ∧
    ((msgcounteradd c delta).1 = false → (msgcounteradd c delta).2 = c) ∧
    ((msgcounteradd c delta).1 = true →
      beVal (msgcounteradd c delta).2 =
        if beVal c % 2 ^ 40 + delta.toNat < 2 ^ 40 then beVal c + delta.toNat
        else beVal c + delta.toNat - 2 ^ 40) := by
  obtain ⟨_, h2, h3, h4⟩ := msgcounteradd_val hc delta
  exact ⟨h2, h3, h4⟩

/-- Under the documented lifetime assumption (counter below 2^40 - 255, i.e. over 10^12 messages) addition is exact. -/
theorem C08_practical (c : Bytes) (delta : Byte) (hc : c.length = 6) (hb : beVal c < 2 ^ 40 - 255) :
    (msgcounteradd c delta).1 = true ∧ beVal (msgcounteradd c delta).2 = beVal c + delta.toNat := by
  have hd := byte_lt delta
  have := C08_counter_add_partial c delta hc (Or.inl (by rw [Nat.mod_eq_of_lt (by omega)]; omega))
  rcases this with h | ⟨_, _, h⟩
  · exact h
  · omega

end OTR.Props
