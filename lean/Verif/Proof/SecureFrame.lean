import Verif.Model.SecureFrame
import Verif.Proof.Counter
import Verif.Props.Frame
/-! # Secure frame helper lemmas -/

namespace OTR

/-- Length contract of an encryption function: 32 bytes of ciphertext for a non-NULL plaintext, 16-byte tag. -/
def EncLen (e : EncFn) : Prop :=
  ∀ k iv aad pt ct tag, e k iv aad pt = some (ct, tag) → (pt.isSome → ct.length = 32) ∧ tag.length = 16

/-- Decryption inverts encryption (same key, IV, authenticated text). -/
def Inverse (e : EncFn) (d : DecFn) : Prop :=
  ∀ k iv aad pt ct tag, e k iv aad pt = some (ct, tag) →
    ∃ dbuf, d k iv aad (pt.map fun _ => ct) tag = some dbuf ∧ ∀ p, pt = some p → dbuf = p

theorem splice {X Y bs : Bytes} {i : Nat} (hi : X.length = i) :
    (X ++ Y).take i ++ bs ++ (X ++ Y).drop (i + bs.length) = X ++ bs ++ Y.drop bs.length := by
  subst hi
  simp [List.drop_append]

/-- The padded 32-byte body. -/
def padded32 (data : Bytes) : Bytes :=
  data ++ List.replicate (31 - data.length) 0 ++ [u8 (31 - data.length)]

theorem padded32_length (data : Bytes) (h : data.length ≤ 31) : (padded32 data).length = 32 := by
  simp [padded32]; omega

theorem pad32_ok {buf : Option Bytes} {n : Nat} {r : Bytes} :
    pad32BBuffer buf n = .ok r ↔ ∃ b, buf = some b ∧ n ≤ 31 ∧ 32 ≤ b.length ∧
      r = padded32 (b.take n) ++ b.drop 32 := by
  unfold pad32BBuffer
  cases buf with
  | none => simp
  | some b =>
    simp only [failIf_eq_ok, wrBlock_eq_ok, Res.ok.injEq, List.length_cons, List.length_nil, List.length_replicate,
      List.length_append, List.length_take, List.length_drop, Option.some.injEq]
    constructor
    · rintro ⟨h1, h2, h3, h4⟩
      refine ⟨b, rfl, by omega, by omega, ?_⟩
      rw [← h4]
      have hmin : min n b.length = n := by omega
      have hl : (List.take (ENC_CTEXT - 1) b).length = 31 := by simp; omega
      rw [List.append_assoc (List.take (ENC_CTEXT - 1) b), List.take_append_of_le_length (by omega),
        List.take_take, show min n (ENC_CTEXT - 1) = n by omega,
        show n + (ENC_CTEXT - 1 - n) = 31 by omega, List.drop_append, List.drop_of_length_le (by omega), hl]
      simp [padded32, hmin]
    · rintro ⟨_, rfl, h1, h2, h3⟩
      refine ⟨by omega, by omega, by omega, ?_⟩
      rw [h3]
      have hmin : min n b.length = n := by omega
      have hl : (List.take (ENC_CTEXT - 1) b).length = 31 := by simp; omega
      rw [List.append_assoc (List.take (ENC_CTEXT - 1) b), List.take_append_of_le_length (by omega),
        List.take_take, show min n (ENC_CTEXT - 1) = n by omega,
        show n + (ENC_CTEXT - 1 - n) = 31 by omega, List.drop_append, List.drop_of_length_le (by omega), hl]
      simp [padded32, hmin]

theorem unpad_padded {data : Bytes} (h : data.length ≤ 31) (rest : Bytes) :
    unpad32BBuffer (padded32 data ++ rest) = .ok data.length := by
  unfold unpad32BBuffer
  have hl := padded32_length data h
  have hg : (padded32 data ++ rest)[ENC_CTEXT - 1]? = some (u8 (31 - data.length)) := by
    rw [List.getElem?_append_left (by omega)]
    unfold padded32
    have e : (data ++ List.replicate (31 - data.length) (0 : Byte)).length = 31 := by simp; omega
    rw [List.getElem?_append_right (by omega), e]
    rfl
  rw [rd_of_some hg]
  simp only [u8_toNat]
  rw [if_neg (by omega)]
  congr 1; omega

/-- The body length field of a secure frame with `n` bytes of plaintext. -/
def encBody (n : Nat) : Nat := if n = 0 then 0 else 32

/-- Inversion of a successful `encodeRaw`. -/
theorem encodeRaw_ok {fType : Byte} {ptext : Option Bytes} {ptextLen : Nat} {outbuf : Bytes} {id : Option Bytes}
    {il : Byte} {iv : Bytes} {e : EncFn} {key : Option Bytes} {n : Nat} {h : Hdr} {out : Bytes} (hel : EncLen e)
    (he : encodeRaw fType ptext ptextLen outbuf id il iv e key = .ok (n, h, out)) :
    ∃ k hb ct tag, ∃ hiv : 12 ≤ iv.length,
      key = some k ∧ ptextLen ≤ 31 ∧
      encodeHeader outbuf.length true fType (iv[11] &&& 0xf) id il (u8 (encBody ptextLen)) 23 = .ok (h, hb) ∧
      hb.length = h.getHl ∧ 4 ≤ hb.length ∧ h.fl = hb.length + encBody ptextLen + 22 ∧ h.bl = encBody ptextLen ∧
      h.fl ≤ 63 ∧
      h.fl < outbuf.length ∧ n = h.fl + 1 ∧
      (ptextLen ≠ 0 → ∃ b, ptext = some b ∧ 32 ≤ b.length) ∧
      e k iv hb (if ptextLen = 0 then none else some (padded32 ((ptext.getD []).take ptextLen))) = some (ct, tag) ∧
      tag.length = 16 ∧ (ptextLen ≠ 0 → ct.length = 32) ∧
      out = hb ++ ct.take (encBody ptextLen) ++ (iv.drop 6).take 6 ++ tag ++ [0x80] ++ outbuf.drop (h.fl + 1) := by
  unfold encodeRaw at he
  cases key with
  | none => simp at he
  | some k =>
  simp only [failIf_eq_ok, rd_eq_ok] at he
  obtain ⟨h31, hiv, he⟩ := he
  have hbe : (if ptextLen = 0 then 0 else ENC_CTEXT) = encBody ptextLen := rfl
  rw [hbe] at he
  split at he
  · simp at he
  · simp at he
  rename_i h' hb heh
  simp only [wrBlock_eq_ok, failIf_eq_ok, Nat.zero_add, List.take_zero, List.nil_append] at he
  obtain ⟨w1, w2, he⟩ := he
  have hinfo := encodeHeader_ok.mp heh
  obtain ⟨idb, t1, t2, hil, hid, hbuf, tl1, tl2, hfl, hh, hhb⟩ := hinfo
  have hebl : encBody ptextLen ≤ 32 := by unfold encBody; split <;> omega
  have hpl : (u8 (encBody ptextLen)).toNat = encBody ptextLen := by rw [u8_toNat]; omega
  have h23 : (23 : Byte).toNat = 23 := by decide
  have hidlen : idb.length = il.toNat := by
    rcases hid with ⟨a, b⟩ | ⟨_, bs, _, b, c⟩
    · simp [b, a]
    · simp [c]; omega
  have hsil : h'.getIl = il.toNat := by
    rw [hh, Hdr.getIl_eq]; simp only [seqIlByte_toNat _ il (by omega)]; omega
  have hhl : hb.length = h'.getHl := by
    rw [Hdr.getHl, hsil, hhb]; simp [hidlen]; omega
  have hflv : h'.fl = hb.length + encBody ptextLen + 22 := by
    rw [hhl, Hdr.getHl, hsil, hh]; simp only [hpl, h23]; omega
  have h4 : 4 ≤ hb.length := by rw [hhl, Hdr.getHl]; omega
  have hbl : h'.bl = encBody ptextLen := by rw [hh]; exact hpl
  have hmax : h'.fl ≤ 63 := by rw [hh]; exact hfl
  have etake : (hb ++ outbuf.drop hb.length).take hb.length = hb := by simp
  rw [etake] at he
  split at he
  · simp at he
  · simp at he
  rename_i padded hpad
  split at he
  · simp at he
  rename_i ct tag hcipher
  have hpt : (if ptextLen = 0 then none else some (padded.take 32)) =
      (if ptextLen = 0 then none else some (padded32 ((ptext.getD []).take ptextLen))) ∧
      (ptextLen ≠ 0 → ∃ b, ptext = some b ∧ 32 ≤ b.length) := by
    by_cases h0 : ptextLen = 0
    · simp [h0]
    · rw [if_pos h0] at hpad
      rw [pad32_ok] at hpad
      obtain ⟨b, rfl, hn, hb32, hp⟩ := hpad
      refine ⟨?_, fun _ => ⟨b, rfl, hb32⟩⟩
      rw [if_neg h0, if_neg h0, hp]
      have := padded32_length (b.take ptextLen) (by simp; omega)
      rw [List.take_append_of_le_length (by omega), List.take_of_length_le (by omega)]
      rfl
  rw [hpt.1] at hcipher
  have hlens := hel _ _ _ _ _ _ hcipher
  have htag : tag.length = 16 := hlens.2
  have hct : ptextLen ≠ 0 → ct.length = 32 := by
    intro h0; apply hlens.1; simp [h0]
  have hctl : (ct.take (encBody ptextLen)).length = encBody ptextLen := by
    unfold encBody
    by_cases h0 : ptextLen = 0
    · simp [h0]
    · simp [h0, hct h0]
  simp only [wrBlock_eq_ok, rdBlock_eq_ok, Res.ok.injEq, Prod.mk.injEq] at he
  obtain ⟨_, _, hiv6, _, _, en, eh, eo⟩ := he
  subst eh
  refine ⟨k, hb, ct, tag, by omega, rfl, by omega, heh, hhl, h4, hflv, hbl, hmax, by omega, en.symm, hpt.2, hcipher,
    htag, hct, ?_⟩
  rw [← eo]
  have htt : tag.take 16 = tag := List.take_of_length_le (by omega)
  rw [htt]
  -- out2
  rw [splice (X := hb) (Y := outbuf.drop hb.length) rfl, hctl]
  generalize hC : ct.take (encBody ptextLen) = C at *
  -- out3: split the remainder at 6
  have hrest : (outbuf.drop hb.length).drop (encBody ptextLen) = outbuf.drop (hb.length + encBody ptextLen) := by
    rw [List.drop_drop]
  rw [hrest]
  generalize hR : outbuf.drop (hb.length + encBody ptextLen) = R at *
  have hRl : R.length = outbuf.length - (hb.length + encBody ptextLen) := by rw [← hR]; simp
  have hR6 : hb ++ C ++ R = (hb ++ C ++ R.take 6) ++ R.drop 6 := by
    rw [List.append_assoc, List.append_assoc, List.append_assoc, List.take_append_drop]
  rw [hR6, splice (X := hb ++ C ++ R.take 6) (Y := R.drop 6) (by simp; omega)]
  -- out4
  have hctr : ((iv.drop 6).take 6).length = 6 := by simp; omega
  generalize hT : (iv.drop 6).take 6 = T at *
  rw [show hb ++ C ++ R.take 6 ++ tag ++ (R.drop 6).drop tag.length
      = (hb ++ C) ++ (R.take 6 ++ tag ++ (R.drop 6).drop tag.length) by simp only [List.append_assoc],
    splice (X := hb ++ C) (by simp; omega), hctr]
  have hd6 : (R.take 6 ++ tag ++ (R.drop 6).drop tag.length).drop 6 = tag ++ (R.drop 6).drop tag.length := by
    rw [List.append_assoc, List.drop_append, List.drop_of_length_le (by simp; omega), List.nil_append,
      show 6 - (R.take 6).length = 0 by simp; omega, List.drop_zero]
  rw [hd6]
  -- out5
  rw [show hb ++ C ++ T ++ (tag ++ (R.drop 6).drop tag.length)
      = (hb ++ C ++ T ++ tag) ++ ((R.drop 6).drop tag.length) by simp only [List.append_assoc],
    splice (X := hb ++ C ++ T ++ tag) (by simp; omega)]
  congr 1
  rw [← hR, List.drop_drop, List.drop_drop, List.drop_drop]
  congr 1
  simp only [htag, List.length_cons, List.length_nil]; omega

end OTR
