import Verif.Props.Frame
/-! # Non-secure frame helper lemmas -/

namespace OTR

/-- Value of the non-secure frame CRC byte over the covered bytes. -/
def nsCRC (bs : Bytes) : Byte := if crc7 0x7f bs = 0 then 0x80 else crc7 0x7f bs

theorem nsCRC_ne_zero (bs : Bytes) : nsCRC bs ≠ 0 := by
  unfold nsCRC; split
  · decide
  · assumption

theorem nsCRC_le (bs : Bytes) : (nsCRC bs).toNat ≤ 128 := by
  unfold nsCRC; split
  · decide
  · exact Nat.le_of_lt (crc7_lt _ (by decide) _)

theorem nsCRC_inj_crc {a b : Bytes} (h : nsCRC a = nsCRC b) : crc7 0x7f a = crc7 0x7f b := by
  have ha := crc7_lt 0x7f (by decide) a
  have hb := crc7_lt 0x7f (by decide) b
  unfold nsCRC at h
  split at h <;> split at h
  · simp_all
  · rw [← h] at hb; exact absurd hb (by decide)
  · rw [h] at ha; exact absurd ha (by decide)
  · exact h

theorem encodeNonsecure_ok {fType : Byte} {ptext outbuf : Bytes} {seqNum : Byte} {id : Option Bytes} {il : Byte}
    {n : Nat} {h : Hdr} {out : Bytes} (hp : ptext.length < 256)
    (he : encodeNonsecure fType ptext outbuf seqNum id il = .ok (n, h, out)) :
    ∃ hb, encodeHeader outbuf.length false fType seqNum id il (u8 ptext.length) 1 = .ok (h, hb) ∧
      hb.length = h.getHl ∧ h.fl = hb.length + ptext.length ∧ h.bl = ptext.length ∧
      h.fl < outbuf.length ∧ n = h.fl + 1 ∧
      out = hb ++ ptext ++ [nsCRC (hb ++ ptext)] ++ outbuf.drop (h.fl + 1) := by
  unfold encodeNonsecure at he
  split at he
  · simp at he
  · simp at he
  · rename_i h' hb heh
    simp only [wrBlock_eq_ok, failIf_eq_ok, Nat.zero_add, List.take_zero, List.nil_append] at he
    obtain ⟨w1, w2, w3, he⟩ := he
    have hinfo := encodeHeader_ok.mp heh
    obtain ⟨idb, t1, t2, hil, hid, hbuf, tl1, tl2, hfl, hh, hhb⟩ := hinfo
    have hpl : (u8 ptext.length).toNat = ptext.length := by rw [u8_toNat]; omega
    have hidlen : idb.length = il.toNat := by
      rcases hid with ⟨a, b⟩ | ⟨_, bs, _, b, c⟩
      · simp [b, a]
      · simp [c]; omega
    have hsil : h'.getIl = il.toNat := by
      rw [hh, Hdr.getIl_eq]; simp only [seqIlByte_toNat seqNum il (by omega)]; omega
    have hhl : hb.length = h'.getHl := by
      rw [Hdr.getHl, hsil, hhb]; simp [hidlen]; omega
    have hflv : h'.fl = hb.length + ptext.length := by
      rw [hhl, Hdr.getHl, hsil, hh]; simp only [hpl]
      have : (1 : Byte).toNat = 1 := by decide
      omega
    have h4 : 4 ≤ hb.length := by rw [hhl, Hdr.getHl]; omega
    have hbl : h'.bl = ptext.length := by rw [hh]; exact hpl
    have e2 : (hb ++ outbuf.drop hb.length).take h'.getBodyOffset ++ ptext ++
        (hb ++ outbuf.drop hb.length).drop (h'.getBodyOffset + ptext.length)
        = hb ++ ptext ++ outbuf.drop h'.fl := by
      rw [Hdr.getBodyOffset, ← hhl, hflv]
      simp [List.drop_append]
    rw [e2] at he
    have hc : computeNonSecureCRC h' (hb ++ ptext ++ outbuf.drop h'.fl) outbuf.length = .ok (nsCRC (hb ++ ptext)) := by
      unfold computeNonSecureCRC
      rw [if_neg (by omega), if_neg (by omega), rdBlock_eq_ok]
      refine ⟨by simp only [List.length_append]; omega, ?_⟩
      rw [List.drop_zero, List.take_append_of_le_length (by simp; omega), List.take_of_length_le (by simp; omega)]
      rfl
    rw [hc] at he
    simp only [wrBlock_eq_ok, Res.ok.injEq, Prod.mk.injEq] at he
    obtain ⟨_, en, eh, eo⟩ := he
    subst eh
    refine ⟨hb, heh, hhl, hflv, hbl, by omega, en.symm, ?_⟩
    rw [← eo, List.take_append_of_le_length (by simp; omega), List.take_of_length_le (by simp; omega)]
    congr 1
    rw [List.drop_append, List.drop_of_length_le (by simp; omega), List.nil_append, List.drop_drop]
    congr 1
    simp; omega

/-- Characterisation of acceptance by `decodeNonsecure` when the whole declared frame is present. -/
theorem decodeNonsecure_ok {h : Hdr} {ctext : Bytes} {n : Nat} :
    decodeNonsecure h ctext = .ok n ↔
      h.fl ≠ 0 ∧ h.getTl = 1 ∧ ∃ hl : h.fl < ctext.length, h.fl ≤ (ctext[0]'(by omega)).toNat ∧
        ctext[h.fl] = nsCRC (ctext.take h.fl) ∧ n = h.fl + 1 := by
  unfold decodeNonsecure
  simp only [failIf_eq_ok, rd_eq_ok]
  constructor
  · rintro ⟨a1, a2, h0, a3⟩
    unfold computeNonSecureCRC at a3
    rw [if_neg a1] at a3
    by_cases hl : ctext[0].toNat < h.fl
    · rw [if_pos hl] at a3
      simp [failIf_eq_ok] at a3
    · rw [if_neg hl] at a3
      unfold rdBlock at a3
      by_cases hb : 0 + h.fl ≤ ctext.length
      · rw [if_pos hb] at a3
        simp only [List.drop_zero, failIf_eq_ok, rd_eq_ok] at a3
        obtain ⟨_, hl', a4, a5⟩ := a3
        refine ⟨a1, by omega, hl', by omega, ?_, ?_⟩
        · exact Decidable.not_not.mp a4
        · simpa using a5.symm
      · rw [if_neg hb] at a3; simp at a3
  · rintro ⟨a1, a2, hl, a3, a4, a5⟩
    refine ⟨a1, by omega, by omega, ?_⟩
    unfold computeNonSecureCRC
    rw [if_neg a1, if_neg (by omega)]
    unfold rdBlock
    rw [if_pos (by omega)]
    simp only [List.drop_zero, failIf_eq_ok, rd_eq_ok]
    refine ⟨nsCRC_ne_zero _, hl, ?_, by rw [a5]⟩
    exact fun hn => hn a4

theorem decodeNonsecure_no_ub {h : Hdr} {ctext : Bytes} (hl : h.fl < ctext.length) : decodeNonsecure h ctext ≠ .ub := by
  intro hx
  unfold decodeNonsecure at hx
  simp only [failIf_eq_ub, rd_eq_ub] at hx
  obtain ⟨h1, _, hx⟩ := hx
  have hx := hx (by omega)
  unfold computeNonSecureCRC at hx
  rw [if_neg h1] at hx
  by_cases hc : ctext[0].toNat < h.fl
  · rw [if_pos hc] at hx; simp [failIf_eq_ub] at hx
  · rw [if_neg hc] at hx
    unfold rdBlock at hx
    rw [if_pos (by omega)] at hx
    simp only [failIf_eq_ub, rd_eq_ub] at hx
    have := hx.2 hl
    simp at this

end OTR
