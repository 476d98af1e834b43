import Verif.Proof.SecureFrame
/-! # decodeRaw helper lemmas -/

namespace OTR

/-- What a successful `decodeRaw` establishes. -/
theorem decodeRaw_ok {sfh : Hdr} {ctext : Bytes} {want : Bool} {scratch : Nat} {d : DecFn} {key iv : Option Bytes}
    {n : Nat} {body : Bytes}
    (hd : decodeRaw sfh ctext want scratch d key iv = .ok (n, body)) :
    ∃ k v dbuf, key = some k ∧ iv = some v ∧ ∃ hl : sfh.fl < ctext.length, ∃ hv : 11 < v.length,
      sfh.fl < ((ctext[0]'(by omega)).toNat + 1) % 256 ∧
      sfh.fl ≠ 0 ∧ sfh.getTl = 23 ∧ ctext[sfh.fl] = 0x80 ∧ (sfh.bl = 0 ∨ sfh.bl = 32) ∧
      sfh.getSeq = (v[11] &&& 0xf).toNat ∧ n = sfh.fl + 1 ∧
      d k v (ctext.take sfh.getHl)
        (if sfh.bl = 0 then none else some ((ctext.drop sfh.getBodyOffset).take sfh.bl))
        ((ctext.drop (sfh.fl - 16)).take 16) = some dbuf ∧
      (body = if want = true ∧ sfh.bl ≠ 0 then
          (if ((dbuf[31]?.getD 0).toNat > 31) then [] else dbuf.take (31 - (dbuf[31]?.getD 0).toNat)) else []) ∧
      body.length ≤ 31 := by
  unfold decodeRaw at hd
  rw [failIf_eq_ok] at hd
  obtain ⟨hs, hd⟩ := hd
  cases key with
  | none => simp at hd
  | some k =>
  cases iv with
  | none => simp at hd
  | some v =>
  simp only [failIf_eq_ok, rd_eq_ok, rdBlock_eq_ok] at hd
  obtain ⟨h0, a1, a2, a3, hl, a4, a5, hv, a6, b1, b2, b3, hd⟩ := hd
  split at hd
  · simp at hd
  rename_i dbuf hdec
  refine ⟨k, v, dbuf, rfl, rfl, hl, hv, by omega, a1, by omega, Decidable.not_not.mp a4, by omega,
    Decidable.not_not.mp a6, ?_⟩
  simp only [List.drop_zero] at hdec
  split at hd
  · rename_i hw
    simp only [unpad32BBuffer] at hd
    by_cases hlen : 31 < dbuf.length
    · rw [rd_lt hlen] at hd
      have hg : dbuf[31]?.getD 0 = dbuf[31] := by simp [hlen]
      by_cases hp : dbuf[31].toNat > 31
      · rw [if_pos hp] at hd
        simp only [failIf_eq_ok, rdBlock_eq_ok, Res.ok.injEq, Prod.mk.injEq] at hd
        obtain ⟨_, _, c1, c2⟩ := hd
        refine ⟨c1.symm, hdec, ?_, ?_⟩
        · rw [if_pos hw, hg, if_pos hp, ← c2]; simp
        · rw [← c2]; simp
      · rw [if_neg hp] at hd
        simp only [failIf_eq_ok, rdBlock_eq_ok, Res.ok.injEq, Prod.mk.injEq] at hd
        obtain ⟨_, _, c1, c2⟩ := hd
        refine ⟨c1.symm, hdec, ?_, ?_⟩
        · rw [if_pos hw, hg, if_neg hp, ← c2]; simp
        · rw [← c2]; simp; omega
    · rw [rd_ge (by omega)] at hd; simp at hd
  · rename_i hw
    simp only [Res.ok.injEq, Prod.mk.injEq] at hd
    exact ⟨hd.1.symm, hdec, by rw [if_neg hw]; exact hd.2.symm, by rw [← hd.2]; simp⟩

/-- `decodeFromID` is `decodeRaw` with the IV made from the ID and the frame's counter bytes. -/
theorem decodeFromID_ok {sfh : Hdr} {ctext : Bytes} {want : Bool} {scratch : Nat} {d : DecFn} {adjID : Bytes}
    {key : Option Bytes} {r : Nat × Bytes} :
    decodeFromID sfh ctext want scratch d adjID key = .ok r ↔
      12 ≤ scratch ∧ 6 ≤ adjID.length ∧ (∃ h0 : 0 < ctext.length, sfh.getTrailerOffset + 6 ≤ (ctext[0].toNat + 1) % 256) ∧
      sfh.getTrailerOffset + 6 ≤ ctext.length ∧
      decodeRaw sfh ctext want (scratch - 12) d key
        (some (adjID.take 6 ++ (ctext.drop sfh.getTrailerOffset).take 6)) = .ok r := by
  unfold decodeFromID
  simp only [failIf_eq_ok, rd_eq_ok, rdBlock_eq_ok]
  constructor
  · rintro ⟨h1, h2, h0, h3, h4, h5⟩
    exact ⟨by omega, by omega, ⟨h0, by omega⟩, h4, h5⟩
  · rintro ⟨h1, h2, ⟨h0, h3⟩, h4, h5⟩
    exact ⟨by omega, by omega, h0, by omega, h4, h5⟩

/-- Shape of a frame accepted by the header decoder with a 23-byte trailer, when the whole frame is present. -/
theorem frame_split {ctext : Bytes} {h : Hdr} (hd : decodeHeader ctext = .ok h) (htl : h.getTl = 23)
    (hlen : h.fl < ctext.length) :
    h.getHl ≤ ctext.length ∧ h.getTrailerOffset = h.getHl + h.bl ∧ h.fl = h.getHl + h.bl + 22 ∧
    h.fl ≤ 63 ∧
    ctext.take (h.fl + 1) =
      ctext.take h.getHl ++ (ctext.drop h.getBodyOffset).take h.bl ++ (ctext.drop h.getTrailerOffset).take 6 ++
      (ctext.drop (h.fl - 16)).take 16 ++ [ctext[h.fl]] := by
  rw [decodeHeader_ok] at hd
  obtain ⟨h5, a1, a2, a3, a4, a5, a6, hb, a7, a8, a9, hh⟩ := hd
  have hbl := congrArg Hdr.bl hh
  have hfl := congrArg Hdr.fl hh
  simp only at hbl hfl
  have hil : h.getIl = ctext[2].toNat % 16 := by rw [hh, Hdr.getIl_eq]
  have hhl : h.getHl = 4 + ctext[2].toNat % 16 := by rw [Hdr.getHl, hil]
  have hto : h.getTrailerOffset = h.getHl + h.bl := by
    rw [Hdr.getTrailerOffset, hhl, hil]; omega
  have hf : h.fl = h.getHl + h.bl + 22 := by
    rw [Hdr.getTl, hil] at htl; rw [hhl]; omega
  refine ⟨by omega, hto, hf, by omega, ?_⟩
  rw [List.take_succ_eq_append_getElem hlen]
  congr 1
  rw [hto, Hdr.getBodyOffset, hf, show h.getHl + h.bl + 22 - 16 = h.getHl + h.bl + 6 by omega,
    show h.getHl + h.bl + 22 = h.getHl + (h.bl + (6 + 16)) by omega, List.take_add, List.take_add, List.take_add,
    List.drop_drop, List.drop_drop]
  simp only [List.append_assoc, Nat.add_assoc]

end OTR
