import Verif.Model.Header
import Verif.Proof.CRC
/-! # Header helper lemmas -/

namespace OTR

theorem secureFlag_iff (b : Byte) : ((0x80 &&& b) != 0) = decide (128 ≤ b.toNat) := by
  revert b; apply forall_byte; decide +kernel

theorem and7f_toNat (b : Byte) : (b &&& 0x7f).toNat = b.toNat % 128 := by
  revert b; apply forall_byte; decide +kernel

theorem and0f_toNat (b : Byte) : (b &&& 0xf).toNat = b.toNat % 16 := by
  revert b; apply forall_byte; decide +kernel

theorem seq_toNat (b : Byte) : ((b >>> 4) &&& 0xf).toNat = b.toNat / 16 := by
  revert b; apply forall_byte; decide +kernel

theorem shl4_toNat (b : Byte) : (b <<< 4).toNat = (b.toNat % 16) * 16 := by
  revert b; apply forall_byte; decide +kernel

theorem typeByte_toNat (s : Bool) (t : Byte) (h : t.toNat < 127) :
    (typeByte s t).toNat = (if s then 128 else 0) + t.toNat := by
  revert t; cases s <;> apply forall_byte <;> decide +kernel

theorem seqIlByte_toNat (seq il : Byte) (h : il.toNat < 16) :
    (seqIlByte seq il).toNat = (seq.toNat % 16) * 16 + il.toNat := by
  have h1 : ((il ||| (seq <<< 4)).toNat) = (seq <<< 4).toNat + il.toNat := by
    rw [UInt8.toNat_or, shl4_toNat, Nat.or_comm]
    exact (Nat.two_pow_add_eq_or_of_lt (i := 4) h (seq.toNat % 16) |> fun e => by
      rw [Nat.mul_comm]; exact e.symm)
  rw [seqIlByte, h1, shl4_toNat]

theorem encodeHeaderWithId_ok {buflen : Nat} {secure : Bool} {fType seqNum : Byte} {idb : Bytes}
    {il bl tl : Byte} {h : Hdr} {hb : Bytes} (hil : il.toNat ≤ 8) :
    encodeHeaderWithId buflen secure fType seqNum idb il bl tl = .ok (h, hb) ↔
      4 + il.toNat ≤ buflen ∧
      1 ≤ tl.toNat ∧ (secure = false → tl.toNat = 1) ∧
      3 + il.toNat + bl.toNat + tl.toNat ≤ 63 ∧
      h = { fl := 3 + il.toNat + bl.toNat + tl.toNat, fType := typeByte secure fType,
            seqIl := seqIlByte seqNum il, id := idb, bl := bl.toNat } ∧
      hb = [u8 (3 + il.toNat + bl.toNat + tl.toNat), typeByte secure fType, seqIlByte seqNum il] ++ idb ++ [bl] := by
  unfold encodeHeaderWithId
  simp only [failIf_eq_ok, maxSmallFrameSize, Res.ok.injEq, Prod.mk.injEq]
  constructor
  · rintro ⟨a1, a2, a3, a4, a5, a6, a7⟩
    have hfl : (4 + il.toNat - 1 + bl.toNat + tl.toNat) % 256 = 3 + il.toNat + bl.toNat + tl.toNat := by
      cases secure <;> simp at a3 a4 a5 <;> omega
    rw [hfl] at a6 a7
    refine ⟨by omega, ?_, ?_, ?_, a6.symm, a7.symm⟩
    · cases secure <;> simp at a3 a4 a5 <;> omega
    · intro hs; subst hs; simpa using a3
    · cases secure <;> simp at a3 a4 a5 <;> omega
  · rintro ⟨a1, a2, a3, a4, a6, a7⟩
    have hfl : (4 + il.toNat - 1 + bl.toNat + tl.toNat) % 256 = 3 + il.toNat + bl.toNat + tl.toNat := by omega
    rw [hfl]
    refine ⟨by omega, by omega, ?_, by omega, by omega, a6.symm, a7.symm⟩
    rintro ⟨hs, ht⟩; exact ht (a3 hs)

/-- Inversion and characterisation of a successful `encodeHeader`. -/
theorem encodeHeader_ok {buflen : Nat} {secure : Bool} {fType seqNum : Byte} {id : Option Bytes}
    {il bl tl : Byte} {h : Hdr} {hb : Bytes} :
    encodeHeader buflen secure fType seqNum id il bl tl = .ok (h, hb) ↔
    ∃ idb : Bytes,
      0 < fType.toNat ∧ fType.toNat < 127 ∧ il.toNat ≤ 8 ∧
      (il.toNat = 0 ∧ idb = [] ∨ 0 < il.toNat ∧ ∃ bs, id = some bs ∧ il.toNat ≤ bs.length ∧ idb = bs.take il.toNat) ∧
      4 + il.toNat ≤ buflen ∧
      1 ≤ tl.toNat ∧ (secure = false → tl.toNat = 1) ∧
      3 + il.toNat + bl.toNat + tl.toNat ≤ 63 ∧
      h = { fl := 3 + il.toNat + bl.toNat + tl.toNat, fType := typeByte secure fType,
            seqIl := seqIlByte seqNum il, id := idb, bl := bl.toNat } ∧
      hb = [u8 (3 + il.toNat + bl.toNat + tl.toNat), typeByte secure fType, seqIlByte seqNum il] ++ idb ++ [bl] := by
  unfold encodeHeader
  rw [failIf_eq_ok, failIf_eq_ok]
  simp only [FTS_NONE, FTS_INVALID_HIGH, maxIDLength]
  by_cases hil : il.toNat ≤ 8
  case neg =>
    constructor
    · rintro ⟨_, h2, _⟩; omega
    · rintro ⟨_, _, _, h2, _⟩; omega
  by_cases h0 : il.toNat = 0
  · rw [if_neg (by omega), encodeHeaderWithId_ok hil]
    constructor
    · rintro ⟨h1, h2, a⟩
      exact ⟨[], by omega, by omega, hil, Or.inl ⟨h0, rfl⟩, a⟩
    · rintro ⟨idb, h1, h2, h3, h4, a⟩
      rcases h4 with ⟨_, h4⟩ | ⟨h4, _⟩
      · subst h4; exact ⟨by omega, by omega, a⟩
      · omega
  · rw [if_pos (by omega)]
    cases id with
    | none =>
      constructor
      · rintro ⟨_, _, h⟩; simp at h
      · rintro ⟨idb, h1, h2, h3, h4, a⟩
        rcases h4 with ⟨h4, _⟩ | ⟨_, bs, h4, _⟩
        · omega
        · simp at h4
    | some bs =>
      simp only [rdBlock_eq_ok, encodeHeaderWithId_ok hil, List.drop_zero, Nat.zero_add]
      constructor
      · rintro ⟨h1, h2, h3, a⟩
        exact ⟨bs.take il.toNat, by omega, by omega, hil, Or.inr ⟨by omega, bs, rfl, h3, rfl⟩, a⟩
      · rintro ⟨idb, h1, h2, h3, h4, a⟩
        rcases h4 with ⟨h4, _⟩ | ⟨_, bs', h4, h5, h6⟩
        · omega
        · simp only [Option.some.injEq] at h4
          subst h4; subst h6
          exact ⟨by omega, by omega, h5, a⟩

theorem Hdr.isSecure_eq (h : Hdr) : h.isSecure = decide (128 ≤ h.fType.toNat) := secureFlag_iff _
theorem Hdr.getSeq_eq (h : Hdr) : h.getSeq = h.seqIl.toNat / 16 := seq_toNat _
theorem Hdr.getIl_eq (h : Hdr) : h.getIl = h.seqIl.toNat % 16 := and0f_toNat _

theorem take3 {buf : Bytes} (h : 3 ≤ buf.length) : buf.take 3 = [buf[0], buf[1], buf[2]] := by
  match buf, h with
  | a :: b :: c :: t, _ => simp

/-- Inversion and characterisation of a successful `decodeHeader`. -/
theorem decodeHeader_ok {buf : Bytes} {h : Hdr} :
    decodeHeader buf = .ok h ↔
      ∃ h5 : 5 ≤ buf.length,
      4 ≤ buf[0].toNat ∧ buf[0].toNat ≤ 63 ∧
      0 < buf[1].toNat % 128 ∧ buf[1].toNat % 128 < 127 ∧
      buf[2].toNat % 16 ≤ 8 ∧ buf[2].toNat % 16 + 4 ≤ buf[0].toNat ∧
      ∃ hb : 4 + buf[2].toNat % 16 ≤ buf.length,
      4 + buf[2].toNat % 16 + buf[3 + buf[2].toNat % 16].toNat ≤ buf[0].toNat ∧
      (∀ hl : buf[0].toNat < buf.length, buf[buf[0].toNat] ≠ 0x00 ∧ buf[buf[0].toNat] ≠ 0xff) ∧
      (buf[1].toNat < 128 → buf[0].toNat = 4 + buf[2].toNat % 16 + buf[3 + buf[2].toNat % 16].toNat) ∧
      h = { fl := buf[0].toNat, fType := buf[1], seqIl := buf[2], id := (buf.drop 3).take (buf[2].toNat % 16),
            bl := buf[3 + buf[2].toNat % 16].toNat } := by
  unfold decodeHeader
  simp only [failIf_eq_ok, rd_eq_ok, rdBlock_eq_ok, FTS_NONE, FTS_INVALID_HIGH, maxIDLength, maxSmallFrameSize,
    and7f_toNat, and0f_toNat, secureFlag_iff]
  constructor
  · rintro ⟨h5, _, a1, a2, _, a3, _, a4, a5, a6, _, _, a7, a8⟩
    refine ⟨by omega, by omega, by omega, by omega, by omega, by omega, by omega, by omega, ?_⟩
    have e : 4 + buf[2].toNat % 16 - 1 = 3 + buf[2].toNat % 16 := by omega
    simp only [e] at a7 a8
    generalize buf[3 + buf[2].toNat % 16] = bl at *
    split at a8
    · simp only [rd_eq_ok, failIf_eq_ok, Res.ok.injEq] at a8
      obtain ⟨_, b1, b2, b3, b4⟩ := a8
      refine ⟨by omega, ?_, ?_, b4.symm⟩
      · intro hl; exact ⟨fun hh => b1 (Or.inl hh), fun hh => b1 (Or.inr hh)⟩
      · intro hs; simp only [decide_eq_false_iff_not, not_and] at b2; have := bl.toNat_lt; omega
    · simp only [failIf_eq_ok, Res.ok.injEq] at a8
      obtain ⟨b2, b3, b4⟩ := a8
      refine ⟨by omega, ?_, ?_, b4.symm⟩
      · intro hl; omega
      · intro hs; simp only [decide_eq_false_iff_not, not_and] at b2; have := bl.toNat_lt; omega
  · rintro ⟨h5, a1, a2, a3, a4, a5, a6, hb, a7, a8, a9, a10⟩
    have e : 4 + buf[2].toNat % 16 - 1 = 3 + buf[2].toNat % 16 := by omega
    simp only [e]
    refine ⟨by omega, by omega, by omega, by omega, by omega, by omega, by omega, by omega, by omega, by omega,
      by omega, by omega, by omega, ?_⟩
    generalize buf[3 + buf[2].toNat % 16] = bl at *
    have hbl := bl.toNat_lt
    have c1 : ¬(decide (128 ≤ buf[1].toNat) = false ∧
        (buf[0].toNat + 768 - 3 - buf[2].toNat % 16 - bl.toNat) % 256 ≠ 1) := by
      rintro ⟨d1, d2⟩
      simp only [decide_eq_false_iff_not] at d1
      have := a9 (by omega)
      omega
    have c2 : ¬(decide (128 ≤ buf[1].toNat) = true ∧
        (buf[0].toNat + 768 - 3 - buf[2].toNat % 16 - bl.toNat) % 256 = 0) := by
      rintro ⟨d1, d2⟩
      omega
    have c3 : failIf (decide (128 ≤ buf[1].toNat) = false ∧
        (buf[0].toNat + 768 - 3 - buf[2].toNat % 16 - bl.toNat) % 256 ≠ 1)
        (failIf (decide (128 ≤ buf[1].toNat) = true ∧
        (buf[0].toNat + 768 - 3 - buf[2].toNat % 16 - bl.toNat) % 256 = 0)
        (Res.ok (Hdr.mk buf[0].toNat buf[1] buf[2] (List.take (buf[2].toNat % 16) (List.drop 3 buf)) bl.toNat)))
        = Res.ok h := by
      rw [failIf_eq_ok, failIf_eq_ok]
      exact ⟨c1, c2, by rw [a10]⟩
    split
    · rename_i hl
      rw [rd_lt hl, failIf_eq_ok]
      exact ⟨by have := a8 hl; simp [this], c3⟩
    · exact c3

end OTR
