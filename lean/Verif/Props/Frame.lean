import Verif.Proof.Header
/-!
# Properties C01-C06: frame header and non-secure frames
-/

namespace OTR.Props
open OTR

/-! ## C01 -/

/-- **C01.** Whatever `encodeHeader` accepts, `decodeHeader` recovers exactly, from any buffer that starts with the
encoded header, has at least 5 bytes, and whose byte at the frame's last position (if present) is not 0x00/0xff. -/
theorem C01_header_roundtrip
    (buflen : Nat) (secure : Bool) (fType seqNum : Byte) (id : Option Bytes) (il bl tl : Byte) (h : Hdr) (hb : Bytes)
    (he : encodeHeader buflen secure fType seqNum id il bl tl = .ok (h, hb))
    (rest : Bytes) (h5 : 5 ≤ (hb ++ rest).length)
    (hlast : ∀ b, (hb ++ rest)[h.fl]? = some b → b ≠ 0x00 ∧ b ≠ 0xff) :
    decodeHeader (hb ++ rest) = .ok h ∧
    hb.length = h.getHl ∧ h.getHl = 4 + il.toNat ∧
    h.fl = 3 + il.toNat + bl.toNat + tl.toNat ∧
    h.isSecure = secure ∧ (h.fType &&& 0x7f) = fType ∧ h.getSeq = seqNum.toNat % 16 ∧
    h.getIl = il.toNat ∧ (∀ src, id = some src → h.id = src.take il.toNat) ∧
    h.bl = bl.toNat ∧ h.getTl = tl.toNat := by
  rw [encodeHeader_ok] at he
  obtain ⟨idb, t1, t2, hil, hid, _, tl1, tl2, hfl, hh, hhb⟩ := he
  have hidlen : idb.length = il.toNat := by
    rcases hid with ⟨a, b⟩ | ⟨_, bs, _, b, c⟩
    · simp [b, a]
    · simp [c]; omega
  have hsi := seqIlByte_toNat seqNum il (by omega)
  have hty := typeByte_toNat secure fType t2
  have hu8 : (u8 (3 + il.toNat + bl.toNat + tl.toNat)).toNat = 3 + il.toNat + bl.toNat + tl.toNat := by
    rw [u8_toNat]; omega
  have hsil : (seqIlByte seqNum il).toNat % 16 = il.toNat := by omega
  refine ⟨?_, ?_, ?_, ?_, ?_, ?_, ?_, ?_, ?_, ?_, ?_⟩
  · rw [decodeHeader_ok]
    subst hh
    subst hhb
    simp only [List.cons_append, List.nil_append, List.length_cons, List.length_append, List.append_assoc] at h5
    have e3 : ([u8 (3 + il.toNat + bl.toNat + tl.toNat), typeByte secure fType, seqIlByte seqNum il] ++ idb ++ [bl] ++ rest)[3 + il.toNat]? = some bl := by
      simp only [List.cons_append, List.nil_append, List.append_assoc]
      rw [show 3 + il.toNat = (il.toNat + 2) + 1 by omega, List.getElem?_cons_succ, List.getElem?_cons_succ,
        List.getElem?_cons_succ, List.getElem?_append_right (by omega)]
      simp [hidlen]
    have hbound : 4 + il.toNat ≤ ([u8 (3 + il.toNat + bl.toNat + tl.toNat), typeByte secure fType, seqIlByte seqNum il] ++ idb ++ [bl] ++ rest).length := by
      simp [hidlen]; omega
    have e3' := e3
    rw [List.getElem?_eq_getElem (by omega)] at e3'
    simp only [Option.some.injEq] at e3'
    refine ⟨by simp; omega, ?_⟩
    have g0 : ([u8 (3 + il.toNat + bl.toNat + tl.toNat), typeByte secure fType, seqIlByte seqNum il] ++ idb ++ [bl] ++ rest)[0]'(by simp) = u8 (3 + il.toNat + bl.toNat + tl.toNat) := by simp
    have g1 : ([u8 (3 + il.toNat + bl.toNat + tl.toNat), typeByte secure fType, seqIlByte seqNum il] ++ idb ++ [bl] ++ rest)[1]'(by simp) = typeByte secure fType := by simp
    have g2 : ([u8 (3 + il.toNat + bl.toNat + tl.toNat), typeByte secure fType, seqIlByte seqNum il] ++ idb ++ [bl] ++ rest)[2]'(by simp) = seqIlByte seqNum il := by simp
    have gd : List.take il.toNat (List.drop 3 ([u8 (3 + il.toNat + bl.toNat + tl.toNat), typeByte secure fType, seqIlByte seqNum il] ++ idb ++ [bl] ++ rest)) = idb := by
      simp [hidlen]
    simp only [g0, g1, g2, hu8, hsil, e3', gd, hty]
    refine ⟨by omega, by omega, ?_, ?_, by omega, by omega, hbound, by omega, ?_, ?_, trivial⟩
    · cases secure <;> simp <;> omega
    · cases secure <;> simp <;> omega
    · intro hl
      apply hlast
      rw [List.getElem?_eq_getElem]
    · intro hs
      cases secure
      · have := tl2 rfl; omega
      · simp at hs; omega
  · subst hh; subst hhb
    simp only [Hdr.getHl, Hdr.getIl, and0f_toNat, hsil]; simp [hidlen]; omega
  · subst hh; simp only [Hdr.getHl, Hdr.getIl, and0f_toNat, hsil]
  · subst hh; rfl
  · subst hh; simp only [Hdr.isSecure, secureFlag_iff, hty]
    cases secure <;> simp <;> omega
  · subst hh
    apply byte_ext
    simp only [and7f_toNat, hty]
    cases secure <;> simp <;> omega
  · subst hh; simp only [Hdr.getSeq, seq_toNat, hsi]; omega
  · subst hh; simp only [Hdr.getIl, and0f_toNat, hsil]
  · intro src hsrc; subst hh
    rcases hid with ⟨a, b⟩ | ⟨_, bs, b0, b, c⟩
    · simp [a, b]
    · rw [hsrc] at b0; simp only [Option.some.injEq] at b0; subst b0; exact c
  · subst hh; rfl
  · subst hh; simp only [Hdr.getTl, Hdr.getIl, and0f_toNat, hsil]; omega

-- Non-vacuity: a secure 'O' frame with a 4-byte ID, 32-byte body and 23-byte trailer is accepted.
example : encodeHeader 64 true 0x4f 5 (some [0xaa, 0xbb, 0xcc, 0xdd, 0xee]) 4 32 23 =
    .ok ({ fl := 62, fType := 0xcf, seqIl := 0x54, id := [0xaa, 0xbb, 0xcc, 0xdd], bl := 32 },
         [62, 0xcf, 0x54, 0xaa, 0xbb, 0xcc, 0xdd, 32]) := by decide +kernel

/-! ## C02 -/

/-- The 'Quick Integrity Checks' of the frame specification, as stated in the documentation of `decodeHeader`
(SecureableFrameType.h 270-285): independent specification as a decomposition of the buffer. -/
def ValidFrameStart (buf : Bytes) : Prop :=
  ∃ (fl type seqIl : Byte) (id : Bytes) (bl : Byte) (rest : Bytes),
    buf = fl :: type :: seqIl :: (id ++ bl :: rest) ∧ 5 ≤ buf.length ∧
    id.length = seqIl.toNat % 16 ∧                                     -- il is the low nibble
    4 ≤ fl.toNat ∧ fl.toNat ≤ 63 ∧                                     -- 1, 2
    type ∉ [(0x00 : Byte), 0x80, 0x7f, 0xff] ∧                         -- 3
    id.length ≤ 8 ∧                                                    -- 4
    id.length + 4 ≤ fl.toNat ∧                                         -- 5
    bl.toNat + 4 + id.length ≤ fl.toNat ∧                              -- 6
    buf[fl.toNat]? ≠ some 0x00 ∧ buf[fl.toNat]? ≠ some 0xff ∧          -- 7
    (type.toNat < 0x80 → fl.toNat = 3 + id.length + bl.toNat + 1)      -- 8 (trailer exactly 1 if not secure)

private theorem type_ok_iff (t : Byte) :
    t ∉ [(0x00 : Byte), 0x80, 0x7f, 0xff] ↔ 0 < t.toNat % 128 ∧ t.toNat % 128 < 127 := by
  revert t; apply forall_byte; decide +kernel

/-- **C02.** `decodeHeader` accepts exactly the buffers satisfying the documented integrity checks. -/
theorem C02_decode_accepts_iff (buf : Bytes) :
    (∃ h, decodeHeader buf = .ok h) ↔ ValidFrameStart buf := by
  constructor
  · rintro ⟨h, hd⟩
    rw [decodeHeader_ok] at hd
    obtain ⟨h5, a1, a2, a3, a4, a5, a6, hb, a7, a8, a9, -⟩ := hd
    rcases buf with _ | ⟨fl, _ | ⟨ty, _ | ⟨si, tail⟩⟩⟩
    · simp at h5
    · simp at h5
    · simp at h5
    · simp only [List.getElem_cons_zero, List.getElem_cons_succ, List.length_cons] at *
      have hb' : 4 + si.toNat % 16 ≤ tail.length + 3 := by simpa using hb
      have h5' : 5 ≤ tail.length + 3 := by simpa using h5
      have hlt : si.toNat % 16 < tail.length := by omega
      have hsplit : tail = tail.take (si.toNat % 16) ++ tail[si.toNat % 16] :: tail.drop (si.toNat % 16 + 1) := by
        rw [List.getElem_cons_drop, List.take_append_drop]
      have hg : ∀ h, (fl :: ty :: si :: tail)[3 + si.toNat % 16]'h = tail[si.toNat % 16] := by
        intro h
        have : (fl :: ty :: si :: tail)[3 + si.toNat % 16]? = tail[si.toNat % 16]? := by
          rw [show 3 + si.toNat % 16 = (si.toNat % 16) + 1 + 1 + 1 by omega, List.getElem?_cons_succ,
            List.getElem?_cons_succ, List.getElem?_cons_succ]
        rw [List.getElem?_eq_getElem h, List.getElem?_eq_getElem hlt] at this
        simpa using this
      rw [hg] at a7 a9
      have hlen : (tail.take (si.toNat % 16)).length = si.toNat % 16 := by simp; omega
      refine ⟨fl, ty, si, tail.take (si.toNat % 16), tail[si.toNat % 16], tail.drop (si.toNat % 16 + 1),
        by rw [← hsplit], by simp; omega, hlen, a1, a2, (type_ok_iff ty).2 ⟨a3, a4⟩, by omega, by omega, by omega, ?_, ?_, ?_⟩
      · intro hc
        rw [List.getElem?_eq_some_iff] at hc
        obtain ⟨hc1, hc2⟩ := hc
        exact (a8 hc1).1 hc2
      · intro hc
        rw [List.getElem?_eq_some_iff] at hc
        obtain ⟨hc1, hc2⟩ := hc
        exact (a8 hc1).2 hc2
      · intro hs; have := a9 hs; omega
  · rintro ⟨fl, ty, si, id, bl, rest, rfl, h5, hil, a1, a2, a3, a4, a5, a6, a7, a7', a8⟩
    rw [type_ok_iff] at a3
    refine ⟨⟨fl.toNat, ty, si, id, bl.toNat⟩, decodeHeader_ok.mpr ?_⟩
    have e3 : (fl :: ty :: si :: (id ++ bl :: rest))[3 + si.toNat % 16]? = some bl := by
      rw [show 3 + si.toNat % 16 = (si.toNat % 16) + 1 + 1 + 1 by omega, List.getElem?_cons_succ,
            List.getElem?_cons_succ, List.getElem?_cons_succ, List.getElem?_append_right (by omega)]
      simp [hil]
    have hb : 4 + si.toNat % 16 ≤ (fl :: ty :: si :: (id ++ bl :: rest)).length := by simp; omega
    rw [List.getElem?_eq_getElem (by omega)] at e3
    simp only [Option.some.injEq] at e3
    refine ⟨h5, ?_⟩
    simp only [List.getElem_cons_zero, List.getElem_cons_succ, e3]
    refine ⟨by omega, by omega, a3.1, a3.2, by omega, by omega, hb, by omega, ?_, ?_, ?_⟩
    · intro hl
      rw [List.getElem?_eq_getElem hl] at a7 a7'
      exact ⟨fun hh => a7 (by rw [hh]), fun hh => a7' (by rw [hh])⟩
    · intro hs; have := a8 hs; omega
    · simp [hil.symm]

example : ValidFrameStart [62, 0xcf, 0x54, 0xaa, 0xbb, 0xcc, 0xdd, 32] :=
  (C02_decode_accepts_iff _).1
    ⟨{ fl := 62, fType := 0xcf, seqIl := 0x54, id := [0xaa, 0xbb, 0xcc, 0xdd], bl := 32 }, by decide +kernel⟩
example : ¬ ValidFrameStart [62, 0xff, 0x54, 0xaa, 0xbb, 0xcc, 0xdd, 32] := by
  rw [← C02_decode_accepts_iff]; rintro ⟨h, hd⟩
  rw [show decodeHeader [62, 0xff, 0x54, 0xaa, 0xbb, 0xcc, 0xdd, 32] = .fail by decide +kernel] at hd
  simp at hd

/-! ## C03 -/

/-- **C03.** `decodeHeader` never reads outside the supplied buffer. -/
theorem C03_decode_no_overread (buf : Bytes) : decodeHeader buf ≠ .ub := by
  unfold decodeHeader
  simp only [ne_eq, failIf_eq_ub, rd_eq_ub, rdBlock_eq_ub, maxIDLength, maxSmallFrameSize, and0f_toNat]
  rintro ⟨h5, h⟩
  obtain ⟨_, _, h⟩ := h (by omega)
  obtain ⟨_, h⟩ := h (by omega)
  obtain ⟨_, _, _, h⟩ := h (by omega)
  obtain ⟨_, h⟩ := h (by omega) (by omega)
  split at h
  · rename_i hl
    simp only [rd_lt hl, failIf_eq_ub] at h
    simp at h
  · simp only [failIf_eq_ub] at h
    simp at h

/-! ## C04 -/

/-- **C04.** Re-encoding the decoded fields reproduces the header bytes exactly. -/
theorem C04_header_canonical (buf : Bytes) (h : Hdr) (hd : decodeHeader buf = .ok h) :
    encodeHeader buf.length h.isSecure (h.fType &&& 0x7f) (u8 h.getSeq) (some h.id) (u8 h.getIl) (u8 h.bl) (u8 h.getTl)
      = .ok (h, buf.take h.getHl) := by
  rw [decodeHeader_ok] at hd
  obtain ⟨h5, a1, a2, a3, a4, a5, a6, hb, a7, a8, a9, rfl⟩ := hd
  have hsplit : buf.take (4 + buf[2].toNat % 16) = [buf[0], buf[1], buf[2]] ++ (buf.drop 3).take (buf[2].toNat % 16)
      ++ [buf[3 + buf[2].toNat % 16]] := by
    rw [show 4 + buf[2].toNat % 16 = (3 + buf[2].toNat % 16) + 1 by omega, ← List.take_append_getElem (by omega)]
    congr 1
    rw [List.take_add]
    rw [take3 (by omega)]
  have hbl := byte_lt buf[3 + buf[2].toNat % 16]
  have htl : (buf[0].toNat + 768 - 3 - buf[2].toNat % 16 - buf[3 + buf[2].toNat % 16].toNat) % 256
      = buf[0].toNat - 3 - buf[2].toNat % 16 - buf[3 + buf[2].toNat % 16].toNat := by omega
  rw [encodeHeader_ok]
  simp only [Hdr.isSecure_eq, Hdr.getIl_eq, Hdr.getSeq_eq, Hdr.getTl, Hdr.getHl, and7f_toNat, 
    u8_toNat, u8_of_toNat, htl]
  have m1 : buf[2].toNat % 16 % 256 = buf[2].toNat % 16 := by omega
  have m3 : (buf[0].toNat - 3 - buf[2].toNat % 16 - buf[3 + buf[2].toNat % 16].toNat) % 256
      = buf[0].toNat - 3 - buf[2].toNat % 16 - buf[3 + buf[2].toNat % 16].toNat := by omega
  have m4 : 3 + buf[2].toNat % 16 + buf[3 + buf[2].toNat % 16].toNat +
      (buf[0].toNat - 3 - buf[2].toNat % 16 - buf[3 + buf[2].toNat % 16].toNat) = buf[0].toNat := by omega
  have ht : typeByte (decide (128 ≤ buf[1].toNat)) (buf[1] &&& 0x7f) = buf[1] := by
    apply byte_ext
    rw [typeByte_toNat _ _ (by rw [and7f_toNat]; omega), and7f_toNat]
    have := byte_lt buf[1]
    by_cases hs : 128 ≤ buf[1].toNat
    · simp [hs]; omega
    · simp [hs]; omega
  have hsq : seqIlByte (u8 (buf[2].toNat / 16)) (u8 (buf[2].toNat % 16)) = buf[2] := by
    apply byte_ext
    have := byte_lt buf[2]
    rw [seqIlByte_toNat _ _ (by rw [u8_toNat]; omega), u8_toNat, u8_toNat]
    omega
  refine ⟨(buf.drop 3).take (buf[2].toNat % 16), a3, a4, by omega, ?_, by omega, by omega, ?_, by omega, ?_, ?_⟩
  · by_cases h0 : buf[2].toNat % 16 = 0
    · left; exact ⟨by omega, by simp [h0]⟩
    · right
      refine ⟨by omega, _, rfl, ?_, ?_⟩
      · simp; omega
      · rw [m1, List.take_take]; simp
  · intro hs
    simp only [decide_eq_false_iff_not] at hs
    have := a9 (by omega); omega
  · rw [m1, m3, m4, ht, hsq]
  · rw [hsplit, m1, m3, m4, ht, hsq, u8_of_toNat]

/-- **C04** (corollary). Two buffers that decode to the same header start with the same header bytes. -/
theorem C04_header_injective (b1 b2 : Bytes) (h : Hdr) (h1 : decodeHeader b1 = .ok h) (h2 : decodeHeader b2 = .ok h) :
    b1.take h.getHl = b2.take h.getHl := by
  have e1 := C04_header_canonical b1 h h1
  have e2 := C04_header_canonical b2 h h2
  rw [encodeHeader_ok] at e1 e2
  obtain ⟨i1, _, _, _, _, _, _, _, _, q1, r1⟩ := e1
  obtain ⟨i2, _, _, _, _, _, _, _, _, q2, r2⟩ := e2
  rw [r1, r2]
  have : i1 = i2 := by
    have := q1.symm.trans q2
    simpa using this
  rw [this]

example : decodeHeader [62, 0xcf, 0x54, 0xaa, 0xbb, 0xcc, 0xdd, 32] =
    .ok { fl := 62, fType := 0xcf, seqIl := 0x54, id := [0xaa, 0xbb, 0xcc, 0xdd], bl := 32 } := by decide +kernel

end OTR.Props
