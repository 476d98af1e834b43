import Verif.Proof.Nonsecure
/-!
# Properties C05, C06: non-secure frames
-/

namespace OTR.Props
open OTR

/-- The receive path for a non-secure frame held in `frame`: decode the header, then check the frame
(`OTRadioLink::decodeNonsecure` after `sfh.decodeHeader`). -/
def rxNonsecure (frame : Bytes) : Res (Nat × Hdr) :=
  match decodeHeader frame with
  | .ok h => match decodeNonsecure h frame with
    | .ok n => .ok (n, h)
    | .fail => .fail
    | .ub => .ub
  | .fail => .fail
  | .ub => .ub

/-- **C05.** A successfully encoded non-secure frame occupies the first `n` bytes of the output buffer, is accepted by
the receive path, and delivers the same type, sequence number, ID and body; nothing after the frame is touched. -/
theorem C05_nonsecure_roundtrip
    (fType : Byte) (ptext outbuf : Bytes) (seqNum : Byte) (id : Option Bytes) (il : Byte)
    (n : Nat) (h : Hdr) (out : Bytes) (hp : ptext.length < 256)
    (he : encodeNonsecure fType ptext outbuf seqNum id il = .ok (n, h, out)) :
    rxNonsecure (out.take n) = .ok (n, h) ∧
    n ≤ 64 ∧ n ≤ outbuf.length ∧ out.length = outbuf.length ∧ out.drop n = outbuf.drop n ∧
    h.isSecure = false ∧ (h.fType &&& 0x7f) = fType ∧ h.getSeq = seqNum.toNat % 16 ∧ h.getIl = il.toNat ∧
    (∀ src, id = some src → h.id = src.take il.toNat) ∧
    h.bl = ptext.length ∧ (out.drop h.getBodyOffset).take h.bl = ptext := by
  obtain ⟨hb, heh, hhl, hfl, hbl, hlt, hn, hout⟩ := encodeNonsecure_ok hp he
  have h4 : 4 ≤ hb.length := by rw [hhl, Hdr.getHl]; omega
  have hflen : (hb ++ ptext).length = h.fl := by simp [hfl]
  have htake : out.take n = hb ++ (ptext ++ [nsCRC (hb ++ ptext)]) := by
    rw [hout, hn, List.take_append_of_le_length (by simp; omega), List.take_of_length_le (by simp; omega)]
    simp
  have hlastq : (hb ++ (ptext ++ [nsCRC (hb ++ ptext)]))[h.fl]? = some (nsCRC (hb ++ ptext)) := by
    rw [← List.append_assoc, List.getElem?_append_right (by omega), hflen]; simp
  have hrt := C01_header_roundtrip _ _ _ _ _ _ _ _ _ _ heh (ptext ++ [nsCRC (hb ++ ptext)])
    (by simp; omega)
    (by
      intro b hbq
      rw [hlastq] at hbq
      simp only [Option.some.injEq] at hbq
      subst hbq
      refine ⟨nsCRC_ne_zero _, fun hc => ?_⟩
      have := nsCRC_le (hb ++ ptext)
      rw [hc] at this
      exact absurd this (by decide))
  obtain ⟨r1, r2, r3, r4, r5, r6, r7, r8, r9, r10, r11⟩ := hrt
  have hmax : h.fl ≤ 63 := by
    rw [encodeHeader_ok] at heh
    obtain ⟨idb, _, _, _, _, _, _, _, hf, hh, _⟩ := heh
    rw [hh]; exact hf
  refine ⟨?_, by omega, by omega, ?_, ?_, r5, r6, r7, r8, r9, hbl, ?_⟩
  · have hd : decodeNonsecure h (hb ++ (ptext ++ [nsCRC (hb ++ ptext)])) = .ok n := by
      rw [decodeNonsecure_ok]
      refine ⟨by omega, r11, by simp; omega, ?_, ?_, hn⟩
      · have h0 : (hb ++ (ptext ++ [nsCRC (hb ++ ptext)]))[0]? = some (u8 h.fl) := by
          rw [encodeHeader_ok] at heh
          obtain ⟨idb, _, _, _, _, _, _, _, hf, hh, hhb⟩ := heh
          rw [hhb, hh]; simp
        rw [List.getElem?_eq_getElem (by simp; omega)] at h0
        simp only [Option.some.injEq] at h0
        rw [h0, u8_toNat]; omega
      · rw [List.getElem?_eq_getElem (by simp; omega)] at hlastq
        simp only [Option.some.injEq] at hlastq
        rw [hlastq, ← List.append_assoc, List.take_append_of_le_length (by omega),
          List.take_of_length_le (by omega)]
    rw [htake]
    unfold rxNonsecure
    rw [r1]; simp only [hd]
  · rw [hout]; simp; omega
  · rw [hout, List.drop_append, List.drop_of_length_le (by simp; omega), List.nil_append, List.drop_drop]
    congr 1
    simp; omega
  · rw [hout, Hdr.getBodyOffset, ← hhl, hbl]
    simp

-- Non-vacuity: a 3-byte body in a beacon-like frame with a 2-byte ID encodes.
example : encodeNonsecure 0x4f [1, 2, 3] (List.replicate 12 0xff) 7 (some [0x80, 0x81]) 2 =
    .ok (10, { fl := 9, fType := 0x4f, seqIl := 0x72, id := [0x80, 0x81], bl := 3 },
      [9, 0x4f, 0x72, 0x80, 0x81, 3, 1, 2, 3, 103, 0xff, 0xff]) := by decide +kernel

/-- Flip bit `j` of byte `k`. -/
def flipBit (frame : Bytes) (k j : Nat) : Bytes :=
  frame.set k ((frame[k]?.getD 0) ^^^ ((1 : Byte) <<< UInt8.ofNat j))

private theorem bit_ne (j : Nat) (hj : j < 8) :
    (1 : Byte) <<< UInt8.ofNat j ≠ 0 ∧ (1 : Byte) <<< UInt8.ofNat j ≠ 0xB7 := by
  have : ∀ j, j < 8 → (1 : Byte) <<< UInt8.ofNat j ≠ 0 ∧ (1 : Byte) <<< UInt8.ofNat j ≠ 0xB7 := by decide +kernel
  exact this j hj

private theorem xor_self_left (a b : Byte) : a ^^^ (a ^^^ b) = b := by
  rw [← UInt8.xor_assoc, UInt8.xor_self, UInt8.zero_xor]

/-- **C06.** Flipping any single bit, in any byte other than the leading length byte, of a frame accepted as a valid
non-secure frame makes the receive path reject it. -/
theorem C06_nonsecure_bit_error (frame : Bytes) (n : Nat) (h : Hdr)
    (hv : rxNonsecure frame = .ok (n, h)) (hlen : frame.length = n)
    (k j : Nat) (hk1 : 1 ≤ k) (hk2 : k < n) (hj : j < 8) :
    rxNonsecure (flipBit frame k j) = .fail := by
  obtain ⟨hbit1, hbit2⟩ := bit_ne j hj
  have hkl : k < frame.length := by omega
  have hflip : flipBit frame k j = frame.set k (frame[k] ^^^ ((1 : Byte) <<< UInt8.ofNat j)) := by
    unfold flipBit; rw [List.getElem?_eq_getElem hkl]; rfl
  generalize he : (1 : Byte) <<< UInt8.ofNat j = e at *
  -- the original acceptance
  unfold rxNonsecure at hv
  split at hv <;> try simp at hv
  rename_i h0 hd
  split at hv <;> try simp at hv
  rename_i n0 hn
  obtain ⟨rfl, rfl⟩ := hv
  rw [decodeNonsecure_ok] at hn
  obtain ⟨a1, a2, hl, a3, a4, a5⟩ := hn
  have hfl0 : h0.fl = (frame[0]'(by omega)).toNat := by
    rw [decodeHeader_ok] at hd
    obtain ⟨h5, _, _, _, _, _, _, hb, _, _, _, rfl⟩ := hd
    rfl
  rw [hflip]
  unfold rxNonsecure
  cases hd2 : decodeHeader (frame.set k (frame[k] ^^^ e)) with
  | fail => rfl
  | ub => exact absurd hd2 (C03_decode_no_overread _)
  | ok h2 =>
    have hfl2 : h2.fl = h0.fl := by
      rw [hfl0]
      rw [decodeHeader_ok] at hd2
      obtain ⟨h5, _, _, _, _, _, _, hb, _, _, _, rfl⟩ := hd2
      simp only
      rw [List.getElem_set_ne (by omega)]
    simp only
    have hnot : ∀ m, decodeNonsecure h2 (frame.set k (frame[k] ^^^ e)) ≠ .ok m := by
      intro m hm
      rw [decodeNonsecure_ok] at hm
      obtain ⟨_, _, hl2, _, b4, _⟩ := hm
      simp only [hfl2] at b4
      by_cases hkf : k = h0.fl
      · rw [List.getElem_set, if_pos hkf, List.take_set_of_le (by omega)] at b4
        have hkk : frame[k] = frame[h0.fl] := by simp [hkf]
        rw [hkk, a4] at b4
        have := congrArg (fun z => nsCRC (frame.take h0.fl) ^^^ z) b4
        simp only [xor_self_left, UInt8.xor_self] at this
        exact hbit1 this
      · rw [List.getElem_set_ne hkf, a4] at b4
        have hc := nsCRC_inj_crc b4
        have hkt : k < (frame.take h0.fl).length := by simp; omega
        have s1 : frame.take h0.fl = (frame.take k) ++ frame[k] :: (frame.take h0.fl).drop (k+1) := by
          have := List.getElem_cons_drop hkt
          rw [List.getElem_take] at this
          rw [this]
          have h2 := List.take_append_drop k (frame.take h0.fl)
          rw [List.take_take, Nat.min_eq_left (by omega)] at h2
          exact h2.symm
        have s2 : (frame.set k (frame[k] ^^^ e)).take h0.fl
            = (frame.take k) ++ (frame[k] ^^^ e) :: (frame.take h0.fl).drop (k+1) := by
          rw [List.take_set, List.set_eq_take_append_cons_drop, if_pos hkt, List.take_take, Nat.min_eq_left (by omega)]
        rw [s2] at hc
        have hc := (congrArg (crc7 0x7f) s1).symm.trans hc
        refine crc7_byte_error 0x7f (frame.take k) frame[k] (frame[k] ^^^ e) ((frame.take h0.fl).drop (k+1)) ?_ ?_ hc
        · rw [xor_self_left]; exact hbit1
        · rw [xor_self_left]; exact hbit2
    cases hx : decodeNonsecure h2 (frame.set k (frame[k] ^^^ e)) with
    | ok m => exact absurd hx (hnot m)
    | fail => rfl
    | ub =>
      exact absurd hx (decodeNonsecure_no_ub (by simp; omega))

-- Non-vacuity: a concrete accepted frame (the beacon of the project's unit tests).
example : rxNonsecure [0x04, 0x21, 0x00, 0x00, 0x65] =
    .ok (5, { fl := 4, fType := 0x21, seqIl := 0x00, id := [], bl := 0 }) := by decide +kernel

end OTR.Props
