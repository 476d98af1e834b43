import Verif.Props.Tight3
/-!
# The non-secure "alive" beacon, byte for byte (C05)
-/

namespace OTR.Props
open OTR

/-- **C05 (beacon).** Whenever the buffer has room for it, `generateNonsecureBeacon()` with an ID of at most 8 bytes makes a frame of
`5 + il` bytes: length byte `4 + il`, type `'!'`, the sequence number and ID length, the ID, a zero body length and a CRC; the receive path accepts it
as an insecure frame of type `'!'` with the same sequence number and ID and no body, and the rest of the buffer is untouched. -/
theorem C05_beacon (outbuf id : Bytes) (seqNum il : Byte) (hil : il.toNat ≤ 8) (hid : il.toNat ≤ id.length)
    (hroom : 5 + il.toNat ≤ outbuf.length) :
    ∃ h crc out, generateNonsecureBeacon outbuf seqNum (some id) il = .ok (5 + il.toNat, h, out) ∧
      out = [u8 (4 + il.toNat), u8 '!'.toNat, u8 (16 * (seqNum.toNat % 16) + il.toNat)] ++ id.take il.toNat ++ [0, crc] ++
        outbuf.drop (5 + il.toNat) ∧
      rxNonsecure (out.take (5 + il.toNat)) = .ok (5 + il.toNat, h) ∧
      h.isSecure = false ∧ (h.fType &&& 0x7f) = u8 '!'.toNat ∧ h.getSeq = seqNum.toNat % 16 ∧ h.id = id.take il.toNat ∧ h.bl = 0 := by
  have hn : NonsecureNeeds (u8 '!'.toNat) [] outbuf (some id) il :=
    ⟨by decide, hil, by intro _; simp, by simp only [List.length_nil]; omega, by simpa using hroom⟩
  obtain ⟨⟨n, h, out⟩, he⟩ := ((C05_succeeds_iff (u8 '!'.toNat) [] outbuf seqNum (some id) il (by simp)
    (by intro b hb; cases hb; exact hid)).1).mpr hn
  obtain ⟨r1, -, -, -, r5, r6, r7, r8, r9, r10, r11, -⟩ := C05_nonsecure_roundtrip _ _ _ _ _ _ _ _ _ (by simp) he
  obtain ⟨hb, heh, hhl, hfl, hbl, hlt, hn', hout⟩ := encodeNonsecure_ok (by simp) he
  obtain ⟨idb, t1, t2, h8, hidb, hb4, _, _, hf, hh, hhb⟩ := encodeHeader_ok.mp heh
  have hi : idb = id.take il.toNat := by
    rcases hidb with ⟨a, b⟩ | ⟨_, bs, b, _, d⟩
    · rw [b, a]; simp
    · cases b; exact d
  have e1 : (1 : Byte).toNat = 1 := by decide
  have e0 : (u8 ([] : Bytes).length).toNat = 0 := by decide
  have hflv : h.fl = 4 + il.toNat := by rw [hh]; dsimp only; rw [e0, e1]; omega
  have hnv : n = 5 + il.toNat := by omega
  subst hnv
  refine ⟨h, nsCRC (hb ++ []), out, he, ?_, r1, r6, r7, r8, r10 id rfl, by simpa using r11⟩
  have hs : seqIlByte seqNum il = u8 (16 * (seqNum.toNat % 16) + il.toNat) := by
    have := seqIlByte_toNat seqNum il (by omega)
    rw [show 16 * (seqNum.toNat % 16) + il.toNat = (seqIlByte seqNum il).toNat by omega]; simp [u8]
  have ht : typeByte false (u8 '!'.toNat) = u8 '!'.toNat := by decide
  rw [hout, hflv, hhb, hi, e0, e1, hs, ht, show 3 + il.toNat + 0 + 1 = 4 + il.toNat by omega,
    show 4 + il.toNat + 1 = 5 + il.toNat by omega, show u8 ([] : Bytes).length = 0 by decide]
  simp

/-- A beacon with a two-byte ID: `06 21 32 80 81 00 crc`. -/
example : (match generateNonsecureBeacon (List.replicate 8 0) 3 (some [0x80, 0x81]) 2 with | .ok r => r.2.2.take 6 | _ => []) =
    [0x06, 0x21, 0x32, 0x80, 0x81, 0x00] := by decide +kernel

end OTR.Props
