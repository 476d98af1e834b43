import Verif.Proof.SecureDecode
/-!
# Properties C09-C13: secure frames with a caller-supplied IV
-/

namespace OTR.Props
open OTR

/-! ## C09 -/

/-- **C09a.** Padding a body of at most 31 bytes in a 32-byte (or larger) buffer keeps the body, zero-fills up to byte 31
and records the number of zeros; unpadding gives back the body length. -/
theorem C09_pad_roundtrip (buf : Bytes) (n : Nat) (hn : n ≤ 31) (hb : 32 ≤ buf.length) :
    ∃ out, pad32BBuffer (some buf) n = .ok out ∧ out.length = buf.length ∧
      out.take n = buf.take n ∧ (∀ i, n ≤ i → i < 31 → out[i]? = some 0) ∧
      out[31]? = some (u8 (31 - n)) ∧ out.drop 32 = buf.drop 32 ∧
      unpad32BBuffer out = .ok n ∧ unpad32BBuffer (out.take 32) = .ok n := by
  have hl : (buf.take n).length = n := by simp; omega
  refine ⟨padded32 (buf.take n) ++ buf.drop 32, pad32_ok.2 ⟨buf, rfl, hn, hb, rfl⟩, ?_, ?_, ?_, ?_, ?_, ?_, ?_⟩
  · have := padded32_length (buf.take n) (by omega)
    simp [this]; omega
  · unfold padded32
    rw [List.append_assoc, List.append_assoc, List.take_append_of_le_length (by omega), List.take_take, Nat.min_self]
  · intro i h1 h2
    have := padded32_length (buf.take n) (by omega)
    rw [List.getElem?_append_left (by omega)]
    unfold padded32
    rw [List.getElem?_append_left (by simp; omega), List.getElem?_append_right (by omega),
      List.getElem?_replicate, if_pos (by omega)]
  · have := padded32_length (buf.take n) (by omega)
    rw [List.getElem?_append_left (by omega)]
    unfold padded32
    rw [List.getElem?_append_right (by simp; omega), hl]
    simp [show min n buf.length = n by omega, show n + (31 - n) = 31 by omega]
  · have := padded32_length (buf.take n) (by omega)
    rw [List.drop_append, List.drop_of_length_le (by omega), this]; simp
  · rw [unpad_padded (by omega), hl]
  · have := padded32_length (buf.take n) (by omega)
    rw [List.take_append_of_le_length (by omega), List.take_of_length_le (by omega)]
    have h := unpad_padded (data := buf.take n) (by omega) []
    rw [List.append_nil, hl] at h
    exact h

/-- **C09b.** Bodies over 31 bytes are refused, and unpadding any 32-byte buffer gives a length of at most 31, with no
out-of-range access. -/
theorem C09_pad_limits :
    (∀ buf n, 31 < n → pad32BBuffer buf n = .fail) ∧
    (∀ buf : Bytes, 32 ≤ buf.length → ∃ n, unpad32BBuffer buf = .ok n ∧ n ≤ 31) := by
  constructor
  · intro buf n h
    unfold pad32BBuffer failIf
    cases buf with
    | none => rfl
    | some b => simp only; rw [if_pos (by omega)]
  · intro buf h
    unfold unpad32BBuffer
    rw [rd_lt (by omega)]
    split
    · exact ⟨0, rfl, by omega⟩
    · exact ⟨_, rfl, by omega⟩

/-- Non-vacuity of C09a: the 5-byte body used in the project's unit test. -/
example : ∃ buf : Bytes, 32 ≤ buf.length ∧ buf.take 5 = [1, 2, 3, 4, 5] :=
  ⟨[1, 2, 3, 4, 5] ++ List.replicate 27 0xa5, by decide, by decide⟩

/-! ## Cipher contracts

`EncLen` and `Inverse` (Verif/Proof/SecureFrame.lean) are the contract the frame layer's documentation puts on the
cipher functions: lengths, and decryption inverting encryption. The bundled null cipher meets both. -/

/-- A well-typed use of the null cipher: 12-byte IV and 32-byte text. The null cipher copies what it is given, so the
length contract is about calls with those sizes; this wrapper refuses any other (the callers never make one). -/
def nullEncChecked : EncFn := fun k iv aad pt =>
  if iv.length ≥ 12 ∧ (∀ p, pt = some p → p.length = 32) then nullEnc k iv aad pt else none

theorem nullEncChecked_len : EncLen nullEncChecked := by
  intro k iv aad pt ct tag h
  unfold nullEncChecked at h
  split at h
  · rename_i hc
    simp only [nullEnc, Option.some.injEq, Prod.mk.injEq] at h
    obtain ⟨rfl, rfl⟩ := h
    constructor
    · intro hp
      cases pt with
      | none => simp at hp
      | some p => exact hc.2 p rfl
    · simp; omega
  · simp at h

theorem nullEncChecked_inverse : Inverse nullEncChecked nullDec := by
  intro k iv aad pt ct tag h
  unfold nullEncChecked at h
  split at h
  · rename_i hc
    simp only [nullEnc, Option.some.injEq, Prod.mk.injEq] at h
    obtain ⟨rfl, rfl⟩ := h
    match iv, hc.1 with
    | a :: t, hl =>
      have h15 : ((a :: t).take 12 ++ [0, 0, 0, 0])[15]? = some (0 : Byte) := by
        have : ((a :: t).take 12).length = 12 := by rw [List.length_take]; omega
        rw [List.getElem?_append_right (by omega), this]; rfl
      have h0 : ((a :: t).take 12 ++ [0, 0, 0, 0])[0]? = (a :: t)[0]? := by simp
      refine ⟨_, by unfold nullDec; rw [if_neg (by rw [h15, h0]; simp)], ?_⟩
      intro p hp; subst hp; rfl
  · simp at h

/-! ## C12 -/

/-- **C12.** Every frame produced by `encodeRaw` has the documented layout:
`fl` | 0x80+type | seq/il | id | bl | ciphertext (0 or 32) | counter = IV[6..12) | 16-byte tag | 0x80, is at most
64 bytes, stays within the output buffer, and leaves the rest of the buffer alone. -/
theorem C12_wire_format (fType : Byte) (ptext : Option Bytes) (ptextLen : Nat) (outbuf : Bytes) (id : Option Bytes)
    (il : Byte) (iv : Bytes) (e : EncFn) (key : Option Bytes) (n : Nat) (h : Hdr) (out : Bytes) (hel : EncLen e)
    (he : encodeRaw fType ptext ptextLen outbuf id il iv e key = .ok (n, h, out)) :
    ∃ idb ct tag : Bytes, ∃ fl : Nat, ∃ iv11 : Byte,
      iv[11]? = some iv11 ∧
      idb.length = il.toNat ∧ (∀ src, id = some src → idb = src.take il.toNat) ∧ il.toNat ≤ 8 ∧
      0 < fType.toNat ∧ fType.toNat < 127 ∧
      ct.length = (if ptextLen = 0 then 0 else 32) ∧ tag.length = 16 ∧ ((iv.drop 6).take 6).length = 6 ∧
      n = fl + 1 ∧ n ≤ 64 ∧ n ≤ outbuf.length ∧ out.length = outbuf.length ∧ out.drop n = outbuf.drop n ∧
      out.take n = [u8 fl, u8 (128 + fType.toNat), u8 ((iv11.toNat % 16) * 16 + il.toNat)] ++ idb ++
        [u8 ct.length] ++ ct ++ (iv.drop 6).take 6 ++ tag ++ [0x80] := by
  obtain ⟨k, hb, ct, tag, hiv, rfl, h31, heh, hhl, h4, hfl, hbl, hmax, hlt, hn, _, _, htag, hct, hout⟩ :=
    encodeRaw_ok hel he
  rw [encodeHeader_ok] at heh
  obtain ⟨idb, t1, t2, hil, hid, _, _, _, hfl63, hh, hhb⟩ := heh
  have hebl : encBody ptextLen ≤ 32 := by unfold encBody; split <;> omega
  have hctl : (ct.take (encBody ptextLen)).length = encBody ptextLen := by
    unfold encBody
    by_cases h0 : ptextLen = 0
    · simp [h0]
    · simp [h0, hct h0]
  have hctr : ((iv.drop 6).take 6).length = 6 := by simp; omega
  have hidlen : idb.length = il.toNat := by
    rcases hid with ⟨a, b⟩ | ⟨_, bs, _, b, c⟩
    · simp [b, a]
    · simp [c]; omega
  have hsplit : out = (hb ++ ct.take (encBody ptextLen) ++ (iv.drop 6).take 6 ++ tag ++ [0x80]) ++
      outbuf.drop (h.fl + 1) := by rw [hout]
  have hpre : (hb ++ ct.take (encBody ptextLen) ++ (iv.drop 6).take 6 ++ tag ++ [0x80]).length = n := by
    simp only [List.length_append, hctl, hctr, htag, hn, hfl]; simp <;> omega
  refine ⟨idb, ct.take (encBody ptextLen), tag, h.fl, iv[11], by simp [show 11 < iv.length by omega], hidlen, ?_, hil,
    t1, t2, ?_, htag, hctr, hn, by omega, by omega, ?_, ?_, ?_⟩
  · intro src hs
    rcases hid with ⟨a, b⟩ | ⟨_, bs, b, _, c⟩
    · rw [b, a]; simp
    · rw [c]; rw [hs] at b; simp only [Option.some.injEq] at b; rw [b]
  · rw [hctl]; rfl
  · rw [hsplit, List.length_append, hpre]; simp; omega
  · rw [hsplit, List.drop_append, List.drop_of_length_le (by omega), hpre]; simp [hn]
  · rw [hsplit, ← hpre, List.take_left]
    rw [hhb, hctl]
    have e1 : typeByte true fType = u8 (128 + fType.toNat) := by
      apply byte_ext; rw [typeByte_toNat true fType t2, u8_toNat]; simp; omega
    have e2 : seqIlByte (iv[11] &&& 0xf) il = u8 ((iv[11].toNat % 16) * 16 + il.toNat) := by
      apply byte_ext; rw [seqIlByte_toNat _ il (by omega), u8_toNat, and0f_toNat]; omega
    have e3 : u8 (3 + il.toNat + (u8 (encBody ptextLen)).toNat + (23 : Byte).toNat) = u8 h.fl := by
      rw [hh]
    rw [e1, e2, e3]

/-- The arguments of the project's own raw-frame unit test ("cQ" type 'O', ID aa aa aa aa, IV ... counter 00 00 2a 00 03 19). -/
def exIV : Bytes := [0xaa, 0xaa, 0xaa, 0xaa, 0x55, 0x55, 0x00, 0x00, 0x2a, 0x00, 0x03, 0x19]
def exFrame : Res (Nat × Hdr × Bytes) :=
  encodeRaw FTS_BasicSensorOrValve (some ([0x7f, 0x11, 0x7b, 0x22] ++ List.replicate 28 0)) 4 (List.replicate 64 0)
    (some [0xaa, 0xaa, 0xaa, 0xaa]) 4 exIV nullEncChecked (some (List.replicate 16 0))

/-- Non-vacuity of C12 (and C10): a concrete frame, checked byte for byte. -/
example : ∃ h out, exFrame = .ok (63, h, out) ∧
    out.take 8 = [0x3e, 0xcf, 0x94, 0xaa, 0xaa, 0xaa, 0xaa, 0x20] := by
  refine ⟨{ fl := 62, fType := 0xcf, seqIl := 0x94, id := [0xaa, 0xaa, 0xaa, 0xaa], bl := 32 },
    [0x3e, 0xcf, 0x94, 0xaa, 0xaa, 0xaa, 0xaa, 0x20] ++ ([0x7f, 0x11, 0x7b, 0x22] ++ List.replicate 27 0 ++ [27]) ++
    [0x00, 0x00, 0x2a, 0x00, 0x03, 0x19] ++ (exIV ++ [0, 0, 0, 0]) ++ [0x80, 0], ?_, ?_⟩ <;> decide +kernel

/-! ## C13 -/

/-- **C13a.** `encodeRaw` refuses every plaintext over 31 bytes, a missing key, an illegal type, an ID over 8 bytes, and
any output buffer too small for the frame. -/
theorem C13_limits (fType : Byte) (ptext : Option Bytes) (ptextLen : Nat) (outbuf : Bytes) (id : Option Bytes)
    (il : Byte) (iv : Bytes) (e : EncFn) (key : Option Bytes) (hel : EncLen e)
    (hbad : 31 < ptextLen ∨ key = none ∨ 8 < il.toNat ∨ fType.toNat = 0 ∨ 127 ≤ fType.toNat ∨
      outbuf.length < 4 + il.toNat + (if ptextLen = 0 then 0 else 32) + 23) :
    ∀ r, encodeRaw fType ptext ptextLen outbuf id il iv e key ≠ .ok r := by
  rintro ⟨n, h, out⟩ he
  obtain ⟨idb, ct, tag, fl, iv11, _, hid, _, h8, t1, t2, hct, htag, hctr, hn, h64, hno, _, _, htake⟩ :=
    C12_wire_format fType ptext ptextLen outbuf id il iv e key n h out hel he
  obtain ⟨k, _, _, _, _, hk, h31, _⟩ := encodeRaw_ok hel he
  have hlen := congrArg List.length htake
  simp only [List.length_take, List.length_append, List.length_cons, List.length_nil, hid, hct, htag, hctr] at hlen
  rcases hbad with hb | hb | hb | hb | hb | hb
  · omega
  · rw [hk] at hb; simp at hb
  · omega
  · omega
  · omega
  · omega

/-- The declared sizes the C++ caller promises: 12 accessible IV bytes, an accessible ID of `il` bytes if non-NULL, and a
plaintext buffer of at least 32 bytes when there is a body (as the header documents). -/
structure RawArgs (ptext : Option Bytes) (ptextLen : Nat) (id : Option Bytes) (il : Byte) (iv : Bytes) : Prop where
  iv12 : 12 ≤ iv.length
  idOk : ∀ s, id = some s → il.toNat ≤ s.length
  ptOk : ∀ p, ptext = some p → 0 < ptextLen → 32 ≤ p.length

/-- **C13b.** `encodeRaw` never accesses memory outside the buffers it was given, whatever the sizes, types and keys:
in particular nothing is written at or beyond `outbufSize`. (`.ub` is the model's out-of-bounds outcome.) -/
theorem C13_no_overrun (fType : Byte) (ptext : Option Bytes) (ptextLen : Nat) (outbuf : Bytes) (id : Option Bytes)
    (il : Byte) (iv : Bytes) (e : EncFn) (key : Option Bytes) (hel : EncLen e)
    (ha : RawArgs ptext ptextLen id il iv) :
    encodeRaw fType ptext ptextLen outbuf id il iv e key ≠ .ub := by
  intro he
  unfold encodeRaw at he
  cases key with
  | none => simp at he
  | some k =>
  have hiv := ha.iv12
  rw [failIf_eq_ub, rd_lt (by omega)] at he
  obtain ⟨h31, he⟩ := he
  have hbe : (if ptextLen = 0 then 0 else ENC_CTEXT) = encBody ptextLen := rfl
  rw [hbe] at he
  split at he
  · rename_i heh
    unfold encodeHeader at heh
    simp only [failIf_eq_ub] at heh
    obtain ⟨_, h8, heh⟩ := heh
    have hw : ∀ idb, encodeHeaderWithId outbuf.length true fType (iv[11] &&& 0xf) idb il (u8 (encBody ptextLen)) 23 ≠ .ub := by
      intro idb hw
      unfold encodeHeaderWithId at hw
      simp only [failIf_eq_ub] at hw
      simp at hw
    split at heh
    · split at heh
      · simp at heh
      · rw [rdBlock_eq_ub] at heh
        exact hw _ (heh (by have := ha.idOk _ rfl; omega))
    · exact hw _ heh
  · simp at he
  rename_i h hb heh
  have hinfo := encodeHeader_ok.mp heh
  obtain ⟨idb, t1, t2, hil, hid, hbuf, tl1, tl2, hfl, hh, hhb⟩ := hinfo
  have hidlen : idb.length = il.toNat := by
    rcases hid with ⟨a, b⟩ | ⟨_, bs, _, b, c⟩
    · simp [b, a]
    · simp [c]; omega
  have hebl : encBody ptextLen ≤ 32 := by unfold encBody; split <;> omega
  have hpl : (u8 (encBody ptextLen)).toNat = encBody ptextLen := by rw [u8_toNat]; omega
  have h23 : (23 : Byte).toNat = 23 := by decide
  have hhbl : hb.length = 4 + il.toNat := by rw [hhb]; simp [hidlen]; omega
  have hflv : h.fl = hb.length + encBody ptextLen + 22 := by
    rw [hh, hhbl]; simp only [hpl, h23]; omega
  rw [wrBlock_eq_ub] at he
  replace he := he (by omega)
  simp only [Nat.zero_add, List.take_zero, List.nil_append] at he
  rw [failIf_eq_ub] at he
  obtain ⟨hlt, he⟩ := he
  have l1 : (hb ++ List.drop hb.length outbuf).length = outbuf.length := by simp; omega
  split at he
  · rename_i hp
    split at hp
    · rename_i h0
      unfold pad32BBuffer at hp
      split at hp
      · simp at hp
      · rename_i b
        have hb32 := ha.ptOk b rfl (by omega)
        rw [failIf_eq_ub] at hp
        obtain ⟨_, hp⟩ := hp
        rw [wrBlock_eq_ub] at hp
        replace hp := hp (by simp; omega)
        rw [wrBlock_eq_ub] at hp
        replace hp := hp (by simp; omega)
        simp at hp
    · simp at hp
  · simp at he
  split at he
  · simp at he
  rename_i padded hpd ct tag hcipher
  have htag : tag.length = 16 := (hel _ _ _ _ _ _ hcipher).2
  rw [wrBlock_eq_ub] at he
  replace he := he (by rw [l1, List.length_take]; omega)
  have l2 : ∀ X : Bytes, ∀ i : Nat, ∀ bs : Bytes, i + bs.length ≤ X.length →
      (X.take i ++ bs ++ X.drop (i + bs.length)).length = X.length := by
    intro X i bs h; simp; omega
  have m2 := l2 (hb ++ List.drop hb.length outbuf) hb.length (ct.take (encBody ptextLen))
    (by rw [l1, List.length_take]; omega)
  generalize (hb ++ List.drop hb.length outbuf).take hb.length ++ ct.take (encBody ptextLen) ++
    (hb ++ List.drop hb.length outbuf).drop (hb.length + (ct.take (encBody ptextLen)).length) = O2 at he m2
  rw [wrBlock_eq_ub] at he
  replace he := he (by rw [List.length_take]; omega)
  have m3 := l2 O2 (h.fl - 16) (tag.take 16) (by rw [List.length_take]; omega)
  generalize O2.take (h.fl - 16) ++ tag.take 16 ++ O2.drop (h.fl - 16 + (tag.take 16).length) = O3 at he m3
  rw [rdBlock_eq_ub] at he
  replace he := he (by omega)
  rw [wrBlock_eq_ub] at he
  replace he := he (by rw [List.length_take, List.length_drop]; omega)
  have m4 := l2 O3 (h.fl - 22) ((iv.drop 6).take 6) (by rw [List.length_take, List.length_drop]; omega)
  generalize O3.take (h.fl - 22) ++ (iv.drop 6).take 6 ++ O3.drop (h.fl - 22 + ((iv.drop 6).take 6).length) = O4
    at he m4
  rw [wrBlock_eq_ub] at he
  replace he := he (by simp; omega)
  simp at he

/-- Non-vacuity of C13b: a call with every size at its limit meets `RawArgs`. -/
example : RawArgs (some (List.replicate 32 0)) 31 (some (List.replicate 8 0x80)) 8 exIV :=
  ⟨by decide, by intro s h; simp only [Option.some.injEq] at h; rw [← h]; decide,
    by intro p h; simp only [Option.some.injEq] at h; rw [← h]; decide⟩

/-! ## C10 -/

/-- **C10.** With any cipher pair in which decryption inverts encryption, what `encodeRaw` produces is accepted by the
header decoder and by `decodeRaw` with the same key and IV, and the body delivered is exactly the original one. -/
theorem C10_secure_raw_roundtrip (fType : Byte) (ptext : Option Bytes) (ptextLen : Nat) (outbuf : Bytes)
    (id : Option Bytes) (il : Byte) (iv : Bytes) (e : EncFn) (d : DecFn) (key : Option Bytes) (n : Nat) (h : Hdr)
    (out : Bytes) (hel : EncLen e) (hinv : Inverse e d) (scratch : Nat) (hs : 32 ≤ scratch)
    (he : encodeRaw fType ptext ptextLen outbuf id il iv e key = .ok (n, h, out)) :
    decodeHeader out = .ok h ∧
    decodeRaw h out true scratch d key (some iv) = .ok (n, (ptext.getD []).take ptextLen) := by
  obtain ⟨k, hb, ct, tag, hiv, rfl, h31, heh, hhl, h4, hfl, hbl, hmax, hlt, hn, hpb, hciph, htag, hct, hout⟩ :=
    encodeRaw_ok hel he
  have hctl : (ct.take (encBody ptextLen)).length = encBody ptextLen := by
    unfold encBody
    by_cases h0 : ptextLen = 0
    · simp [h0]
    · simp [h0, hct h0]
  have hctr : ((iv.drop 6).take 6).length = 6 := by simp; omega
  have hebl : encBody ptextLen ≤ 32 := by unfold encBody; split <;> omega
  have hlast : out[h.fl]? = some 0x80 := by
    rw [hout]
    have : (hb ++ List.take (encBody ptextLen) ct ++ List.take 6 (List.drop 6 iv) ++ tag).length = h.fl := by
      simp only [List.length_append, hctl, hctr, htag, hfl]
    rw [List.append_assoc _ [(0x80 : Byte)], List.getElem?_append_right (by omega), this]
    simp
  have hol : out.length = outbuf.length := by
    rw [hout]; simp only [List.length_append, hctl, hctr, htag]; simp; omega
  obtain ⟨rest, hrest⟩ : ∃ rest, out = hb ++ rest := ⟨_, by rw [hout]; simp only [List.append_assoc]; rfl⟩
  have hdec := C01_header_roundtrip _ _ _ _ _ _ _ _ _ _ heh rest (by rw [← hrest]; omega) (by
    intro b hb'; rw [← hrest, hlast] at hb'; simp only [Option.some.injEq] at hb'; subst hb'; decide)
  rw [← hrest] at hdec
  obtain ⟨d1, _, d3, _, _, _, d7, d8, _, d10, d11⟩ := hdec
  refine ⟨d1, ?_⟩
  have hto : h.getHl = hb.length := hhl.symm
  have hil8 : il.toNat ≤ 8 := by
    rw [encodeHeader_ok] at heh; obtain ⟨_, _, _, h8, _⟩ := heh; exact h8
  -- byte 0
  have hb0 : ∃ b0, out[0]? = some b0 ∧ b0.toNat = h.fl := by
    rw [encodeHeader_ok] at heh
    obtain ⟨idb, _, _, _, _, _, _, _, hfl63, hh, hhb⟩ := heh
    refine ⟨u8 h.fl, ?_, by rw [u8_toNat]; omega⟩
    rw [hrest, hhb, hh]; simp
  obtain ⟨b0, hb0, hb0v⟩ := hb0
  have haad : (out.drop 0).take h.getHl = hb := by
    rw [hrest, hto]; simp
  have hbody : (out.drop h.getBodyOffset).take h.bl = ct.take (encBody ptextLen) := by
    rw [Hdr.getBodyOffset, hto, hbl, hout]
    simp only [List.append_assoc]
    rw [List.drop_left, List.take_append_of_le_length (by omega), List.take_of_length_le (by omega)]
  have htg : (out.drop (h.fl - 16)).take 16 = tag := by
    have e : (hb ++ List.take (encBody ptextLen) ct ++ List.take 6 (List.drop 6 iv)).length = h.fl - 16 := by
      simp only [List.length_append, hctl, hctr]; omega
    rw [hout, List.append_assoc (hb ++ List.take (encBody ptextLen) ct ++ List.take 6 (List.drop 6 iv) ++ tag),
      List.append_assoc _ tag, ← e, List.drop_left, ← htag, List.take_left]
  obtain ⟨dbuf, hdd, hdbuf⟩ := hinv _ _ _ _ _ _ hciph
  unfold decodeRaw failIf
  rw [if_neg (by omega)]
  simp only
  rw [rd_of_some hb0]
  rw [if_neg (by omega), if_neg (by omega), if_neg (by rw [d11]; decide), rd_of_some hlast, if_neg (by simp),
    if_neg (by rw [hbl]; unfold encBody; split <;> simp), rd_lt (by omega),
    if_neg (by rw [d7, and0f_toNat]; omega)]
  unfold rdBlock
  have hbo : h.getBodyOffset = h.getHl := rfl
  rw [if_pos (by omega)]
  dsimp only
  rw [if_pos (by omega)]
  rw [if_pos (by omega), haad, hbody, htg]
  by_cases h0 : ptextLen = 0
  · have hb0' : h.bl = 0 := by rw [hbl]; simp [encBody, h0]
    rw [if_pos hb0']
    rw [if_pos h0, Option.map_none] at hdd
    rw [hdd]
    simp only
    rw [if_neg (by simp [hb0']), hn, h0]; rfl
  · have hb0' : h.bl ≠ 0 := by rw [hbl]; simp [encBody, h0]
    rw [if_neg hb0']
    rw [if_neg h0, Option.map_some] at hdd
    have hctt : ct.take (encBody ptextLen) = ct := by
      apply List.take_of_length_le; rw [hct h0]; simp [encBody, h0]
    rw [hctt, hdd]
    simp only
    rw [if_pos (by simp [hb0'])]
    have hdb := hdbuf _ (if_neg h0)
    obtain ⟨pb, hpb1, hpb2⟩ := hpb h0
    subst hpb1
    simp only [Option.getD_some] at hdb ⊢
    have htl : (pb.take ptextLen).length = ptextLen := by simp; omega
    have hun := unpad_padded (data := pb.take ptextLen) (by omega) []
    rw [List.append_nil, ← hdb, htl] at hun
    rw [hun]
    simp only
    have hdl : dbuf.length = 32 := by rw [hdb]; exact padded32_length _ (by omega)
    rw [if_neg (by omega), if_pos (by omega), hn]
    congr 2
    rw [List.drop_zero, hdb, padded32, List.append_assoc, List.take_append_of_le_length (by omega),
      List.take_of_length_le (by omega)]

/-- Non-vacuity of C10: the example frame above is produced (`exFrame`), with a cipher pair meeting both contracts. -/
example : EncLen nullEncChecked ∧ Inverse nullEncChecked nullDec ∧ (∃ r, exFrame = .ok r ∧ r.1 = 63) :=
  ⟨nullEncChecked_len, nullEncChecked_inverse,
   ⟨(63, { fl := 62, fType := 0xcf, seqIl := 0x94, id := [0xaa, 0xaa, 0xaa, 0xaa], bl := 32 },
    [0x3e, 0xcf, 0x94, 0xaa, 0xaa, 0xaa, 0xaa, 0x20] ++ ([0x7f, 0x11, 0x7b, 0x22] ++ List.replicate 27 0 ++ [27]) ++
    [0x00, 0x00, 0x2a, 0x00, 0x03, 0x19] ++ (exIV ++ [0, 0, 0, 0]) ++ [0x80, 0]), by decide +kernel⟩⟩

/-! ## C11 -/

/-- **C11.** When the secure decoder accepts a frame from a sender with ID `adjID`, the frame is *exactly* the
concatenation of (authenticated header, ciphertext, 6 counter bytes, tag, 0x80), and the cipher accepted exactly that
header, ciphertext and tag with the IV made of the sender's ID and exactly those counter bytes. So no byte of the frame
escapes authentication. The declared length is the real one, and the sequence nibble equals the low counter nibble. -/
theorem C11_acceptance_binds_every_byte (frame : Bytes) (h : Hdr) (want : Bool) (scratch : Nat) (d : DecFn)
    (adjID : Bytes) (key : Option Bytes) (n : Nat) (body : Bytes)
    (hh : decodeHeader frame = .ok h)
    (hd : decodeFromID h frame want scratch d adjID key = .ok (n, body)) :
    ∃ (k aad ct ctr tag dbuf : Bytes), key = some k ∧
      frame.take n = aad ++ ct ++ ctr ++ tag ++ [0x80] ∧ n = h.fl + 1 ∧ n ≤ frame.length ∧ n ≤ 64 ∧
      aad.length = 4 + h.getIl ∧ (ct.length = 0 ∨ ct.length = 32) ∧ ctr.length = 6 ∧ tag.length = 16 ∧
      d k (adjID.take 6 ++ ctr) aad (if ct.length = 0 then none else some ct) tag = some dbuf ∧
      (∀ c5, ctr[5]? = some c5 → h.getSeq = c5.toNat % 16) := by
  rw [decodeFromID_ok] at hd
  obtain ⟨_, h6, _, hto, hd⟩ := hd
  obtain ⟨k, v, dbuf, hk, hv, hl, hv11, _, hfl0, htl, hlast, hbl, hseq, hn, hdd, _, _⟩ := decodeRaw_ok hd
  obtain ⟨f1, f2, f3, f4, f5⟩ := frame_split hh htl hl
  simp only [Option.some.injEq] at hv
  have haadl : (frame.take h.getHl).length = 4 + h.getIl := by
    rw [List.length_take]; simp only [Hdr.getHl] at *; omega
  have hctl : ((frame.drop h.getBodyOffset).take h.bl).length = h.bl := by
    rw [List.length_take, List.length_drop, Hdr.getBodyOffset]; omega
  have hctrl : ((frame.drop h.getTrailerOffset).take 6).length = 6 := by
    rw [List.length_take, List.length_drop]; omega
  have htagl : ((frame.drop (h.fl - 16)).take 16).length = 16 := by
    rw [List.length_take, List.length_drop]; omega
  refine ⟨k, frame.take h.getHl, (frame.drop h.getBodyOffset).take h.bl, (frame.drop h.getTrailerOffset).take 6,
    (frame.drop (h.fl - 16)).take 16, dbuf, hk, ?_, hn, by omega, by omega, haadl, by rw [hctl]; exact hbl, hctrl, htagl,
    ?_, ?_⟩
  · rw [hn, f5, hlast]
  · rw [hctl, hv]; exact hdd
  · intro c5 hc5
    rw [hseq]
    have : v[11]? = some c5 := by
      rw [← hv, List.getElem?_append_right (by simp; omega), ← hc5]
      congr 1
      simp; omega
    rw [List.getElem?_eq_getElem hv11] at this
    simp only [Option.some.injEq] at this
    rw [this, and0f_toNat]

end OTR.Props
