import Verif.Props.SecureRx
/-!
# Property C108: exactly when a secure frame is sent

`encode()` gives a frame exactly when it has been given everything it needs; nothing else makes it fail and nothing less
makes it succeed. The receiver refuses to start without the workspace it documents.
-/

namespace OTR.Props
open OTR

/-- Size on the wire of a secure frame with `il` ID bytes and `n` plaintext bytes: four header bytes, the ID, nothing or
the 32-byte encrypted body, and the 23-byte trailer. -/
def secureFrameSize (il n : Nat) : Nat := 4 + il + (if n = 0 then 0 else 32) + 23

/-- Everything `encode()` documents that it needs, apart from a working cipher. -/
structure EncodeNeeds (fType : Byte) (ptext : Option Bytes) (ptextLen : Nat) (outbuf : Bytes) (il : Byte) (s : TxSource)
    (scratch : Nat) (key : Option Bytes) : Prop where
  type : 1 ≤ fType.toNat ∧ fType.toNat ≤ 126
  workspace : 292 ≤ scratch
  identity : s.txid ≠ none
  counter : s.nextCtr ≠ none
  haveKey : key ≠ none
  body : ptextLen ≤ 31
  idLen : il.toNat ≤ 8
  bodyThere : ptextLen ≠ 0 → ptext ≠ none
  small : secureFrameSize il.toNat ptextLen ≤ 64
  room : secureFrameSize il.toNat ptextLen ≤ outbuf.length

theorem encode_shape {fType : Byte} {ptext : Option Bytes} {ptextLen : Nat} {outbuf : Bytes} {il : Byte} {s : TxSource}
    {txid ctr : Bytes} {e : EncFn} {scratch : Nat} {key : Option Bytes} {n : Nat} {h : Hdr} {out : Bytes}
    (hs1 : s.txid = some txid) (hs2 : s.nextCtr = some ctr)
    (h292 : 292 ≤ scratch) (ht : 1 ≤ fType.toNat ∧ fType.toNat ≤ 126) :
    encode fType ptext ptextLen outbuf il s (some txid) e scratch key = .frame n h out ↔
      encodeRaw fType ptext ptextLen outbuf (some (if il.toNat > 6 then txid else txid.take 6 ++ ctr)) il
        (txid.take 6 ++ ctr) e key = .ok (n, h, out) := by
  have hof : ∀ x : Res (Nat × Hdr × Bytes), EncRet.ofRes x = .frame n h out ↔ x = .ok (n, h, out) := by
    intro x
    cases x with
    | ok r => obtain ⟨a, b, c⟩ := r; simp [EncRet.ofRes]
    | fail => simp [EncRet.ofRes]
    | ub => simp [EncRet.ofRes]
  unfold encode
  rw [if_neg (by omega), if_neg (by simp only [FTS_NONE, FTS_INVALID_HIGH]; omega)]
  simp only [computeIVForTX12B, hs1, hs2]
  by_cases hil : il.toNat > 6
  · simp only [hil, if_true, hof]
  · simp only [hil, if_false, hof]

/-- **C108 (never less).** If `encode()` returns a frame then it had everything it needs: in particular the workspace it
documents, a key, an identity and a counter, a body of at most 31 bytes, and room for the whole frame; and the length it
returns is the size of the frame. -/
theorem C108_needs (fType : Byte) (ptext : Option Bytes) (ptextLen : Nat) (outbuf : Bytes) (il : Byte) (s : TxSource)
    (txidAgain : Option Bytes) (e : EncFn) (scratch : Nat) (key : Option Bytes) (n : Nat) (h : Hdr) (out : Bytes)
    (hel : EncLen e)
    (he : encode fType ptext ptextLen outbuf il s txidAgain e scratch key = .frame n h out) :
    EncodeNeeds fType ptext ptextLen outbuf il s scratch key ∧ n = secureFrameSize il.toNat ptextLen := by
  unfold encode at he
  split at he
  · simp at he
  rename_i hsc
  split at he
  · simp at he
  rename_i hty
  simp only [FTS_NONE, FTS_INVALID_HIGH] at hty
  split at he
  · simp at he
  rename_i iv hiv
  have hof : ∀ x : Res (Nat × Hdr × Bytes), EncRet.ofRes x = .frame n h out → x = .ok (n, h, out) := by
    intro x hx
    cases x with
    | ok r => obtain ⟨a, b, c⟩ := r; simp [EncRet.ofRes] at hx; simp [hx]
    | fail => simp [EncRet.ofRes] at hx
    | ub => simp [EncRet.ofRes] at hx
  have hraw : ∃ id, encodeRaw fType ptext ptextLen outbuf id il iv e key = .ok (n, h, out) := by
    split at he
    · split at he
      · simp at he
      · exact ⟨_, hof _ he⟩
    · exact ⟨_, hof _ he⟩
  obtain ⟨id, hraw⟩ := hraw
  obtain ⟨k, hb, ct, tag, hivl, hk, h31, heh, hhl, h4, hfl, hbl, h63, hroom, hn, hpt, hcr, htag, hctl, hout⟩ :=
    encodeRaw_ok hel hraw
  obtain ⟨idb, t1, t2, hil8, hid, hbuf, tl1, tl2, hfl2, hh, hhb⟩ := encodeHeader_ok.mp heh
  have hsz : h.fl + 1 = secureFrameSize il.toNat ptextLen := by
    have : h.getHl = 4 + il.toNat := by
      rw [Hdr.getHl, hh, Hdr.getIl_eq]; simp only [seqIlByte_toNat _ il (by omega)]; omega
    rw [hfl, hhl, this]; unfold secureFrameSize encBody; split <;> omega
  have htx : s.txid ≠ none ∧ s.nextCtr ≠ none := by
    unfold computeIVForTX12B at hiv
    cases h1 : s.txid with
    | none => simp [h1] at hiv
    | some t => cases h2 : s.nextCtr with
      | none => simp [h1, h2] at hiv
      | some c => simp
  refine ⟨⟨by omega, by omega, htx.1, htx.2, by simp [hk], h31, hil8, ?_, by omega, by omega⟩, by omega⟩
  intro h0
  obtain ⟨b, hb, _⟩ := hpt h0
  simp [hb]

/-- **C108 (never more).** Given everything it needs, with an ID of 8 bytes, a 6-byte counter, a plaintext buffer of at
least 32 bytes as documented, and a cipher that never refuses a 12-byte IV and 32-byte text, `encode()` returns a frame. -/
theorem C108_succeeds (fType : Byte) (ptext : Option Bytes) (ptextLen : Nat) (outbuf : Bytes) (il : Byte)
    (txid ctr : Bytes) (e : EncFn) (scratch : Nat) (key : Option Bytes)
    (hel : EncLen e)
    (htot : ∀ k iv aad pt, 12 ≤ iv.length → (∀ p, pt = some p → p.length = 32) → e k iv aad pt ≠ none)
    (hid : txid.length = 8) (hctr : ctr.length = 6) (hpt : ∀ b, ptext = some b → 32 ≤ b.length)
    (hn : EncodeNeeds fType ptext ptextLen outbuf il ⟨some txid, some ctr⟩ scratch key) :
    ∃ n h out, encode fType ptext ptextLen outbuf il ⟨some txid, some ctr⟩ (some txid) e scratch key = .frame n h out := by
  have hsm := hn.small
  have hro := hn.room
  have h8 := hn.idLen
  unfold secureFrameSize at hsm hro
  have hebl : encBody ptextLen ≤ 32 := by unfold encBody; split <;> omega
  have hpl : (u8 (encBody ptextLen)).toNat = encBody ptextLen := by rw [u8_toNat]; omega
  have hbe : (if ptextLen = 0 then 0 else ENC_CTEXT) = encBody ptextLen := rfl
  rw [hbe] at hsm hro
  have h23 : (23 : Byte).toNat = 23 := by decide
  have hiv : (txid.take 6 ++ ctr).length = 12 := by simp [hid, hctr]
  have hty := hn.type
  have hidl : il.toNat ≤ (if il.toNat > 6 then txid else txid.take 6 ++ ctr).length := by
    split <;> simp [hid, hctr] <;> omega
  -- it does not read or write outside its arguments
  have hnub : encodeRaw fType ptext ptextLen outbuf (some (if il.toNat > 6 then txid else txid.take 6 ++ ctr)) il
      (txid.take 6 ++ ctr) e key ≠ .ub := by
    apply C13_no_overrun
    · exact hel
    · exact ⟨by omega, fun b hb => by rw [← Option.some.inj hb]; exact hidl, fun b hb _ => hpt b hb⟩
  -- and it does not fail
  have hnf : encodeRaw fType ptext ptextLen outbuf (some (if il.toNat > 6 then txid else txid.take 6 ++ ctr)) il
      (txid.take 6 ++ ctr) e key ≠ .fail := by
    intro hf
    unfold encodeRaw at hf
    cases hk : key with
    | none => exact hn.haveKey hk
    | some k =>
    subst hk
    simp only [failIf] at hf
    rw [if_neg (by have := hn.body; omega), rd_lt (by omega), hbe] at hf
    obtain ⟨h, hb, heh⟩ : ∃ h hb, encodeHeader outbuf.length true fType ((txid.take 6 ++ ctr)[11] &&& 0xf)
        (some (if il.toNat > 6 then txid else txid.take 6 ++ ctr)) il (u8 (encBody ptextLen)) 23 = .ok (h, hb) := by
      refine ⟨_, _, encodeHeader_ok.mpr ⟨(if il.toNat > 6 then txid else txid.take 6 ++ ctr).take il.toNat, by omega,
        by omega, by omega, ?_, by omega, by omega, by simp, by omega, rfl, rfl⟩⟩
      by_cases h0 : il.toNat = 0
      · left; exact ⟨h0, by simp [h0]⟩
      · right; exact ⟨by omega, _, rfl, hidl, rfl⟩
    rw [heh] at hf
    obtain ⟨idb, t1, t2, hil8, hid2, hbuf, tl1, tl2, hfl2, hh, hhb⟩ := encodeHeader_ok.mp heh
    have hfl : h.fl = 4 + il.toNat + encBody ptextLen + 22 := by rw [hh]; simp only [hpl, h23]; omega
    simp only [wrBlock, rdBlock] at hf
    split at hf
    case isFalse => simp at hf
    rw [if_neg (by omega)] at hf
    split at hf
    · simp at hf
    · rename_i hp
      by_cases h0 : ptextLen = 0
      · simp [h0] at hp
      · rw [if_pos h0] at hp
        unfold pad32BBuffer at hp
        cases hpx : ptext with
        | none => exact hn.bodyThere h0 hpx
        | some b =>
          subst hpx
          have := hn.body
          simp only [failIf, wrBlock] at hp
          rw [if_neg (by omega)] at hp
          split at hp
          · split at hp <;> simp at hp
          · simp at hp
    split at hf
    · rename_i hpad _ hc
      refine htot _ _ _ _ (by omega) (fun p hp => ?_) hc
      by_cases h0 : ptextLen = 0
      · simp [h0] at hp
      · rw [if_pos h0] at hpad
        obtain ⟨b, _, hb31, hb32, hr⟩ := pad32_ok.mp hpad
        rw [if_neg h0, hr] at hp
        have := padded32_length (b.take ptextLen) (by simp; omega)
        rw [← Option.some.inj hp]; simp [this]
    repeat' (split at hf)
    all_goals simp at hf
  cases hr : encodeRaw fType ptext ptextLen outbuf (some (if il.toNat > 6 then txid else txid.take 6 ++ ctr)) il
      (txid.take 6 ++ ctr) e key with
  | ub => exact absurd hr hnub
  | fail => exact absurd hr hnf
  | ok r =>
    obtain ⟨n, h, out⟩ := r
    exact ⟨n, h, out, (encode_shape rfl rfl hn.workspace hn.type).mpr hr⟩

/-- **C108 (receiver's workspace).** With less workspace than the 58 bytes it documents, the receiver refuses every
frame and changes nothing (rather than use memory it was not given). -/
theorem C108_receiver_workspace (m : EE) (frame : Bytes) (want : Bool) (scratch : Nat) (d : DecFn) (key : Option Bytes)
    (hs : scratch < 58) :
    (∀ r, (rx m ⟨frame, want, scratch, d, key⟩).1 ≠ .ok r) ∧ (rx m ⟨frame, want, scratch, d, key⟩).2 = m := by
  have hcore : ∀ r, (rx m ⟨frame, want, scratch, d, key⟩).1 ≠ .ok r := by
    intro r hr
    unfold rx rxSecure at hr
    split at hr
    · simp at hr
    · simp at hr
    rename_i h hd
    unfold decode at hr
    dsimp only at hr
    split at hr
    · simp at hr
    split at hr
    · simp at hr
    split at hr
    · simp at hr
    split at hr
    · simp at hr
    split at hr
    · simp at hr
    split at hr
    · simp at hr
    split at hr
    · simp at hr
    · simp at hr
    rename_i nn body hfrom
    rw [decodeFromID_ok] at hfrom
    obtain ⟨h12, _, _, _, hraw⟩ := hfrom
    unfold decodeRaw at hraw
    rw [failIf_eq_ok] at hraw
    omega
  refine ⟨hcore, ?_⟩
  exact C15_reject_no_change m ⟨frame, want, scratch, d, key⟩ hcore

/-- Non-vacuity: a 5-byte ID with a 31-byte body is the largest frame that can be sent (exactly 64 bytes); the hypotheses
are met by the test cipher, and `encode` gives a 64-byte frame. -/
example : EncodeNeeds FTS_BasicSensorOrValve (some (List.replicate 32 7)) 31 (List.replicate 64 0) 5
    ⟨some (List.replicate 8 0x81), some [0, 0, 1, 0, 0, 9]⟩ 292 (some (List.replicate 16 7)) :=
  ⟨by decide, by decide, by simp, by simp, by simp, by decide, by decide, by simp, by decide, by decide⟩
example : (match encode FTS_BasicSensorOrValve (some (List.replicate 32 7)) 31 (List.replicate 64 0) 5
    ⟨some (List.replicate 8 0x81), some [0, 0, 1, 0, 0, 9]⟩ (some (List.replicate 8 0x81)) nullEncChecked 292
    (some (List.replicate 16 7)) with | .frame n _ _ => n | _ => 0) = 64 := by decide +kernel
example (k iv aad : Bytes) (pt : Option Bytes) (h1 : 12 ≤ iv.length) (h2 : ∀ p, pt = some p → p.length = 32) :
    nullEncChecked k iv aad pt ≠ none := by
  unfold nullEncChecked; rw [if_pos ⟨h1, h2⟩]; simp [nullEnc]
/-- One ID byte more and nothing can be sent with a body (the frame would exceed 64 bytes). -/
example (fType : Byte) (p : Option Bytes) (outbuf : Bytes) (s : TxSource) (sc : Nat) (key : Option Bytes) :
    ¬ EncodeNeeds fType p 31 outbuf 6 s sc key := fun h => absurd h.small (by decide)

end OTR.Props
