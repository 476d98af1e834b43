import Verif.Props.SecureLive
import Verif.Props.SecureTx
import Verif.Props.Nonsecure
/-!
# Encoders do succeed, and exactly when they should (C05, C17)
-/

namespace OTR.Props
open OTR

/-- What `encodeNonsecure()` needs: a legal type, an ID of at most 8 bytes that is there, and room for the frame in the
buffer and in the largest frame. -/
structure NonsecureNeeds (fType : Byte) (ptext outbuf : Bytes) (id : Option Bytes) (il : Byte) : Prop where
  type : 0 < fType.toNat ∧ fType.toNat < 0x7f
  idLen : il.toNat ≤ 8
  idThere : il.toNat ≠ 0 → id ≠ none
  small : 5 + il.toNat + ptext.length ≤ 64
  room : 5 + il.toNat + ptext.length ≤ outbuf.length

/-- **C05 (exactly when).** Given an ID pointer with enough bytes behind it, `encodeNonsecure()` makes a frame exactly if its needs are met,
otherwise it returns 0; it never reads or writes outside its arguments. -/
theorem C05_succeeds_iff (fType : Byte) (ptext outbuf : Bytes) (seqNum : Byte) (id : Option Bytes) (il : Byte) (hp : ptext.length < 256)
    (hid : ∀ b, id = some b → il.toNat ≤ b.length) :
    ((∃ r, encodeNonsecure fType ptext outbuf seqNum id il = .ok r) ↔ NonsecureNeeds fType ptext outbuf id il) ∧
    encodeNonsecure fType ptext outbuf seqNum id il ≠ .ub := by
  have hpl : (u8 ptext.length).toNat = ptext.length := by rw [u8_toNat]; omega
  have h1 : (1 : Byte).toNat = 1 := by decide
  have hdr_ub : encodeHeader outbuf.length false fType seqNum id il (u8 ptext.length) 1 ≠ .ub := by
    unfold encodeHeader failIf
    split
    · simp
    split
    · simp
    have hw : ∀ idb, encodeHeaderWithId outbuf.length false fType seqNum idb il (u8 ptext.length) 1 ≠ .ub := by
      intro idb
      unfold encodeHeaderWithId failIf
      dsimp only
      repeat' split
      all_goals simp
    split
    · cases hid' : id with
      | none => simp
      | some b =>
        dsimp only
        unfold rdBlock
        rw [if_pos (by have := hid b hid'; omega)]
        exact hw _
    · exact hw _
  have key : (∀ h hb, encodeHeader outbuf.length false fType seqNum id il (u8 ptext.length) 1 = .ok (h, hb) →
      (h.fl < outbuf.length → ∃ r, encodeNonsecure fType ptext outbuf seqNum id il = .ok r) ∧
      (¬ h.fl < outbuf.length → encodeNonsecure fType ptext outbuf seqNum id il = .fail)) := by
    intro h hb he
    obtain ⟨idb, t1, t2, h8, hidb, hb4, _, _, hf, hh, hhb⟩ := encodeHeader_ok.mp he
    have hlb : hb.length = 4 + il.toNat := by
      rcases hidb with ⟨a, b⟩ | ⟨a, bs, b, c, d⟩
      · rw [hhb, b]; simp [a]
      · rw [hhb, d]; simp; omega
    have hfl : h.fl = 4 + il.toNat + ptext.length := by rw [hh]; dsimp only; omega
    have hoff : h.getBodyOffset = 4 + il.toNat := by
      have := C01_header_roundtrip _ _ _ _ _ _ _ _ _ _ he [1] (by simp; omega) (by
        intro b hb'
        rw [List.getElem?_append] at hb'
        by_cases hq : h.fl < hb.length
        · omega
        · rw [if_neg hq] at hb'
          by_cases hz : h.fl - hb.length = 0
          · rw [hz] at hb'; simp at hb'; rw [← hb']; decide
          · rw [List.getElem?_eq_none (by simp; omega)] at hb'; cases hb')
      exact this.2.2.1
    unfold encodeNonsecure
    rw [he]
    dsimp only
    unfold wrBlock failIf
    rw [if_pos (by omega)]
    dsimp only
    constructor
    · intro hl
      rw [if_neg (by omega), hoff]
      rw [if_pos (by simp; omega)]
      unfold computeNonSecureCRC
      rw [if_neg (by omega), if_neg (by omega)]
      unfold rdBlock
      rw [if_pos (by simp; omega)]
      dsimp only
      rw [if_pos (by simp; omega)]
      exact ⟨_, rfl⟩
    · intro hl
      rw [if_pos (by omega)]
  cases he : encodeHeader outbuf.length false fType seqNum id il (u8 ptext.length) 1 with
  | ub => exact absurd he hdr_ub
  | fail =>
    have e : encodeNonsecure fType ptext outbuf seqNum id il = .fail := by unfold encodeNonsecure; rw [he]
    rw [e]
    refine ⟨⟨fun ⟨r, hr⟩ => (by cases hr), fun hn => ?_⟩, by simp⟩
    have : ∃ h hb, encodeHeader outbuf.length false fType seqNum id il (u8 ptext.length) 1 = .ok (h, hb) := by
      have hs := hn.small
      have hr := hn.room
      cases hid' : id with
      | none =>
        have h0 : il.toNat = 0 := by
          cases hz : il.toNat with
          | zero => rfl
          | succ k => exact absurd hid' (hn.idThere (by omega))
        exact ⟨_, _, encodeHeader_ok.mpr ⟨[], hn.type.1, hn.type.2, hn.idLen, Or.inl ⟨h0, rfl⟩, by omega, by omega, fun _ => h1, by omega, rfl, rfl⟩⟩
      | some b =>
        refine ⟨_, _, encodeHeader_ok.mpr ⟨b.take il.toNat, hn.type.1, hn.type.2, hn.idLen, ?_, by omega, by omega, fun _ => h1, by omega, rfl, rfl⟩⟩
        by_cases h0 : il.toNat = 0
        · left; exact ⟨h0, by simp [h0]⟩
        · right; exact ⟨by omega, b, rfl, hid b hid', rfl⟩
    obtain ⟨h, hb, h'⟩ := this
    rw [he] at h'; cases h'
  | ok x =>
    obtain ⟨h, hb⟩ := x
    obtain ⟨k1, k2⟩ := key h hb he
    obtain ⟨idb, t1, t2, h8, hidb, hb4, _, _, hf, hh, hhb⟩ := encodeHeader_ok.mp he
    have hfl : h.fl = 4 + il.toNat + ptext.length := by rw [hh]; dsimp only; omega
    by_cases hl : h.fl < outbuf.length
    · obtain ⟨r, hr⟩ := k1 hl
      refine ⟨⟨fun _ => ⟨⟨t1, t2⟩, h8, ?_, by omega, by omega⟩, fun _ => ⟨r, hr⟩⟩, by rw [hr]; simp⟩
      intro h0 hn
      rcases hidb with ⟨a, _⟩ | ⟨_, bs, b, _⟩
      · exact h0 a
      · rw [hn] at b; cases b
    · rw [k2 hl]
      refine ⟨⟨fun ⟨r, hr⟩ => (by cases hr), fun hn => ?_⟩, by simp⟩
      have := hn.room
      omega

example : NonsecureNeeds 0x4f [1, 2, 3] (List.replicate 10 0) (some [0x80, 0x81]) 2 := ⟨by decide, by decide, by decide, by decide, by decide⟩

/-- **C17 (succeeds).** With a key, an identity and a counter, the workspace it documents, an ID length of at most 5, a body buffer of at least 32 bytes, a cipher
that does not refuse, room for the frame and no stats text or one of at most 30 characters, `encodeValveFrame()` makes a frame of 59 bytes plus the ID. -/
theorem C17_valve_succeeds (p outbuf : Bytes) (il valvePC : Byte) (txid ctr : Bytes) (e : EncFn) (scratch : Nat) (key : Bytes)
    (hel : EncLen e)
    (htot : ∀ k iv aad pt, 12 ≤ iv.length → (∀ p, pt = some p → p.length = 32) → e k iv aad pt ≠ none)
    (hid : txid.length = 8) (hctr : ctr.length = 6) (hp : 32 ≤ p.length) (hil : il.toNat ≤ 5) (hs : 284 ≤ scratch)
    (hroom : 59 + il.toNat ≤ outbuf.length)
    (htext : p[2]? = some 0x7b → ∃ text, CString (p.drop 2) text ∧ text.length ≤ 30) :
    ∃ h out, encodeValveFrame (some p) outbuf il valvePC ⟨some txid, some ctr⟩ e scratch (some key) = .ok (59 + il.toNat, h, out) := by
  have raw : ∀ (b : Bytes) (n : Nat), 32 ≤ b.length → 1 ≤ n → n ≤ 31 → ∃ h out,
      encodeRaw FTS_BasicSensorOrValve (some b) n outbuf (some (txid.take 6 ++ ctr)) il (txid.take 6 ++ ctr) e (some key) = .ok (59 + il.toNat, h, out) := by
    intro b n hb h1 h31
    have sz : secureFrameSize il.toNat n = 59 + il.toNat := by unfold secureFrameSize; rw [if_neg (by omega)]; omega
    have need : EncodeNeeds FTS_BasicSensorOrValve (some b) n outbuf il ⟨some txid, some ctr⟩ 292 (some key) :=
      ⟨by decide, Nat.le_refl _, (by simp), (by simp), (by simp), h31, by omega, (by simp), by rw [sz]; omega, by rw [sz]; exact hroom⟩
    obtain ⟨k, h, out, he⟩ := C108_succeeds FTS_BasicSensorOrValve (some b) n outbuf il txid ctr e 292 (some key) hel htot hid hctr
      (fun b' hb' => by rw [← Option.some.inj hb']; exact hb) need
    have hk := (C108_needs _ _ _ _ _ _ _ _ _ _ _ _ _ hel he).2
    rw [sz] at hk
    have := (encode_shape rfl rfl (Nat.le_refl 292) need.type).mp he
    rw [if_neg (by omega), hk] at this
    exact ⟨h, out, this⟩
  have hg : p[2]? = some p[2] := List.getElem?_eq_getElem (by omega)
  unfold encodeValveFrame failIf computeIVForTX12B
  rw [if_neg (by omega)]
  dsimp only
  rw [rd_lt (by omega)]
  by_cases hst : p[2] = 0x7b
  · obtain ⟨text, h1, h2⟩ := htext (by rw [hg, hst])
    have h0 : 1 ≤ text.length := by
      obtain ⟨a, rest, e⟩ := h1
      cases text with
      | nil =>
        exfalso
        have e1 := congrArg (fun l : Bytes => l[0]?) e
        simp only [List.getElem?_drop] at e1
        rw [show 2 + 0 = 2 from rfl, hg, hst] at e1
        simp at e1
      | cons x t => simp
    rw [if_pos hst, strlen_of_CString h1]
    dsimp only
    rw [if_neg (by omega)]
    unfold wrBlock
    rw [if_pos (by simp; omega)]
    dsimp only
    rw [if_neg (by omega), if_pos hst]
    exact raw _ _ (by simp; omega) (by split <;> omega) (by split <;> omega)
  · rw [if_neg hst]
    dsimp only
    rw [if_neg (by omega)]
    unfold wrBlock
    rw [if_pos (by simp; omega)]
    dsimp only
    rw [if_neg (by omega), if_neg hst]
    exact raw _ _ (by simp; omega) (by split <;> omega) (by split <;> omega)

/-- The hypotheses are met by the example of C17 with the test cipher. -/
example : ∃ h out, encodeValveFrame (some exValveBuf) (List.replicate 64 0) 5 64 ⟨some (List.replicate 8 0x81), some [0, 0, 1, 0, 0, 9]⟩ nullEncChecked 284
    (some (List.replicate 16 7)) = .ok (64, h, out) :=
  C17_valve_succeeds exValveBuf (List.replicate 64 0) 5 64 (List.replicate 8 0x81) [0, 0, 1, 0, 0, 9] nullEncChecked 284 (List.replicate 16 7)
    nullEncChecked_len (fun k iv aad pt h1 h2 => by unfold nullEncChecked; rw [if_pos ⟨h1, h2⟩]; simp [nullEnc])
    (by decide) (by decide) (by decide) (by decide) (by decide) (by decide)
    (fun _ => ⟨[0x7b, 0x22, 0x62, 0x22, 0x3a, 0x31, 0x7d], ⟨by decide, List.replicate 22 0, by decide⟩, by decide⟩)

end OTR.Props
