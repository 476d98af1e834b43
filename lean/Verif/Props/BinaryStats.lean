import Verif.Model.BinaryStats
import Verif.Proof.CRC
/-!
# C66, C67: binary stats messages
-/

namespace OTR.Props

/-! ### C66 -/

/-- The documented saturation range of the temperature: -20C to just under 108C, in sixteenths. -/
def satTemp (t : Int) : Int := max (-320) (min 1727 t)

theorem body_facts : ∀ b, b < 2048 → ∀ pl : Bool,
    (0x40 ||| (if pl then 0x10 else 0 : Byte) ||| UInt8.ofNat (b % 16)).toNat % 16 = b % 16 ∧
    (UInt8.ofNat (b / 16)).toNat = b / 16 ∧
    decide ((0x40 ||| (if pl then 0x10 else 0 : Byte) ||| UInt8.ofNat (b % 16)) &&& 0x10 ≠ 0) = pl ∧
    (0x40 ||| (if pl then 0x10 else 0 : Byte) ||| UInt8.ofNat (b % 16)) &&& 0xe0 = 0x40 ∧
    UInt8.ofNat (b / 16) &&& 0x80 = 0 ∧
    (0x40 ||| (if pl then 0x10 else 0 : Byte) ||| UInt8.ofNat (b % 16)).toNat < 128 ∧
    (UInt8.ofNat (b / 16)).toNat < 128 := by decide +kernel

theorem clamp_eq (t : Int) : (if t < -320 then -320 else if t > 1727 then 1727 else t : Int) = satTemp t := by
  unfold satTemp; split
  · omega
  · split <;> omega

theorem body_spec (p : MinStats) :
    minStatsExtract p.body.1 p.body.2 = ⟨satTemp p.tempC16, p.powerLow⟩ ∧
    p.body.1 &&& 0xe0 = 0x40 ∧ p.body.2 &&& 0x80 = 0 ∧ p.body.1.toNat < 128 ∧ p.body.2.toNat < 128 := by
  have hs : -320 ≤ satTemp p.tempC16 ∧ satTemp p.tempC16 ≤ 1727 := by unfold satTemp; omega
  unfold MinStats.body
  simp only [clamp_eq]
  generalize hb : (satTemp p.tempC16 + 320).toNat = b
  obtain ⟨h1, h2, h3, h4, h5, h6, h7⟩ := body_facts b (by omega) p.powerLow
  refine ⟨?_, h4, h5, h6, h7⟩
  unfold minStatsExtract
  rw [h1, h2, h3]
  congr 1
  omega

/-- **C66.** For every temperature and flag: what is written passes verification (whatever follows it in memory), reads
back with the flag intact and the temperature exact within the range -20C..107.94C, saturated outside it, and each byte
is below 0x80 so none is the 0xff terminator. -/
theorem C66_round_trip (p : MinStats) (rest : Bytes) :
    ∃ b0 b1 b2, p.write = [b0, b1, b2] ∧ minStatsVerify (b0 :: b1 :: b2 :: rest) = .ok true ∧
      (minStatsExtract b0 b1).powerLow = p.powerLow ∧ (minStatsExtract b0 b1).tempC16 = satTemp p.tempC16 ∧
      (-320 ≤ p.tempC16 ∧ p.tempC16 ≤ 1727 → minStatsExtract b0 b1 = p) ∧
      b0.toNat < 128 ∧ b1.toNat < 128 ∧ b2.toNat < 128 := by
  obtain ⟨h1, h2, h3, h4, h5⟩ := body_spec p
  refine ⟨_, _, _, rfl, ?_, by rw [h1], by rw [h1], ?_, h4, h5, crc7_update_lt _ _⟩
  · simp [minStatsVerify, rd, h2, h3]
  · intro ht
    rw [h1]
    have : satTemp p.tempC16 = p.tempC16 := by unfold satTemp; omega
    rw [this]

theorem bit_facts : ∀ k, k < 8 → u8 (2 ^ k) ≠ 0 ∧ u8 (2 ^ k) ≠ 0xB7 := by decide

theorem xor_bit (x : Byte) (k : Nat) : x ^^^ (x ^^^ u8 (2 ^ k)) = u8 (2 ^ k) := by
  rw [← UInt8.xor_assoc, UInt8.xor_self, UInt8.zero_xor]

theorem ne_xor_bit (x : Byte) (k : Nat) (hk : k < 8) : x ≠ x ^^^ u8 (2 ^ k) := by
  intro h
  have := xor_bit x k
  rw [← h, UInt8.xor_self] at this
  exact (bit_facts k hk).1 this.symm

theorem hdr_flip : ∀ a : Byte, a &&& 0xe0 = 0x40 → ∀ k, k < 8 → (a ^^^ u8 (2 ^ k)) &&& 0xe0 = 0x40 →
    (a ^^^ u8 (2 ^ k)).toNat < 128 ∧ a.toNat < 128 := by
  apply forall_byte; decide +kernel

/-- **C66.** A valid three-byte payload with any one bit flipped fails verification. -/
theorem C66_bit_flip (buf : Bytes) (h : minStatsVerify buf = .ok true) (i : Nat) (hi : i < 3) (k : Nat) (hk : k < 8) :
    minStatsVerify (buf.set i (buf.getD i 0 ^^^ u8 (2 ^ k))) = .ok false := by
  match buf, h with
  | [], h => simp [minStatsVerify, rd] at h
  | [a], h =>
    simp only [minStatsVerify, rd, List.getElem?_cons_zero, List.getElem?_cons_succ, List.getElem?_nil] at h
    split at h <;> simp at h
  | [a, b], h =>
    simp only [minStatsVerify, rd, List.getElem?_cons_zero, List.getElem?_cons_succ, List.getElem?_nil] at h
    split at h
    · simp at h
    · split at h <;> simp at h
  | a :: b :: c :: rest, h =>
    simp only [minStatsVerify, rd, List.getElem?_cons_zero, List.getElem?_cons_succ] at h
    by_cases h1 : a &&& 0xe0 ≠ 0x40
    · rw [if_pos h1] at h; simp at h
    · rw [if_neg h1] at h
      by_cases h2 : b &&& 0x80 ≠ 0
      · rw [if_pos h2] at h; simp at h
      · rw [if_neg h2] at h
        have h1 := Classical.not_not.1 h1
        have h2 := Classical.not_not.1 h2
        have hc : c = crc7_5B_update a b := by simpa using h
        have : i = 0 ∨ i = 1 ∨ i = 2 := by omega
        rcases this with rfl | rfl | rfl
        · simp only [minStatsVerify, rd, List.set_cons_zero, List.getElem?_cons_zero, List.getElem?_cons_succ, List.getD_cons_zero]
          by_cases h3 : (a ^^^ u8 (2 ^ k)) &&& 0xe0 ≠ 0x40
          · rw [if_pos h3]
          · obtain ⟨l1, l2⟩ := hdr_flip a h1 k hk (Classical.not_not.1 h3)
            rw [if_neg h3, if_neg (not_not_intro h2)]
            simp only [Res.ok.injEq, decide_eq_false_iff_not]
            intro e
            exact ne_xor_bit a k hk (crc7_update_inj_reg _ _ b l2 l1 (hc.symm.trans e))
        · simp only [minStatsVerify, rd, List.set_cons_succ, List.set_cons_zero, List.getElem?_cons_zero, List.getElem?_cons_succ,
            List.getD_cons_zero, List.getD_cons_succ]
          rw [if_neg (not_not_intro h1)]
          by_cases h3 : (b ^^^ u8 (2 ^ k)) &&& 0x80 ≠ 0
          · rw [if_pos h3]
          · rw [if_neg h3]
            simp only [Res.ok.injEq, decide_eq_false_iff_not]
            intro e
            exact crc7_update_ne_of_err a b (b ^^^ u8 (2 ^ k)) (by rw [xor_bit]; exact (bit_facts k hk).1)
              (by rw [xor_bit]; exact (bit_facts k hk).2) (hc.symm.trans e)
        · simp only [minStatsVerify, rd, List.set_cons_succ, List.set_cons_zero, List.getElem?_cons_zero, List.getElem?_cons_succ,
            List.getD_cons_zero, List.getD_cons_succ]
          rw [if_neg (not_not_intro h1), if_neg (not_not_intro h2)]
          simp only [Res.ok.injEq, decide_eq_false_iff_not]
          intro e
          exact ne_xor_bit c k hk (hc.trans e.symm)

/-- A concrete case: 20.5C with low power, and saturation at -30C. -/
example : minStatsExtract (MinStats.body ⟨328, true⟩).1 (MinStats.body ⟨328, true⟩).2 = ⟨328, true⟩ ∧
    minStatsVerify (MinStats.write ⟨328, true⟩) = .ok true ∧
    (minStatsExtract (MinStats.body ⟨-480, false⟩).1 (MinStats.body ⟨-480, false⟩).2).tempC16 = -320 := by
  decide +kernel

/-! ### C67 -/

/-- What a receiver should see: absent fields zero, temperature saturated, occupancy disclosed only at the all-stats level. -/
def fullCanon (c : FullStats) (secLevel : Byte) : FullStats :=
  { containsID := c.containsID, containsTP := c.containsTP, containsAmbL := c.containsAmbL
    id0 := if c.containsID then c.id0 else 0, id1 := if c.containsID then c.id1 else 0
    tp := if c.containsTP then ⟨satTemp c.tp.tempC16, c.tp.powerLow⟩ else ⟨0, false⟩
    ambL := if c.containsAmbL then c.ambL else 0
    occ := if secLevel = 0 then c.occ &&& 3 else 0 }

/-- Contents that can be sent. -/
def fullLegal (c : FullStats) : Prop :=
  (c.containsID = true → c.id0 ≠ 0xff ∧ c.id1 ≠ 0xff ∧ (c.id0.toNat < 128 ↔ c.id1.toNat < 128)) ∧
  (c.containsAmbL = true → c.ambL ≠ 0 ∧ c.ambL ≠ 0xff)

/-- Bytes on the wire without the terminator. -/
def fullSize (c : FullStats) : Nat :=
  3 + (if c.containsID then 2 else 0) + (if c.containsTP then 2 else 0) + (if c.containsAmbL then 1 else 0)

theorem payload_length (c : FullStats) (s : Bool) : (c.payload s).length + 1 = fullSize c := by
  unfold FullStats.payload fullSize
  cases c.containsID <;> cases c.containsTP <;> cases c.containsAmbL <;> rfl

theorem msb_iff : ∀ a : Byte, (a.toNat < 128 ↔ a &&& 0x80 = 0) ∧ (a &&& 0x80 = 0 ∨ a &&& 0x80 = 0x80) := by
  apply forall_byte; decide +kernel

/-- The encoder's outcome in full: refused on a secure channel, too small a buffer or illegal contents, otherwise the
message followed by its CRC and the terminator, the rest of the buffer untouched. -/
theorem encode_eq (c : FullStats) (buf : Bytes) (buflen : Nat) (sec : Byte) (chan : Bool) (hb : buflen ≤ buf.length) :
    (chan = false ∧ fullSize c < buflen ∧ fullLegal c →
      c.encode buf buflen sec chan = .ok (c.payload (sec ≤ 0) ++ [(c.payload (sec ≤ 0)).foldl crc7_5B_update 0x7f, 0xff] ++
        buf.drop (fullSize c + 1), fullSize c)) ∧
    (¬ (chan = false ∧ fullSize c < buflen ∧ fullLegal c) → c.encode buf buflen sec chan = .fail) := by
  have hsz : 1 + (if c.containsID then 2 else 0) + (if c.containsTP then 2 else 0) + 1 + (if c.containsAmbL then 1 else 0) + 2
      = fullSize c + 1 := by unfold fullSize; omega
  have hid : (¬ (c.containsID = true ∧ (c.id0 = 0xff ∨ c.id1 = 0xff)) ∧
      ¬ (c.containsID = true ∧ c.id0 &&& 0x80 ≠ c.id1 &&& 0x80) ∧
      ¬ (c.containsAmbL = true ∧ (c.ambL = 0 ∨ c.ambL = 0xff))) ↔ fullLegal c := by
    unfold fullLegal
    obtain ⟨a1, a2⟩ := msb_iff c.id0
    obtain ⟨b1, b2⟩ := msb_iff c.id1
    have hm : (c.id0.toNat < 128 ↔ c.id1.toNat < 128) ↔ c.id0 &&& 0x80 = c.id1 &&& 0x80 := by
      rw [a1, b1]
      rcases a2 with e | e <;> rcases b2 with f | f <;> simp [e, f]
    rw [hm]
    cases c.containsID <;> cases c.containsAmbL <;> simp [and_assoc]
  unfold FullStats.encode
  dsimp only
  rw [hsz]
  constructor
  · rintro ⟨h1, h2, h3⟩
    obtain ⟨h4, h5, h6⟩ := hid.2 h3
    have hpl := payload_length c (decide (sec ≤ 0))
    simp only [failIf, if_neg h4, if_neg h5, if_neg h6, h1, if_neg (show ¬ buflen < fullSize c + 1 by omega)]
    simp only [wrBlock, List.length_append, List.length_cons, List.length_nil]
    rw [if_neg (by simp), if_pos (by omega)]
    have e1 : (c.payload (decide (sec ≤ 0))).length + 1 = fullSize c := hpl
    have e2 : 0 + ((c.payload (decide (sec ≤ 0))).length + (0 + 1 + 1)) = fullSize c + 1 := by omega
    rw [e1, e2]
    simp
  · intro h
    simp only [failIf]
    by_cases h1 : chan = true
    · rw [if_pos h1]
    · rw [if_neg h1]
      by_cases h2 : buflen < fullSize c + 1
      · rw [if_pos h2]
      · rw [if_neg h2]
        have h3 : ¬ fullLegal c := by
          intro h3; exact h ⟨by simpa using h1, by omega, h3⟩
        rw [← hid] at h3
        by_cases h4 : c.containsID = true ∧ (c.id0 = 0xff ∨ c.id1 = 0xff)
        · rw [if_pos h4]
        · rw [if_neg h4]
          by_cases h5 : c.containsID = true ∧ c.id0 &&& 0x80 ≠ c.id1 &&& 0x80
          · rw [if_pos h5]
          · rw [if_neg h5]
            by_cases h6 : c.containsAmbL = true ∧ (c.ambL = 0 ∨ c.ambL = 0xff)
            · rw [if_pos h6]
            · exact absurd ⟨h4, h5, h6⟩ h3

/-! Header facts -/

theorem hdr_facts : ∀ a : Byte, ∀ idp : Bool,
    (0x70 ||| (if idp then 4 else 0 : Byte) ||| (if idp && (a &&& 0x80) != 0 then 2 else 0)) &&& 0x70 = 0x70 ∧
    (0x70 ||| (if idp then 4 else 0 : Byte) ||| (if idp && (a &&& 0x80) != 0 then 2 else 0)) &&& 0x80 = 0 ∧
    (((0x70 ||| (if idp then 4 else 0 : Byte) ||| (if idp && (a &&& 0x80) != 0 then 2 else 0)) &&& 4 ≠ 0) ↔ idp = true) ∧
    (0x70 ||| (if idp then 4 else 0 : Byte) ||| (if idp && (a &&& 0x80) != 0 then 2 else 0)).toNat < 128 ∧
    (idp = true → (if (0x70 ||| (if idp then 4 else 0 : Byte) |||
      (if idp && (a &&& 0x80) != 0 then 2 else 0)) &&& 2 = 0 then 0 else 0x80) = a &&& 0x80) := by
  apply forall_byte; decide +kernel

theorem id_or : ∀ a : Byte, a &&& 0x7f ||| (a &&& 0x80) = a ∧ (a &&& 0x7f).toNat < 128 := by
  apply forall_byte; decide +kernel

theorem flag_facts : ∀ occ : Byte, ∀ amb shw : Bool,
    (0x60 ||| (if amb then 8 else 0 : Byte) ||| (if shw then occ &&& 3 else 0)) &&& 0xe0 = 0x60 ∧
    (((0x60 ||| (if amb then 8 else 0 : Byte) ||| (if shw then occ &&& 3 else 0)) &&& 8 ≠ 0) ↔ amb = true) ∧
    (0x60 ||| (if amb then 8 else 0 : Byte) ||| (if shw then occ &&& 3 else 0)) &&& 3 = (if shw then occ &&& 3 else 0) ∧
    (0x60 ||| (if amb then 8 else 0 : Byte) ||| (if shw then occ &&& 3 else 0)).toNat < 128 := by
  apply forall_byte; decide +kernel

theorem take_pre (m r : Bytes) (n : Nat) (h : m.length = n) : (m ++ r).take n = m := by subst h; simp

theorem get_pre (m r : Bytes) (n : Nat) (h : m.length = n) (x : Byte) : (m ++ x :: r)[n]? = some x := by subst h; simp

theorem end_ok (m r : Bytes) (len n : Nat) (h : m.length = n) (hl : n < len) (c : FullStats) :
    fullDecodeEnd (m ++ m.foldl crc7_5B_update 0x7f :: r) len n c = .ok (c, n + 1) := by
  unfold fullDecodeEnd
  rw [take_pre m _ n h]
  simp only [failIf, if_neg (show ¬ n ≥ len by omega), rd, get_pre m r n h]
  simp

theorem sec_le (sec : Byte) : (decide (sec ≤ 0)) = decide (sec = 0) := by
  revert sec; apply forall_byte; decide +kernel

theorem ite_ge_of_lt {α : Type} {k len : Nat} {a b : α} (h : k < len) : (if k ≥ len then a else b) = b := if_neg (by omega)

theorem ite_lt_of_le {α : Type} {k len : Nat} {a b : α} (h : k ≤ len) : (if len < k then a else b) = b := if_neg (by omega)

theorem decode_encoded (c : FullStats) (hc : fullLegal c) (sec : Byte) (r : Bytes) (len : Nat) (hl : fullSize c ≤ len) :
    fullDecode (c.payload (sec ≤ 0) ++ (c.payload (sec ≤ 0)).foldl crc7_5B_update 0x7f :: r) len = .ok (fullCanon c sec, fullSize c) := by
  have hpl := payload_length c (decide (sec ≤ 0))
  have hend := fun (k : FullStats) => end_ok (c.payload (decide (sec ≤ 0))) r len (fullSize c - 1) (by omega)
    (by unfold fullSize at *; omega) k
  have hfs : fullSize c - 1 + 1 = fullSize c := by unfold fullSize; omega
  rw [hfs] at hend
  rw [sec_le] at *
  obtain ⟨iid, itp, iam, id0, id1, tp, ambL, occ⟩ := c
  obtain ⟨hid, ham⟩ := hc
  dsimp only at hid ham
  obtain ⟨t1, t2, t3, t4, t5⟩ := body_spec tp
  obtain ⟨f1, f2, f3, f4⟩ := flag_facts occ iam (decide (sec = 0))
  obtain ⟨d1, d2, d3, d4, d5⟩ := hdr_facts id0 iid
  have h1 : id1 &&& 0x7f ||| (id1 &&& 0x80) = id1 := (id_or id1).1
  have h0 : id0 &&& 0x7f ||| (id0 &&& 0x80) = id0 := (id_or id0).1
  have hsame : iid = true → id1 &&& 0x80 = id0 &&& 0x80 := by
    intro hi
    have := (hid hi).2.2
    obtain ⟨a1, a2⟩ := msb_iff id0
    obtain ⟨b1, b2⟩ := msb_iff id1
    rw [a1, b1] at this
    rcases a2 with e | e <;> rcases b2 with f | f <;> simp [e, f] at this ⊢
  have h1' : iid = true → id1 &&& 0x7f ||| (id0 &&& 0x80) = id1 := by intro hi; rw [← hsame hi]; exact h1
  have hflagne : ∀ x : Byte, x &&& 0xe0 = 0x60 → ¬ x &&& 0xe0 = 0x40 := by intro x hx; rw [hx]; decide
  have f5 := hflagne _ f1
  generalize hF : (0x60 ||| (if iam then 8 else 0 : Byte) ||| (if decide (sec = 0) = true then occ &&& 3 else 0)) = F at *
  generalize hH : (0x70 ||| (if iid then 4 else 0 : Byte) ||| (if iid && (id0 &&& 0x80) != 0 then 2 else 0)) = H at *
  generalize hp0 : tp.body.1 = p0 at *
  generalize hp1 : tp.body.2 = p1 at *
  simp only [FullStats.payload, hF, hH, hp0, hp1] at hend ⊢
  generalize hcrc : List.foldl crc7_5B_update 127 _ = crc at hend ⊢
  unfold fullDecode
  cases iid <;> cases itp <;> cases iam <;>
    simp only [Bool.false_eq_true, if_false, if_true, iff_false, iff_true, ne_eq, Classical.not_not, fullSize, reduceCtorEq,
      List.nil_append, List.append_nil, List.cons_append, forall_const, Nat.reduceAdd, Nat.add_zero, Nat.reduceSub] at * <;>
    simp only [failIf, rd, List.getElem?_cons_zero, List.getElem?_cons_succ, fullDecodeTP, fullDecodeFlags,
      d1, d2, d3, f1, f2, f3, f5, t1, t2, t3, ne_eq, not_true_eq_false, if_false, if_true, not_false_eq_true, Nat.reduceAdd,
      show ¬ (0x60 : Byte) = 0x40 by decide] <;>
    simp (disch := omega) only [ite_ge_of_lt, ite_lt_of_le] <;>
    (try rw [if_neg (show ¬ (ambL = 0 ∨ ambL = 255) by simp [ham])]) <;>
    rw [hend] <;>
    simp [fullCanon, FullStats.clear, f3, h0, h1', d5]

/-- **C67, round trip.** Whatever the contents, buffer and privacy level: the message is built exactly when the contents
are legal, the channel is a plain one and message and terminator fit; then it fills `fullSize` bytes, none of them 0xff,
followed by the 0xff terminator, bytes beyond are untouched, and decoding (told of any length from the message's up)
consumes exactly the message and returns the same fields, with the temperature saturated to its range and the occupancy
withheld unless the level is the all-stats one. -/
theorem C67_round_trip_partial (c : FullStats) (buf : Bytes) (buflen : Nat) (sec : Byte) (chan : Bool) (hb : buflen ≤ buf.length) :
    ((∃ out n, c.encode buf buflen sec chan = .ok (out, n)) ↔ chan = false ∧ fullSize c < buflen ∧ fullLegal c) ∧
    (∀ out n, c.encode buf buflen sec chan = .ok (out, n) →
      n = fullSize c ∧ n ≤ 8 ∧ out.length = buf.length ∧ (∀ k, k < n → out[k]? ≠ some 0xff) ∧ out[n]? = some 0xff ∧
      (∀ k, n < k → out[k]? = buf[k]?) ∧
      ∀ len, n ≤ len → fullDecode out len = .ok (fullCanon c sec, n)) := by
  obtain ⟨e1, e2⟩ := encode_eq c buf buflen sec chan hb
  have hpl := payload_length c (decide (sec ≤ 0))
  refine ⟨⟨?_, fun h => ⟨_, _, e1 h⟩⟩, ?_⟩
  · rintro ⟨out, n, h⟩
    apply Classical.byContradiction
    intro hn
    rw [e2 hn] at h
    cases h
  · intro out n h
    have hok : chan = false ∧ fullSize c < buflen ∧ fullLegal c := by
      apply Classical.byContradiction
      intro hn
      rw [e2 hn] at h
      cases h
    rw [e1 hok] at h
    simp only [Res.ok.injEq, Prod.mk.injEq] at h
    obtain ⟨rfl, rfl⟩ := h
    have hno : ∀ x ∈ c.payload (decide (sec ≤ 0)) ++ [(c.payload (decide (sec ≤ 0))).foldl crc7_5B_update 0x7f], x ≠ 0xff := by
      have lt_ne : ∀ x : Byte, x.toNat < 128 → x ≠ 0xff := by intro x hx e; rw [e] at hx; exact absurd hx (by decide)
      intro x hx
      rw [List.mem_append] at hx
      rcases hx with hx | hx
      · obtain ⟨t1, t2, t3, t4, t5⟩ := body_spec c.tp
        obtain ⟨f1, f2, f3, f4⟩ := flag_facts c.occ c.containsAmbL (decide (sec ≤ 0))
        obtain ⟨d1, d2, d3, d4, d5⟩ := hdr_facts c.id0 c.containsID
        simp only [FullStats.payload, List.mem_append, List.mem_cons, List.not_mem_nil, or_false] at hx
        rcases hx with (((hx | hx) | hx) | hx) | hx
        · rw [hx]; exact lt_ne _ d4
        · split at hx
          · simp at hx; rcases hx with rfl | rfl
            · exact lt_ne _ (id_or _).2
            · exact lt_ne _ (id_or _).2
          · simp at hx
        · split at hx
          · simp at hx; rcases hx with rfl | rfl
            · exact lt_ne _ t4
            · exact lt_ne _ t5
          · simp at hx
        · rw [hx]; exact lt_ne _ f4
        · split at hx
          · rename_i ha
            simp at hx; rw [hx]; exact (hok.2.2.2 ha).2
          · simp at hx
      · simp at hx
        rw [hx]
        exact lt_ne _ (crc7_lt 0x7f (by decide) _)
    refine ⟨rfl, ?_, ?_, ?_, ?_, ?_, ?_⟩
    · unfold fullSize; split <;> split <;> split <;> omega
    · simp only [List.length_append, List.length_cons, List.length_nil, List.length_drop]; omega
    · intro k hk
      have : c.payload (decide (sec ≤ 0)) ++ [(c.payload (decide (sec ≤ 0))).foldl crc7_5B_update 0x7f, 0xff] ++ buf.drop (fullSize c + 1) =
          (c.payload (decide (sec ≤ 0)) ++ [(c.payload (decide (sec ≤ 0))).foldl crc7_5B_update 0x7f]) ++ (0xff :: buf.drop (fullSize c + 1)) := by simp
      rw [this, List.getElem?_append_left (by simp only [List.length_append, List.length_cons, List.length_nil]; omega)]
      intro e
      exact hno _ (List.mem_of_getElem? e) rfl
    · have : c.payload (decide (sec ≤ 0)) ++ [(c.payload (decide (sec ≤ 0))).foldl crc7_5B_update 0x7f, 0xff] ++ buf.drop (fullSize c + 1) =
          (c.payload (decide (sec ≤ 0)) ++ [(c.payload (decide (sec ≤ 0))).foldl crc7_5B_update 0x7f]) ++ (0xff :: buf.drop (fullSize c + 1)) := by simp
      rw [this, get_pre _ _ _ (by simp only [List.length_append, List.length_cons, List.length_nil]; omega)]
    · intro k hk
      rw [List.getElem?_append_right (by simp only [List.length_append, List.length_cons, List.length_nil]; omega)]
      simp only [List.length_append, List.length_cons, List.length_nil, List.getElem?_drop]
      congr 1
      omega
    · intro len hl
      have := decode_encoded c hok.2.2 sec (0xff :: buf.drop (fullSize c + 1)) len hl
      simpa using this

/-- **C67, memory safety and soundness of decoding.** For any bytes and any stated length within them, the decoder never
reads outside; if it accepts, it consumed between 3 and 8 bytes, within the stated length, and the last consumed
byte is the CRC of those before it. -/
theorem C67_decode_sound (buf : Bytes) (buflen : Nat) (hb : buflen ≤ buf.length) :
    fullDecode buf buflen ≠ .ub ∧
    ∀ c n, fullDecode buf buflen = .ok (c, n) → 3 ≤ n ∧ n ≤ 8 ∧ n ≤ buflen ∧
      buf[n - 1]? = some ((buf.take (n - 1)).foldl crc7_5B_update 0x7f) := by
  have hE : ∀ b c0, fullDecodeEnd buf buflen b c0 ≠ .ub ∧
      ∀ c n, fullDecodeEnd buf buflen b c0 = .ok (c, n) → n = b + 1 ∧ n ≤ buflen ∧
        buf[n - 1]? = some ((buf.take (n - 1)).foldl crc7_5B_update 0x7f) := by
    intro b c0
    unfold fullDecodeEnd
    constructor
    · rw [ne_eq, failIf_eq_ub]
      rintro ⟨h1, h2⟩
      rw [rd_lt (by omega), failIf_eq_ub] at h2
      cases h2.2
    · intro c n h
      rw [failIf_eq_ok] at h
      obtain ⟨h1, h2⟩ := h
      rw [rd_lt (by omega), failIf_eq_ok] at h2
      obtain ⟨h3, h4⟩ := h2
      simp only [Res.ok.injEq, Prod.mk.injEq] at h4
      obtain ⟨-, rfl⟩ := h4
      refine ⟨rfl, by omega, ?_⟩
      rw [Nat.add_sub_cancel, Classical.not_not.1 h3]
      simp
  have hF : ∀ b c0, fullDecodeFlags buf buflen b c0 ≠ .ub ∧
      ∀ c n, fullDecodeFlags buf buflen b c0 = .ok (c, n) → b + 2 ≤ n ∧ n ≤ b + 3 ∧ n ≤ buflen ∧
        buf[n - 1]? = some ((buf.take (n - 1)).foldl crc7_5B_update 0x7f) := by
    intro b c0
    unfold fullDecodeFlags
    constructor
    · rw [ne_eq, failIf_eq_ub]
      rintro ⟨h1, h2⟩
      rw [rd_lt (by omega), failIf_eq_ub] at h2
      have h2 := h2.2
      dsimp only at h2
      split at h2
      · rw [failIf_eq_ub] at h2
        obtain ⟨h3, h4⟩ := h2
        rw [rd_lt (by omega), failIf_eq_ub] at h4
        exact (hE _ _).1 h4.2
      · exact (hE _ _).1 h2
    · intro c n h
      rw [failIf_eq_ok] at h
      obtain ⟨h1, h2⟩ := h
      rw [rd_lt (by omega), failIf_eq_ok] at h2
      have h2 := h2.2
      dsimp only at h2
      split at h2
      · rw [failIf_eq_ok] at h2
        obtain ⟨h3, h4⟩ := h2
        rw [rd_lt (by omega), failIf_eq_ok] at h4
        obtain ⟨a, b, c⟩ := (hE _ _).2 _ _ h4.2
        exact ⟨by omega, by omega, b, c⟩
      · obtain ⟨a, b, c⟩ := (hE _ _).2 _ _ h2
        exact ⟨by omega, by omega, b, c⟩
  have hT : ∀ b c0, fullDecodeTP buf buflen b c0 ≠ .ub ∧
      ∀ c n, fullDecodeTP buf buflen b c0 = .ok (c, n) → b + 2 ≤ n ∧ n ≤ b + 5 ∧ n ≤ buflen ∧
        buf[n - 1]? = some ((buf.take (n - 1)).foldl crc7_5B_update 0x7f) := by
    intro b c0
    unfold fullDecodeTP
    constructor
    · rw [ne_eq, failIf_eq_ub]
      rintro ⟨h1, h2⟩
      rw [rd_lt (by omega)] at h2
      split at h2
      · rw [failIf_eq_ub] at h2
        obtain ⟨h3, h4⟩ := h2
        rw [rd_lt (by omega), failIf_eq_ub] at h4
        exact (hF _ _).1 h4.2
      · exact (hF _ _).1 h2
    · intro c n h
      rw [failIf_eq_ok] at h
      obtain ⟨h1, h2⟩ := h
      rw [rd_lt (by omega)] at h2
      split at h2
      · rw [failIf_eq_ok] at h2
        obtain ⟨h3, h4⟩ := h2
        rw [rd_lt (by omega), failIf_eq_ok] at h4
        obtain ⟨a, b, c, d⟩ := (hF _ _).2 _ _ h4.2
        exact ⟨by omega, by omega, c, d⟩
      · obtain ⟨a, b, c, d⟩ := (hF _ _).2 _ _ h2
        exact ⟨by omega, by omega, c, d⟩
  unfold fullDecode
  constructor
  · rw [ne_eq, failIf_eq_ub]
    rintro ⟨h1, h2⟩
    rw [rd_lt (by omega), failIf_eq_ub, failIf_eq_ub] at h2
    have h2 := h2.2.2
    split at h2
    · dsimp only at h2
      rw [rd_lt (by omega), rd_lt (by omega)] at h2
      exact (hT _ _).1 h2
    · exact (hT _ _).1 h2
  · intro c n h
    rw [failIf_eq_ok] at h
    obtain ⟨h1, h2⟩ := h
    rw [rd_lt (by omega), failIf_eq_ok, failIf_eq_ok] at h2
    have h2 := h2.2.2
    split at h2
    · dsimp only at h2
      rw [rd_lt (by omega), rd_lt (by omega)] at h2
      obtain ⟨a, b, c, d⟩ := (hT _ _).2 _ _ h2
      exact ⟨by omega, by omega, c, d⟩
    · obtain ⟨a, b, c, d⟩ := (hT _ _).2 _ _ h2
      exact ⟨by omega, by omega, c, d⟩

/-- **C67, corruption.** If a buffer decodes, consuming `n` bytes, then with any one bit of those `n` bytes flipped it is
either rejected or appears to be of another length: it never decodes consuming `n` bytes again.  So a receiver that
knows the length of the message (as from the radio frame) detects every single-bit error. -/
theorem C67_bit_flip_partial (buf : Bytes) (buflen : Nat) (hb : buflen ≤ buf.length) (c : FullStats) (n : Nat)
    (h : fullDecode buf buflen = .ok (c, n)) (i : Nat) (hi : i < n) (k : Nat) (hk : k < 8) (c' : FullStats) :
    fullDecode (buf.set i (buf.getD i 0 ^^^ u8 (2 ^ k))) buflen ≠ .ok (c', n) := by
  intro h'
  obtain ⟨a1, a2, a3, a4⟩ := (C67_decode_sound buf buflen hb).2 c n h
  obtain ⟨b1, b2, b3, b4⟩ := (C67_decode_sound _ buflen (by simpa using hb)).2 c' n h'
  have hil : i < buf.length := by omega
  have hg : buf.getD i 0 = buf[i] := by simp [List.getD, hil]
  rw [hg] at b4
  by_cases he : i = n - 1
  · subst he
    rw [List.take_set_of_le (by omega)] at b4
    rw [List.getElem?_set_self (by omega)] at b4
    rw [List.getElem?_eq_getElem hil] at a4
    rw [← a4] at b4
    exact ne_xor_bit _ k hk (by simpa using b4.symm)
  · have hin : i < n - 1 := by omega
    rw [List.getElem?_set_ne (by omega), a4] at b4
    simp only [Option.some.injEq] at b4
    rw [List.take_set] at b4
    have hlt : i < (buf.take (n - 1)).length := by simp; omega
    have hsplit : buf.take (n - 1) = (buf.take (n - 1)).take i ++ buf[i] :: (buf.take (n - 1)).drop (i + 1) := by
      have := List.take_append_drop i (buf.take (n - 1))
      rw [List.drop_eq_getElem_cons hlt, List.getElem_take] at this
      exact this.symm
    have hset : (buf.take (n - 1)).set i (buf[i] ^^^ u8 (2 ^ k)) =
        (buf.take (n - 1)).take i ++ (buf[i] ^^^ u8 (2 ^ k)) :: (buf.take (n - 1)).drop (i + 1) := by
      rw [List.set_eq_take_append_cons_drop, if_pos hlt]
    rw [hset] at b4
    generalize hp : (buf.take (n - 1)).take i = p at *
    generalize hs : (buf.take (n - 1)).drop (i + 1) = s at *
    rw [hsplit] at b4
    exact crc7_byte_error 0x7f p buf[i] _ s (by rw [xor_bit]; exact (bit_facts k hk).1)
      (by rw [xor_bit]; exact (bit_facts k hk).2) b4

/-- **C67 (refuted without the length check).** The message for ambient light level 0x65 alone; flipping one bit (the flag
saying that a light level follows) leaves a buffer that the decoder accepts, consuming one byte fewer, since the light level
happens to be the right CRC of the shorter message. -/
theorem C67_refuted_structural_flip :
    fullDecode [0x70, 0x68, 0x65, 0x6d, 0xff] 5 = .ok (⟨false, false, true, 0, 0, ⟨0, false⟩, 0x65, 0⟩, 4) ∧
    fullDecode [0x70, 0x60, 0x65, 0x6d, 0xff] 5 = .ok (⟨false, false, false, 0, 0, ⟨0, false⟩, 0, 0⟩, 3) := by
  decide +kernel

/-- A concrete case: ID 0x80 0x81, 20.5C, light 42, occupied (disclosed). -/
example : fullLegal ⟨true, true, true, 0x80, 0x81, ⟨328, false⟩, 42, 1⟩ ∧
    ∃ out, FullStats.encode ⟨true, true, true, 0x80, 0x81, ⟨328, false⟩, 42, 1⟩ (List.replicate 9 0) 9 0 false = .ok (out, 8) ∧
      fullDecode out 9 = .ok (⟨true, true, true, 0x80, 0x81, ⟨328, false⟩, 42, 1⟩, 8) := by
  refine ⟨⟨by decide, by decide⟩, _, rfl, by decide +kernel⟩

end OTR.Props
