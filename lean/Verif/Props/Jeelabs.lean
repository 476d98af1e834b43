import Verif.Proof.Jeelabs
/-!
# C77: JeeLabs packets
-/

namespace OTR.Props

/-- The second header byte. -/
def jlByte1 (j : JL) (nodeID : Byte) (dest ackReq ackConf : Bool) : Byte :=
  (if dest then nodeID ||| 0x40 else j.node) ||| ((if ackConf then 0x80 else 0) ||| (if ackReq then 0x20 else 0))

/-- A frame as laid out on air: group, flags and node, length, body, CRC low byte first. -/
def jlFrame (j : JL) (body : Bytes) (nodeID : Byte) (dest ackReq ackConf : Bool) : Bytes :=
  let m := [j.group, jlByte1 j nodeID dest ackReq ackConf, u8 body.length] ++ body
  m ++ [u8 ((crc16 m).toNat % 256), u8 ((crc16 m).toNat / 256)]

theorem jlFrame_length (j : JL) (body : Bytes) (nodeID : Byte) (d r c : Bool) : (jlFrame j body nodeID d r c).length = body.length + 5 := by
  simp [jlFrame]

theorem jl_encode_eq (j : JL) (body spare : Bytes) (nodeID : Byte) (hn : nodeID.toNat ≤ 31) (d r c : Bool)
    (hb : body.length ≤ 250) (hs : 5 ≤ spare.length) :
    j.encode (body ++ spare) body.length nodeID d r c = .ok (jlFrame j body nodeID d r c ++ spare.drop 5, body.length + 5) := by
  have hn' : ¬ nodeID > 31 := by
    intro h
    have h' : (31 : Byte).toNat < nodeID.toNat := UInt8.lt_iff_toNat_lt.1 h
    simp at h'
    omega
  unfold JL.encode
  rw [failIf, if_neg hn']
  have e1 : ((body ++ spare).drop 0).take body.length = body := by simp
  rw [rdBlock, if_pos (by simp), e1]
  rw [wrBlock, if_pos (by simp; omega)]
  dsimp only
  have hH : (if d then nodeID ||| 0x40 else j.node) ||| ((if c then 0x80 else 0) ||| (if r then 0x20 else 0)) = jlByte1 j nodeID d r c := rfl
  rw [hH]
  generalize jlByte1 j nodeID d r c = b1 at *
  have e2 : (body ++ spare).drop (3 + body.length) = spare.drop 3 := by
    rw [Nat.add_comm, List.drop_append]
    simp [Nat.add_comm]
  rw [e2]
  have hl3 : (List.take 3 (body ++ spare)).length = 3 := by simp; omega
  rw [wrBlock, if_pos (by simp; omega)]
  dsimp only [List.take_zero, List.length_cons, List.length_nil]
  have e3 : List.drop (0 + (0 + 1 + 1 + 1)) (List.take 3 (body ++ spare) ++ body ++ List.drop 3 spare) = body ++ List.drop 3 spare := by
    rw [List.append_assoc]
    generalize List.take 3 (body ++ spare) = t at *
    rw [List.drop_left' (by omega)]
  rw [e3, List.nil_append]
  have e4 : (body.length + 3) % 256 = body.length + 3 := by omega
  rw [e4]
  have e5 : (([j.group, b1, u8 body.length] ++ (body ++ List.drop 3 spare)).drop 0).take (body.length + 3) =
      [j.group, b1, u8 body.length] ++ body := by
    rw [List.drop_zero, ← List.append_assoc, List.take_left' (by simp)]
  rw [rdBlock, if_pos (by simp <;> omega), e5]
  rw [wrBlock, if_pos (by simp; omega)]
  have e6 : ([j.group, b1, u8 body.length] ++ (body ++ List.drop 3 spare)).take (body.length + 3) =
      [j.group, b1, u8 body.length] ++ body := by
    rw [← List.append_assoc, List.take_left' (by simp)]
  have e7 : ∀ x y : Byte, ([j.group, b1, u8 body.length] ++ (body ++ List.drop 3 spare)).drop (body.length + 3 + [x, y].length) =
      List.drop 5 spare := by
    intro x y
    rw [← List.append_assoc, List.drop_append, List.drop_eq_nil_of_le (by simp)]
    rw [List.nil_append, List.drop_drop]
    congr 1
    simp
  rw [e6, e7]
  have e8 : (body.length + 5) % 256 = body.length + 5 := by omega
  rw [e8]
  subst hH
  simp [jlFrame, jlByte1]

theorem jl_b1_facts : ∀ n : Byte, n.toNat ≤ 31 → ∀ d r c : Bool,
    ((if d then n ||| 0x40 else n) ||| ((if c then 0x80 else 0) ||| (if r then 0x20 else 0) : Byte)) &&& 0x1f = n ∧
    decide (((if d then n ||| 0x40 else n) ||| ((if c then 0x80 else 0) ||| (if r then 0x20 else 0) : Byte)) &&& 0x40 ≠ 0) = d ∧
    decide (((if d then n ||| 0x40 else n) ||| ((if c then 0x80 else 0) ||| (if r then 0x20 else 0) : Byte)) &&& 0x20 ≠ 0) = r ∧
    decide (((if d then n ||| 0x40 else n) ||| ((if c then 0x80 else 0) ||| (if r then 0x20 else 0) : Byte)) &&& 0x80 ≠ 0) = c := by
  apply forall_byte; decide +kernel

/-- **C77, round trip.** For every body of up to 250 bytes, with at least 5 spare bytes after it in the buffer, and every
legal node: encoding fills exactly `n+5` bytes and leaves the rest; the receive filter finds that length and accepts
it if it is at most 64; and a receiver in the same group, addressed by the frame or listening to a broadcast,
decodes the same body, node (the addressee's, or the sender's own for a broadcast) and flags. -/
theorem C77_round_trip_partial (j k : JL) (hg : k.group = j.group) (body spare : Bytes) (nodeID : Byte) (hn : nodeID.toNat ≤ 31)
    (hj : j.node.toNat ≤ 31) (d r c : Bool) (hd : d = true → nodeID = k.node) (hb : body.length ≤ 250) (hs : 5 ≤ spare.length) :
    ∃ out, j.encode (body ++ spare) body.length nodeID d r c = .ok (out, body.length + 5) ∧
      out.length = (body ++ spare).length ∧ out.drop (body.length + 5) = (body ++ spare).drop (body.length + 5) ∧
      jlFilter out = .ok (decide (body.length + 5 ≤ 64), body.length + 5) ∧
      ∃ o, k.decode out = .ok o ∧ o.buflen = body.length ∧ o.buf.take body.length = body ∧
        o.nodeID = (if d then nodeID else j.node) ∧ o.dest = d ∧ o.ackReq = r ∧ o.ackConf = c := by
  refine ⟨_, jl_encode_eq j body spare nodeID hn d r c hb hs, ?_, ?_, ?_, ?_⟩
  · simp [jlFrame_length]; omega
  · rw [List.drop_left' (jlFrame_length ..)]
    rw [List.drop_append, List.drop_eq_nil_of_le (show body.length ≤ body.length + 5 by omega), List.nil_append]
    congr 1
    omega
  all_goals
    have hres : crc16 (jlFrame j body nodeID d r c) = 0#16 := crc16_residue _
    have hlen : (u8 body.length).toNat = body.length := by simp [u8]; omega
    have hfl := jlFrame_length j body nodeID d r c
    have g0 : (jlFrame j body nodeID d r c ++ spare.drop 5)[0]? = some j.group := by simp [jlFrame]
    have g1 : (jlFrame j body nodeID d r c ++ spare.drop 5)[1]? = some (jlByte1 j nodeID d r c) := by simp [jlFrame]
    have g2 : (jlFrame j body nodeID d r c ++ spare.drop 5)[2]? = some (u8 body.length) := by simp [jlFrame]
    have tk : (List.drop 0 (jlFrame j body nodeID d r c ++ spare.drop 5)).take (body.length + 5) = jlFrame j body nodeID d r c := by
      rw [List.drop_zero, List.take_left' hfl]
    have hm : (body.length + 5) % 256 = body.length + 5 := by omega
  · unfold jlFilter
    rw [rd_of_some g2, hlen, hm]
    dsimp only
    by_cases h64 : body.length + 5 > 64
    · rw [if_pos h64]; simp; omega
    · rw [if_neg h64, rdBlock, if_pos (by simp [hfl]), tk, hres]
      simp; omega
  · have bd : (List.drop 3 (jlFrame j body nodeID d r c ++ spare.drop 5)).take body.length = body := by
      unfold jlFrame
      simp [List.take_append]
    have b1f : jlByte1 j nodeID d r c &&& 0x1f = (if d then nodeID else j.node) ∧
        decide (jlByte1 j nodeID d r c &&& 0x40 ≠ 0) = d ∧ decide (jlByte1 j nodeID d r c &&& 0x20 ≠ 0) = r ∧
        decide (jlByte1 j nodeID d r c &&& 0x80 ≠ 0) = c := by
      unfold jlByte1
      cases d
      · exact jl_b1_facts j.node hj false r c
      · exact jl_b1_facts nodeID hn true r c
    obtain ⟨f1, f2, f3, f4⟩ := b1f
    unfold JL.decode
    rw [rd_of_some g0, failIf, if_neg (by simp [hg]), rd_of_some g2, hlen, hm, rdBlock, if_pos (by simp [hfl]), tk, hres,
      failIf, if_neg (by simp), rd_of_some g1]
    simp only [f1, f2, f3, f4]
    have hok : ¬ (d = true ∧ (if d then nodeID else j.node) ≠ k.node) := by
      rintro ⟨h1, h2⟩
      rw [if_pos h1] at h2
      exact h2 (hd h1)
    rw [failIf, if_neg hok, rdBlock, if_pos (by simp [hfl]; omega), bd, wrBlock, if_pos (by simp [hfl]; omega)]
    exact ⟨_, rfl, rfl, by simp, rfl, rfl, rfl, rfl⟩

/-- **C77, corruption.** A frame that the receiver accepts (length `n ≤ 250`), changed in any one byte other than the
length byte, is rejected by both the filter and the decoder. -/
theorem C77_byte_error_partial (j : JL) (buf : Bytes) (o : JLOut) (h : j.decode buf = .ok o) (hlen : o.buflen ≤ 250)
    (i : Nat) (hi : i < o.buflen + 5) (hi2 : i ≠ 2) (y : Byte) (hy : y ≠ buf.getD i 0) :
    j.decode (buf.set i y) = .fail ∧ ∃ n, jlFilter (buf.set i y) = .ok (false, n) := by
  unfold JL.decode at h
  rw [rd_eq_ok] at h
  obtain ⟨l0, h⟩ := h
  rw [failIf_eq_ok] at h
  obtain ⟨hgrp, h⟩ := h
  rw [rd_eq_ok] at h
  obtain ⟨l2, h⟩ := h
  rw [rdBlock_eq_ok] at h
  obtain ⟨l3, h⟩ := h
  rw [failIf_eq_ok] at h
  obtain ⟨hcrc, h⟩ := h
  rw [rd_eq_ok] at h
  obtain ⟨l1, h⟩ := h
  dsimp only at h
  rw [failIf_eq_ok] at h
  obtain ⟨-, h⟩ := h
  rw [rdBlock_eq_ok] at h
  obtain ⟨l4, h⟩ := h
  rw [wrBlock_eq_ok] at h
  obtain ⟨l5, h⟩ := h
  have ho : o.buflen = buf[2].toNat := by
    have := Res.ok.inj h
    rw [← this]
  rw [ho] at hlen hi
  have hm : (buf[2].toNat + 5) % 256 = buf[2].toNat + 5 := by omega
  rw [hm] at hcrc l3
  have hcrc := Classical.not_not.1 hcrc
  rw [List.drop_zero] at hcrc
  have hil : i < buf.length := by omega
  have hgd : buf.getD i 0 = buf[i] := by simp [List.getD, hil]
  rw [hgd] at hy
  have hset2 : (buf.set i y)[2]? = some buf[2] := by rw [List.getElem?_set_ne (by omega)]; simp
  have hcrc' : crc16 (List.take (buf[2].toNat + 5) (buf.set i y)) ≠ 0#16 := by
    rw [List.take_set]
    have hlt : i < (buf.take (buf[2].toNat + 5)).length := by simp; omega
    rw [List.set_eq_take_append_cons_drop, if_pos hlt]
    intro e
    have hsplit : buf.take (buf[2].toNat + 5) = (buf.take (buf[2].toNat + 5)).take i ++ buf[i] ::
        (buf.take (buf[2].toNat + 5)).drop (i + 1) := by
      have := List.take_append_drop i (buf.take (buf[2].toNat + 5))
      rw [List.drop_eq_getElem_cons hlt, List.getElem_take] at this
      exact this.symm
    generalize hP : (buf.take (buf[2].toNat + 5)).take i = p at *
    generalize hS : (buf.take (buf[2].toNat + 5)).drop (i + 1) = s at *
    rw [hsplit] at hcrc
    exact crc16_byte_error p s _ _ hy (e.trans hcrc.symm)
  constructor
  · unfold JL.decode
    have hg0 : ∃ b, (buf.set i y)[0]? = some b := ⟨_, List.getElem?_eq_getElem (by simpa using l0)⟩
    obtain ⟨b, hb⟩ := hg0
    rw [rd_of_some hb, failIf]
    by_cases hb' : b ≠ j.group
    · rw [if_pos hb']
    · rw [if_neg hb', rd_of_some hset2, hm, rdBlock, if_pos (by simp; omega), List.drop_zero, failIf, if_pos hcrc']
  · unfold jlFilter
    rw [rd_of_some hset2, hm]
    dsimp only
    by_cases h64 : buf[2].toNat + 5 > 64
    · rw [if_pos h64]; exact ⟨_, rfl⟩
    · rw [if_neg h64, rdBlock, if_pos (by simp; omega), List.drop_zero]
      exact ⟨_, by rw [decide_eq_false hcrc']⟩

theorem jl_no_short (n : Byte) : crc16 [100] ≠ 0#16 ∧ crc16 [100, n] ≠ 0#16 ∧ crc16 [100, n, 254] ≠ 0#16 ∧
    (crc16 [100, n, 255]).toNat ≥ 256 := by
  revert n; apply forall_byte; decide +kernel

theorem jl_no_short4 (n x : Byte) : crc16 [100, n, 255, x] ≠ 0#16 := by
  intro e
  have h1 : crc16Update (crc16 [100, n, 255]) x = 0#16 := e
  rw [crc16Update_eq] at h1
  have h2 := bv_xor_eq_zero (crc16Byte_zero _ h1)
  have h3 := (jl_no_short n).2.2.2
  rw [h2, BitVec.toNat_ofNat] at h3
  have := byte_lt x
  omega

/-- **C77, impossible lengths and memory safety.** The receive path: on any buffer of at least 64 bytes holding anything
at all, the filter reads only inside it; if it accepts, then decoding (with the only group and node the class can
have) stays inside the buffer too, and an accepted frame's body is at most 59 bytes. -/
theorem C77_receive_safe (buf : Bytes) (hb : 64 ≤ buf.length) :
    jlFilter buf ≠ .ub ∧
    (∀ n, jlFilter buf = .ok (true, n) → n ≤ 64 ∧ JL.default.decode buf ≠ .ub ∧
      ∀ o, JL.default.decode buf = .ok o → n = o.buflen + 5 ∧ o.buflen ≤ 59) := by
  obtain ⟨a0, a1, a2, a3, rest, rfl⟩ : ∃ a0 a1 a2 a3 rest, buf = a0 :: a1 :: a2 :: a3 :: rest := by
    match buf, hb with
    | a0 :: a1 :: a2 :: a3 :: rest, _ => exact ⟨a0, a1, a2, a3, rest, rfl⟩
  have g2 : (a0 :: a1 :: a2 :: a3 :: rest)[2]? = some a2 := rfl
  have hf : jlFilter (a0 :: a1 :: a2 :: a3 :: rest) = if (a2.toNat + 5) % 256 > 64 then .ok (false, (a2.toNat + 5) % 256) else
      .ok (crc16 ((a0 :: a1 :: a2 :: a3 :: rest).take ((a2.toNat + 5) % 256)) = 0#16, (a2.toNat + 5) % 256) := by
    unfold jlFilter
    rw [rd_of_some g2]
    dsimp only
    by_cases h : (a2.toNat + 5) % 256 > 64
    · rw [if_pos h, if_pos h]
    · rw [if_neg h, if_neg h, rdBlock, if_pos (by omega)]; rfl
  rw [hf]
  constructor
  · split <;> simp
  · intro n h
    by_cases h64 : (a2.toNat + 5) % 256 > 64
    · rw [if_pos h64] at h; simp at h
    · rw [if_neg h64] at h
      simp only [Res.ok.injEq, Prod.mk.injEq, decide_eq_true_eq] at h
      obtain ⟨hc, rfl⟩ := h
      refine ⟨by omega, ?_⟩
      unfold JL.decode
      rw [rd_of_some (show (a0 :: a1 :: a2 :: a3 :: rest)[0]? = some a0 from rfl), failIf]
      by_cases hg : a0 ≠ JL.default.group
      · rw [if_pos hg]; simp
      · have hg := Classical.not_not.1 hg
        have hg : a0 = 100 := hg
        subst hg
        -- the length byte is not one of those that wrap
        have ha2 : a2.toNat ≤ 250 := by
          apply Classical.byContradiction
          intro hgt
          have hlt := byte_lt a2
          have : a2.toNat = 251 ∨ a2.toNat = 252 ∨ a2.toNat = 253 ∨ a2.toNat = 254 ∨ a2.toNat = 255 := by omega
          obtain ⟨s1, s2, s3, s4⟩ := jl_no_short a1
          rcases this with e | e | e | e | e
          · rw [e] at hc; have hc : (0xffff#16 : BitVec 16) = 0#16 := hc; exact absurd hc (by decide)
          · rw [e] at hc; exact s1 hc
          · rw [e] at hc; exact s2 hc
          · have : a2 = 254 := by apply byte_ext; rw [e]; rfl
            rw [e] at hc; rw [this] at hc; exact s3 hc
          · have : a2 = 255 := by apply byte_ext; rw [e]; rfl
            rw [e] at hc; rw [this] at hc; exact jl_no_short4 a1 a3 hc
        have hm : (a2.toNat + 5) % 256 = a2.toNat + 5 := by omega
        rw [hm] at *
        rw [if_neg (by simp [JL.default]), rd_of_some g2, hm, rdBlock, if_pos (by omega), List.drop_zero, failIf, if_neg (by simp [hc]),
          rd_of_some (show (100 :: a1 :: a2 :: a3 :: rest)[1]? = some a1 from rfl)]
        dsimp only
        rw [failIf]
        split
        · simp
        · rw [rdBlock, if_pos (by omega), wrBlock, if_pos (by simp at hb ⊢; omega)]
          refine ⟨by simp, ?_⟩
          intro o ho
          rw [← Res.ok.inj ho]
          exact ⟨rfl, by dsimp only; omega⟩

/-- **C77 (refuted: a corrupted length byte can pass).** A valid 4-byte frame; flipping one bit of its length byte (4 to 0)
leaves a frame that both filter and decoder accept, as an empty frame. -/
theorem C77_refuted_length_flip :
    (∃ o, JL.default.decode [100, 5, 4, 0x33, 0x4f, 0, 0, 241, 192] = .ok o ∧ o.buflen = 4) ∧
    jlFilter [100, 5, 0, 0x33, 0x4f, 0, 0, 241, 192] = .ok (true, 5) ∧
    (∃ o, JL.default.decode [100, 5, 0, 0x33, 0x4f, 0, 0, 241, 192] = .ok o ∧ o.buflen = 0) := by
  refine ⟨⟨⟨[0x33, 0x4f, 0, 0, 79, 0, 0, 241, 192], 4, 5, false, false, false⟩, ?_, rfl⟩, ?_,
    ⟨⟨[100, 5, 0, 0x33, 0x4f, 0, 0, 241, 192], 0, 5, false, false, false⟩, ?_, rfl⟩⟩ <;> decide +kernel

/-- **C77 (refuted: `encode` does not refuse impossible lengths).** A 252-byte body is "encoded" with returned length 1, and
the frame cannot be decoded. -/
theorem C77_refuted_encode_long :
    ∃ out, JL.default.encode (List.replicate 257 0) 252 0 false false false = .ok (out, 1) ∧ JL.default.decode out = .fail := by
  have : (match JL.default.encode (List.replicate 257 0) 252 0 false false false with
     | .ok (out, n) => decide (n = 1 ∧ JL.default.decode out = .fail)
     | _ => false) = true := by
    decide +kernel
  split at this
  · rename_i out n he
    have := of_decide_eq_true this
    exact ⟨out, by rw [he, this.1], this.2⟩
  · cases this

/-- **C77 (refuted: `decode` without the filter trusts the length byte).** A received 5-byte frame in a 10-byte buffer: the
decoder reads on past its end. -/
theorem C77_refuted_decode_unfiltered : JL.default.decode [100, 5, 200, 1, 2, 0, 0, 0, 0, 0] = .ub := by decide +kernel

/-- A concrete case: three bytes broadcast with an acknowledgement requested. -/
example : (match JL.default.decode (jlFrame JL.default [1, 2, 3] 0 false true false) with
    | .ok o => decide (o.buf.take 3 = [1, 2, 3] ∧ o.ackReq = true ∧ o.dest = false)
    | _ => false) = true := by
  decide +kernel

end OTR.Props
