import Verif.Props.SecureRx
import Verif.Model.Messaging
/-!
# Properties C76, C95-C97: what a hub does with received bytes
-/

namespace OTR.Props
open OTR

/-- The received bytes as the decoder sees them: with their count in front. -/
def framed (msg : Bytes) : Bytes := u8 msg.length :: msg

/-- The receive path of C14-C16 on the message. -/
def hubRx (m : EE) (c : HCfg) (msg : Bytes) : Res (Nat × Bytes × Bytes) × EE :=
  rx m ⟨framed msg, true, c.scratch - 16, c.dec, c.key⟩

theorem decodeHeader_fType {buf : Bytes} {h : Hdr} (hd : decodeHeader buf = .ok h) : buf[1]? = some h.fType := by
  rw [decodeHeader_ok] at hd
  obtain ⟨h5, a1, a2, a3, a4, a5, a6, hb, a7, a8, a9, hh⟩ := hd
  rw [List.getElem?_eq_getElem (by omega), congrArg Hdr.fType hh]

theorem decodeHeader_seq {buf : Bytes} {h : Hdr} (hd : decodeHeader buf = .ok h) :
    h.getSeq = (buf[2]?.getD 0).toNat / 16 := by
  rw [decodeHeader_ok] at hd
  obtain ⟨h5, a1, a2, a3, a4, a5, a6, hb, a7, a8, a9, hh⟩ := hd
  rw [List.getElem?_eq_getElem (by omega), Hdr.getSeq, congrArg Hdr.seqIl hh]
  simp only [Option.getD_some]
  generalize buf[2] = x
  revert x
  refine forall_byte (P := fun x => ((x >>> 4) &&& 0xf).toNat = x.toNat / 16) ?_
  decide +kernel

/-- The decoder's contract: for a 32-byte body it fills a 32-byte buffer. -/
def DecLen (d : DecFn) : Prop := ∀ k iv aad ct tag b, d k iv aad (some ct) tag = some b → b.length = 32

/-! ## C97: memory safety of the whole receive path -/

/-- **C97.** However the radio bytes look, decoding a message (with its count in front) never reads outside it, for any
storage contents, cipher, key and scratch size. -/
theorem C97_receive_safe (m : EE) (msg : Bytes) (hm : msg.length ≤ 255) (want : Bool) (scratch : Nat) (d : DecFn)
    (hd : DecLen d) (key : Option Bytes) : (rx m ⟨framed msg, want, scratch, d, key⟩).1 ≠ .ub := by
  unfold rx rxSecure
  dsimp only
  have h03 := C03_decode_no_overread (framed msg)
  cases hdh : decodeHeader (framed msg) with
  | ub => exact absurd hdh h03
  | fail => simp
  | ok h =>
    dsimp only
    have hdh' := hdh
    rw [decodeHeader_ok] at hdh'
    obtain ⟨h5, a1, a2, a3, a4, a5, a6, hb, a7, a8, a9, hh⟩ := hdh'
    have hfl0 : (framed msg)[0].toNat = msg.length := by
      simp only [framed, List.getElem_cons_zero, u8, UInt8.toNat_ofNat']
      omega
    have hlen : (framed msg).length = msg.length + 1 := by simp [framed]
    have hfl : h.fl = msg.length := by rw [congrArg Hdr.fl hh]; exact hfl0
    have hil : h.getIl ≤ 8 := by rw [hh, Hdr.getIl_eq]; exact a5
    have hbl : h.bl = (framed msg)[3 + (framed msg)[2].toNat % 16].toNat := congrArg Hdr.bl hh
    have hile : h.getIl = (framed msg)[2].toNat % 16 := by rw [Hdr.getIl_eq, congrArg Hdr.seqIl hh]
    have hsum : 4 + h.getIl + h.bl ≤ h.fl := by rw [hbl, hile, hfl, ← hfl0]; exact a7
    unfold decode
    by_cases c1 : 14 > scratch
    · rw [if_pos c1]; simp
    rw [if_neg c1]
    by_cases c2 : h.fl = 0
    · rw [if_pos c2]; simp
    rw [if_neg c2]
    by_cases c3 : h.getTl ≠ 23
    · rw [if_pos c3]; simp
    rw [if_neg c3]
    have htl : h.getTl = 23 := Decidable.not_not.mp c3
    have hto : h.getTrailerOffset = 4 + h.getIl + h.bl := by rw [Hdr.getTrailerOffset]; omega
    have hfs : h.getTrailerOffset + 22 = h.fl := by
      rw [Hdr.getTl] at htl
      rw [hto]; omega
    cases hm : eeRxStore.matchID m h with
    | none => simp
    | some node =>
      dsimp only
      rw [if_neg (by omega)]
      by_cases c5 : validateRXMsgCtr eeRxStore m node (((framed msg).drop h.getTrailerOffset).take 6) = false
      · rw [if_pos c5]; simp
      rw [if_neg c5]
      have hno : decodeFromID h (framed msg) want (scratch - 14) d node key ≠ .ub := by
        intro hub
        unfold decodeFromID at hub
        rw [failIf_eq_ub, failIf_eq_ub, rd_eq_ub] at hub
        obtain ⟨_, hn6, hub⟩ := hub
        have hub := hub (by omega)
        rw [failIf_eq_ub, rdBlock_eq_ub] at hub
        have hub := hub.2 (by omega)
        unfold decodeRaw at hub
        rw [failIf_eq_ub] at hub
        have hub := hub.2
        cases key with
        | none => simp at hub
        | some k =>
        dsimp only at hub
        rw [rd_eq_ub] at hub
        have hub := hub (by omega)
        rw [failIf_eq_ub, failIf_eq_ub, failIf_eq_ub, rd_eq_ub] at hub
        have hub := hub.2.2.2 (by omega)
        rw [failIf_eq_ub, failIf_eq_ub, rd_eq_ub] at hub
        have hub := hub.2.2 (by simp only [List.length_append, List.length_take, List.length_drop]; omega)
        rw [failIf_eq_ub, rdBlock_eq_ub] at hub
        have hub := hub.2 (by rw [Hdr.getHl]; omega)
        rw [rdBlock_eq_ub] at hub
        have hub := hub (by rw [Hdr.getBodyOffset, Hdr.getHl]; omega)
        rw [rdBlock_eq_ub] at hub
        have hub := hub (by omega)
        split at hub
        · simp at hub
        · rename_i db hdb
          split at hub
          · rename_i hw
            rw [if_neg hw.2] at hdb
            have h32 := hd _ _ _ _ _ _ hdb
            have hun : unpad32BBuffer db ≠ .ub := by
              unfold unpad32BBuffer
              rw [Ne, rd_eq_ub]
              intro hx
              have hx := hx (by omega)
              split at hx <;> simp at hx
            split at hub
            · rename_i hx; exact hun hx
            · simp at hub
            · rw [failIf_eq_ub, rdBlock_eq_ub] at hub
              have hub := hub.2 (by omega)
              simp at hub
          · simp at hub
      cases hx : decodeFromID h (framed msg) want (scratch - 14) d node key with
      | ub => exact absurd hx hno
      | fail => simp
      | ok r =>
        obtain ⟨n, body⟩ := r
        dsimp only
        split <;> simp

/-! ## C76: what is done with a message -/

/-- Does the delivered body carry a JSON object worth forwarding: more than three bytes, flag 0x10, then '{'. -/
def CarriesJSON (body : Bytes) : Prop :=
  3 < body.length ∧ (body[1]?.getD 0) &&& 0x10 ≠ 0 ∧ body[2]? = some 0x7b

instance (body : Bytes) : Decidable (CarriesJSON body) := by unfold CarriesJSON; infer_instance

/-- The text printed for a message: the JSON object with the sender's ID and sequence number inserted. -/
def jsonLine (node : Bytes) (seq : Nat) (body : Bytes) : Bytes :=
  ascii "{\"@\":\"" ++ node.flatMap printHex ++ ascii "\",\"+\":" ++ printSeq seq ++ ascii "," ++ body.drop 3 ++ ascii "}\r\n"

/-- What an operation should do given the authenticated body, sender and message. -/
def want (op : FrameOp) (body node msg : Bytes) : List Eff :=
  match op with
  | .null => []
  | .serial => if CarriesJSON body then [.serial (jsonLine node ((msg[1]?.getD 0).toNat / 16) body)] else []
  | .relay => if CarriesJSON body then [.relay msg] else []
  | .boiler => match body with
    | [] => []
    | pct :: _ => if pct.toNat ≤ 100 then [.heat pct.toNat] else []

theorem hasJSON_eq (body stack : Bytes) (seq : Nat) (id ctext : Bytes) (hs : 31 ≤ stack.length) (hb : body.length ≤ 31) :
    hasJSON ⟨seq, id, ctext, body ++ stack.drop body.length, body.length⟩ = .ok (decide (CarriesJSON body)) := by
  unfold hasJSON
  have hl : (body ++ stack.drop body.length).length = stack.length := by simp; omega
  rw [rd_lt (by dsimp only; omega)]
  dsimp only
  by_cases h3 : body.length > 3
  · have e1 : (body ++ stack.drop body.length)[1]'(by omega) = body[1] := List.getElem_append_left (by omega)
    have e2 : (body ++ stack.drop body.length)[2]'(by omega) = body[2] := List.getElem_append_left (by omega)
    have hc : CarriesJSON body ↔ ¬ (body[1] &&& 0x10 = 0) ∧ body[2] = 0x7b := by
      unfold CarriesJSON
      rw [List.getElem?_eq_getElem (show 1 < body.length by omega),
        List.getElem?_eq_getElem (show 2 < body.length by omega)]
      simp only [Option.getD_some, Option.some.injEq]
      exact ⟨fun h => h.2, fun h => ⟨h3, h⟩⟩
    rw [e1]
    by_cases hf : body[1] &&& 0x10 = 0
    · rw [if_pos hf, decide_eq_false (fun h => (hc.1 h).1 hf)]
    · rw [if_neg hf, if_neg (by omega), rd_lt (by omega), e2]
      congr 1
      rw [decide_eq_decide, hc]
      exact ⟨fun h => ⟨hf, h⟩, fun h => h.2⟩
  · have : ¬ CarriesJSON body := fun h => h3 h.1
    rw [decide_eq_false this]
    rw [if_pos h3]
    split <;> rfl

theorem run_eq (op : FrameOp) (body stack : Bytes) (seq : Nat) (node msg : Bytes) (hs : 31 ≤ stack.length)
    (hb : body.length ≤ 31) (hn : node.length = 8) (hm : msg.length ≤ 255) (hseq : seq = (msg[1]?.getD 0).toNat / 16)
    (hne : op = .boiler → body ≠ []) :
    op.run ⟨seq, node, framed msg, body ++ stack.drop body.length, body.length⟩ = .ok (want op body node msg) := by
  cases op with
  | null => rfl
  | serial =>
    unfold FrameOp.run want
    dsimp only
    rw [hasJSON_eq body stack seq node (framed msg) hs hb]
    by_cases hj : CarriesJSON body
    · rw [decide_eq_true hj, if_pos hj]
      dsimp only
      have h3 := hj.1
      unfold rdBlock
      have hl : 3 + (body.length - 3) ≤ (body ++ stack.drop body.length).length := by simp; omega
      rw [if_pos (by omega)]
      dsimp only
      rw [if_pos hl]
      have e1 : (node.drop 0).take 8 = node := by rw [List.drop_zero, List.take_of_length_le (by omega)]
      have e2 : ((body ++ stack.drop body.length).drop 3).take (body.length - 3) = body.drop 3 := by
        rw [List.drop_append_of_le_length (by omega), List.take_append_of_le_length (by simp),
          List.take_of_length_le (by simp)]
      rw [e1, e2, hseq]; rfl
    · rw [decide_eq_false hj, if_neg hj]
  | relay =>
    unfold FrameOp.run want
    dsimp only
    rw [hasJSON_eq body stack seq node (framed msg) hs hb]
    by_cases hj : CarriesJSON body
    · rw [decide_eq_true hj, if_pos hj]
      dsimp only
      have h0 : (u8 msg.length).toNat = msg.length := by simp [u8]; omega
      rw [rd_of_some (b := u8 msg.length) (by simp [framed]), h0]
      unfold rdBlock
      rw [if_pos (by simp [framed]; omega)]
      simp [framed]
    · rw [decide_eq_false hj, if_neg hj]
  | boiler =>
    cases body with
    | nil => exact absurd rfl (hne rfl)
    | cons p t =>
      unfold FrameOp.run want
      dsimp only
      rw [rd_of_some (b := p) (by simp)]

theorem rx_body_len (m : EE) (i : RxIn) (n : Nat) (body node : Bytes) (h : (rx m i).1 = .ok (n, body, node)) :
    body.length ≤ 31 := by
  unfold rx rxSecure at h
  split at h
  · simp at h
  · simp at h
  · rename_i hd hh
    unfold decode at h
    split at h
    · simp at h
    split at h
    · simp at h
    split at h
    · simp at h
    split at h
    · simp at h
    split at h
    · simp at h
    dsimp only at h
    split at h
    · simp at h
    split at h
    · simp at h
    · simp at h
    · rename_i n' body' hfrom
      have hb : body' = body := by
        split at h
        · simp at h
        · simp at h; exact h.2.1
      subst hb
      rw [decodeFromID_ok] at hfrom
      obtain ⟨_, _, _, _, hraw⟩ := hfrom
      unfold decodeRaw at hraw
      rw [failIf_eq_ok] at hraw
      obtain ⟨_, hraw⟩ := hraw
      cases hk : i.key with
      | none => rw [hk] at hraw; simp at hraw
      | some k =>
      rw [hk] at hraw
      dsimp only at hraw
      simp only [rd_eq_ok, failIf_eq_ok, rdBlock_eq_ok] at hraw
      obtain ⟨_, _, _, _, _, _, _, _, _, _, _, _, hraw⟩ := hraw
      split at hraw
      · simp at hraw
      · split at hraw
        · split at hraw
          · simp at hraw
          · simp at hraw
          · rw [failIf_eq_ok, rdBlock_eq_ok] at hraw
            obtain ⟨hu, hu2, hx⟩ := hraw
            simp only [Res.ok.injEq, Prod.mk.injEq] at hx
            rw [← hx.2]; simp; omega
        · simp only [Res.ok.injEq, Prod.mk.injEq] at hraw
          rw [← hraw.2]; simp

theorem hubRx_node_len (m : EE) (i : RxIn) (n : Nat) (body node : Bytes) (h : (rx m i).1 = .ok (n, body, node)) :
    node.length = 8 := by
  rcases rx_step m i with ⟨n', body', node', h1, h8, _⟩ | ⟨h2, _⟩
  · rw [h] at h1; simp only [Res.ok.injEq, Prod.mk.injEq] at h1; rw [h1.2.2]; exact h8
  · exact absurd h (h2 _)

/-- The handler refuses. -/
theorem handle_refuse (m : EE) (c : HCfg) (msg : Bytes)
    (h : (∀ r, (hubRx m c msg).1 ≠ .ok r) ∨ msg[0]? ≠ some 0xcf ∨ c.scratch < 16) :
    (handleSecureO m c msg).2.2 = [] ∧ (handleSecureO m c msg).2.1 = m := by
  have hrej : (∀ r, (hubRx m c msg).1 ≠ .ok r) → (hubRx m c msg).2 = m := C15_reject_no_change m _
  unfold hubRx rx rxSecure at h hrej
  dsimp only at h hrej
  unfold handleSecureO
  dsimp only
  change _ ∧ _
  rw [show u8 msg.length :: msg = framed msg from rfl]
  cases hd : decodeHeader (framed msg) with
  | ub => simp
  | fail => simp
  | ok hh =>
    rw [hd] at h hrej
    dsimp only at h hrej ⊢
    by_cases h1 : hh.fType ≠ 0xcf
    · rw [if_pos h1]; simp
    rw [if_neg h1]
    by_cases h2 : (hh.fType &&& 0x80) = 0
    · rw [if_pos h2]; simp
    rw [if_neg h2]
    by_cases h3 : c.scratch < 16
    · rw [if_pos h3]; simp
    rw [if_neg h3]
    have hty : msg[0]? = some 0xcf := by
      have := decodeHeader_fType hd
      rw [Decidable.not_not.mp h1] at this
      simpa [framed] using this
    cases hk : c.key with
    | none => simp
    | some key =>
    rw [hk] at h hrej
    dsimp only
    rcases h with h | h | h
    · have hr := hrej h
      generalize decode eeRxStore m hh (framed msg) true (c.scratch - 16) c.dec (some key) = R at h hr
      obtain ⟨r, m'⟩ := R
      dsimp only at h hr
      subst hr
      cases r with
      | ub => simp
      | fail => simp
      | ok x => exact absurd rfl (h x)
    · exact absurd hty h
    · exact absurd h h3

/-- The handler accepts. -/
theorem handle_accept (m : EE) (c : HCfg) (msg : Bytes) (n : Nat) (body node : Bytes)
    (h : (hubRx m c msg).1 = .ok (n, body, node)) (hty : msg[0]? = some 0xcf) (hs : 16 ≤ c.scratch) :
    handleSecureO m c msg =
      (match c.o1.run ⟨(msg[1]?.getD 0).toNat / 16, node, framed msg, body ++ c.stack.drop body.length, body.length⟩ with
       | .ub => (.ub, (hubRx m c msg).2, [])
       | .fail => (.ub, (hubRx m c msg).2, [])
       | .ok e1 =>
       match c.o2.run ⟨(msg[1]?.getD 0).toNat / 16, node, framed msg, body ++ c.stack.drop body.length, body.length⟩ with
       | .ub => (.ub, (hubRx m c msg).2, e1)
       | .fail => (.ub, (hubRx m c msg).2, e1)
       | .ok e2 => (.ok true, (hubRx m c msg).2, e1 ++ e2)) := by
  unfold hubRx rx rxSecure at *
  dsimp only at *
  unfold handleSecureO
  dsimp only
  rw [show u8 msg.length :: msg = framed msg from rfl]
  cases hd : decodeHeader (framed msg) with
  | ub => rw [hd] at h; simp at h
  | fail => rw [hd] at h; simp at h
  | ok hh =>
    rw [hd] at h
    dsimp only at h ⊢
    have hft : hh.fType = 0xcf := by
      have := decodeHeader_fType hd
      simp only [framed, List.getElem?_cons_succ] at this
      rw [hty] at this
      simpa using this.symm
    have hsq := decodeHeader_seq hd
    simp only [framed, List.getElem?_cons_succ] at hsq
    rw [if_neg (by simp [hft]), if_neg (by rw [hft]; decide), if_neg (by omega)]
    cases hk : c.key with
    | none =>
      rw [hk] at h
      unfold decode at h
      split at h
      · simp at h
      split at h
      · simp at h
      split at h
      · simp at h
      split at h
      · simp at h
      split at h
      · simp at h
      dsimp only at h
      split at h
      · simp at h
      split at h
      · simp at h
      · simp at h
      · rename_i n' body' hfrom
        rw [decodeFromID_ok] at hfrom
        obtain ⟨_, _, _, _, hraw⟩ := hfrom
        unfold decodeRaw at hraw
        rw [failIf_eq_ok] at hraw
        simp at hraw
    | some key =>
    rw [hk] at h
    dsimp only
    generalize decode eeRxStore m hh (framed msg) true (c.scratch - 16) c.dec (some key) = R at h ⊢
    obtain ⟨r, m'⟩ := R
    dsimp only at h
    subst h
    dsimp only
    rw [hsq]
    cases c.o1.run ⟨(msg[1]?.getD 0).toNat / 16, node, framed msg, body ++ c.stack.drop body.length, body.length⟩ with
    | ub => rfl
    | fail => rfl
    | ok e1 =>
      cases c.o2.run ⟨(msg[1]?.getD 0).toNat / 16, node, framed msg, body ++ c.stack.drop body.length, body.length⟩ with
      | ub => rfl
      | fail => rfl
      | ok e2 => rfl

theorem rx_ok_scratch (m : EE) (i : RxIn) (r : Nat × Bytes × Bytes) (h : (rx m i).1 = .ok r) : 14 ≤ i.scratch := by
  unfold rx rxSecure at h
  split at h
  · simp at h
  · simp at h
  · unfold decode at h
    split at h
    · simp at h
    · omega

theorem handleRaw_refuse (m : EE) (c : HCfg) (msg : Bytes)
    (h : (∀ r, (hubRx m c msg).1 ≠ .ok r) ∨ msg[0]? ≠ some 0xcf) :
    (handleRaw m c msg).2.2 = [] ∧ (handleRaw m c msg).2.1 = m := by
  have := handle_refuse m c msg (by rcases h with h | h; exact .inl h; exact .inr (.inl h))
  unfold handleRaw
  split
  · simp
  · revert this
    generalize handleSecureO m c msg = R
    obtain ⟨r, m', e⟩ := R
    intro this
    cases r <;> exact this

/-- **C76 (partial).** For every storage state, configuration and received byte string: anything printed, relayed or
asked of the boiler, and any storage change, happens only if the bytes were accepted by the receive path (C14, C11) and
start with the secure 'O' type; and if the authenticated body is not empty (or the boiler operation is not used) exactly
the operations' documented actions on that body happen, in order, whatever the body buffer held before. Missing:
accepted frames with an empty body when the boiler operation is used; see `C76_refuted_empty_body`. -/
theorem C76_actions_partial (m : EE) (c : HCfg) (msg : Bytes) (hm : msg.length ≤ 255) (hs : 31 ≤ c.stack.length) :
    ((handleRaw m c msg).2.2 ≠ [] ∨ (handleRaw m c msg).2.1 ≠ m →
      msg[0]? = some 0xcf ∧ ∃ r, (hubRx m c msg).1 = .ok r) ∧
    (∀ n body node, msg[0]? = some 0xcf → (hubRx m c msg).1 = .ok (n, body, node) →
      body ≠ [] ∨ (c.o1 ≠ .boiler ∧ c.o2 ≠ .boiler) →
      handleRaw m c msg = (.ok (), (hubRx m c msg).2, want c.o1 body node msg ++ want c.o2 body node msg)) := by
  constructor
  · intro h
    refine Classical.byContradiction fun hn => ?_
    have := handleRaw_refuse m c msg (by
      by_cases h1 : msg[0]? = some 0xcf
      · left; intro r hr; exact hn ⟨h1, r, hr⟩
      · exact .inr h1)
    rcases h with h | h
    · exact h this.1
    · exact h this.2
  · intro n body node hty hrx hb
    have h14 := rx_ok_scratch m _ _ hrx
    dsimp only at h14
    have h31 := rx_body_len m _ _ _ _ hrx
    have h8 := hubRx_node_len m _ _ _ _ hrx
    have h2 : ¬ msg.length < 2 := by
      intro hlt
      have : ∀ r, (hubRx m c msg).1 ≠ .ok r := by
        intro r hr
        unfold hubRx rx rxSecure at hr
        cases hd : decodeHeader (framed msg) with
        | ub => dsimp only at hr; rw [hd] at hr; simp at hr
        | fail => dsimp only at hr; rw [hd] at hr; simp at hr
        | ok h =>
          rw [decodeHeader_ok] at hd
          obtain ⟨h5, _⟩ := hd
          simp [framed] at h5
          omega
      exact this _ hrx
    unfold handleRaw
    rw [if_neg h2, handle_accept m c msg n body node hrx hty (by omega),
      run_eq c.o1 body c.stack _ node msg hs h31 h8 hm rfl (by rintro h rfl; rcases hb with hb | hb; exact hb rfl; exact hb.1 h),
      run_eq c.o2 body c.stack _ node msg hs h31 h8 hm rfl (by rintro h rfl; rcases hb with hb | hb; exact hb rfl; exact hb.2 h)]

theorem run_safe (op : FrameOp) (body stack : Bytes) (seq : Nat) (node msg : Bytes) (hs : 31 ≤ stack.length)
    (hb : body.length ≤ 31) (hn : node.length = 8) (hm : msg.length ≤ 255) (hseq : seq = (msg[1]?.getD 0).toNat / 16) :
    ∃ es, op.run ⟨seq, node, framed msg, body ++ stack.drop body.length, body.length⟩ = .ok es := by
  by_cases h : op = .boiler → body ≠ []
  · exact ⟨_, run_eq op body stack seq node msg hs hb hn hm hseq h⟩
  · obtain ⟨h1, h2⟩ := Classical.not_imp.mp h
    have h2 := Classical.not_not.mp h2
    subst h1; subst h2
    simp only [FrameOp.run, List.nil_append, List.length_nil, List.drop_zero]
    rw [rd_lt (by omega)]
    exact ⟨_, rfl⟩

/-- **C97b.** The whole handler, including the operations, never reads outside the message or the body buffer. -/
theorem C97_handler_safe (m : EE) (c : HCfg) (msg : Bytes) (hm : msg.length ≤ 255) (hs : 31 ≤ c.stack.length)
    (hd : DecLen c.dec) : (handleRaw m c msg).1 ≠ .ub := by
  have hsafe := C97_receive_safe m msg hm true (c.scratch - 16) c.dec hd c.key
  unfold handleRaw
  split
  · simp
  suffices h : (handleSecureO m c msg).1 ≠ .ub by
    revert h
    generalize handleSecureO m c msg = R
    obtain ⟨r, m', e⟩ := R
    intro h
    cases r with
    | ub => exact absurd rfl h
    | fail => simp
    | ok => simp
  by_cases hr : (∃ r, (hubRx m c msg).1 = .ok r) ∧ msg[0]? = some 0xcf
  · obtain ⟨⟨⟨n, body, node⟩, hr⟩, hty⟩ := hr
    have h14 := rx_ok_scratch m _ _ hr
    dsimp only at h14
    rw [handle_accept m c msg n body node hr hty (by omega)]
    have h31 := rx_body_len m _ _ _ _ hr
    have h8 := hubRx_node_len m _ _ _ _ hr
    obtain ⟨e1, r1⟩ := run_safe c.o1 body c.stack _ node msg hs h31 h8 hm rfl
    obtain ⟨e2, r2⟩ := run_safe c.o2 body c.stack _ node msg hs h31 h8 hm rfl
    rw [r1, r2]
    simp
  · unfold handleSecureO
    dsimp only
    rw [show u8 msg.length :: msg = framed msg from rfl]
    unfold rx rxSecure at hsafe
    unfold hubRx rx rxSecure at hr
    dsimp only at hsafe hr
    cases hdh : decodeHeader (framed msg) with
    | ub => rw [hdh] at hsafe; exact absurd rfl hsafe
    | fail => simp
    | ok hh =>
      rw [hdh] at hsafe hr
      dsimp only at hsafe hr ⊢
      split
      · simp
      rename_i h1
      split
      · simp
      split
      · simp
      have hty : msg[0]? = some 0xcf := by
        have := decodeHeader_fType hdh
        rw [Decidable.not_not.mp h1] at this
        simpa [framed] using this
      cases hk : c.key with
      | none => simp
      | some key =>
      rw [hk] at hsafe hr
      dsimp only
      generalize decode eeRxStore m hh (framed msg) true (c.scratch - 16) c.dec (some key) = R at hsafe hr ⊢
      obtain ⟨r, m'⟩ := R
      cases r with
      | ub => exact absurd rfl hsafe
      | fail => simp
      | ok x => exact absurd ⟨⟨x, rfl⟩, hty⟩ hr

/-- An accepted frame with an empty body makes the boiler operation act on whatever was left on the stack. -/
theorem empty_body_heat (m : EE) (c : HCfg) (msg : Bytes) (n : Nat) (node : Bytes) (p : Byte)
    (hty : msg[0]? = some 0xcf) (hrx : (hubRx m c msg).1 = .ok (n, [], node)) (ho : c.o1 = .boiler) (ho2 : c.o2 = .null)
    (hst : c.stack[0]? = some p) (hp : p.toNat ≤ 100) :
    (handleSecureO m c msg).2.2 = [.heat p.toNat] := by
  have h14 := rx_ok_scratch m _ _ hrx
  dsimp only at h14
  rw [handle_accept m c msg n [] node hrx hty (by omega), ho, ho2]
  simp only [FrameOp.run, List.nil_append, List.drop_zero, List.length_nil]
  rw [rd_of_some hst, if_pos hp]
  rfl

/-- The claim for all accepted frames: only the authenticated body decides what is done. -/
def C76_claim : Prop :=
  ∀ (m : EE) (c : HCfg) (msg : Bytes) (n : Nat) (body node : Bytes), c.stack.length = 31 → msg.length ≤ 255 →
    msg[0]? = some 0xcf → (hubRx m c msg).1 = .ok (n, body, node) →
    (handleRaw m c msg).2.2 = want c.o1 body node msg ++ want c.o2 body node msg

/-- An 'O' frame with no body from the example transmitter. -/
def exEmpty : Bytes :=
  match encode FTS_BasicSensorOrValve none 0 (List.replicate 31 0) 4 exSrc exSrc.txid
    nullEncChecked 292 (some (List.replicate 16 7)) with
  | .frame _ _ o => o.drop 1
  | _ => []
/-- A hub that calls for heat, whose stack happens to hold the byte 80. -/
def exHub (o1 o2 : FrameOp) : HCfg := ⟨100, nullDec, some (List.replicate 16 7), List.replicate 31 80, o1, o2⟩

/-- **C76, refuted part.** A frame with an empty body that is correctly authenticated calls for heat because of a byte
left on the stack: `if(2 < fd.ptextLenMax)` tests a constant instead of the received length. -/
theorem C76_refuted_empty_body : ¬ C76_claim ∧
    (∀ (m : EE) (c : HCfg) (msg : Bytes) (n : Nat) (node : Bytes) (p : Byte),
      msg[0]? = some 0xcf → (hubRx m c msg).1 = .ok (n, [], node) → c.o1 = .boiler → c.o2 = .null →
      c.stack[0]? = some p → p.toNat ≤ 100 → (handleSecureO m c msg).2.2 = [.heat p.toNat]) := by
  refine ⟨?_, empty_body_heat⟩
  intro h
  have hx : (match (hubRx (exRx []) (exHub .boiler .null) exEmpty).1 with
      | .ok (n, b, node) => n == 31 && b == [] && node == exRxID | _ => false) = true ∧
      (handleRaw (exRx []) (exHub .boiler .null) exEmpty).2.2 = [.heat 80] ∧ exEmpty.length ≤ 255 ∧
      exEmpty[0]? = some 0xcf := by decide +kernel
  obtain ⟨h1, h2, h3, h4⟩ := hx
  cases hr : (hubRx (exRx []) (exHub .boiler .null) exEmpty).1 with
  | ub => rw [hr] at h1; simp at h1
  | fail => rw [hr] at h1; simp at h1
  | ok r =>
    obtain ⟨n, b, node⟩ := r
    rw [hr] at h1
    simp only [Bool.and_eq_true, beq_iff_eq] at h1
    have := h (exRx []) (exHub .boiler .null) exEmpty n b node (by simp [exHub]) h3 h4 hr
    rw [h2, h1.1.2] at this
    simp [exHub, want] at this

/-! ## C95: a replay never causes an action -/

/-- The messages in a hub's history that made it do something. -/
def acted (l : List (Bytes × List Eff)) : List Bytes := (l.filter fun p => p.2 ≠ []).map Prod.fst

theorem hub_accepted (evs : List (HCfg × Nat × Bytes)) : ∀ (m : EE) (b : Boiler),
    ∃ ins : List RxIn, ((acted (hubRun m b evs).2.2).map framed).Sublist ((accepted m ins).map Prod.snd) := by
  induction evs with
  | nil => intro m b; exact ⟨[], by simp [hubRun, acted]⟩
  | cons x t ih =>
    obtain ⟨c, minute, msg⟩ := x
    intro m b
    obtain ⟨ins, hi⟩ := ih (handleRaw m c msg).2.1 (b.apply minute (handleRaw m c msg).2.2)
    have hrun : (hubRun m b ((c, minute, msg) :: t)).2.2 = (msg, (handleRaw m c msg).2.2) ::
        (hubRun (handleRaw m c msg).2.1 (b.apply minute (handleRaw m c msg).2.2) t).2.2 := rfl
    rw [hrun]
    by_cases hr : (∃ r, (hubRx m c msg).1 = .ok r) ∧ msg[0]? = some 0xcf
    · obtain ⟨⟨⟨n, body, node⟩, hr⟩, hty⟩ := hr
      refine ⟨⟨framed msg, true, c.scratch - 16, c.dec, c.key⟩ :: ins, ?_⟩
      have hst : (handleRaw m c msg).2.1 = (hubRx m c msg).2 := by
        have h14 := rx_ok_scratch m _ _ hr
        dsimp only at h14
        unfold handleRaw
        split
        · exfalso
          unfold hubRx rx rxSecure at hr
          cases hd : decodeHeader (framed msg) with
          | ub => dsimp only at hr; rw [hd] at hr; simp at hr
          | fail => dsimp only at hr; rw [hd] at hr; simp at hr
          | ok h =>
            rw [decodeHeader_ok] at hd
            obtain ⟨h5, _⟩ := hd
            simp [framed] at h5
            omega
        · rw [handle_accept m c msg n body node hr hty (by omega)]
          cases c.o1.run ⟨(msg[1]?.getD 0).toNat / 16, node, framed msg, body ++ c.stack.drop body.length, body.length⟩ with
          | ub => rfl
          | fail => rfl
          | ok e1 =>
            cases c.o2.run ⟨(msg[1]?.getD 0).toNat / 16, node, framed msg, body ++ c.stack.drop body.length, body.length⟩ with
            | ub => rfl
            | fail => rfl
            | ok e2 => rfl
      rw [accepted]
      change List.Sublist _ (List.map Prod.snd ((match (hubRx m c msg).1 with | .ok (_, _, node) => [(node, framed msg)] | _ => []) ++
        accepted (hubRx m c msg).2 ins))
      rw [hr]
      rw [hst] at hi
      simp only [List.singleton_append, List.map_cons]
      unfold acted at hi ⊢
      rw [List.filter_cons]
      split
      · exact List.Sublist.cons_cons _ (by rw [hst]; exact hi)
      · exact List.Sublist.cons _ (by rw [hst]; exact hi)
    · have hno := handleRaw_refuse m c msg (by
        by_cases h1 : msg[0]? = some 0xcf
        · left; intro r h; exact hr ⟨⟨r, h⟩, h1⟩
        · exact .inr h1)
      refine ⟨ins, ?_⟩
      rw [hno.2] at hi
      unfold acted at hi ⊢
      rw [List.filter_cons, if_neg (by simp [hno.1]), hno.2]
      exact hi

/-- **C95.** Over any history of received byte strings, from any stored state and with any keys, ciphers and operations:
no two messages that made the hub print, relay or call for heat are equal (so a replay, at any later time, does
nothing). -/
theorem C95_replay_no_action (m : EE) (b : Boiler) (evs : List (HCfg × Nat × Bytes)) :
    (acted (hubRun m b evs).2.2).Pairwise (· ≠ ·) := by
  obtain ⟨ins, hs⟩ := hub_accepted evs m b
  have h14 := (C14_replay m ins).2
  have : ((accepted m ins).map Prod.snd).Pairwise (· ≠ ·) := by
    rw [List.pairwise_map]; exact h14
  have := List.Pairwise.sublist hs this
  rw [List.pairwise_map] at this
  refine this.imp ?_
  intro a b hab heq
  exact hab (by rw [heq])

/-- **C95b.** A hub that receives nothing it accepts ends with the same storage and the same boiler driver state. -/
theorem C95_noise_changes_nothing (evs : List (HCfg × Nat × Bytes)) : ∀ (m : EE) (b : Boiler),
    (∀ x ∈ evs, ∀ r, (hubRx m x.1 x.2.2).1 ≠ .ok r) →
    (hubRun m b evs).1 = m ∧ (hubRun m b evs).2.1 = b := by
  induction evs with
  | nil => intro m b _; exact ⟨rfl, rfl⟩
  | cons x t ih =>
    obtain ⟨c, minute, msg⟩ := x
    intro m b h
    have hno := handleRaw_refuse m c msg (.inl (h (c, minute, msg) (by simp)))
    have hrun : hubRun m b ((c, minute, msg) :: t) =
        ((hubRun (handleRaw m c msg).2.1 (b.apply minute (handleRaw m c msg).2.2) t).1,
         (hubRun (handleRaw m c msg).2.1 (b.apply minute (handleRaw m c msg).2.2) t).2.1,
         (msg, (handleRaw m c msg).2.2) ::
        (hubRun (handleRaw m c msg).2.1 (b.apply minute (handleRaw m c msg).2.2) t).2.2) := rfl
    rw [hrun, hno.1, hno.2]
    exact ih m b (fun x hx => h x (by simp [hx]))

/-! ## C96: from the valve's message to the hub's action -/

theorem rd_take {α : Type} (buf : Bytes) (n i : Nat) (k : Byte → Res α) (hi : i < n) : rd (buf.take n) i k = rd buf i k := by
  unfold rd
  rw [List.getElem?_take_of_lt hi]

theorem rdBlock_take {α : Type} (buf : Bytes) (n i l : Nat) (k : Bytes → Res α) (hi : i + l ≤ n) :
    rdBlock (buf.take n) i l k = rdBlock buf i l k := by
  unfold rdBlock
  have e : ((buf.take n).drop i).take l = (buf.drop i).take l := by
    rw [List.drop_take, List.take_take, Nat.min_eq_left (by omega)]
  rw [e]
  by_cases h : i + l ≤ buf.length
  · rw [if_pos h, if_pos (by simp; omega)]
  · rw [if_neg h, if_neg (by simp; omega)]

theorem decodeHeader_take {buf : Bytes} {h : Hdr} (hd : decodeHeader buf = .ok h) (hl : h.fl < buf.length) :
    decodeHeader (buf.take (h.fl + 1)) = .ok h := by
  have hd' := hd
  rw [decodeHeader_ok] at hd
  obtain ⟨h5, a1, a2, a3, a4, a5, a6, hb, a7, a8, a9, hh⟩ := hd
  have hfl : h.fl = buf[0].toNat := congrArg Hdr.fl hh
  have htl : (buf.take (h.fl + 1)).length = h.fl + 1 := by simp; omega
  have e0 : (buf.take (h.fl + 1))[0]'(by omega) = buf[0] := List.getElem_take
  have e1 : (buf.take (h.fl + 1))[1]'(by omega) = buf[1] := List.getElem_take
  have e2 : (buf.take (h.fl + 1))[2]'(by omega) = buf[2] := List.getElem_take
  have e3 : (buf.take (h.fl + 1))[3 + buf[2].toNat % 16]'(by omega) = buf[3 + buf[2].toNat % 16] := List.getElem_take
  rw [decodeHeader_ok]
  refine ⟨by omega, ?_⟩
  simp only [e0, e1, e2, e3]
  refine ⟨a1, a2, a3, a4, a5, a6, by omega, a7, ?_, a9, ?_⟩
  · intro _
    rw [List.getElem_take]
    exact a8 (by omega)
  · rw [List.drop_take, List.take_take, Nat.min_eq_left (by omega)]
    exact hh

/-- The receiver looks at no byte after the frame. -/
theorem rx_trim (m : EE) (buf : Bytes) (h : Hdr) (hd : decodeHeader buf = .ok h) (hl : h.fl < buf.length)
    (want : Bool) (scratch : Nat) (d : DecFn) (key : Option Bytes) :
    rx m ⟨buf.take (h.fl + 1), want, scratch, d, key⟩ = rx m ⟨buf, want, scratch, d, key⟩ := by
  unfold rx rxSecure
  dsimp only
  rw [hd, decodeHeader_take hd hl]
  dsimp only
  have hd' := hd
  rw [decodeHeader_ok] at hd
  obtain ⟨h5, a1, a2, a3, a4, a5, a6, hb, a7, a8, a9, hh⟩ := hd
  have hfl : h.fl = buf[0].toNat := congrArg Hdr.fl hh
  have hbl : h.bl = buf[3 + buf[2].toNat % 16].toNat := congrArg Hdr.bl hh
  have hile : h.getIl = buf[2].toNat % 16 := by rw [Hdr.getIl_eq, congrArg Hdr.seqIl hh]
  unfold decode
  by_cases c1 : 14 > scratch
  · rw [if_pos c1, if_pos c1]
  rw [if_neg c1, if_neg c1]
  by_cases c2 : h.fl = 0
  · rw [if_pos c2, if_pos c2]
  rw [if_neg c2, if_neg c2]
  by_cases c3 : h.getTl ≠ 23
  · rw [if_pos c3, if_pos c3]
  rw [if_neg c3, if_neg c3]
  have htl : h.getTl = 23 := Decidable.not_not.mp c3
  have hto : h.getTrailerOffset = 4 + h.getIl + h.bl := by rw [Hdr.getTrailerOffset]; omega
  have hfs : h.getTrailerOffset + 22 = h.fl := by
    rw [Hdr.getTl] at htl
    rw [hto]; omega
  cases hm : eeRxStore.matchID m h with
  | none => rfl
  | some node =>
    dsimp only
    have e6 : ((buf.take (h.fl + 1)).drop h.getTrailerOffset).take 6 = (buf.drop h.getTrailerOffset).take 6 := by
      rw [List.drop_take, List.take_take, Nat.min_eq_left (by omega)]
    have hlt : ¬ (buf.take (h.fl + 1)).length < h.getTrailerOffset + 6 := by rw [List.length_take]; omega
    have hlt2 : ¬ buf.length < h.getTrailerOffset + 6 := by omega
    rw [if_neg hlt, if_neg hlt2, e6]
    have hf : decodeFromID h (buf.take (h.fl + 1)) want (scratch - 14) d node key =
        decodeFromID h buf want (scratch - 14) d node key := by
      unfold decodeFromID
      rw [rd_take _ _ _ _ (by omega)]
      simp only [rdBlock_take buf (h.fl + 1) h.getTrailerOffset 6 _ (by omega)]
      unfold decodeRaw
      simp only [rd_take buf (h.fl + 1) 0 _ (by omega), rd_take buf (h.fl + 1) h.fl _ (by omega),
        rdBlock_take buf (h.fl + 1) 0 h.getHl _ (by rw [Hdr.getHl]; omega),
        rdBlock_take buf (h.fl + 1) h.getBodyOffset h.bl _ (by rw [Hdr.getBodyOffset, Hdr.getHl]; omega),
        rdBlock_take buf (h.fl + 1) (h.fl - 16) 16 _ (by omega)]
    rw [hf]

/-- **C96.** A valve whose ID and counter are `txid`, `ctr` makes a valve message for position `pc` with any attached
JSON text; the bytes after the length byte reach a hub which holds the same key, has the valve associated, good counter
copies and an older counter stored. Then the hub accepts it, stores the counter, and does exactly what its operations
should do for the body (position, flag, text); in particular its boiler operation reports exactly the valve's position.
For every cipher pair meeting the contracts and all buffer sizes and contents. -/
theorem C96_valve_to_hub (p outbuf : Bytes) (il pc : Byte) (txid ctr : Bytes) (e : EncFn) (d : DecFn) (scratch : Nat)
    (key : Option Bytes) (n : Nat) (h : Hdr) (out : Bytes) (hel : EncLen e) (hinv : Inverse e d)
    (hid : txid.length = 8) (hctr : ctr.length = 6)
    (he : encodeValveFrame (some p) outbuf il pc ⟨some txid, some ctr⟩ e scratch key = .ok (n, h, out))
    (m : EE) (c cur : Bytes) (rscratch : Nat) (hrs : 74 ≤ rscratch) (stack : Bytes) (hst : 31 ≤ stack.length)
    (o1 o2 : FrameOp)
    (hfind : (getNextMatchingNodeID m 0 (txid.take il.toNat)).map (rowID m) = some txid)
    (hgood : BothGood m txid c) (hsmall : beVal c + 255 < 2 ^ 40)
    (hcur : getLastRXMsgCtr m txid = some cur) (hlt : beVal cur < beVal ctr) :
    ∃ json m', (p[2]? ≠ some 0x7b → json = []) ∧
      (p[2]? = some 0x7b → ∃ text, CString (p.drop 2) text ∧ json = text.dropLast) ∧
      getLastRXMsgCtr m' txid = some ctr ∧
      handleRaw m ⟨rscratch, d, key, stack, o1, o2⟩ ((out.take n).drop 1) =
        (.ok (), m',
          want o1 ([if pc.toNat ≤ 100 then pc else 0x7f, if p[2]? = some 0x7b then 0x10 else 0] ++ json) txid
            ((out.take n).drop 1) ++
          want o2 ([if pc.toNat ≤ 100 then pc else 0x7f, if p[2]? = some 0x7b then 0x10 else 0] ++ json) txid
            ((out.take n).drop 1)) := by
  unfold encodeValveFrame at he
  rw [failIf_eq_ok] at he
  obtain ⟨_, he⟩ := he
  simp only [computeIVForTX12B] at he
  simp only [rd_eq_ok] at he
  obtain ⟨h2, he⟩ := he
  have hg : p[2]? = some p[2] := List.getElem?_eq_getElem h2
  split at he
  · simp at he
  rename_i slp1 hsl
  simp only [failIf_eq_ok, wrBlock_eq_ok, List.take_zero, List.nil_append, List.length_cons, List.length_nil,
    Nat.zero_add, Nat.reduceAdd] at he
  obtain ⟨hlen, hp2, hil, he⟩ := he
  have hidp : ∀ src, some (txid.take 6 ++ ctr) = some src → src.take il.toNat = txid.take il.toNat := by
    intro s hs
    simp only [Option.some.injEq] at hs
    rw [← hs, List.take_append_of_le_length (by simp; omega), List.take_take, Nat.min_eq_left (by omega)]
  obtain ⟨hdh, hrx, hst'⟩ := rx_of_encodeRaw _ _ _ _ _ il txid ctr e d key n h out hel hinv hid hctr hidp (by simp) he
    m c cur (rscratch - 16) (by omega) hfind hgood hsmall hcur hlt
  obtain ⟨idb, ct, tag, fl, iv11, _, _, _, _, _, _, _, _, _, hn, hn64, hnb, hol, _, htake⟩ :=
    C12_wire_format _ _ _ _ _ _ _ _ _ _ _ _ hel he
  have hfl : h.fl = fl ∧ fl ≤ 63 := by
    have hdh' := hdh
    rw [decodeHeader_ok] at hdh'
    obtain ⟨h5, a1, a2, a3, a4, a5, a6, hb, a7, a8, a9, hh⟩ := hdh'
    have e0 : (out.take n)[0]? = some (u8 fl) := by rw [htake]; simp
    rw [List.getElem?_take_of_lt (by omega), List.getElem?_eq_getElem (by omega), Option.some.injEq] at e0
    have : h.fl = out[0].toNat := congrArg Hdr.fl hh
    rw [e0] at this
    rw [this]; simp [u8]; omega
  have hframed : framed ((out.take n).drop 1) = out.take n := by
    unfold framed
    have : ((out.take n).drop 1).length = fl := by simp; omega
    rw [this, htake]; rfl
  have hty : ((out.take n).drop 1)[0]? = some 0xcf := by
    rw [htake]; rfl
  have hrx' : rx m ⟨framed ((out.take n).drop 1), true, rscratch - 16, d, key⟩ = rx m ⟨out, true, rscratch - 16, d, key⟩ := by
    rw [hframed, hn, ← hfl.1]
    exact rx_trim m out h hdh (by omega) _ _ _ _
  have hlen255 : ((out.take n).drop 1).length ≤ 255 := by simp; omega
  have hfin := (C76_actions_partial m ⟨rscratch, d, key, stack, o1, o2⟩ ((out.take n).drop 1) hlen255 hst).2
    n _ txid hty (by unfold hubRx; dsimp only; rw [hrx']; exact hrx)
  have hm' : (hubRx m ⟨rscratch, d, key, stack, o1, o2⟩ ((out.take n).drop 1)).2 =
      (rx m ⟨out, true, rscratch - 16, d, key⟩).2 := by unfold hubRx; dsimp only; rw [hrx']
  rw [hm'] at hfin
  simp only [Option.getD_some, List.cons_append, List.nil_append] at hfin
  by_cases hsts : p[2] = 0x7b
  · simp only [hsts, if_true] at hfin hsl hg
    obtain ⟨c1, c2⟩ := strlen_some hsl
    refine ⟨(p.drop 2).take (slp1 - 1), _, ?_, ?_, hst', ?_⟩
    · intro hne; exact absurd hg hne
    · intro _
      refine ⟨_, c1, ?_⟩
      rw [List.dropLast_eq_take, c2, List.take_take, Nat.min_eq_left (by omega)]
    · rw [show 2 + (slp1 - 1) = (slp1 - 1 + 1) + 1 by omega] at hfin
      simp only [List.take_succ_cons] at hfin
      rw [hg]
      simp only [if_true, List.cons_append, List.nil_append]
      exact hfin (.inl (by simp))
  · simp only [hsts, if_false] at hfin hsl
    refine ⟨[], _, fun _ => rfl, ?_, hst', ?_⟩
    · intro hh; rw [hg] at hh; simp at hh; exact absurd hh hsts
    · simp only [List.take_succ_cons, List.take_zero] at hfin
      rw [hg]
      simp only [Option.some.injEq, hsts, if_false, List.append_nil]
      exact hfin (.inl (by simp))

/-- **C96b.** What the boiler operation should do with such a body: call with the position if it is 0..100 and nothing
otherwise. -/
theorem C96_boiler_gets_position (pc flag : Byte) (json txid msg : Bytes) :
    want .boiler ([if pc.toNat ≤ 100 then pc else 0x7f, flag] ++ json) txid msg =
      if pc.toNat ≤ 100 then [.heat pc.toNat] else [] := by
  simp only [want, List.cons_append]
  split <;> simp_all

/-- Non-vacuity of C76, C95 and C96: the example valve's message at 64% with stats, to a hub that prints and calls for
heat, then its replay. -/
def exValveMsg : Bytes :=
  match encodeValveFrame (some exValveBuf) (List.replicate 64 0) 4 64 exSrc nullEncChecked 284
    (some (List.replicate 16 7)) with
  | .ok (n, _, out) => (out.take n).drop 1
  | _ => []
example : (hubRun (exRx []) Boiler.init
      [(exHub .serial .boiler, 20, exValveMsg), (exHub .serial .boiler, 20, exValveMsg)]).2 =
    ({ Boiler.init with call := true },
     [(exValveMsg, [.serial (ascii "{\"@\":\"8081828384858687\",\"+\":9,\"b\":1}\r\n"), .heat 64]), (exValveMsg, [])]) := by
  decide +kernel

/-! ## C98: the printed sender -/

theorem hexDigitU_inj : ∀ a : Fin 16, ∀ b : Fin 16, hexDigitU a = hexDigitU b → a = b := by decide +kernel

theorem printHex_two {b : Byte} (h : 0x80 ≤ b.toNat) :
    printHex b = [hexDigitU (b.toNat / 16), hexDigitU (b.toNat % 16)] := by
  unfold printHex; rw [if_neg (by omega)]

theorem printHex_inj {a b : Byte} (ha : 0x80 ≤ a.toNat) (hb : 0x80 ≤ b.toNat) (h : printHex a = printHex b) : a = b := by
  rw [printHex_two ha, printHex_two hb] at h
  simp only [List.cons.injEq, and_true] at h
  have l1 := a.toNat_lt
  have l2 := b.toNat_lt
  have e1 := hexDigitU_inj ⟨a.toNat / 16, by omega⟩ ⟨b.toNat / 16, by omega⟩ h.1
  have e2 := hexDigitU_inj ⟨a.toNat % 16, by omega⟩ ⟨b.toNat % 16, by omega⟩ h.2
  simp only [Fin.mk.injEq] at e1 e2
  apply byte_ext
  omega

/-- **C98.** The sender printed in front of a forwarded object identifies it: two IDs of the same length whose bytes are
all at least 0x80 (as every valid node ID byte is) print alike only if they are equal. -/
theorem C98_printed_id_unique (x : Bytes) : ∀ (y : Bytes), x.length = y.length → (∀ b ∈ x, 0x80 ≤ b.toNat) →
    (∀ b ∈ y, 0x80 ≤ b.toNat) → x.flatMap printHex = y.flatMap printHex → x = y := by
  induction x with
  | nil => intro y hl _ _ _; cases y with | nil => rfl | cons _ _ => simp at hl
  | cons a t ih =>
    intro y hl hx hy h
    cases y with
    | nil => simp at hl
    | cons b u =>
      have ha := hx a (by simp)
      have hb := hy b (by simp)
      simp only [List.flatMap_cons] at h
      have hlen : (printHex a).length = (printHex b).length := by rw [printHex_two ha, printHex_two hb]; rfl
      obtain ⟨h1, h2⟩ := List.append_inj h hlen
      rw [printHex_inj ha hb h1, ih u (by simpa using hl) (fun z hz => hx z (by simp [hz])) (fun z hz => hy z (by simp [hz])) h2]

/-- Without that, leading zeros are dropped and distinct IDs print alike. -/
theorem C98_ambiguous_in_general : ([0x01, 0x23] : Bytes).flatMap printHex = ([0x12, 0x03] : Bytes).flatMap printHex := by
  decide +kernel

end OTR.Props
