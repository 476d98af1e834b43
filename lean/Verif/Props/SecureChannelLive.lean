import Verif.Props.SecureChannel
/-!
# C177: the secure channel delivers

In the system of C175 (any transmitters, restarts, power failures, adversarial deliveries): a frame that reaches the receiver intact is
accepted unless it, or a later one of the same node, has been accepted before.
-/

namespace OTR.Props
open OTR

/-! ## Specification -/

/-- Decryption accepts what encryption made for this message and gives back the plaintext. (It need accept nothing else: compatible with
`NoForgery`.) -/
def Accepts (e : EncFn) (d : DecFn) (key : Bytes) (x : SentMsg) : Prop :=
  ∀ aad pt ct tag, e key (x.id.take 6 ++ x.ctr) aad pt = some (ct, tag) →
    x.frame = aad ++ ((pt.map fun _ => ct).getD []) ++ x.ctr ++ tag ++ [0x80] →
    ∃ dbuf, d key (x.id.take 6 ++ x.ctr) aad (pt.map fun _ => ct) tag = some dbuf ∧ ∀ p, pt = some p → dbuf = p

/-! ## One frame -/

/-- A frame made by a transmitter, followed by anything, at a receiver that knows the node and has a smaller counter for it. -/
theorem rx_of_made {e : EncFn} {d : DecFn} {key : Bytes} {x : SentMsg} (hel : EncLen e) (hid : x.id.length = 8) (hmade : Made e key x)
    (hacc : Accepts e d key x) (rest : Bytes) (m : EE) (c cur : Bytes) (rscratch : Nat) (hrs : 58 ≤ rscratch)
    (hfind : (getNextMatchingNodeID m 0 (x.id.take ((x.frame[2]?.getD 0).toNat % 16))).map (rowID m) = some x.id)
    (hgood : BothGood m x.id c) (hsmall : beVal c + 255 < 2 ^ 40)
    (hcur : getLastRXMsgCtr m x.id = some cur) (hlt : beVal cur < beVal x.ctr) :
    (rx m ⟨x.frame ++ rest, true, rscratch, d, some key⟩).1 = .ok (x.frame.length, x.body, x.id) ∧
    ((x.frame ++ rest)[1]?.getD 0).toNat % 128 = x.fType.toNat := by
  obtain ⟨hctr, ptext, ptextLen, outbuf, idp, il, n, h, out, hraw, hbody, hframe, src, rfl, hsrc⟩ := hmade
  obtain ⟨k, hb, ct, tag, hiv, hkk, h31, heh, hhl, h4, hfl, hbl, hmax, hltb, hn, hpb, hciph, htag, hct, hout⟩ := encodeRaw_ok hel hraw
  simp only [Option.some.injEq] at hkk
  subst hkk
  have hctl : (ct.take (encBody ptextLen)).length = encBody ptextLen := by
    unfold encBody
    by_cases h0 : ptextLen = 0
    · simp [h0]
    · simp [h0, hct h0]
  have hivd : ((x.id.take 6 ++ x.ctr).drop 6).take 6 = x.ctr := by
    rw [List.drop_append_of_le_length (by simp; omega), List.drop_of_length_le (by simp; omega), List.nil_append,
      List.take_of_length_le (by omega)]
  rw [hivd] at hout
  have hxf : x.frame = hb ++ List.take (encBody ptextLen) ct ++ x.ctr ++ tag ++ [0x80] := by
    rw [hframe, hout, List.take_append_of_le_length, List.take_of_length_le]
    all_goals simp only [List.length_append, hctl, hctr, htag, List.length_singleton]; omega
  have hxl : x.frame.length = n := by
    rw [hxf]; simp only [List.length_append, hctl, hctr, htag, List.length_singleton]; omega
  generalize hfr : x.frame ++ rest = fr
  have hout' : fr = hb ++ List.take (encBody ptextLen) ct ++ x.ctr ++ tag ++ [0x80] ++ rest := by rw [← hfr, hxf]
  have hol : h.fl < fr.length := by
    rw [hout']; simp only [List.length_append, hctl, hctr, htag, List.length_singleton]; omega
  have hebl : encBody ptextLen ≤ 32 := by unfold encBody; split <;> omega
  have hlast : fr[h.fl]? = some 0x80 := by
    rw [hout']
    have : (hb ++ List.take (encBody ptextLen) ct ++ x.ctr ++ tag).length = h.fl := by
      simp only [List.length_append, hctl, hctr, htag, hfl]
    rw [List.append_assoc _ [(0x80 : Byte)], List.getElem?_append_right (by omega), this]
    simp
  obtain ⟨rest', hrest⟩ : ∃ rest', fr = hb ++ rest' := ⟨_, by rw [hout']; simp only [List.append_assoc]; rfl⟩
  have hdec := C01_header_roundtrip _ _ _ _ _ _ _ _ _ _ heh rest' (by rw [← hrest]; omega) (by
    intro b hb'; rw [← hrest, hlast] at hb'; simp only [Option.some.injEq] at hb'; subst hb'; decide)
  rw [← hrest] at hdec
  obtain ⟨d1, _, d3, _, _, _, d7, d8, d9, d10, d11⟩ := hdec
  have hto : h.getHl = hb.length := hhl.symm
  obtain ⟨idb, t1, t2, hil8, hidc, hbuf, tl1, tl2, hfl2, hh, hhb⟩ := encodeHeader_ok.mp heh
  have hb0 : ∃ b0, fr[0]? = some b0 ∧ b0.toNat = h.fl := by
    refine ⟨u8 h.fl, ?_, by rw [u8_toNat]; omega⟩
    rw [hrest, hhb, hh]; simp
  obtain ⟨b0, hb0, hb0v⟩ := hb0
  have hb0' : ∃ h0 : 0 < fr.length, fr[0].toNat = h.fl := by
    rw [List.getElem?_eq_some_iff] at hb0
    obtain ⟨a, b⟩ := hb0
    exact ⟨a, by rw [b]; exact hb0v⟩
  have haad : (fr.drop 0).take h.getHl = hb := by
    rw [hrest, hto]; simp
  have hbodyb : (fr.drop h.getBodyOffset).take h.bl = ct.take (encBody ptextLen) := by
    rw [Hdr.getBodyOffset, hto, hbl, hout']
    simp only [List.append_assoc]
    rw [List.drop_left, List.take_append_of_le_length (by omega), List.take_of_length_le (by omega)]
  have htg : (fr.drop (h.fl - 16)).take 16 = tag := by
    have e : (hb ++ List.take (encBody ptextLen) ct ++ x.ctr).length = h.fl - 16 := by
      simp only [List.length_append, hctl, hctr]; omega
    rw [hout', List.append_assoc (hb ++ List.take (encBody ptextLen) ct ++ x.ctr ++ tag),
      List.append_assoc _ tag, ← e, List.drop_left, ← htag, List.take_left]
  obtain ⟨dbuf, hdd, hdbuf⟩ := hacc _ _ _ _ hciph (by
    rw [hxf]
    by_cases h0 : ptextLen = 0
    · rw [if_pos h0]; simp [encBody, h0]
    · rw [if_neg h0]
      have hctt : ct.take (encBody ptextLen) = ct := by
        apply List.take_of_length_le; rw [hct h0]; simp [encBody, h0]
      rw [hctt]; rfl)
  have hiv11 : 12 ≤ (x.id.take 6 ++ x.ctr).length := hiv
  have hdr : decodeRaw h fr true (rscratch - 26) d (some key) (some (x.id.take 6 ++ x.ctr)) = .ok (n, x.body) := by
    rw [hbody]
    unfold decodeRaw failIf
    rw [if_neg (by omega)]
    simp only
    rw [rd_of_some hb0]
    rw [if_neg (by omega), if_neg (by omega), if_neg (by rw [d11]; decide), rd_of_some hlast, if_neg (by simp),
      if_neg (by rw [hbl]; unfold encBody; split <;> simp), rd_lt (by omega),
      if_neg (by rw [d7, and0f_toNat]; omega)]
    unfold rdBlock
    have hbo : h.getBodyOffset = h.getHl := rfl
    rw [if_pos (by omega)]
    dsimp only
    rw [if_pos (by omega)]
    rw [if_pos (by omega), haad, hbodyb, htg]
    by_cases h0 : ptextLen = 0
    · have hb0' : h.bl = 0 := by rw [hbl]; simp [encBody, h0]
      rw [if_pos hb0']
      rw [if_pos h0, Option.map_none] at hdd
      rw [hdd]
      simp only
      rw [if_neg (by simp [hb0']), hn, h0]; rfl
    · have hb0' : h.bl ≠ 0 := by rw [hbl]; simp [encBody, h0]
      rw [if_neg hb0']
      rw [if_neg h0, Option.map_some] at hdd
      have hctt : ct.take (encBody ptextLen) = ct := by
        apply List.take_of_length_le; rw [hct h0]; simp [encBody, h0]
      rw [hctt, hdd]
      simp only
      rw [if_pos (by simp [hb0'])]
      have hdb := hdbuf _ (if_neg h0)
      obtain ⟨pb, hpb1, hpb2⟩ := hpb h0
      subst hpb1
      simp only [Option.getD_some] at hdb ⊢
      have htl : (pb.take ptextLen).length = ptextLen := by simp; omega
      have hun := unpad_padded (data := pb.take ptextLen) (by omega) []
      rw [List.append_nil, ← hdb, htl] at hun
      rw [hun]
      simp only
      have hdl : dbuf.length = 32 := by rw [hdb]; exact padded32_length _ (by omega)
      rw [if_neg (by omega), if_pos (by omega), hn]
      congr 2
      rw [List.drop_zero, hdb, padded32, List.append_assoc, List.take_append_of_le_length (by omega),
        List.take_of_length_le (by omega)]
  have htl : h.getTl = 23 := by rw [d11]; decide
  have hhid : h.id = x.id.take il.toNat := by rw [d9 src rfl, hsrc]
  have hto' : h.getTrailerOffset = hb.length + encBody ptextLen := by
    rw [hhl, Hdr.getTrailerOffset, Hdr.getHl, d8, hbl]; omega
  have hctrb : (fr.drop h.getTrailerOffset).take 6 = x.ctr := by
    have e1 : (hb ++ List.take (encBody ptextLen) ct).length = h.getTrailerOffset := by
      simp only [List.length_append, hctl, hto']
    rw [hout']
    simp only [List.append_assoc]
    rw [← List.append_assoc hb, ← e1, List.drop_left, ← hctr, List.take_left]
  obtain ⟨h0, hb0'⟩ := hb0'
  have hfrom : decodeFromID h fr true (rscratch - 14) d x.id (some key) = .ok (n, x.body) := by
    rw [decodeFromID_ok]
    refine ⟨by omega, by omega, ⟨h0, by rw [hb0']; omega⟩, by omega, ?_⟩
    rw [hctrb, show rscratch - 14 - 12 = rscratch - 26 by omega]
    exact hdr
  have hup := C23_accepts_greater m x.id c cur x.ctr hctr hgood hcur hlt hsmall
  have hval : validateRXMsgCtr eeRxStore m x.id x.ctr = true := by
    have hcl : cur.length = 6 := by
      unfold getLastRXMsgCtr at hcur
      split at hcur
      · simp at hcur
      · exact rowLast_len hcur
    simp only [validateRXMsgCtr, eeRxStore, hcur]
    simp only [gt_iff_lt, decide_eq_true_eq]
    exact (cmp6 hctr hcl).2.2.2 hlt
  have hil16 : (x.frame[2]?.getD 0).toNat % 16 = il.toNat := by
    have h2 : x.frame[2]? = hb[2]? := by
      rw [hxf]; simp only [List.append_assoc]
      rw [List.getElem?_append_left (by omega)]
    have h3 : fr[2]? = hb[2]? := by
      rw [hrest, List.getElem?_append_left (by omega)]
    rw [decodeHeader_ok] at d1
    obtain ⟨h5, a1, a2, a3, a4, a5, a6, hb'', a7, a8, a9, hhh⟩ := d1
    have hil : h.getIl = fr[2].toNat % 16 := by rw [hhh, Hdr.getIl_eq]
    rw [h2, ← h3, List.getElem?_eq_getElem (by omega), Option.getD_some, ← hil, d8]
  rw [hil16] at hfind
  have hmatch : eeRxStore.matchID m h = some x.id := by
    simp only [eeRxStore]
    rw [hhid, d8, List.take_take, Nat.min_self]
    exact hfind
  constructor
  · unfold rx rxSecure
    simp only [d1]
    unfold decode
    rw [if_neg (by omega), if_neg (by omega), if_neg (by simp [htl])]
    simp only [hmatch]
    rw [if_neg (by omega)]
    rw [hctrb, if_neg (by simp [hval]), hfrom]
    simp only [eeRxStore, hup, hxl]
  · have h1 : fr[1]? = hb[1]? := by
      rw [hrest, List.getElem?_append_left (by omega)]
    rw [h1, hhb]
    simp
    have := typeByte_toNat true x.fType t2
    rw [if_pos rfl] at this
    omega

/-! ## The receiver's record of one node -/

/-- The update for one node does not touch the good copies of another. -/
theorem bothGood_other {m : EE} {id node c new : Bytes} (h8 : id.length = 8) (hn8 : node.length = 8) (h6 : new.length = 6) (hne : node ≠ id)
    (hg : BothGood m id c) : BothGood ((authAndUpdateRXMsgCtr node new).post m) id c := by
  obtain ⟨i, hi, h0, h1⟩ := hg
  obtain ⟨hi8, hrow⟩ := getNext_full h8 hi
  rw [EM.post]
  unfold authAndUpdateRXMsgCtr
  cases hl : getLastRXMsgCtr m node with
  | none => exact ⟨i, hi, h0, h1⟩
  | some cur =>
    simp only
    by_cases hc : msgcountercmp new cur > 0
    case neg => rw [if_neg hc]; exact ⟨i, hi, h0, h1⟩
    rw [if_pos hc]
    cases hj : getNextMatchingNodeID m 0 node with
    | none => exact ⟨i, hi, h0, h1⟩
    | some j =>
      simp only
      obtain ⟨hj8, hjrow⟩ := getNext_full hn8 hj
      have hij : i ≠ j := by intro hh; rw [hh, hjrow] at hrow; exact hne hrow
      have hconf := applyW_confined (m := m) (fun w hw => rowUpdate_confined (m := m) (r := assocRow j) h6 hw)
      have hfr := row_frame (m := m) (m' := applyW m (rowUpdate (assocRow j) new m).2) (i := j) hconf
      have hsame : ∀ a, assocRow i ≤ a → a < assocRow i + 24 → applyW m (rowUpdate (assocRow j) new m).2 a = m a := by
        intro a ha ha'
        apply hconf
        rw [assocRow_eq] at ha ha' ⊢
        omega
      refine ⟨i, by rw [getNext_congr id hfr.1]; exact hi, ?_, ?_⟩
      · rw [← table_some_iff, table_congr (m := m), table_some_iff]
        · exact h0
        · intro a g1 g2; exact hsame a (by omega) (by omega)
      · rw [← table_some_iff, table_congr (m := m), table_some_iff]
        · exact h1
        · intro a g1 g2; exact hsame a (by omega) (by omega)

/-- The receiver's stored counter of the node is the one it started with or that of an accepted frame. -/
structure LiveInv (id c0 cur0 : Bytes) (s : Chan) : Prop where
  good : ∃ c, BothGood s.ee id c ∧ (c = c0 ∨ ∃ y ∈ s.sent, y.id = id ∧ c = y.ctr ∧ y.got ∈ s.got)
  last : ∃ cur, getLastRXMsgCtr s.ee id = some cur ∧ (cur = cur0 ∨ ∃ y ∈ s.sent, y.id = id ∧ cur = y.ctr ∧ y.got ∈ s.got)

theorem live_grow {id c0 cur0 : Bytes} {s s' : Chan} (h : LiveInv id c0 cur0 s) (he : s'.ee = s.ee) (hg : s'.got = s.got)
    (hs : ∀ y ∈ s.sent, y ∈ s'.sent) : LiveInv id c0 cur0 s' := by
  obtain ⟨⟨c, h1, h2⟩, cur, h3, h4⟩ := h
  refine ⟨⟨c, by rw [he]; exact h1, ?_⟩, cur, by rw [he]; exact h3, ?_⟩
  · rcases h2 with h2 | ⟨y, hy, h5, h6, h7⟩
    · exact .inl h2
    · exact .inr ⟨y, hs y hy, h5, h6, by rw [hg]; exact h7⟩
  · rcases h4 with h4 | ⟨y, hy, h5, h6, h7⟩
    · exact .inl h4
    · exact .inr ⟨y, hs y hy, h5, h6, by rw [hg]; exact h7⟩

theorem live_reach {e : EncFn} (hel : EncLen e) {key : Bytes} {ids : List Bytes} {s0 s : Chan} (hb : Begin ids s0) {id c0 cur0 : Bytes}
    (hid : id ∈ ids) (hg0 : BothGood s0.ee id c0) (hc0 : getLastRXMsgCtr s0.ee id = some cur0) (hr : Reach false e key ids s0 s) :
    LiveInv id c0 cur0 s := by
  induction hr with
  | start => exact ⟨⟨c0, hg0, .inl rfl⟩, cur0, hc0, .inl rfl⟩
  | plain a r r' _ _ ih => exact live_grow ih rfl rfl (fun y hy => List.mem_append_left _ hy)
  | valve a r r' _ _ ih => exact live_grow ih rfl rfl (fun y hy => List.mem_append_left _ hy)
  | restart _ _ ih => exact live_grow ih rfl rfl (fun y hy => hy)
  | crash r r' k _ _ _ ih => exact live_grow ih rfl rfl (fun y hy => hy)
  | rxCrash _ _ _ _ hpf => cases hpf
  | @deliver s frame scratch d hr hnf hgb ih =>
    have inv := inv_reach hel hb hr
    have hi8 := hb.len _ hid
    rcases rx_step s.ee ⟨frame, true, scratch, d, some key⟩ with ⟨n, body, node, h1, h8, _, h6, hau, hpost⟩ | ⟨h2, h3⟩
    · obtain ⟨x, hx, e1, e2, e3, e4, e5⟩ := accepted_was_sent hel hnf hgb (fun y hy => ⟨hb.len _ (inv.made y hy).1, (inv.made y hy).2⟩) h1
      obtain ⟨_, _, ⟨q, hq, hqr⟩, _⟩ := rx_info h1
      have hxid : x.id = node := by
        rw [← hqr, inv.rows q hq]
        exact (hb.table q hq _ (inv.made x hx).1 (by rw [← inv.rows q hq, hqr]; exact e2)).symm
      have hgot : (deliver s frame scratch d key).got = s.got ++ [x.got] := by
        unfold deliver; dsimp only; rw [h1]; dsimp only
        rw [e5, e1, e4, ← hxid]; rfl
      have hee : (deliver s frame scratch d key).ee = (authAndUpdateRXMsgCtr node (frameCtr frame)).post s.ee := hpost
      obtain ⟨hx1, hx2, hx3, _⟩ := (C23_update_exact s.ee node (frameCtr frame) h8 h6).1 hau
      obtain ⟨⟨c, g1, g2⟩, cur, g3, g4⟩ := ih
      by_cases hni : node = id
      · subst hni
        obtain ⟨c', k1, k2⟩ := C24_invariant_kept s.ee node c (frameCtr frame) h8 h6 g1
        refine ⟨⟨c', by rw [hee]; exact k1, ?_⟩, frameCtr frame, by rw [hee]; exact hx2, .inr ⟨x, hx, hxid, e3, by rw [hgot]; simp⟩⟩
        rcases k2 with k2 | k2
        · rw [k2]
          rcases g2 with g2 | ⟨y, y1, y2, y3, y4⟩
          · exact .inl g2
          · exact .inr ⟨y, y1, y2, y3, by rw [hgot]; exact List.mem_append_left _ y4⟩
        · exact .inr ⟨x, hx, hxid, by rw [k2]; exact e3, by rw [hgot]; simp⟩
      · refine ⟨⟨c, by rw [hee]; exact bothGood_other hi8 h8 h6 hni g1, ?_⟩, cur, ?_, ?_⟩
        · rcases g2 with g2 | ⟨y, y1, y2, y3, y4⟩
          · exact .inl g2
          · exact .inr ⟨y, y1, y2, y3, by rw [hgot]; exact List.mem_append_left _ y4⟩
        · rw [hee, hx3 id hi8 (Ne.symm hni)]; exact g3
        · rcases g4 with g4 | ⟨y, y1, y2, y3, y4⟩
          · exact .inl g4
          · exact .inr ⟨y, y1, y2, y3, by rw [hgot]; exact List.mem_append_left _ y4⟩
    · refine live_grow ih h3 ?_ (fun y hy => hy)
      unfold deliver
      dsimp only
      split
      · rename_i hh; exact absurd hh (h2 _)
      · rfl

/-! ## The property -/

/-- **C177.** Whatever has happened before: a frame that was sent and arrives intact (with anything after it in the buffer) is accepted, and
exactly what was sent is reported, unless this frame or a later one of the same node has been accepted already. Needed: the receiver began
with a good record of the node, with a counter below this message's, and finds it by the ID bytes in the frame; enough scratch space;
and counters have not come near 2^40 (C08). -/
theorem C177_delivered (e : EncFn) (hel : EncLen e) (key : Bytes) (ids : List Bytes) (s0 s : Chan) (hb : Begin ids s0) (hr : Reach false e key ids s0 s)
    (before after : List SentMsg) (x : SentMsg) (hsent : s.sent = before ++ x :: after)
    (hfresh : ∀ y ∈ x :: after, y.id = x.id → ∀ g ∈ s.got, g.node = x.id → g.frame ≠ y.frame)
    (c0 cur0 : Bytes) (hgood : BothGood s0.ee x.id c0) (hcur : getLastRXMsgCtr s0.ee x.id = some cur0) (hlt : beVal cur0 < beVal x.ctr)
    (hfind : (getNextMatchingNodeID s0.ee 0 (x.id.take ((x.frame[2]?.getD 0).toNat % 16))).map (rowID s0.ee) = some x.id)
    (hsmall0 : beVal c0 + 255 < 2 ^ 40) (hsmall : beVal x.ctr + 255 < 2 ^ 40)
    (d : DecFn) (hacc : Accepts e d key x) (scratch : Nat) (hscr : 58 ≤ scratch) (rest : Bytes) :
    (deliver s (x.frame ++ rest) scratch d key).got = s.got ++ [⟨x.id, x.fType.toNat, x.body, x.frame⟩] := by
  have inv := inv_reach hel hb hr
  have hxs : x ∈ s.sent := by rw [hsent]; simp
  obtain ⟨hxid, hxm⟩ := inv.made x hxs
  have hlow : ∀ y ∈ s.sent, y.id = x.id → y.got ∈ s.got → beVal y.ctr < beVal x.ctr := by
    intro y hy hyi hyg
    have hord := inv.order
    rw [hsent] at hy hord
    rw [List.pairwise_append] at hord
    rcases List.mem_append.mp hy with h | h
    · exact hord.2.2 y h x (by simp) hyi
    · exact absurd rfl (hfresh y h hyi y.got hyg hyi)
  obtain ⟨⟨c, g1, g2⟩, cur, g3, g4⟩ := live_reach hel hb hxid hgood hcur hr
  have hcs : beVal c + 255 < 2 ^ 40 := by
    rcases g2 with rfl | ⟨y, y1, y2, rfl, y4⟩
    · exact hsmall0
    · have := hlow y y1 y2 y4; omega
  have hcl : beVal cur < beVal x.ctr := by
    rcases g4 with rfl | ⟨y, y1, y2, rfl, y4⟩
    · exact hlt
    · exact hlow y y1 y2 y4
  have hfind' : (getNextMatchingNodeID s.ee 0 (x.id.take ((x.frame[2]?.getD 0).toNat % 16))).map (rowID s.ee) = some x.id := by
    rw [getNext_congr (m := s0.ee) _ inv.rows]
    revert hfind
    cases hq : getNextMatchingNodeID s0.ee 0 (x.id.take ((x.frame[2]?.getD 0).toNat % 16)) with
    | none => simp
    | some q =>
      intro hfind
      unfold getNextMatchingNodeID at hq
      split at hq
      · simp at hq
      split at hq
      · simp at hq
      have := (findFrom_some _ _ _ hq).2.1
      rw [Option.map_some, inv.rows q (by omega)]
      exact hfind
  obtain ⟨r1, r2⟩ := rx_of_made hel (hb.len _ hxid) hxm hacc rest s.ee c cur scratch hscr hfind' g1 hcs g3 hcl
  unfold deliver
  dsimp only
  rw [r1]
  dsimp only
  rw [r2, List.take_left' rfl]

/-! ## Non-vacuity -/

/-- The example of C175, before anything is delivered: both frames are fresh, and the ideal decryption accepts them. -/
theorem chReach3 : Reach false nullEncChecked chKey [exRxID] chStart ch3 := by
  have h1 := Reach.plain (pf := false) (e := nullEncChecked) (key := chKey) (ids := [exRxID]) (s0 := chStart) (id := exRxID) chArgs [] [4, 5, 6] .start (by simp)
  have h2 := Reach.crash (id := exRxID) [] [] 1 h1 (by simp) (by decide +kernel)
  exact Reach.plain (id := exRxID) chArgs [] [7, 8, 9] h2 (by simp)

theorem idealDec_accepts (key : Bytes) (sent : List SentMsg) (x : SentMsg) (hx : x ∈ sent) (h8 : x.id.length = 8) :
    Accepts nullEncChecked (idealDec sent) key x := by
  intro aad pt ct tag he hf
  have hany : sent.any (fun s => (x.id.take 6 ++ x.ctr).take 6 == s.id.take 6 &&
      s.frame == aad ++ (pt.map fun _ => ct).getD [] ++ (x.id.take 6 ++ x.ctr).drop 6 ++ tag ++ [0x80]) = true := by
    rw [List.any_eq_true]
    refine ⟨x, hx, ?_⟩
    have l6 : (x.id.take 6).length = 6 := by simp; omega
    rw [List.take_left' l6, List.drop_left' l6, ← hf]
    simp
  refine ⟨(pt.map fun _ => ct).getD [], ?_, ?_⟩
  · unfold idealDec; rw [if_pos hany]
  · intro p hp
    subst hp
    unfold nullEncChecked nullEnc at he
    split at he
    · simp only [Option.getD_some, Option.some.injEq, Prod.mk.injEq] at he
      rw [Option.map_some, Option.getD_some, he.1]
    · simp at he

/-- So the first frame, delivered late but before the second, is accepted, as C177 says. -/
example (x y : SentMsg) (h : ch3.sent = [x, y]) (h8 : x.id = exRxID) (hc : x.ctr.length = 6 ∧ 0 < beVal x.ctr ∧ beVal x.ctr + 255 < 2 ^ 40) (hf : (x.frame[2]?.getD 0).toNat % 16 = 4) :
    (deliver ch3 (x.frame ++ [1, 2, 3]) 58 (idealDec ch3.sent) chKey).got = [⟨x.id, x.fType.toNat, x.body, x.frame⟩] := by
  have hgot : ch3.got = [] := by decide +kernel
  have := C177_delivered nullEncChecked nullEncChecked_len chKey [exRxID] chStart ch3 chBegin chReach3 [] [y] x h
    (by rw [hgot]; simp) [0, 0, 0, 0, 0, 0] [0, 0, 0, 0, 0, 0] (by rw [h8]; exact exRx_good) (by rw [h8]; decide +kernel) hc.2.1
    (by rw [h8, hf]; decide +kernel) (by decide) hc.2.2 (idealDec ch3.sent) (idealDec_accepts _ _ _ (by rw [h]; simp) (by rw [h8]; rfl)) 58 (by omega) [1, 2, 3]
  rw [hgot] at this
  exact this

example : ch3.sent.length = 2 ∧ ch3.sent.map (fun x => (x.id == exRxID, x.ctr.length, decide (0 < beVal x.ctr), decide (beVal x.ctr + 255 < 2 ^ 40),
    (x.frame[2]?.getD 0).toNat % 16)) = [(true, 6, true, true, 4), (true, 6, true, true, 4)] := by decide +kernel

end OTR.Props
