import Verif.Props.RxCounter
import Verif.Props.SecureTx
/-!
# Properties C14-C16: the secure receive path with EEPROM-backed counters
-/

namespace OTR.Props
open OTR

/-- One frame arriving at a receiver, with everything else the receive call is given. -/
structure RxIn where
  frame : Bytes
  wantBody : Bool
  scratch : Nat
  dec : DecFn
  key : Option Bytes

/-- The receive path on one frame. -/
def rx (m : EE) (i : RxIn) : Res (Nat × Bytes × Bytes) × EE :=
  rxSecure eeRxStore m i.frame i.wantBody i.scratch i.dec i.key

/-- The message counter carried by a secure frame: the 6 bytes starting 23 from its end (its length being one more than
its first byte). -/
def frameCtr (f : Bytes) : Bytes := (f.drop ((f[0]?.getD 0).toNat + 1 - 23)).take 6

/-- Anatomy of one receive. -/
theorem rx_step (m : EE) (i : RxIn) :
    (∃ n body node, (rx m i).1 = .ok (n, body, node) ∧ node.length = 8 ∧
        (∃ h, decodeHeader i.frame = .ok h ∧ (getNextMatchingNodeID m 0 (h.id.take h.getIl)).map (rowID m) = some node) ∧
        (frameCtr i.frame).length = 6 ∧
        (authAndUpdateRXMsgCtr node (frameCtr i.frame) m).1 = true ∧
        (rx m i).2 = (authAndUpdateRXMsgCtr node (frameCtr i.frame)).post m) ∨
    ((∀ r, (rx m i).1 ≠ .ok r) ∧ (rx m i).2 = m) := by
  unfold rx rxSecure
  cases hd : decodeHeader i.frame with
  | ub => right; simp
  | fail => right; simp
  | ok h =>
    simp only
    unfold decode
    by_cases h1 : 14 > i.scratch
    · rw [if_pos h1]; right; simp
    rw [if_neg h1]
    by_cases h2 : h.fl = 0
    · rw [if_pos h2]; right; simp
    rw [if_neg h2]
    by_cases h3 : h.getTl ≠ 23
    · rw [if_pos h3]; right; simp
    rw [if_neg h3]
    cases hm : eeRxStore.matchID m h with
    | none => right; simp
    | some node =>
      simp only
      by_cases h4 : i.frame.length < h.getTrailerOffset + 6
      · rw [if_pos h4]; right; simp
      rw [if_neg h4]
      have htl : h.getTl = 23 := Decidable.not_not.mp h3
      have hn8 : node.length = 8 := by
        simp only [eeRxStore] at hm
        cases hx : getNextMatchingNodeID m 0 (h.id.take h.getIl) with
        | none => rw [hx] at hm; simp at hm
        | some q =>
          rw [hx] at hm
          simp only [Option.map_some, Option.some.injEq] at hm
          rw [← hm, rowID_length]
      have hctr : (i.frame.drop h.getTrailerOffset).take 6 = frameCtr i.frame := by
        unfold frameCtr
        rw [decodeHeader_ok] at hd
        obtain ⟨h5, a1, a2, a3, a4, a5, a6, hb, a7, a8, a9, hh⟩ := hd
        have hbl := congrArg Hdr.bl hh
        have hfl := congrArg Hdr.fl hh
        simp only at hbl hfl
        have hil : h.getIl = i.frame[2].toNat % 16 := by rw [hh, Hdr.getIl_eq]
        have hto : h.getTrailerOffset = 4 + h.getIl + h.bl := by
          rw [Hdr.getTrailerOffset]; rw [hil]; omega
        have hf0 : (i.frame[0]?.getD 0) = i.frame[0] := by
          rw [List.getElem?_eq_getElem (by omega)]; rfl
        rw [Hdr.getTl] at htl
        rw [hf0, hto]
        congr 2
        rw [hil] at htl ⊢
        omega
      have hc6 : (frameCtr i.frame).length = 6 := by rw [← hctr]; simp; omega
      rw [hctr]
      by_cases h5 : validateRXMsgCtr eeRxStore m node (frameCtr i.frame) = false
      · rw [if_pos h5]; right; simp
      rw [if_neg h5]
      cases hx : decodeFromID h i.frame i.wantBody (i.scratch - 14) i.dec node i.key with
      | ub => right; simp
      | fail => right; simp
      | ok r =>
        obtain ⟨n, body⟩ := r
        simp only [eeRxStore]
        cases hau : (authAndUpdateRXMsgCtr node (frameCtr i.frame) m).1 with
        | true =>
          left
          exact ⟨n, body, node, rfl, hn8, ⟨h, rfl, hm⟩, hc6, hau, rfl⟩
        | false =>
          right
          exact ⟨by simp, (C23_update_exact m node (frameCtr i.frame) hn8 hc6).2 hau⟩

/-! ## C15 -/

/-- **C15.** A frame that is not accepted leaves the whole EEPROM (so every node's stored counter) exactly as it was. -/
theorem C15_reject_no_change (m : EE) (i : RxIn) (h : ∀ r, (rx m i).1 ≠ .ok r) : (rx m i).2 = m := by
  rcases rx_step m i with ⟨n, body, node, h1, _⟩ | ⟨_, h2⟩
  · exact absurd h1 (h _)
  · exact h2

/-! ## C14 -/

/-- Process a history of arriving frames; list the accepted ones with the sender's ID. -/
def accepted (m : EE) : List RxIn → List (Bytes × Bytes)
  | [] => []
  | i :: t => (match (rx m i).1 with | .ok (_, _, node) => [(node, i.frame)] | _ => []) ++ accepted (rx m i).2 t

theorem rx_ids (m : EE) (i : RxIn) : ∀ q, q < 8 → rowID (rx m i).2 q = rowID m q := by
  rcases rx_step m i with ⟨n, body, node, h1, h8, _, h6, hau, hpost⟩ | ⟨_, h2⟩
  · rw [hpost]; exact ((C23_update_exact m node _ h8 h6).1 hau).2.2.2
  · rw [h2]; exact fun _ _ => rfl

/-- Stored counters never go down. -/
theorem rx_monotone (m : EE) (i : RxIn) (id c : Bytes) (h8 : id.length = 8) (h : getLastRXMsgCtr m id = some c) :
    ∃ c', getLastRXMsgCtr (rx m i).2 id = some c' ∧ beVal c ≤ beVal c' := by
  rcases rx_step m i with ⟨n, body, node, h1, h8n, _, h6, hau, hpost⟩ | ⟨_, h2⟩
  · have hx := (C23_update_exact m node _ h8n h6).1 hau
    rw [hpost]
    by_cases hid : id = node
    · subst hid
      obtain ⟨⟨cur, hcur, hlt⟩, hnew, _⟩ := hx
      rw [h, Option.some.injEq] at hcur
      subst hcur
      exact ⟨_, hnew, by omega⟩
    · exact ⟨c, by rw [hx.2.2.1 id h8 hid]; exact h, Nat.le_refl _⟩
  · rw [h2]; exact ⟨c, h, Nat.le_refl _⟩

theorem accepted_above (ins : List RxIn) : ∀ (m : EE) (id c : Bytes), id.length = 8 → getLastRXMsgCtr m id = some c →
    ∀ p ∈ accepted m ins, p.1 = id → beVal c < beVal (frameCtr p.2) := by
  induction ins with
  | nil => intro m id c _ _ p hp; simp [accepted] at hp
  | cons i t ih =>
    intro m id c h8 hc p hp hid
    rw [accepted, List.mem_append] at hp
    obtain ⟨c', hc', hle⟩ := rx_monotone m i id c h8 hc
    rcases hp with hp | hp
    · rcases rx_step m i with ⟨n, body, node, h1, h8n, _, h6, hau, hpost⟩ | ⟨h2, _⟩
      · rw [h1] at hp
        simp only [List.mem_singleton] at hp
        subst hp
        simp only at hid ⊢
        subst hid
        obtain ⟨⟨cur, hcur, hlt⟩, _⟩ := (C23_update_exact m node _ h8n h6).1 hau
        rw [hc, Option.some.injEq] at hcur
        rw [hcur]; exact hlt
      · split at hp
        · rename_i hr; exact absurd hr (h2 _)
        · simp at hp
    · have := ih _ id c' h8 hc' p hp hid
      omega

/-- The sender an accepted frame is attributed to depends only on the frame and the association table. -/
theorem accepted_node (ins : List RxIn) : ∀ (m0 m : EE), (∀ q, q < 8 → rowID m q = rowID m0 q) →
    ∀ p ∈ accepted m ins, ∃ h, decodeHeader p.2 = .ok h ∧
      (getNextMatchingNodeID m0 0 (h.id.take h.getIl)).map (rowID m0) = some p.1 := by
  induction ins with
  | nil => intro m0 m _ p hp; simp [accepted] at hp
  | cons i t ih =>
    intro m0 m hids p hp
    rw [accepted, List.mem_append] at hp
    rcases hp with hp | hp
    · rcases rx_step m i with ⟨n, body, node, h1, h8n, ⟨h, hd, hmt⟩, h6, hau, hpost⟩ | ⟨h2, _⟩
      · rw [h1] at hp
        simp only [List.mem_singleton] at hp
        subst hp
        refine ⟨h, hd, ?_⟩
        rw [← getNext_congr (m := m0) (m' := m) _ hids]
        simp only
        rw [← hmt]
        cases hq : getNextMatchingNodeID m 0 (h.id.take h.getIl) with
        | none => rfl
        | some q =>
          have hq' := hq
          unfold getNextMatchingNodeID at hq'
          split at hq'
          · simp at hq'
          · split at hq'
            · simp at hq'
            · have := (findFrom_some _ _ _ hq').2.1
              simp [hids q (by omega)]
      · split at hp
        · rename_i hr; exact absurd hr (h2 _)
        · simp at hp
    · exact ih m0 _ (fun q hq => by rw [rx_ids m i q hq, hids q hq]) p hp

/-- **C14.** For any initial EEPROM contents and any history of arriving byte strings (replays, reorderings, forgeries;
any keys and ciphers), the counters of the frames accepted from one sender strictly increase, and no frame is accepted
twice. -/
theorem C14_replay (m : EE) (ins : List RxIn) :
    (accepted m ins).Pairwise (fun a b => a.1 = b.1 → beVal (frameCtr a.2) < beVal (frameCtr b.2)) ∧
    (accepted m ins).Pairwise (fun a b => a.2 ≠ b.2) := by
  have hmain : (accepted m ins).Pairwise (fun a b => a.1 = b.1 → beVal (frameCtr a.2) < beVal (frameCtr b.2)) := by
    induction ins generalizing m with
    | nil => simp [accepted]
    | cons i t ih =>
      rw [accepted]
      rcases rx_step m i with ⟨n, body, node, h1, h8n, _, h6, hau, hpost⟩ | ⟨h2, _⟩
      · rw [h1]
        simp only [List.singleton_append, List.pairwise_cons]
        refine ⟨?_, ih _⟩
        intro p hp hid
        obtain ⟨_, hnew, _⟩ := (C23_update_exact m node _ h8n h6).1 hau
        rw [← hpost] at hnew
        exact accepted_above t _ node _ h8n hnew p hp hid.symm
      · have : (match (rx m i).1 with | .ok (_, _, node) => [(node, i.frame)] | _ => []) = [] := by
          split
          · rename_i hr; exact absurd hr (h2 _)
          · rfl
        rw [this, List.nil_append]
        exact ih _
  refine ⟨hmain, ?_⟩
  apply List.Pairwise.imp_of_mem ?_ hmain
  intro a b ha hb hab heq
  obtain ⟨h, hd, hn⟩ := accepted_node ins m m (fun _ _ => rfl) a ha
  obtain ⟨h', hd', hn'⟩ := accepted_node ins m m (fun _ _ => rfl) b hb
  rw [heq, hd'] at hd
  simp only [Res.ok.injEq] at hd
  rw [← hd, hn', Option.some.injEq] at hn
  have := hab hn.symm
  rw [heq] at this
  omega

/-! ## C16 -/

/-- The receiver's side of C16 and C96: any frame made by the raw secure encoder with the IV `txid[0..6) ++ ctr` and ID
bytes agreeing with `txid` is accepted and its body delivered. -/
theorem rx_of_encodeRaw (fType : Byte) (ptext : Option Bytes) (ptextLen : Nat) (outbuf : Bytes) (idp : Option Bytes)
    (il : Byte) (txid ctr : Bytes) (e : EncFn) (d : DecFn) (key : Option Bytes) (n : Nat) (h : Hdr) (out : Bytes)
    (hel : EncLen e) (hinv : Inverse e d) (hid : txid.length = 8) (hctr : ctr.length = 6)
    (hidp : ∀ src, idp = some src → src.take il.toNat = txid.take il.toNat) (hidn : idp ≠ none)
    (hraw : encodeRaw fType ptext ptextLen outbuf idp il (txid.take 6 ++ ctr) e key = .ok (n, h, out))
    (m : EE) (c cur : Bytes) (rscratch : Nat) (hrs : 58 ≤ rscratch)
    (hfind : (getNextMatchingNodeID m 0 (txid.take il.toNat)).map (rowID m) = some txid)
    (hgood : BothGood m txid c) (hsmall : beVal c + 255 < 2 ^ 40)
    (hcur : getLastRXMsgCtr m txid = some cur) (hlt : beVal cur < beVal ctr) :
    decodeHeader out = .ok h ∧
    (rx m ⟨out, true, rscratch, d, key⟩).1 = .ok (n, (ptext.getD []).take ptextLen, txid) ∧
    getLastRXMsgCtr (rx m ⟨out, true, rscratch, d, key⟩).2 txid = some ctr := by
  obtain ⟨hdh, hdr⟩ := C10_secure_raw_roundtrip fType ptext ptextLen outbuf idp il _ e d key n h out hel hinv
    (rscratch - 26) (by omega) hraw
  obtain ⟨k, hb, ct, tag, hiv, rfl, h31, heh, hhl, h4, hfl, hbl, hmax, hltb, hn, hpb, hciph, htag, hct, hout⟩ :=
    encodeRaw_ok hel hraw
  have hctl : (ct.take (encBody ptextLen)).length = encBody ptextLen := by
    unfold encBody
    by_cases h0 : ptextLen = 0
    · simp [h0]
    · simp [h0, hct h0]
  have hivd : ((txid.take 6 ++ ctr).drop 6).take 6 = ctr := by
    rw [List.drop_append_of_le_length (by simp; omega), List.drop_of_length_le (by simp; omega), List.nil_append,
      List.take_of_length_le (by omega)]
  rw [hivd] at hout
  have hol : out.length = outbuf.length := by
    rw [hout]; simp only [List.length_append, hctl, hctr, htag]; simp; omega
  -- header facts
  have hheader : h.getTl = 23 ∧ h.getIl = il.toNat ∧ h.id = txid.take il.toNat ∧ il.toNat ≤ 8 := by
    have hlast : out[h.fl]? = some 0x80 := by
      rw [hout]
      have : (hb ++ List.take (encBody ptextLen) ct ++ ctr ++ tag).length = h.fl := by
        simp only [List.length_append, hctl, hctr, htag, hfl]
      rw [List.append_assoc _ [(0x80 : Byte)], List.getElem?_append_right (by omega), this]
      simp
    obtain ⟨rest, hrest⟩ : ∃ rest, out = hb ++ rest := ⟨_, by rw [hout]; simp only [List.append_assoc]; rfl⟩
    have hdec := C01_header_roundtrip _ _ _ _ _ _ _ _ _ _ heh rest (by rw [← hrest]; omega) (by
      intro b hb'; rw [← hrest, hlast] at hb'; simp only [Option.some.injEq] at hb'; subst hb'; decide)
    obtain ⟨_, _, _, _, _, _, _, d8, d9, _, d11⟩ := hdec
    have hil8 : il.toNat ≤ 8 := by
      rw [encodeHeader_ok] at heh; obtain ⟨_, _, _, h8, _⟩ := heh; exact h8
    refine ⟨by rw [d11]; decide, d8, ?_, hil8⟩
    cases hx : idp with
    | none => exact absurd hx hidn
    | some src => rw [d9 src hx, hidp src hx]
  obtain ⟨htl, hil, hhid, hil8⟩ := hheader
  have hebl : encBody ptextLen ≤ 32 := by unfold encBody; split <;> omega
  have hto : h.getTrailerOffset = hb.length + encBody ptextLen := by
    rw [hhl, Hdr.getTrailerOffset, Hdr.getHl, hil, hbl]; omega
  have hctrb : (out.drop h.getTrailerOffset).take 6 = ctr := by
    have e1 : (hb ++ List.take (encBody ptextLen) ct).length = h.getTrailerOffset := by
      simp only [List.length_append, hctl, hto]
    rw [hout]
    simp only [List.append_assoc]
    rw [← List.append_assoc hb, ← e1, List.drop_left, ← hctr, List.take_left]
  have hb0 : ∃ h0 : 0 < out.length, out[0].toNat = h.fl := by
    refine ⟨by omega, ?_⟩
    rw [decodeHeader_ok] at hdh
    obtain ⟨h5, a1, a2, a3, a4, a5, a6, hb', a7, a8, a9, hh⟩ := hdh
    exact (congrArg Hdr.fl hh).symm
  obtain ⟨h0, hb0⟩ := hb0
  have hfrom : decodeFromID h out true (rscratch - 14) d txid (some k) = .ok (n, (ptext.getD []).take ptextLen) := by
    rw [decodeFromID_ok]
    refine ⟨by omega, by omega, ⟨h0, by rw [hb0]; omega⟩, by omega, ?_⟩
    rw [hctrb, show rscratch - 14 - 12 = rscratch - 26 by omega]
    exact hdr
  have hup := C23_accepts_greater m txid c cur ctr hctr hgood hcur hlt hsmall
  have hval : validateRXMsgCtr eeRxStore m txid ctr = true := by
    have hcl : cur.length = 6 := by
      unfold getLastRXMsgCtr at hcur
      split at hcur
      · simp at hcur
      · exact rowLast_len hcur
    simp only [validateRXMsgCtr, eeRxStore, hcur]
    simp only [gt_iff_lt, decide_eq_true_eq]
    exact (cmp6 hctr hcl).2.2.2 hlt
  have hmatch : eeRxStore.matchID m h = some txid := by
    simp only [eeRxStore]
    rw [hhid, hil, List.take_take, Nat.min_self]
    exact hfind
  have hrx : rx m ⟨out, true, rscratch, d, some k⟩ =
      (.ok (n, (ptext.getD []).take ptextLen, txid), (authAndUpdateRXMsgCtr txid ctr).post m) := by
    unfold rx rxSecure
    simp only [hdh]
    unfold decode
    rw [if_neg (by omega), if_neg (by omega), if_neg (by simp [htl])]
    simp only [hmatch]
    rw [if_neg (by omega)]
    rw [hctrb, if_neg (by simp [hval]), hfrom]
    simp only [eeRxStore, hup]
  rw [hrx]
  exact ⟨hdh, rfl, ((C23_update_exact m txid ctr hid hctr).1 hup).2.1⟩

/-- **C16.** A frame produced by `encode()` at a transmitter with ID `txid` and counter `ctr` is accepted at a receiver
with the same key where the lookup by the ID bytes in the header finds `txid`, whose stored copies are good and whose
stored counter `cur` is below `ctr`: exactly the body that was sent is delivered, with the sender's full ID, and the
stored counter becomes `ctr`. For every cipher pair meeting the contracts, all sizes. `out` is the transmitter's whole
buffer (with a buffer of exactly `n` bytes, exactly the frame). -/
theorem C16_end_to_end (fType : Byte) (ptext : Option Bytes) (ptextLen : Nat) (outbuf : Bytes) (il : Byte)
    (txid ctr : Bytes) (e : EncFn) (d : DecFn) (scratch : Nat) (key : Option Bytes) (n : Nat) (h : Hdr) (out : Bytes)
    (hel : EncLen e) (hinv : Inverse e d) (hid : txid.length = 8) (hctr : ctr.length = 6)
    (henc : encode fType ptext ptextLen outbuf il ⟨some txid, some ctr⟩ (some txid) e scratch key = .frame n h out)
    (m : EE) (c cur : Bytes) (rscratch : Nat) (hrs : 58 ≤ rscratch)
    (hfind : (getNextMatchingNodeID m 0 (txid.take il.toNat)).map (rowID m) = some txid)
    (hgood : BothGood m txid c) (hsmall : beVal c + 255 < 2 ^ 40)
    (hcur : getLastRXMsgCtr m txid = some cur) (hlt : beVal cur < beVal ctr) :
    (rx m ⟨out, true, rscratch, d, key⟩).1 = .ok (n, (ptext.getD []).take ptextLen, txid) ∧
    getLastRXMsgCtr (rx m ⟨out, true, rscratch, d, key⟩).2 txid = some ctr := by
  -- the raw encoding
  have hraw : ∃ idp, (∀ src, idp = some src → src.take il.toNat = txid.take il.toNat) ∧ idp ≠ none ∧
      encodeRaw fType ptext ptextLen outbuf idp il (txid.take 6 ++ ctr) e key = .ok (n, h, out) := by
    unfold encode at henc
    split at henc
    · simp at henc
    split at henc
    · simp at henc
    simp only [computeIVForTX12B] at henc
    have hof : ∀ x, EncRet.ofRes x = .frame n h out → x = .ok (n, h, out) := by
      intro x hx
      cases x with
      | ok r => obtain ⟨a, b, c⟩ := r; simp [EncRet.ofRes] at hx; simp [hx]
      | fail => simp [EncRet.ofRes] at hx
      | ub => simp [EncRet.ofRes] at hx
    split at henc
    · exact ⟨some txid, by intro s hs; simp only [Option.some.injEq] at hs; rw [hs], by simp, hof _ henc⟩
    · rename_i h6
      refine ⟨some (txid.take 6 ++ ctr), ?_, by simp, hof _ henc⟩
      intro s hs
      simp only [Option.some.injEq] at hs
      rw [← hs, List.take_append_of_le_length (by simp; omega), List.take_take, Nat.min_eq_left (by omega)]
  obtain ⟨idp, hidp, hidn, hraw⟩ := hraw
  exact (rx_of_encodeRaw fType ptext ptextLen outbuf idp il txid ctr e d key n h out hel hinv hid hctr hidp hidn hraw
    m c cur rscratch hrs hfind hgood hsmall hcur hlt).2

/-- Non-vacuity of C14 and C16: with the example transmitter and receiver a frame is sent and accepted, and its replay
is not. -/
def exSent : Bytes :=
  match encode FTS_BasicSensorOrValve (some (List.replicate 32 0x41)) 5 (List.replicate 63 0) 4 exSrc exSrc.txid
    nullEncChecked 292 (some (List.replicate 16 7)) with
  | .frame _ _ o => o
  | _ => []
def exIn : RxIn := ⟨exSent, true, 58, nullDec, some (List.replicate 16 7)⟩
example : (match (rx (exRx []) exIn).1 with
    | .ok (n, b, node) => n == 63 && b == [0x41, 0x41, 0x41, 0x41, 0x41] && node == exRxID
    | _ => false) = true := by decide +kernel
example : (getNextMatchingNodeID (exRx []) 0 (exRxID.take 4)).map (rowID (exRx [])) = some exRxID ∧
    exSrc = ⟨some exRxID, some [0, 0, 42, 0, 3, 25]⟩ := by
  constructor <;> first | rfl | decide +kernel

end OTR.Props
