import Verif.Model.FixedRx
import Verif.Props.SecureRx
import Verif.Props.Counter
/-! # C233: the fixed-counter receiver -/

namespace OTR.Props
open OTR

/-! ## Specification -/

/-- The last ID set, if any. -/
def lastID : List FixedOp → Option Bytes
  | [] => none
  | o :: t => (lastID t).or (match o with | .setID i => some i | _ => none)

/-- The last counter set, if any. -/
def lastCtr : List FixedOp → Option Bytes
  | [] => none
  | o :: t => (lastCtr t).or (match o with | .setCtr c => some c | _ => none)

/-! ## Proofs -/

/-- Receiving changes nothing. -/
theorem fixed_rx_same (s : FixedRx) (f : Bytes) (w : Bool) (n : Nat) (d : DecFn) (k : Option Bytes) (j : Bytes) : (rxSecure (fixedStore j) s f w n d k).2 = s := by
  unfold rxSecure
  cases decodeHeader f with
  | ub => rfl
  | fail => rfl
  | ok h =>
    dsimp only [decode, fixedStore]
    repeat' split
    all_goals first | rfl | (rename_i h; simp only [Prod.mk.injEq] at h; exact h.2.symm)

/-- **C233** The receiver always works with the ID and the counter set last, all zeros before any is set; no frame, accepted or not, changes them. -/
theorem C233_settings (ops : List FixedOp) : ops.foldl FixedRx.step .new = ⟨((lastID ops).getD (List.replicate 8 0)).take 8, ((lastCtr ops).getD (List.replicate 6 0)).take 6⟩ := by
  have gen : ∀ (ops : List FixedOp) (s : FixedRx), s.id.length ≤ 8 → s.ctr.length ≤ 6 → ops.foldl FixedRx.step s = ⟨((lastID ops).getD s.id).take 8, ((lastCtr ops).getD s.ctr).take 6⟩ := by
    intro ops
    induction ops with
    | nil =>
      intro s h8 h6
      show s = ⟨s.id.take 8, s.ctr.take 6⟩
      rw [List.take_of_length_le h8, List.take_of_length_le h6]
    | cons o t ih =>
      intro s h8 h6
      rw [List.foldl_cons]
      cases o with
      | setID i =>
        rw [ih (s.step (.setID i)) (by show (i.take 8).length ≤ 8; rw [List.length_take]; omega) h6]
        simp only [FixedRx.step, FixedRx.setID, lastID, lastCtr]
        cases lastID t <;> cases lastCtr t <;> simp [List.take_take]
      | setCtr c =>
        rw [ih (s.step (.setCtr c)) h8 (by show (c.take 6).length ≤ 6; rw [List.length_take]; omega)]
        simp only [FixedRx.step, FixedRx.setCtr, lastID, lastCtr]
        cases lastID t <;> cases lastCtr t <;> simp [List.take_take]
      | rx f w n d k j =>
        rw [show s.step (.rx f w n d k j) = s from fixed_rx_same s f w n d k j, ih s h8 h6]
        simp only [lastID, lastCtr]
        cases lastID t <;> cases lastCtr t <;> simp
  exact gen ops .new (by decide) (by decide)

/-- **C233** It accepts a frame only if the frame's counter is above the one set and the frame, every byte of it, authenticates under the key with the first six bytes of the ID set
and that counter as IV — whatever ID the frame itself gives. -/
theorem C233_accepts_only (s : FixedRx) (hc : s.ctr.length = 6) (hid : s.id.length = 8) (f : Bytes) (w : Bool) (scratch : Nat) (d : DecFn) (key : Option Bytes) (junk : Bytes) (n : Nat) (body node : Bytes)
    (h : (rxSecure (fixedStore junk) s f w scratch d key).1 = .ok (n, body, node)) :
    ∃ k aad ct ctr tag dbuf, key = some k ∧ f.take n = aad ++ ct ++ ctr ++ tag ++ [0x80] ∧ n ≤ f.length ∧ (ct.length = 0 ∨ ct.length = 32) ∧ ctr.length = 6 ∧ tag.length = 16 ∧
      beVal s.ctr < beVal ctr ∧ d k (s.id.take 6 ++ ctr) aad (if ct.length = 0 then none else some ct) tag = some dbuf ∧ node = s.id.take 6 ++ junk := by
  unfold rxSecure at h
  cases hh : decodeHeader f with
  | ub => rw [hh] at h; cases h
  | fail => rw [hh] at h; cases h
  | ok hd =>
    rw [hh] at h
    dsimp only [decode, fixedStore] at h
    by_cases c1 : 14 > scratch
    · rw [if_pos c1] at h; cases h
    rw [if_neg c1] at h
    by_cases c2 : hd.fl = 0
    · rw [if_pos c2] at h; cases h
    rw [if_neg c2] at h
    by_cases c3 : hd.getTl ≠ 23
    · rw [if_pos c3] at h; cases h
    rw [if_neg c3] at h
    by_cases c4 : f.length < hd.getTrailerOffset + 6
    · rw [if_pos c4] at h; cases h
    rw [if_neg c4] at h
    have hl6 : ((f.drop hd.getTrailerOffset).take 6).length = 6 := by rw [List.length_take, List.length_drop]; omega
    simp only [validateRXMsgCtr, decide_eq_false_iff_not] at h
    by_cases c5 : ¬ (msgcountercmp ((f.drop hd.getTrailerOffset).take 6) s.ctr > 0)
    · rw [if_pos c5] at h; cases h
    rw [if_neg c5] at h
    cases hf : decodeFromID hd f w (scratch - 14) d (s.id.take 6 ++ junk) key with
    | ub => rw [hf] at h; cases h
    | fail => rw [hf] at h; cases h
    | ok r =>
      obtain ⟨n', body'⟩ := r
      rw [hf] at h
      simp only [Res.ok.injEq, Prod.mk.injEq] at h
      obtain ⟨rfl, rfl, rfl⟩ := h
      have hgt : 0 < msgcountercmp ((f.drop hd.getTrailerOffset).take 6) s.ctr := Classical.not_not.1 c5
      have hlt := (C07_counter_cmp _ _ hl6 hc).2.2.1 hgt
      obtain ⟨k, aad, ct, ctr, tag, dbuf, e1, e2, e3, e4, e5, e6, e7, e8, e9, e10, _⟩ := C11_acceptance_binds_every_byte f hd w _ d _ key _ _ hh hf
      have hctr : ctr = (f.drop hd.getTrailerOffset).take 6 := by
        rw [decodeFromID_ok] at hf
        obtain ⟨_, h6, _, hto, hdd⟩ := hf
        obtain ⟨k', v, dbuf', hk', hv, hl, hv11, _, hfl0, htl, hlast, hbl, hseq, hn, _, _, _⟩ := decodeRaw_ok hdd
        obtain ⟨f1, f2, f3, f4, f5⟩ := frame_split hh htl hl
        have hlen : (aad ++ ct ++ ctr ++ tag ++ [(0x80 : Byte)]).length = n' := by rw [← e2, List.length_take]; omega
        simp only [List.length_append, List.length_cons, List.length_nil] at hlen
        have hoff : aad.length + ct.length = hd.getTrailerOffset := by
          have : hd.getTrailerOffset + 23 = hd.fl + 1 := by
            simp only [Hdr.getTl, Hdr.getTrailerOffset, Hdr.getHl] at *
            omega
          omega
        have e2' := congrArg (fun l => (l.drop hd.getTrailerOffset).take 6) e2
        rw [List.drop_take, List.take_take, Nat.min_eq_left (by omega)] at e2'
        rw [e2', ← hoff]
        simp only [List.append_assoc]
        rw [← List.append_assoc aad, ← List.length_append, List.drop_left, ← e8, List.take_left]
      refine ⟨k, aad, ct, ctr, tag, dbuf, e1, e2, e4, e7, e8, e9, by rw [hctr]; exact hlt, ?_, rfl⟩
      rw [List.take_append_of_le_length (by rw [List.length_take]; omega), List.take_take, Nat.min_self] at e10
      exact e10

/-- **C233** A frame made by `encode()` under the same key, by a sender whose ID begins with the same six bytes as the ID set, with a counter above the one set, is accepted with the body
that was sent — however often it is repeated, and whatever other frames come between. -/
theorem C233_accepts_again (fType : Byte) (ptext : Option Bytes) (ptextLen : Nat) (outbuf : Bytes) (il : Byte)
    (txid ctr : Bytes) (e : EncFn) (d : DecFn) (scratch : Nat) (key : Option Bytes) (n : Nat) (h : Hdr) (out : Bytes)
    (hel : EncLen e) (hinv : Inverse e d) (hid : txid.length = 8) (hctr : ctr.length = 6)
    (henc : encode fType ptext ptextLen outbuf il ⟨some txid, some ctr⟩ (some txid) e scratch key = .frame n h out)
    (ops others : List FixedOp) (id c : Bytes) (hI : lastID ops = some id) (hC : lastCtr ops = some c) (hi : id.take 6 = txid.take 6) (hc6 : c.length = 6) (hlt : beVal c < beVal ctr)
    (hoth : ∀ o ∈ others, ∃ f w k d' key' j, o = .rx f w k d' key' j) (rscratch : Nat) (hrs : 58 ≤ rscratch) (junk : Bytes) :
    (rxSecure (fixedStore junk) ((ops ++ others).foldl FixedRx.step .new) out true rscratch d key).1 = .ok (n, (ptext.getD []).take ptextLen, txid.take 6 ++ junk) := by
  have hs : (ops ++ others).foldl FixedRx.step .new = ⟨id.take 8, c.take 6⟩ := by
    rw [List.foldl_append, C233_settings, hI, hC]
    have : ∀ (l : List FixedOp) (s : FixedRx), (∀ o ∈ l, ∃ f w k d' key' j, o = .rx f w k d' key' j) → l.foldl FixedRx.step s = s := by
      intro l
      induction l with
      | nil => intro s _; rfl
      | cons o t ih =>
        intro s h
        obtain ⟨f, w, k, d', key', j, rfl⟩ := h o (List.mem_cons_self ..)
        rw [List.foldl_cons, show s.step (.rx f w k d' key' j) = s from fixed_rx_same s f w k d' key' j]
        exact ih s fun x hx => h x (List.mem_cons_of_mem _ hx)
    exact this others _ hoth
  rw [hs]
  -- the raw encoding
  have hraw : ∃ idp, (∀ src, idp = some src → src.take il.toNat = txid.take il.toNat) ∧ idp ≠ none ∧
      encodeRaw fType ptext ptextLen outbuf idp il (txid.take 6 ++ ctr) e key = .ok (n, h, out) := by
    unfold encode at henc
    split at henc
    · simp at henc
    split at henc
    · simp at henc
    simp only [computeIVForTX12B] at henc
    have hof : ∀ x, EncRet.ofRes x = .frame n h out → x = .ok (n, h, out) := by
      intro x hx
      cases x with
      | ok r => obtain ⟨a, b, c⟩ := r; simp [EncRet.ofRes] at hx; simp [hx]
      | fail => simp [EncRet.ofRes] at hx
      | ub => simp [EncRet.ofRes] at hx
    split at henc
    · exact ⟨some txid, by intro s hs; simp only [Option.some.injEq] at hs; rw [hs], by simp, hof _ henc⟩
    · rename_i h6
      refine ⟨some (txid.take 6 ++ ctr), ?_, by simp, hof _ henc⟩
      intro s hs
      simp only [Option.some.injEq] at hs
      rw [← hs, List.take_append_of_le_length (by simp; omega), List.take_take, Nat.min_eq_left (by omega)]
  obtain ⟨idp, hidp, hidn, hraw⟩ := hraw
  obtain ⟨hdh, hdr⟩ := C10_secure_raw_roundtrip fType ptext ptextLen outbuf idp il _ e d key n h out hel hinv
    (rscratch - 26) (by omega) hraw
  obtain ⟨k, hb, ct, tag, hiv, rfl, h31, heh, hhl, h4, hfl, hbl, hmax, hltb, hn, hpb, hciph, htag, hct, hout⟩ :=
    encodeRaw_ok hel hraw
  have hctl : (ct.take (encBody ptextLen)).length = encBody ptextLen := by
    unfold encBody
    by_cases h0 : ptextLen = 0
    · simp [h0]
    · simp [h0, hct h0]
  have hivd : ((txid.take 6 ++ ctr).drop 6).take 6 = ctr := by
    rw [List.drop_append_of_le_length (by simp; omega), List.drop_of_length_le (by simp; omega), List.nil_append,
      List.take_of_length_le (by omega)]
  rw [hivd] at hout
  have hol : out.length = outbuf.length := by
    rw [hout]; simp only [List.length_append, hctl, hctr, htag]; simp; omega
  -- header facts
  have hheader : h.getTl = 23 ∧ h.getIl = il.toNat ∧ h.id = txid.take il.toNat ∧ il.toNat ≤ 8 := by
    have hlast : out[h.fl]? = some 0x80 := by
      rw [hout]
      have : (hb ++ List.take (encBody ptextLen) ct ++ ctr ++ tag).length = h.fl := by
        simp only [List.length_append, hctl, hctr, htag, hfl]
      rw [List.append_assoc _ [(0x80 : Byte)], List.getElem?_append_right (by omega), this]
      simp
    obtain ⟨rest, hrest⟩ : ∃ rest, out = hb ++ rest := ⟨_, by rw [hout]; simp only [List.append_assoc]; rfl⟩
    have hdec := C01_header_roundtrip _ _ _ _ _ _ _ _ _ _ heh rest (by rw [← hrest]; omega) (by
      intro b hb'; rw [← hrest, hlast] at hb'; simp only [Option.some.injEq] at hb'; subst hb'; decide)
    obtain ⟨_, _, _, _, _, _, _, d8, d9, _, d11⟩ := hdec
    have hil8 : il.toNat ≤ 8 := by
      rw [encodeHeader_ok] at heh; obtain ⟨_, _, _, h8, _⟩ := heh; exact h8
    refine ⟨by rw [d11]; decide, d8, ?_, hil8⟩
    cases hx : idp with
    | none => exact absurd hx hidn
    | some src => rw [d9 src hx, hidp src hx]
  obtain ⟨htl, hil, hhid, hil8⟩ := hheader
  have hebl : encBody ptextLen ≤ 32 := by unfold encBody; split <;> omega
  have hto : h.getTrailerOffset = hb.length + encBody ptextLen := by
    rw [hhl, Hdr.getTrailerOffset, Hdr.getHl, hil, hbl]; omega
  have hctrb : (out.drop h.getTrailerOffset).take 6 = ctr := by
    have e1 : (hb ++ List.take (encBody ptextLen) ct).length = h.getTrailerOffset := by
      simp only [List.length_append, hctl, hto]
    rw [hout]
    simp only [List.append_assoc]
    rw [← List.append_assoc hb, ← e1, List.drop_left, ← hctr, List.take_left]
  have hb0 : ∃ h0 : 0 < out.length, out[0].toNat = h.fl := by
    refine ⟨by omega, ?_⟩
    rw [decodeHeader_ok] at hdh
    obtain ⟨h5, a1, a2, a3, a4, a5, a6, hb', a7, a8, a9, hh⟩ := hdh
    exact (congrArg Hdr.fl hh).symm
  obtain ⟨h0, hb0⟩ := hb0
  have hi8 : (id.take 8).take 6 = txid.take 6 := by rw [List.take_take]; exact hi
  have hadj : ((id.take 8).take 6 ++ junk).take 6 = txid.take 6 := by
    rw [hi8, List.take_append_of_le_length (by rw [List.length_take]; omega), List.take_take, Nat.min_self]
  have hfrom : decodeFromID h out true (rscratch - 14) d ((id.take 8).take 6 ++ junk) (some k) = .ok (n, (ptext.getD []).take ptextLen) := by
    rw [decodeFromID_ok]
    refine ⟨by omega, by rw [hi8, List.length_append, List.length_take]; omega, ⟨h0, by rw [hb0]; omega⟩, by omega, ?_⟩
    rw [hctrb, hadj, show rscratch - 14 - 12 = rscratch - 26 by omega]
    exact hdr
  have hgt : msgcountercmp ctr (c.take 6) > 0 := by
    rw [List.take_of_length_le (by omega)]
    exact (C07_counter_cmp _ _ hctr hc6).2.2.2 hlt
  unfold rxSecure
  simp only [hdh]
  unfold decode
  rw [if_neg (by omega), if_neg (by omega), if_neg (by simp [htl])]
  dsimp only [fixedStore]
  rw [if_neg (by omega), hctrb]
  rw [hi8] at hfrom
  simp only [validateRXMsgCtr, hgt, decide_true, hi8, Bool.true_eq_false, if_false, hfrom]

/-- **C233, refuted**: the sender ID given with the frame is not always the ID set: its last two bytes are whatever was in the scratch space. -/
theorem C233_reported_id_refuted : ∃ (s : FixedRx) (junk : Bytes), s.id.length = 8 ∧ junk.length = 2 ∧
    ∃ n b node, (rxSecure (fixedStore junk) s exSent true 58 nullDec (some (List.replicate 16 7))).1 = .ok (n, b, node) ∧ node ≠ s.id :=
  ⟨⟨exRxID, List.replicate 6 0⟩, [0xaa, 0xbb], by decide, by decide, 63, [0x41, 0x41, 0x41, 0x41, 0x41], [0x80, 0x81, 0x82, 0x83, 0x84, 0x85, 0xaa, 0xbb], by decide +kernel, by decide⟩

/-- Non-vacuity: the example frame of C16, accepted twice with another frame between, and by `C233_accepts_again` for any history ending so. -/
example : (match (rxSecure (fixedStore [0, 0]) ((([.setID exRxID, .setCtr [0, 0, 42, 0, 3, 24]] : List FixedOp) ++
      [FixedOp.rx exSent true 58 nullDec (some (List.replicate 16 7)) [0, 0], FixedOp.rx [1, 2] true 58 nullDec none []]).foldl FixedRx.step .new) exSent true 58 nullDec (some (List.replicate 16 7))).1 with
    | .ok (n, b, _) => n == 63 && b == [0x41, 0x41, 0x41, 0x41, 0x41]
    | _ => false) = true := by decide +kernel

end OTR.Props
