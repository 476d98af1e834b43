import Verif.Props.SecureLive
import Verif.Props.TxCounter
/-!
# C175–C176: the secure channel as a whole

Any number of transmitters, each with its own EEPROM, restarting and losing power as they like, one receiver, and a network that
delivers any byte strings at any time (replays, reorderings, forgeries, truncations). The cipher is any pair of functions; the only
assumptions are that decryption gives back what was encrypted, and that nothing is accepted that no transmitter made ("no forgery").
-/

namespace OTR.Props
open OTR

/-! ## Specification -/

/-- A message some transmitter sent: its ID, the message counter used, the frame type, the body and the frame on the air. -/
structure SentMsg where
  id : Bytes
  ctr : Bytes
  fType : Byte
  body : Bytes
  frame : Bytes
deriving DecidableEq

/-- A message the receiver accepted: the node it is attributed to, its type and its body (and the bytes received). -/
structure GotMsg where
  node : Bytes
  fType : Nat
  body : Bytes
  frame : Bytes
deriving DecidableEq

/-- The decryption function accepts only (IV, header, ciphertext, tag) that are those of a frame sent by a transmitter whose ID begins the IV. -/
def NoForgery (d : DecFn) (key : Bytes) (sent : List SentMsg) : Prop :=
  ∀ iv aad ct tag p, d key iv aad ct tag = some p →
    ∃ s ∈ sent, iv.take 6 = s.id.take 6 ∧ s.frame = aad ++ ct.getD [] ++ iv.drop 6 ++ tag ++ [0x80]

/-- If the decryption function accepts what the encryption function made, it gives back the plaintext. -/
def GivesBack (e : EncFn) (d : DecFn) : Prop :=
  ∀ k iv aad pt ct tag dbuf, e k iv aad pt = some (ct, tag) → d k iv aad (pt.map fun _ => ct) tag = some dbuf →
    ∀ p, pt = some p → dbuf = p

/-- What the application gives `encode()`. -/
structure PlainArgs where
  fType : Byte
  ptext : Option Bytes
  len : Nat
  outbuf : Bytes
  il : Byte
  scratch : Nat

/-- What the application gives `encodeValveFrame()`. -/
structure ValveArgs where
  ptext : Bytes
  outbuf : Bytes
  il : Byte
  valvePC : Byte
  scratch : Nat

/-- A call of `encode()` on a transmitter with this ID: the counter is drawn (from EEPROM and RAM, as in C20) only when the first checks
have passed. -/
def sendPlain (e : EncFn) (key id : Bytes) (d : TxDev) (a : PlainArgs) (r r' : Bytes) : TxDev × Option SentMsg :=
  if a.scratch < 292 ∨ a.fType.toNat ≥ 127 ∨ a.fType.toNat = 0 then (d, none)
  else
    let x := d.step (.call r r')
    (x.1, match encode a.fType a.ptext a.len a.outbuf a.il ⟨some id, x.2⟩ (some id) e a.scratch (some key), x.2 with
      | .frame n _ out, some c => some ⟨id, c, a.fType, (a.ptext.getD []).take a.len, out.take n⟩
      | _, _ => none)

/-- The body of a valve frame, from what the application supplied (C17): percentage or 0x7f, flag, JSON text without its last character. -/
def valveMsg (p : Bytes) (valvePC : Byte) : Bytes :=
  [if valvePC.toNat ≤ 100 then valvePC else 0x7f, if p[2]? = some 0x7b then 0x10 else 0] ++
    (if p[2]? = some 0x7b then ((p.drop 2).takeWhile (· ≠ 0)).dropLast else [])

/-- A call of `encodeValveFrame()`. -/
def sendValve (e : EncFn) (key id : Bytes) (d : TxDev) (a : ValveArgs) (r r' : Bytes) : TxDev × Option SentMsg :=
  if a.scratch < 284 then (d, none)
  else
    let x := d.step (.call r r')
    (x.1, match encodeValveFrame (some a.ptext) a.outbuf a.il a.valvePC ⟨some id, x.2⟩ e a.scratch (some key), x.2 with
      | .ok (n, _, out), some c => some ⟨id, c, FTS_BasicSensorOrValve, valveMsg a.ptext a.valvePC, out.take n⟩
      | _, _ => none)

/-- The whole system: the transmitters (with, for each, whether a mid-call power failure may come now, as in C20), the receiver's EEPROM,
everything sent and everything accepted so far. -/
structure Chan where
  tx : Bytes → TxDev
  crashOK : Bytes → Bool
  ee : EE
  sent : List SentMsg
  got : List GotMsg

/-- Replace one entry of a function. -/
def setAt {α : Type} (f : Bytes → α) (id : Bytes) (x : α) : Bytes → α := fun i => if i = id then x else f i

/-- What the receiver reports for one arriving frame. -/
def deliver (s : Chan) (frame : Bytes) (scratch : Nat) (d : DecFn) (key : Bytes) : Chan :=
  let x := rx s.ee ⟨frame, true, scratch, d, some key⟩
  { s with
    ee := x.2
    got := match x.1 with
      | .ok (n, body, node) => s.got ++ [⟨node, (frame[1]?.getD 0).toNat % 128, body, frame.take n⟩]
      | _ => s.got }

/-- A transmitter calls `encode()` and puts the frame, if any, on the air. -/
def Chan.plain (s : Chan) (e : EncFn) (key id : Bytes) (a : PlainArgs) (r r' : Bytes) : Chan :=
  { s with
    tx := setAt s.tx id (sendPlain e key id (s.tx id) a r r').1
    crashOK := setAt s.crashOK id (if a.scratch < 292 ∨ a.fType.toNat ≥ 127 ∨ a.fType.toNat = 0 then s.crashOK id else true)
    sent := s.sent ++ (sendPlain e key id (s.tx id) a r r').2.toList }

/-- A transmitter calls `encodeValveFrame()`. -/
def Chan.valve (s : Chan) (e : EncFn) (key id : Bytes) (a : ValveArgs) (r r' : Bytes) : Chan :=
  { s with
    tx := setAt s.tx id (sendValve e key id (s.tx id) a r r').1
    crashOK := setAt s.crashOK id (if a.scratch < 284 then s.crashOK id else true)
    sent := s.sent ++ (sendValve e key id (s.tx id) a r r').2.toList }

/-- Power fails after `k` EEPROM writes of a transmitter's call that was to send. -/
def Chan.crash (s : Chan) (id : Bytes) (r r' : Bytes) (k : Nat) : Chan :=
  { s with tx := setAt s.tx id ((s.tx id).step (.crash r r' k)).1, crashOK := setAt s.crashOK id false }

/-- What is in the receiver's EEPROM if power fails after `k` byte writes of handling this frame; the frame is then not reported. (The counter
update is the only thing the receive path writes.) -/
def crashEE (m : EE) (frame : Bytes) (scratch : Nat) (d : DecFn) (key : Bytes) (k : Nat) : EE :=
  match (rx m ⟨frame, true, scratch, d, some key⟩).1 with
  | .ok (_, _, node) => applyW m ((authAndUpdateRXMsgCtr node (frameCtr frame) m).2.take k)
  | _ => m

/-- If the frame would be accepted: both stored copies of the sender's counter are good, and the new counter is not within 255 of a multiple
of 2^40. -/
def CrashOK (m : EE) (frame : Bytes) (scratch : Nat) (d : DecFn) (key : Bytes) : Prop :=
  ∀ n body node, (rx m ⟨frame, true, scratch, d, some key⟩).1 = .ok (n, body, node) →
    (∃ c, BothGood m node c) ∧ beVal (frameCtr frame) % 2 ^ 40 + 255 < 2 ^ 40

/-- The states the system can get into; `pf`: may the receiver lose power while it handles a frame? -/
inductive Reach (pf : Bool) (e : EncFn) (key : Bytes) (ids : List Bytes) (s0 : Chan) : Chan → Prop
  | start : Reach pf e key ids s0 s0
  /-- A transmitter sends (or fails to). -/
  | plain {s id} (a : PlainArgs) (r r' : Bytes) : Reach pf e key ids s0 s → id ∈ ids → Reach pf e key ids s0 (s.plain e key id a r r')
  | valve {s id} (a : ValveArgs) (r r' : Bytes) : Reach pf e key ids s0 s → id ∈ ids → Reach pf e key ids s0 (s.valve e key id a r r')
  /-- A transmitter restarts. -/
  | restart {s id} : Reach pf e key ids s0 s → id ∈ ids → Reach pf e key ids s0 { s with tx := setAt s.tx id ((s.tx id).step .restart).1 }
  /-- Power fails in the middle of a call (as in C20, not twice without a completed call between). -/
  | crash {s id} (r r' : Bytes) (k : Nat) : Reach pf e key ids s0 s → id ∈ ids → s.crashOK id = true → Reach pf e key ids s0 (s.crash id r r' k)
  /-- Any bytes whatever arrive at the receiver. -/
  | deliver {s} (frame : Bytes) (scratch : Nat) (d : DecFn) : Reach pf e key ids s0 s → NoForgery d key s.sent → GivesBack e d →
      Reach pf e key ids s0 (deliver s frame scratch d key)
  /-- Power fails at the receiver while it handles a frame (if `pf`): not when an earlier power failure has left the two copies it keeps of
  that node's counter out of step, nor just below a multiple of 2^40 (C24). -/
  | rxCrash {s} (frame : Bytes) (scratch : Nat) (d : DecFn) (k : Nat) : pf = true → Reach pf e key ids s0 s → NoForgery d key s.sent →
      GivesBack e d → CrashOK s.ee frame scratch d key → Reach pf e key ids s0 { s with ee := crashEE s.ee frame scratch d key k }

/-- A proper beginning: nothing sent or accepted yet; distinct 8-byte IDs, distinct also in the six bytes that go into the IV; each
transmitter just powered up with both its stored counter copies in step (such as a new one); and no other node the receiver knows shares
those six bytes with a transmitter. The receiver's EEPROM is otherwise arbitrary. -/
structure Begin (ids : List Bytes) (s0 : Chan) : Prop where
  sent : s0.sent = []
  got : s0.got = []
  len : ∀ id ∈ ids, id.length = 8
  distinct : ∀ a ∈ ids, ∀ b ∈ ids, a.take 6 = b.take 6 → a = b
  tx : ∀ id ∈ ids, ∃ m b, s0.tx id = ⟨m, .boot⟩ ∧ BothCopies m b
  table : ∀ q, q < 8 → ∀ id ∈ ids, (rowID s0.ee q).take 6 = id.take 6 → rowID s0.ee q = id

/-! ## Frames made by a transmitter -/

/-- The frame of `s` was made by the raw secure encoder from its type, body and counter. -/
def Made (e : EncFn) (key : Bytes) (s : SentMsg) : Prop :=
  s.ctr.length = 6 ∧ ∃ ptext len outbuf idp il n h out,
    encodeRaw s.fType ptext len outbuf idp il (s.id.take 6 ++ s.ctr) e (some key) = .ok (n, h, out) ∧
    s.body = (ptext.getD []).take len ∧ s.frame = out.take n ∧ ∃ src, idp = some src ∧ src.take il.toNat = s.id.take il.toNat

theorem rx_info {m : EE} {i : RxIn} {n : Nat} {body node : Bytes} (hr : (rx m i).1 = .ok (n, body, node)) :
    ∃ h, decodeHeader i.frame = .ok h ∧ (∃ q, q < 8 ∧ rowID m q = node) ∧
      decodeFromID h i.frame i.wantBody (i.scratch - 14) i.dec node i.key = .ok (n, body) := by
  unfold rx rxSecure at hr
  cases hd : decodeHeader i.frame with
  | ub => rw [hd] at hr; simp at hr
  | fail => rw [hd] at hr; simp at hr
  | ok h =>
    rw [hd] at hr
    simp only at hr
    unfold decode at hr
    split at hr
    · simp at hr
    split at hr
    · simp at hr
    split at hr
    · simp at hr
    split at hr
    · simp at hr
    rename_i nodeID hm
    split at hr
    · simp at hr
    dsimp only at hr
    split at hr
    · simp at hr
    split at hr
    · simp at hr
    · simp at hr
    rename_i n' body' hf
    split at hr
    · simp at hr
    · simp only [Res.ok.injEq, Prod.mk.injEq] at hr
      obtain ⟨rfl, rfl, rfl⟩ := hr
      refine ⟨h, rfl, ?_, hf⟩
      simp only [eeRxStore] at hm
      cases hq : getNextMatchingNodeID m 0 (h.id.take h.getIl) with
      | none => rw [hq] at hm; simp at hm
      | some q =>
        rw [hq] at hm
        simp only [Option.map_some, Option.some.injEq] at hm
        unfold getNextMatchingNodeID at hq
        split at hq
        · simp at hq
        · split at hq
          · simp at hq
          · have := (findFrom_some _ _ _ hq).2.1
            exact ⟨q, by omega, hm⟩

/-- Whatever the receiver accepts is, byte for byte, a frame that was sent, with the type and body that were sent. -/
theorem accepted_was_sent {e : EncFn} {d : DecFn} {key : Bytes} {sent : List SentMsg} (hel : EncLen e) (hnf : NoForgery d key sent)
    (hgb : GivesBack e d) (hmade : ∀ s ∈ sent, s.id.length = 8 ∧ Made e key s) {m : EE} {frame : Bytes} {scratch n : Nat} {body node : Bytes}
    (hr : (rx m ⟨frame, true, scratch, d, some key⟩).1 = .ok (n, body, node)) :
    ∃ s ∈ sent, frame.take n = s.frame ∧ node.take 6 = s.id.take 6 ∧ frameCtr frame = s.ctr ∧ body = s.body ∧
      (frame[1]?.getD 0).toNat % 128 = s.fType.toNat := by
  obtain ⟨h, hdh, _, hf⟩ := rx_info hr
  dsimp only at hdh hf
  have hnode : 6 ≤ node.length := (decodeFromID_ok.mp hf).2.1
  obtain ⟨_, _, _, hto, hdr⟩ := decodeFromID_ok.mp hf
  obtain ⟨k, v, dbuf, hk, hv, hl, hv11, _, hfl0, htl, hlast, hbl, hseq, hn, hdd, hbody, _⟩ := decodeRaw_ok hdr
  simp only [Option.some.injEq] at hk hv
  subst hk
  obtain ⟨f1, f2, f3, f4, f5⟩ := frame_split hdh htl hl
  have hctl : ((frame.drop h.getBodyOffset).take h.bl).length = h.bl := by
    rw [List.length_take, List.length_drop, Hdr.getBodyOffset]; omega
  have hctrl : ((frame.drop h.getTrailerOffset).take 6).length = 6 := by
    rw [List.length_take, List.length_drop]; omega
  obtain ⟨s, hs, hid6, hfr⟩ := hnf _ _ _ _ _ hdd
  obtain ⟨hs8, hs6, ptext, len, outbuf, idp, il, n', h', out, henc, hsb, hsf, _⟩ := hmade s hs
  have hv6 : v.take 6 = node.take 6 := by
    rw [← hv, List.take_left' (by simp; omega)]
  have hvd : v.drop 6 = (frame.drop h.getTrailerOffset).take 6 := by
    rw [← hv, List.drop_left' (by simp; omega)]
  have hctg : (if h.bl = 0 then none else some ((frame.drop h.getBodyOffset).take h.bl)).getD [] = (frame.drop h.getBodyOffset).take h.bl := by
    by_cases h0 : h.bl = 0
    · rw [if_pos h0, h0, List.take_zero]; rfl
    · rw [if_neg h0]; rfl
  rw [hctg, hvd] at hfr
  have hwhole : frame.take n = s.frame := by
    rw [hfr, hn, f5, hlast]
  -- the sender's side
  obtain ⟨k', hb, ct, tag, hiv, hkk, h31, heh, hhl, h4, hfl, hbl', hmax, hltb, hn', hpb, hciph, htag, hct, hout⟩ := encodeRaw_ok hel henc
  simp only [Option.some.injEq] at hkk
  subst hkk
  obtain ⟨idb, t1, t2, hil8, hidc, hbuf, tl1, tl2, hfl2, hh, hhb⟩ := encodeHeader_ok.mp heh
  have hctl' : (ct.take (encBody len)).length = encBody len := by
    unfold encBody
    by_cases h0 : len = 0
    · simp [h0]
    · simp [h0, hct h0]
  have hivd : ((s.id.take 6 ++ s.ctr).drop 6).take 6 = s.ctr := by
    rw [List.drop_left' (by simp; omega), List.take_of_length_le (by omega)]
  rw [hivd] at hout
  have hsent : s.frame = hb ++ ct.take (encBody len) ++ s.ctr ++ tag ++ [0x80] := by
    rw [hsf, hout, List.take_left']
    simp only [List.length_append, hctl', htag, hs6, List.length_cons, List.length_nil]
    omega
  -- the two splits agree
  have h2f : ∃ x, frame[2]? = some x ∧ h.getIl = x.toNat % 16 := by
    obtain ⟨h5, a1, a2, a3, a4, a5, a6, hb', a7, a8, a9, hh'⟩ := decodeHeader_ok.mp hdh
    refine ⟨frame[2], List.getElem?_eq_getElem (by omega), ?_⟩
    have := congrArg Hdr.seqIl hh'
    rw [Hdr.getIl_eq, this]
  obtain ⟨x, hx, hxil⟩ := h2f
  have hn3 : 3 ≤ n := by rw [hn, f3, Hdr.getHl]; omega
  have hx' : s.frame[2]? = some x := by
    rw [← hwhole, List.getElem?_take_of_lt (by omega), hx]
  have hidl : idb.length = il.toNat := by
    rcases hidc with ⟨h0, rfl⟩ | ⟨_, bs, _, hle, rfl⟩
    · simp [h0]
    · simp; omega
  have hxs : x = seqIlByte ((s.id.take 6 ++ s.ctr)[11] &&& 0xf) il := by
    rw [hsent, hhb] at hx'
    simp at hx'
    exact hx'.symm
  have hhbl : hb.length = 4 + il.toNat := by rw [hhb]; simp [hidl]; omega
  have hil : h.getIl = il.toNat := by
    rw [hxil, hxs, seqIlByte_toNat _ il (by omega)]; omega
  have haadl : (frame.take h.getHl).length = hb.length := by
    rw [hhbl, List.length_take, Hdr.getHl, ← hil]; rw [Hdr.getHl] at f1; omega
  have hsplit := hfr.symm.trans hsent
  have hlens := congrArg List.length hsplit
  simp only [List.length_append, hctl', htag, hs6, hctl, hctrl, List.length_cons, List.length_nil, haadl, List.length_take, List.length_drop] at hlens
  simp only [List.append_assoc] at hsplit
  have e1 := List.append_inj hsplit haadl
  have htagl : ((frame.drop (h.fl - 16)).take 16).length = 16 := by
    rw [List.length_take, List.length_drop]; omega
  have hblen : h.bl = encBody len := by omega
  have e2 := List.append_inj e1.2 (by rw [hctl, hctl', hblen])
  have e3 := List.append_inj e2.2 (by rw [hctrl, hs6])
  have e4 := List.append_inj e3.2 (by rw [htagl, htag])
  have hvv : v = s.id.take 6 ++ s.ctr := by
    rw [← hv, e3.1, ← hid6, hv6]
  refine ⟨s, hs, hwhole, by rw [← hv6, hid6], ?_, ?_, ?_⟩
  · -- the counter
    rw [← e3.1]
    unfold frameCtr
    obtain ⟨h5, a1, a2, a3, a4, a5, a6, hb', a7, a8, a9, hh'⟩ := decodeHeader_ok.mp hdh
    have hfl0' : (frame[0]?.getD 0).toNat = h.fl := by
      rw [List.getElem?_eq_getElem (by omega)]; exact (congrArg Hdr.fl hh').symm
    rw [hfl0']
    congr 2
    omega
  · -- the body
    rw [hsb, hbody]
    by_cases h0 : len = 0
    · have : h.bl = 0 := by rw [hblen, h0]; rfl
      rw [if_neg (by simp [this]), h0, List.take_zero]
    · have hb0 : h.bl = 32 := by rw [hblen]; unfold encBody; rw [if_neg h0]
      rw [if_neg h0] at hciph
      have hp := hgb key (s.id.take 6 ++ s.ctr) hb _ ct tag dbuf hciph ?_ _ rfl
      · rw [if_pos ⟨rfl, by omega⟩, hp]
        obtain ⟨b, hpb1, hpb2⟩ := hpb h0
        have hbl3 : ((ptext.getD []).take len).length = len := by rw [hpb1]; simp; omega
        generalize (ptext.getD []).take len = bd at hbl3
        have h31' : (padded32 bd)[31]? = some (u8 (31 - bd.length)) := by
          unfold padded32
          rw [List.getElem?_append_right (by simp; omega)]
          simp
          rw [show 31 - (bd.length + (31 - bd.length)) = 0 by omega]; rfl
        rw [h31', Option.getD_some, u8_toNat, if_neg (by omega)]
        unfold padded32
        rw [List.append_assoc, List.take_left' (by omega)]
      · rw [hvv, e1.1, e2.1, e4.1, if_neg (by omega)] at hdd
        rw [← hdd]
        simp only [Option.map_some]
        congr 2
        rw [hblen] at hb0
        rw [hb0, List.take_of_length_le (by rw [hct h0]; omega)]
  · -- the type
    have h1 : frame[1]? = s.frame[1]? := by
      rw [← hwhole, List.getElem?_take_of_lt (by omega)]
    rw [h1, hsent, hhb]
    simp
    have := typeByte_toNat true s.fType t2
    rw [if_pos rfl] at this
    omega

/-! ## What a transmitter sends -/

theorem encode_raw {fType : Byte} {ptext : Option Bytes} {len : Nat} {outbuf : Bytes} {il : Byte} {id c : Bytes} {e : EncFn} {scratch : Nat}
    {key : Option Bytes} {n : Nat} {h : Hdr} {out : Bytes} (hid : id.length = 8)
    (henc : encode fType ptext len outbuf il ⟨some id, some c⟩ (some id) e scratch key = .frame n h out) :
    ∃ src, src.take il.toNat = id.take il.toNat ∧ encodeRaw fType ptext len outbuf (some src) il (id.take 6 ++ c) e key = .ok (n, h, out) := by
  unfold encode at henc
  split at henc
  · simp at henc
  split at henc
  · simp at henc
  simp only [computeIVForTX12B] at henc
  have hof : ∀ x, EncRet.ofRes x = .frame n h out → x = .ok (n, h, out) := by
    intro x hx
    cases x with
    | ok r => obtain ⟨a, b, c⟩ := r; simp [EncRet.ofRes] at hx; simp [hx]
    | fail => simp [EncRet.ofRes] at hx
    | ub => simp [EncRet.ofRes] at hx
  split at henc
  · exact ⟨_, rfl, hof _ henc⟩
  · rename_i h6
    refine ⟨_, ?_, hof _ henc⟩
    rw [List.take_append_of_le_length (by simp; omega), List.take_take, Nat.min_eq_left (by omega)]

theorem takeWhile_CString {mem text : Bytes} (h : CString mem text) : mem.takeWhile (· ≠ 0) = text := by
  obtain ⟨h1, rest, rfl⟩ := h
  induction text with
  | nil => simp
  | cons b t ih =>
    have hb : b ≠ 0 := h1 b (by simp)
    rw [List.cons_append, List.takeWhile_cons_of_pos (by simp [hb]), ih (fun x hx => h1 x (by simp [hx]))]

theorem valve_raw {p outbuf : Bytes} {il pc : Byte} {id c : Bytes} {e : EncFn} {scratch : Nat} {key : Option Bytes} {n : Nat} {h : Hdr} {out : Bytes} (hid : id.length = 8)
    (he : encodeValveFrame (some p) outbuf il pc ⟨some id, some c⟩ e scratch key = .ok (n, h, out)) :
    ∃ src p1 len, encodeRaw FTS_BasicSensorOrValve (some p1) len outbuf (some src) il (id.take 6 ++ c) e key = .ok (n, h, out) ∧
      valveMsg p pc = p1.take len ∧ src.take il.toNat = id.take il.toNat := by
  unfold encodeValveFrame at he
  rw [failIf_eq_ok] at he
  obtain ⟨_, he⟩ := he
  simp only [computeIVForTX12B, rd_eq_ok] at he
  obtain ⟨h2, he⟩ := he
  have hg : p[2]? = some p[2] := List.getElem?_eq_getElem h2
  split at he
  · simp at he
  rename_i slp1 hsl
  simp only [failIf_eq_ok, wrBlock_eq_ok, List.take_zero, List.nil_append, List.length_cons, List.length_nil,
    Nat.zero_add, Nat.reduceAdd] at he
  obtain ⟨hlen, hp2, hil, he⟩ := he
  refine ⟨_, _, _, he, ?_, ?_⟩
  case refine_2 => rw [List.take_append_of_le_length (by simp; omega), List.take_take, Nat.min_eq_left (by omega)]
  unfold valveMsg
  by_cases hst : p[2] = 0x7b
  · rw [hst] at hg
    simp only [hst, if_true] at hsl ⊢
    obtain ⟨c1, c2⟩ := strlen_some hsl
    rw [if_pos hg, if_pos hg, takeWhile_CString c1]
    rw [List.dropLast_eq_take, c2, List.take_take, Nat.min_eq_left (by omega), show 2 + (slp1 - 1) = (slp1 - 1 + 1) + 1 by omega]
    simp
  · have hne : p[2]? ≠ some 0x7b := by rw [hg]; simpa using hst
    rw [if_neg hne, if_neg hne, if_neg hst]
    simp [hst]

theorem step_len {d : TxDev} {r r' c : Bytes} (he : d.ram.ephemeral.length = 3) (h : (d.step (.call r r')).2 = some c) : c.length = 6 := by
  exact (C21_never_zero d.ee d.ram r r' he c h).1

theorem sendPlain_some {e : EncFn} {key id : Bytes} {d : TxDev} {a : PlainArgs} {r r' : Bytes} {x : SentMsg} (hid : id.length = 8) (he : d.ram.ephemeral.length = 3)
    (h : (sendPlain e key id d a r r').2 = some x) :
    ¬ (a.scratch < 292 ∨ a.fType.toNat ≥ 127 ∨ a.fType.toNat = 0) ∧ (d.step (.call r r')).2 = some x.ctr ∧ x.id = id ∧ Made e key x := by
  unfold sendPlain at h
  split at h
  · simp at h
  rename_i hc
  refine ⟨hc, ?_⟩
  dsimp only at h
  split at h
  · rename_i n hd out c henc hctr
    simp only [Option.some.injEq] at h
    rw [hctr] at henc
    obtain ⟨src, hsrc, hraw⟩ := encode_raw hid henc
    subst h
    exact ⟨hctr, rfl, step_len he hctr, a.ptext, a.len, a.outbuf, some src, a.il, n, hd, out, hraw, rfl, rfl, src, rfl, hsrc⟩
  · simp at h

theorem sendValve_some {e : EncFn} {key id : Bytes} {d : TxDev} {a : ValveArgs} {r r' : Bytes} {x : SentMsg} (hid : id.length = 8) (he : d.ram.ephemeral.length = 3)
    (h : (sendValve e key id d a r r').2 = some x) :
    ¬ a.scratch < 284 ∧ (d.step (.call r r')).2 = some x.ctr ∧ x.id = id ∧ Made e key x := by
  unfold sendValve at h
  split at h
  · simp at h
  rename_i hc
  refine ⟨hc, ?_⟩
  dsimp only at h
  split at h
  · rename_i n hd out c henc hctr
    simp only [Option.some.injEq] at h
    rw [hctr] at henc
    obtain ⟨src, p1, len, hraw, hv, hsrc⟩ := valve_raw hid henc
    subst h
    exact ⟨hctr, rfl, step_len he hctr, some p1, len, a.outbuf, some src, a.il, n, hd, out, hraw, hv, rfl, src, rfl, hsrc⟩
  · simp at h

/-! ## The invariant -/

/-- What the receiver should report for a message sent. -/
def SentMsg.got (x : SentMsg) : GotMsg := ⟨x.id, x.fType.toNat, x.body, x.frame⟩

structure ChanInv (e : EncFn) (key : Bytes) (ids : List Bytes) (s0 s : Chan) : Prop where
  rows : ∀ q, q < 8 → rowID s.ee q = rowID s0.ee q
  tx : ∀ id ∈ ids, ∃ hi, TxInv (s.tx id) hi (s.crashOK id) ∧ ∀ x ∈ s.sent, x.id = id → beVal x.ctr < hi
  made : ∀ x ∈ s.sent, x.id ∈ ids ∧ Made e key x
  order : s.sent.Pairwise fun a b => a.id = b.id → beVal a.ctr < beVal b.ctr
  got : ∃ xs : List SentMsg, s.got = xs.map SentMsg.got ∧ (∀ x ∈ xs, x ∈ s.sent) ∧
    (xs.Pairwise fun a b => a.id = b.id → beVal a.ctr < beVal b.ctr) ∧
    ∀ x ∈ xs, ∃ c, getLastRXMsgCtr s.ee x.id = some c ∧ beVal x.ctr ≤ beVal c

/-- A transmitter's turn: it draws at most one counter and sends at most one message, with that counter. -/
theorem inv_tx {e : EncFn} {key : Bytes} {ids : List Bytes} {s0 s : Chan} (h : ChanInv e key ids s0 s) {id : Bytes} (hid : id ∈ ids)
    {d' : TxDev} {ok' : Bool} {out : Option SentMsg}
    (h1 : ∀ hi, TxInv (s.tx id) hi (s.crashOK id) → (out = none ∧ ∃ hi', hi ≤ hi' ∧ TxInv d' hi' ok') ∨
      ∃ x, out = some x ∧ x.id = id ∧ Made e key x ∧ hi ≤ beVal x.ctr ∧ TxInv d' (beVal x.ctr + 1) ok') :
    ChanInv e key ids s0 { s with tx := setAt s.tx id d', crashOK := setAt s.crashOK id ok', sent := s.sent ++ out.toList } := by
  obtain ⟨xs, g1, g2, g3, g4⟩ := h.got
  obtain ⟨hi, t1, t2⟩ := h.tx id hid
  rcases h1 hi t1 with ⟨rfl, hi', hle, t3⟩ | ⟨x, rfl, hxid, hxm, hlo, t3⟩
  · refine ⟨h.rows, ?_, ?_, ?_, xs, g1, ?_, g3, g4⟩
    · intro i hi2
      simp only [setAt, Option.toList_none, List.append_nil]
      by_cases hii : i = id
      · rw [if_pos hii, if_pos hii]
        exact ⟨hi', t3, fun x hx hxi => by have := t2 x hx (hxi.trans hii); omega⟩
      · rw [if_neg hii, if_neg hii]
        exact h.tx i hi2
    · simpa using h.made
    · simpa using h.order
    · simpa using g2
  · refine ⟨h.rows, ?_, ?_, ?_, xs, g1, ?_, g3, g4⟩
    · intro i hi2
      simp only [setAt, Option.toList_some, List.mem_append, List.mem_singleton]
      by_cases hii : i = id
      · rw [if_pos hii, if_pos hii]
        refine ⟨_, t3, ?_⟩
        rintro y (hy | rfl) hyi
        · have := t2 y hy (hyi.trans hii); omega
        · omega
      · rw [if_neg hii, if_neg hii]
        obtain ⟨hj, u1, u2⟩ := h.tx i hi2
        refine ⟨hj, u1, ?_⟩
        rintro y (hy | rfl) hyi
        · exact u2 y hy hyi
        · exact absurd (hyi.symm.trans hxid) hii
    · simp only [Option.toList_some, List.mem_append, List.mem_singleton]
      rintro y (hy | rfl)
      · exact h.made y hy
      · exact ⟨by rw [hxid]; exact hid, hxm⟩
    · simp only [Option.toList_some]
      rw [List.pairwise_append]
      refine ⟨h.order, List.pairwise_singleton _ _, ?_⟩
      intro a ha b hb hab
      rw [List.mem_singleton] at hb
      subst hb
      have := t2 a ha (hab.trans hxid)
      omega
    · intro y hy
      exact List.mem_append_left _ (g2 y hy)

/-- However far a counter update gets, the association table's IDs stay. -/
theorem crash_rows {m : EE} {node new : Bytes} (h6 : new.length = 6) (k q : Nat) (hq : q < 8) :
    rowID (applyW m ((authAndUpdateRXMsgCtr node new m).2.take k)) q = rowID m q := by
  unfold authAndUpdateRXMsgCtr
  cases hl : getLastRXMsgCtr m node with
  | none => simp [applyW_nil]
  | some cur =>
    simp only
    by_cases hc : msgcountercmp new cur > 0
    case neg => rw [if_neg hc]; simp [applyW_nil]
    rw [if_pos hc]
    cases hj : getNextMatchingNodeID m 0 node with
    | none => simp [applyW_nil]
    | some j =>
      simp only
      have hconf := applyW_confined (m := m) (ws := (rowUpdate (assocRow j) new m).2.take k)
        (fun w hw => rowUpdate_confined (m := m) (r := assocRow j) h6 (List.mem_of_mem_take hw))
      exact (row_frame (m := m) (i := j) hconf).1 q hq

theorem inv_reach {pf : Bool} {e : EncFn} {key : Bytes} {ids : List Bytes} {s0 s : Chan} (hel : EncLen e) (hb : Begin ids s0) (hr : Reach pf e key ids s0 s) :
    ChanInv e key ids s0 s := by
  induction hr with
  | start =>
    refine ⟨fun _ _ => rfl, ?_, by rw [hb.sent]; simp, by rw [hb.sent]; simp, [], by rw [hb.got]; rfl, by simp, by simp, by simp⟩
    intro id hid
    obtain ⟨m, b, hm, hc⟩ := hb.tx id hid
    have hb' := bothCopies_iff.1 hc
    refine ⟨0, ?_, by rw [hb.sent]; simp⟩
    rw [hm]
    apply inv_weaken
    refine ⟨rfl, ?_⟩
    by_cases hf : b = [0xff, 0xff, 0xff]
    · left; simp only; rw [synced_read hb'.1 hb'.2, if_pos hf]
    · right; left
      exact ⟨rfl, b, read_bothCopies hc hf, fun _ => rfl, by omega, fun _ => hb'.2⟩
  | @plain s id a r r' hr hid ih =>
    apply inv_tx ih hid
    intro hi hti
    by_cases hc : a.scratch < 292 ∨ a.fType.toNat ≥ 127 ∨ a.fType.toNat = 0
    · left
      unfold sendPlain
      rw [if_pos hc, if_pos hc]
      exact ⟨rfl, hi, Nat.le_refl _, hti⟩
    · rw [if_neg hc]
      have hst : (sendPlain e key id (s.tx id) a r r').1 = ((s.tx id).step (.call r r')).1 := by
        unfold sendPlain; rw [if_neg hc]
      rw [hst]
      obtain ⟨c1, c2⟩ := inv_call hti r r'
      cases hx : (sendPlain e key id (s.tx id) a r r').2 with
      | none =>
        left
        cases hs : ((s.tx id).step (.call r r')).2 with
        | none => exact ⟨rfl, hi, Nat.le_refl _, c2 hs⟩
        | some c => obtain ⟨p1, p2⟩ := c1 c hs; exact ⟨rfl, beVal c + 1, by omega, p2⟩
      | some x =>
        right
        obtain ⟨_, q2, q3, q4⟩ := sendPlain_some (hb.len _ hid) hti.1 hx
        obtain ⟨p1, p2⟩ := c1 _ q2
        exact ⟨x, rfl, q3, q4, p1, p2⟩
  | @valve s id a r r' hr hid ih =>
    apply inv_tx ih hid
    intro hi hti
    by_cases hc : a.scratch < 284
    · left
      unfold sendValve
      rw [if_pos hc, if_pos hc]
      exact ⟨rfl, hi, Nat.le_refl _, hti⟩
    · rw [if_neg hc]
      have hst : (sendValve e key id (s.tx id) a r r').1 = ((s.tx id).step (.call r r')).1 := by
        unfold sendValve; rw [if_neg hc]
      rw [hst]
      obtain ⟨c1, c2⟩ := inv_call hti r r'
      cases hx : (sendValve e key id (s.tx id) a r r').2 with
      | none =>
        left
        cases hs : ((s.tx id).step (.call r r')).2 with
        | none => exact ⟨rfl, hi, Nat.le_refl _, c2 hs⟩
        | some c => obtain ⟨p1, p2⟩ := c1 c hs; exact ⟨rfl, beVal c + 1, by omega, p2⟩
      | some x =>
        right
        obtain ⟨_, q2, q3, q4⟩ := sendValve_some (hb.len _ hid) hti.1 hx
        obtain ⟨p1, p2⟩ := c1 _ q2
        exact ⟨x, rfl, q3, q4, p1, p2⟩
  | @restart s id hr hid ih =>
    have := inv_tx (d' := ((s.tx id).step .restart).1) (ok' := s.crashOK id) (out := none) ih hid
      (fun hi hti => Or.inl ⟨rfl, hi, Nat.le_refl _, inv_restart hti⟩)
    have hs : setAt s.crashOK id (s.crashOK id) = s.crashOK := by
      funext i; unfold setAt; split
      · rename_i hh; rw [hh]
      · rfl
    rw [hs] at this
    simpa using this
  | @crash s id r r' k hr hid hok ih =>
    have := inv_tx (d' := ((s.tx id).step (.crash r r' k)).1) (ok' := false) (out := none) ih hid
      (fun hi hti => Or.inl ⟨rfl, hi, Nat.le_refl _, inv_crash (hok ▸ hti) r r' k⟩)
    unfold Chan.crash; simpa using this
  | @deliver s frame scratch d hr hnf hgb ih =>
    obtain ⟨xs, g1, g2, g3, g4⟩ := ih.got
    have hrows : ∀ q, q < 8 → rowID (rx s.ee ⟨frame, true, scratch, d, some key⟩).2 q = rowID s0.ee q :=
      fun q hq => by rw [rx_ids _ _ q hq, ih.rows q hq]
    have hmono : ∀ x ∈ xs, ∃ c, getLastRXMsgCtr (rx s.ee ⟨frame, true, scratch, d, some key⟩).2 x.id = some c ∧ beVal x.ctr ≤ beVal c := by
      intro x hx
      obtain ⟨c, hc, hle⟩ := g4 x hx
      obtain ⟨c', hc', hle'⟩ := rx_monotone s.ee ⟨frame, true, scratch, d, some key⟩ x.id c (hb.len _ (ih.made x (g2 x hx)).1) hc
      exact ⟨c', hc', by omega⟩
    rcases rx_step s.ee ⟨frame, true, scratch, d, some key⟩ with ⟨n, body, node, h1, h8, _, h6, hau, hpost⟩ | ⟨h2, _⟩
    · obtain ⟨x, hx, e1, e2, e3, e4, e5⟩ := accepted_was_sent hel hnf hgb (fun y hy => ⟨hb.len _ (ih.made y hy).1, (ih.made y hy).2⟩) h1
      obtain ⟨_, _, ⟨q, hq, hqr⟩, _⟩ := rx_info h1
      have hxid : x.id = node := by
        rw [← hqr, ih.rows q hq]
        refine (hb.table q hq x.id (ih.made x hx).1 ?_).symm
        rw [← ih.rows q hq, hqr, e2]
      dsimp only at h6 hau hpost
      have hup := (C23_update_exact s.ee node (frameCtr frame) h8 h6).1 hau
      obtain ⟨⟨cur, hcur, hlt⟩, hnew, _⟩ := hup
      rw [← hpost] at hnew
      refine ⟨hrows, ih.tx, ih.made, ih.order, xs ++ [x], ?_, ?_, ?_, ?_⟩
      · unfold deliver
        dsimp only
        rw [h1]
        dsimp only
        rw [g1, List.map_append, List.map_singleton]
        unfold SentMsg.got
        rw [hxid, e1, e4, e5]
      · intro y hy
        rcases List.mem_append.mp hy with hy | hy
        · exact g2 y hy
        · rw [List.mem_singleton.mp hy]; exact hx
      · rw [List.pairwise_append]
        refine ⟨g3, List.pairwise_singleton _ _, ?_⟩
        intro a ha b hb' hab
        rw [List.mem_singleton.mp hb'] at hab ⊢
        obtain ⟨c, hc, hle⟩ := g4 a ha
        rw [hab, hxid, hcur] at hc
        rw [Option.some.injEq] at hc
        rw [← e3, ← hc] at *
        omega
      · intro y hy
        rcases List.mem_append.mp hy with hy | hy
        · exact hmono y hy
        · rw [List.mem_singleton.mp hy, hxid]
          exact ⟨_, hnew, by rw [e3]; omega⟩
    · refine ⟨hrows, ih.tx, ih.made, ih.order, xs, ?_, g2, g3, hmono⟩
      unfold deliver
      dsimp only
      rw [← g1]
      split
      · rename_i hh; exact absurd hh (h2 _)
      · rfl
  | @rxCrash s frame scratch d k _ hr hnf hgb hcr ih =>
    obtain ⟨xs, g1, g2, g3, g4⟩ := ih.got
    rcases rx_step s.ee ⟨frame, true, scratch, d, some key⟩ with ⟨n, body, node, h1, h8, _, h6, hau, hpost⟩ | ⟨h2, _⟩
    · dsimp only at h6 hau hpost
      obtain ⟨⟨c, hgood⟩, hsm⟩ := hcr n body node h1
      have hcrash : crashEE s.ee frame scratch d key k = applyW s.ee ((authAndUpdateRXMsgCtr node (frameCtr frame) s.ee).2.take k) := by
        unfold crashEE; rw [h1]
      have hrows : ∀ q, q < 8 → rowID (crashEE s.ee frame scratch d key k) q = rowID s.ee q := by
        rw [hcrash]; exact fun q hq => crash_rows h6 k q hq
      have hup := (C23_update_exact s.ee node (frameCtr frame) h8 h6).1 hau
      obtain ⟨⟨cur, hcur, hlt⟩, _, _⟩ := hup
      have hc24 := C24_rx_crash_partial s.ee node c cur (frameCtr frame) h8 h6 hgood hcur hsm k
      dsimp only at hc24
      rw [← hcrash] at hc24
      refine ⟨fun q hq => by rw [hrows q hq, ih.rows q hq], ih.tx, ih.made, ih.order, xs, g1, g2, g3, ?_⟩
      intro x hx
      obtain ⟨c', hc', hle⟩ := g4 x hx
      by_cases hxn : x.id = node
      · rw [hxn, hcur, Option.some.injEq] at hc'
        obtain ⟨q, hq, hle'⟩ := hc24.1
        exact ⟨q, by rw [hxn]; exact hq, by rw [hc'] at hle'; omega⟩
      · exact ⟨c', by show getLastRXMsgCtr (crashEE s.ee frame scratch d key k) x.id = _; rw [hc24.2 x.id (hb.len _ (ih.made x (g2 x hx)).1) hxn]; exact hc', hle⟩
    · have hcrash : crashEE s.ee frame scratch d key k = s.ee := by
        unfold crashEE
        split
        · rename_i hh; exact absurd hh (h2 _)
        · rfl
      exact ⟨fun q hq => by show rowID (crashEE s.ee frame scratch d key k) q = _; rw [hcrash, ih.rows q hq], ih.tx, ih.made, ih.order, xs, g1, g2, g3,
        fun x hx => by show ∃ c, getLastRXMsgCtr (crashEE s.ee frame scratch d key k) x.id = _ ∧ _; rw [hcrash]; exact g4 x hx⟩

/-- In lists strictly increasing in a key, being contained means being a subsequence. -/
theorem sublist_of_sorted {α : Type} (f : α → Nat) : ∀ (l2 l1 : List α), l1.Pairwise (fun a b => f a < f b) → l2.Pairwise (fun a b => f a < f b) →
    (∀ x ∈ l1, x ∈ l2) → l1.Sublist l2 := by
  intro l2
  induction l2 with
  | nil =>
    intro l1 _ _ h
    cases l1 with
    | nil => exact List.Sublist.slnil
    | cons a t => exact absurd (h a (by simp)) (by simp)
  | cons b t ih =>
    intro l1 h1 h2 h
    rw [List.pairwise_cons] at h2
    cases l1 with
    | nil => exact List.nil_sublist _
    | cons a u =>
      rw [List.pairwise_cons] at h1
      rcases List.mem_cons.mp (h a (by simp)) with rfl | ha
      · refine (ih u h1.2 h2.2 ?_).cons_cons _
        intro x hx
        rcases List.mem_cons.mp (h x (by simp [hx])) with rfl | hx'
        · have := h1.1 x hx; omega
        · exact hx'
      · refine (ih (a :: u) (List.pairwise_cons.mpr h1) h2.2 ?_).cons _
        intro x hx
        rcases List.mem_cons.mp hx with rfl | hx'
        · exact ha
        · rcases List.mem_cons.mp (h x hx) with rfl | hx''
          · have := h2.1 a ha
            have := h1.1 x hx'
            omega
          · exact hx''

/-! ## The properties -/

/-- **C175.** Whatever happens, what the receiver has accepted from a node is a subsequence of what that node has sent so far: nothing
invented, nothing altered, nothing twice, nothing out of order; and it accepts nothing in anybody else's name. -/
theorem C175_subsequence (pf : Bool) (e : EncFn) (hel : EncLen e) (key : Bytes) (ids : List Bytes) (s0 s : Chan) (hb : Begin ids s0) (hr : Reach pf e key ids s0 s) :
    (∀ id, ((s.got.filter (·.node = id)).map fun g => (g.fType, g.body, g.frame)).Sublist
      ((s.sent.filter (·.id = id)).map fun x => (x.fType.toNat, x.body, x.frame))) ∧
    ∀ g ∈ s.got, g.node ∈ ids := by
  have inv := inv_reach hel hb hr
  obtain ⟨xs, g1, g2, g3, g4⟩ := inv.got
  constructor
  · intro id
    have hsub : (xs.filter (·.id = id)).Sublist (s.sent.filter (·.id = id)) := by
      apply sublist_of_sorted (fun x => beVal x.ctr)
      · have := g3.filter (fun x => decide (x.id = id))
        refine this.imp_of_mem ?_
        intro a b ha hb h
        simp only [List.mem_filter, decide_eq_true_eq] at ha hb
        exact h (ha.2.trans hb.2.symm)
      · have := inv.order.filter (fun x => decide (x.id = id))
        refine this.imp_of_mem ?_
        intro a b ha hb h
        simp only [List.mem_filter, decide_eq_true_eq] at ha hb
        exact h (ha.2.trans hb.2.symm)
      · intro x hx
        simp only [List.mem_filter, decide_eq_true_eq] at hx ⊢
        exact ⟨g2 x hx.1, hx.2⟩
    have hm := hsub.map (fun x => (x.fType.toNat, x.body, x.frame))
    rw [g1, List.filter_map, List.map_map]
    exact hm
  · intro g hg
    rw [g1, List.mem_map] at hg
    obtain ⟨x, hx, rfl⟩ := hg
    exact (inv.made x (g2 x hx)).1

/-- **C176.** No two frames ever sent, by any of the transmitters and across any restarts and power failures, use the same IV (six ID bytes and
the counter) with the shared key. -/
theorem C176_iv_unique (pf : Bool) (e : EncFn) (hel : EncLen e) (key : Bytes) (ids : List Bytes) (s0 s : Chan) (hb : Begin ids s0) (hr : Reach pf e key ids s0 s) :
    s.sent.Pairwise fun a b => a.id.take 6 ++ a.ctr ≠ b.id.take 6 ++ b.ctr := by
  have inv := inv_reach hel hb hr
  refine inv.order.imp_of_mem ?_
  intro a b ha hb' h heq
  have la := hb.len _ (inv.made a ha).1
  have lb := hb.len _ (inv.made b hb').1
  obtain ⟨h1, h2⟩ := List.append_inj heq (by simp; omega)
  have := h (hb.distinct _ (inv.made a ha).1 _ (inv.made b hb').1 h1)
  rw [h2] at this
  omega

/-! ## Non-vacuity -/

/-- An ideal cipher for the null encryption: it accepts just what was sent. -/
def idealDec (sent : List SentMsg) : DecFn := fun _ iv aad ct tag =>
  if sent.any (fun s => iv.take 6 == s.id.take 6 && s.frame == aad ++ ct.getD [] ++ iv.drop 6 ++ tag ++ [0x80]) then some (ct.getD []) else none

theorem idealDec_noForgery (key : Bytes) (sent : List SentMsg) : NoForgery (idealDec sent) key sent := by
  intro iv aad ct tag p h
  unfold idealDec at h
  split at h
  · rename_i hh
    rw [List.any_eq_true] at hh
    obtain ⟨s, hs, hh⟩ := hh
    simp only [Bool.and_eq_true, beq_iff_eq] at hh
    exact ⟨s, hs, hh.1, hh.2⟩
  · simp at h

theorem idealDec_givesBack (sent : List SentMsg) : GivesBack nullEncChecked (idealDec sent) := by
  intro k iv aad pt ct tag dbuf he hd p hp
  subst hp
  unfold nullEncChecked nullEnc at he
  split at he
  · simp only [Option.getD_some, Option.some.injEq, Prod.mk.injEq] at he
    unfold idealDec at hd
    split at hd
    · simp only [Option.map_some, Option.getD_some, Option.some.injEq] at hd
      rw [← hd, he.1]
    · simp at hd
  · simp at he

def chKey : Bytes := List.replicate 16 7
def chStart : Chan := ⟨fun _ => ⟨exTx, .boot⟩, fun _ => true, exRx [], [], []⟩
def chArgs : PlainArgs := ⟨FTS_BasicSensorOrValve, some (List.replicate 32 0x41), 5, List.replicate 63 0, 4, 292⟩

/-- A transmitter sends, loses power, sends again; the second frame arrives first, then the first, then the second again. Only the second
is accepted, once. -/
def ch3 : Chan := ((chStart.plain nullEncChecked chKey exRxID chArgs [] [4, 5, 6]).crash exRxID [] [] 1).plain nullEncChecked chKey exRxID chArgs [] [7, 8, 9]
def chFrame (i : Nat) : Bytes := (ch3.sent[i]?.map (·.frame)).getD []
def ch4 : Chan := deliver ch3 (chFrame 1) 58 (idealDec ch3.sent) chKey
def ch5 : Chan := deliver ch4 (chFrame 0) 58 (idealDec ch4.sent) chKey
def ch6 : Chan := deliver ch5 (chFrame 1) 58 (idealDec ch5.sent) chKey

theorem chBegin : Begin [exRxID] chStart := by
  refine ⟨rfl, rfl, by decide, ?_, ?_, ?_⟩
  · intro a ha b hb _; rw [List.mem_singleton.mp ha, List.mem_singleton.mp hb]
  · intro id _
    exact ⟨exTx, [0, 1, 0xff], rfl, bothCopies_iff.2 ⟨rfl, synced_after_save _ _ rfl⟩⟩
  · intro q hq id hid
    rw [List.mem_singleton.mp hid]
    have h : ∀ q, q < 8 → (rowID chStart.ee q).take 6 = exRxID.take 6 → rowID chStart.ee q = exRxID := by decide +kernel
    exact h q hq

theorem chReach (pf : Bool) : Reach pf nullEncChecked chKey [exRxID] chStart ch6 := by
  have h1 := Reach.plain (pf := pf) (e := nullEncChecked) (key := chKey) (ids := [exRxID]) (s0 := chStart) (id := exRxID) chArgs [] [4, 5, 6] .start (by simp)
  have h2 := Reach.crash (id := exRxID) [] [] 1 h1 (by simp) (by decide +kernel)
  have h3 := Reach.plain (id := exRxID) chArgs [] [7, 8, 9] h2 (by simp)
  have h4 := Reach.deliver (chFrame 1) 58 (idealDec ch3.sent) h3 (idealDec_noForgery _ _) (idealDec_givesBack _)
  have h5 := Reach.deliver (chFrame 0) 58 (idealDec ch4.sent) h4 (idealDec_noForgery _ _) (idealDec_givesBack _)
  exact Reach.deliver (chFrame 1) 58 (idealDec ch5.sent) h5 (idealDec_noForgery _ _) (idealDec_givesBack _)

example : ch6.sent.length = 2 ∧ ch6.got.map (fun g => (g.node, g.fType, g.body)) = [(exRxID, 79, [0x41, 0x41, 0x41, 0x41, 0x41])] := by
  decide +kernel

/-- The receiver loses power while it handles the first frame, after one byte write; after that the second is accepted, and then nothing. -/
def chCrashed : Chan := { ch3 with ee := crashEE ch3.ee (chFrame 0) 58 (idealDec ch3.sent) chKey 1 }
def ch7 : Chan := deliver chCrashed (chFrame 1) 58 (idealDec chCrashed.sent) chKey
def ch8 : Chan := deliver ch7 (chFrame 0) 58 (idealDec ch7.sent) chKey

theorem chCrash_ok : CrashOK ch3.ee (chFrame 0) 58 (idealDec ch3.sent) chKey := by
  intro n body node h
  have h1 : (match (rx ch3.ee ⟨chFrame 0, true, 58, idealDec ch3.sent, some chKey⟩).1 with | .ok (_, _, node) => decide (node = exRxID) | _ => true) = true := by
    decide +kernel
  rw [h] at h1
  simp only [decide_eq_true_eq] at h1
  refine ⟨⟨[0, 0, 0, 0, 0, 0], ?_⟩, by decide +kernel⟩
  rw [h1]
  exact exRx_good

theorem chReach8 : Reach true nullEncChecked chKey [exRxID] chStart ch8 := by
  have h1 := Reach.plain (pf := true) (e := nullEncChecked) (key := chKey) (ids := [exRxID]) (s0 := chStart) (id := exRxID) chArgs [] [4, 5, 6] .start (by simp)
  have h2 := Reach.crash (id := exRxID) [] [] 1 h1 (by simp) (by decide +kernel)
  have h3 := Reach.plain (id := exRxID) chArgs [] [7, 8, 9] h2 (by simp)
  have h4 := Reach.rxCrash (chFrame 0) 58 (idealDec ch3.sent) 1 rfl h3 (idealDec_noForgery _ _) (idealDec_givesBack _) chCrash_ok
  have h5 := Reach.deliver (chFrame 1) 58 (idealDec chCrashed.sent) h4 (idealDec_noForgery _ _) (idealDec_givesBack _)
  exact Reach.deliver (chFrame 0) 58 (idealDec ch7.sent) h5 (idealDec_noForgery _ _) (idealDec_givesBack _)

example : (authAndUpdateRXMsgCtr exRxID (frameCtr (chFrame 0)) ch3.ee).2.length = 12 ∧ ch8.got.map (fun g => (g.node, g.fType)) = [(exRxID, 79)] := by
  decide +kernel

end OTR.Props
