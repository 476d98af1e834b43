import Verif.Props.EndToEnd
import Verif.Props.JSONStats
/-!
# From a room's sensors to the hub's log

The JSON object a sensor node writes (`SimpleStatsRotation::writeJSON`), sent in the body of a valve frame (`encodeValveFrame`), carried by the
secure channel of C175/C177 and printed by the hub (`serialFrameOperation`): what a reader of the hub's serial line gets.
-/

namespace OTR.Props
open OTR.Spec

/-- The lines printed. -/
def linesOf (es : List Eff) : List Bytes := es.filterMap fun | .serial l => some l | _ => none

/-- What the hub does with a message that is sent, fresh and arrives intact (as in C184), in terms of what was sent. -/
theorem heard_effects {tpm minOn : Nat} (ht : tpm = 30 ∨ tpm = 60) (hm : minOn ≤ 255) {e : EncFn} (hel : EncLen e) {key : Bytes}
    {ids : List Bytes} {h0 h : House} (hb : HBegin ids h0) (hr : HReach false tpm minOn e key ids h0 h)
    {before after : List SentMsg} {x : SentMsg} (hsent : h.chan.sent = before ++ x :: after)
    (hfresh : ∀ y ∈ x :: after, y.id = x.id → ∀ g ∈ h.chan.got, g.node = x.id → g.frame ≠ y.frame)
    (hO : x.fType = FTS_BasicSensorOrValve) (hne : x.body ≠ [])
    {c0 cur0 : Bytes} (hgood : BothGood h0.chan.ee x.id c0) (hcur : getLastRXMsgCtr h0.chan.ee x.id = some cur0) (hlt : beVal cur0 < beVal x.ctr)
    (hfind : (getNextMatchingNodeID h0.chan.ee 0 (x.id.take ((x.frame[2]?.getD 0).toNat % 16))).map (rowID h0.chan.ee) = some x.id)
    (hsmall0 : beVal c0 + 255 < 2 ^ 40) (hsmall : beVal x.ctr + 255 < 2 ^ 40)
    {c : HCfg} (hacc : Accepts e c.dec key x) (hkey : c.key = some key) (hscr : 74 ≤ c.scratch) (hst : 31 ≤ c.stack.length) :
    (handleRaw h.chan.ee c (x.frame.drop 1)).2.2 = want c.o1 x.body x.id (x.frame.drop 1) ++ want c.o2 x.body x.id (x.frame.drop 1) ∧
      (x.frame[2]?.getD 0).toNat / 16 = beVal x.ctr % 16 := by
  have inv := hinv (by omega) hm hel hb hr
  have cinv := inv_reach hel hb.chan inv.reach
  have hxs : x ∈ h.chan.sent := by rw [hsent]; simp
  obtain ⟨hxid, hxm⟩ := cinv.made x hxs
  have hfr := framed_frame hel hxm
  have hdel := C177_delivered e hel key ids h0.chan h.chan hb.chan inv.reach before after x hsent hfresh c0 cur0 hgood hcur hlt hfind hsmall0 hsmall
    c.dec hacc (c.scratch - 16) (by omega) []
  rw [List.append_nil] at hdel
  obtain ⟨hctr, ptext, ptextLen, outbuf, idp, il, n', hh, out, hraw, hbody, hframe, _⟩ := hxm
  obtain ⟨k, hb', ct, tag, hiv, hkk, h31, heh, hhl, h4, hfl, hbl, hmax, hltb, hn, hpb, hciph, htag, hct, hout⟩ := encodeRaw_ok hel hraw
  have hlen : x.frame.length ≤ 64 := by
    rw [hframe, List.length_take]; omega
  have hrx : ∃ n, (hubRx h.chan.ee c (x.frame.drop 1)).1 = .ok (n, x.body, x.id) ∧ (x.frame[1]?.getD 0).toNat % 128 = x.fType.toNat := by
    unfold hubRx
    rw [hfr, hkey]
    unfold deliver at hdel
    dsimp only at hdel
    generalize (rx h.chan.ee ⟨x.frame, true, c.scratch - 16, c.dec, some key⟩).1 = R at hdel ⊢
    cases R with
    | fail => have := congrArg List.length hdel; simp at this
    | ub => have := congrArg List.length hdel; simp at this
    | ok r =>
      obtain ⟨n, body, node⟩ := r
      have := List.append_cancel_left hdel
      simp only [List.cons.injEq, GotMsg.mk.injEq, and_true] at this
      exact ⟨n, by rw [this.2.2.1, this.1], this.2.1⟩
  obtain ⟨n, hrx, htype⟩ := hrx
  obtain ⟨idb, t1, t2, hil8, hidc, hbuf, tl1, tl2, hfl2, hh', hhb⟩ := encodeHeader_ok.mp heh
  have hf1 : x.frame[1]? = some (typeByte true x.fType) := by
    rw [hframe, hout, hhb, List.getElem?_take_of_lt (by omega)]
    simp
  have hf2 : x.frame[2]? = some (seqIlByte ((x.id.take 6 ++ x.ctr)[11] &&& 0xf) il) := by
    rw [hframe, hout, hhb, List.getElem?_take_of_lt (by omega)]
    simp
  have hty : (x.frame.drop 1)[0]? = some 0xcf := by
    rw [List.getElem?_drop, hf1]
    have := typeByte_toNat true x.fType t2
    rw [if_pos rfl, hO] at this
    have h79 : (FTS_BasicSensorOrValve : Byte).toNat = 79 := rfl
    rw [h79] at this
    congr 1
    apply UInt8.toNat_inj.mp
    show _ = 207
    rw [hO]
    omega
  refine ⟨?_, ?_⟩
  · rw [(C76_actions_partial h.chan.ee c (x.frame.drop 1) (by rw [List.length_drop]; omega) hst).2 n x.body x.id hty hrx (.inl hne)]
  · rw [hf2, Option.getD_some]
    have h12 : 12 ≤ (x.id.take 6 ++ x.ctr).length := hiv
    have h6 : (x.id.take 6).length = 6 := by
      rw [List.length_append, hctr] at h12
      have : (x.id.take 6).length ≤ 6 := by rw [List.length_take]; omega
      omega
    have hlast : (x.id.take 6 ++ x.ctr)[11] = x.ctr[5] := by
      rw [List.getElem_append_right (by omega)]
      congr 1
      omega
    rw [hlast]
    have hsq : ∀ (b i : Byte), i.toNat ≤ 8 → (seqIlByte (b &&& 0xf) i).toNat / 16 = b.toNat % 16 := by
      intro b i hi
      have : ∀ i : Fin 9, ∀ b : Byte, (seqIlByte (b &&& 0xf) (u8 i.val)).toNat / 16 = b.toNat % 16 := by
        intro i
        apply forall_byte
        revert i
        decide +kernel
      have := this ⟨i.toNat, by omega⟩ b
      have e : u8 i.toNat = i := by simp [u8]
      rw [← e]; exact this
    rw [hsq _ _ hil8]
    have hv : ∀ (t : Bytes) (h6 : t.length = 6), t[5].toNat % 16 = beVal t % 16 := by
      intro t h6
      match t, h6 with
      | [a, b, c, d, e, f], _ =>
        rw [beVal6]
        show f.toNat % 16 = _
        omega
    exact hv x.ctr hctr

/-- The sequence number is printed as a decimal number. -/
theorem printSeq_dec : ∀ n < 16, printSeq n = decInt (n : Nat) := by decide +kernel

theorem joinC_cons_cons (a : Bytes) (l : List Bytes) (h : l ≠ []) : joinC (a :: l) = a ++ [0x2c] ++ joinC l := by
  cases l with
  | nil => exact absurd rfl h
  | cons b t => simp [joinC]

/-- The line printed for a body carrying the entries `es`. -/
theorem line_text (node : Bytes) (seq : Nat) (hs : seq < 16) (es : List (Bytes × JVal)) (hne : es ≠ []) (body : Bytes)
    (hb : body.drop 3 = joinC (es.map entryText)) :
    jsonLine node seq body = [0x7b] ++ joinC ((([0x40], .str (node.flatMap printHex)) :: ([0x2b], .num (seq : Nat)) :: es).map entryText) ++ [0x7d] ++ [0x0d, 0x0a] := by
  unfold jsonLine
  rw [hb, printSeq_dec seq hs, List.map_cons, List.map_cons, joinC_cons_cons _ _ (by simp), joinC_cons_cons _ _ (by simpa using hne)]
  have e1 : ascii "{\"@\":\"" = [0x7b, 0x22, 0x40, 0x22, 0x3a, 0x22] := by decide
  have e2 : ascii "\",\"+\":" = [0x22, 0x2c, 0x22, 0x2b, 0x22, 0x3a] := by decide
  have e3 : ascii "," = [0x2c] := by decide
  have e4 : ascii "}\r\n" = [0x7d, 0x0d, 0x0a] := by decide
  rw [e1, e2, e3, e4]
  simp [entryText]

theorem hex_clean (node : Bytes) : (0x22 : Byte) ∉ node.flatMap printHex := by
  intro h
  rw [List.mem_flatMap] at h
  obtain ⟨b, _, hb⟩ := h
  have : ∀ b : Byte, (0x22 : Byte) ∉ printHex b := by
    apply forall_byte
    decide +kernel
  exact this b hb

/-- The stats object is what the application left from offset 2 of the body buffer: the body of the frame is the percentage, the flag and the
text without its closing brace. -/
theorem json_body {s : StatSet} (h : TabOK s) {sys mem : Bytes} (hs : validKey sys = true) {bufSize : Nat} {mx sup : Bool}
    (hm : bufSize ≤ mem.length) (hlead : idEntry s sys ++ countEntry s ≠ [] ∨ AllFit s sys bufSize) {r : Nat}
    (hr : (writeJSON s sys mem bufSize mx sup).1 = r) (h0 : r ≠ 0) (p0 p1 pc : Byte) :
    ∃ P : List Nat, (∀ i ∈ P, i < s.stats.length) ∧
      (writeJSON s sys mem bufSize mx sup).2.2.mem.take r =
        [0x7b] ++ joinC ((idEntry s sys ++ countEntry s ++ P.map (fun i => statEntry (statAt s.stats i))).map entryText) ++ [0x7d] ∧
      valveMsg (p0 :: p1 :: (writeJSON s sys mem bufSize mx sup).2.2.mem) pc =
        [if pc.toNat ≤ 100 then pc else 0x7f, 0x10, 0x7b] ++ joinC ((idEntry s sys ++ countEntry s ++ P.map (fun i => statEntry (statAt s.stats i))).map entryText) := by
  obtain ⟨f1, f2, body, f3, f4⟩ := C64_framing s h sys mem bufSize mx sup hm r hr h0
  obtain ⟨r', s', b, he⟩ : ∃ r s' b, writeJSON s sys mem bufSize mx sup = (r, s', b) := ⟨_, _, _, rfl⟩
  rw [he] at hr f2 f3 ⊢; dsimp only at hr f2 f3 ⊢; subst hr
  obtain ⟨P, n1, n2, t, _⟩ := write_text s h sys mem bufSize mx sup hm hlead r' s' b he h0
  refine ⟨P, n2, t, ?_⟩
  have hbody : body = joinC ((idEntry s sys ++ countEntry s ++ P.map (fun i => statEntry (statAt s.stats i))).map entryText) := by
    rw [t] at f3
    simpa using f3.symm
  rw [← hbody]
  have hnz : ∀ c ∈ body, c ≠ 0 := by
    intro c hc hz
    rw [hbody] at hc
    have hp : 32 ≤ c.toNat := by
      rcases joinC_mem _ c hc with rfl | ⟨f, hf, hcf⟩
      · decide
      · rw [List.mem_map] at hf
        obtain ⟨e, hem, rfl⟩ := hf
        refine (text_printable e ?_ c hcf).1
        simp only [List.mem_append] at hem
        rcases hem with (hem | hem) | hem
        · unfold idEntry at hem
          split at hem
          · simp at hem; subst hem; exact ⟨by decide, hs⟩
          · simp at hem
          · rename_i i _ hi
            simp at hem; subst hem; exact ⟨by decide, h.id _ hi⟩
        · unfold countEntry at hem
          split at hem
          · simp at hem; subst hem; show validKey [0x2b] = true; decide
          · simp at hem
        · rw [List.mem_map] at hem
          obtain ⟨i, hi, rfl⟩ := hem
          exact h.valid _ (statAt_mem _ i (n2 i hi))
    rw [hz] at hp
    exact absurd hp (by decide)
  have hlt : r' < b.mem.length := by
    rw [List.getElem?_eq_some_iff] at f2; exact f2.1
  have hmem : b.mem = 0x7b :: (body ++ 0x7d :: 0 :: b.mem.drop (r' + 1)) := by
    have h1 := List.take_append_drop r' b.mem
    have h2 : b.mem.drop r' = 0 :: b.mem.drop (r' + 1) := by
      rw [List.drop_eq_getElem_cons hlt]
      rw [List.getElem?_eq_some_iff] at f2
      rw [f2.2]
    rw [h2, f3] at h1
    generalize b.mem.drop (r' + 1) = q at h1 ⊢
    rw [← h1]
    simp
  have hw : (b.mem).takeWhile (· ≠ 0) = 0x7b :: (body ++ [0x7d]) := by
    rw [hmem, List.takeWhile_cons_of_pos (by decide), List.takeWhile_append_of_pos (fun c hc => by simpa using hnz c hc),
      List.takeWhile_cons_of_pos (by decide), List.takeWhile_cons_of_neg (by decide)]
  have h2 : (p0 :: p1 :: b.mem)[2]? = some 0x7b := by
    show b.mem[0]? = _
    rw [hmem]; rfl
  unfold valveMsg
  rw [if_pos h2, if_pos h2]
  show _ ++ ((b.mem).takeWhile (· ≠ 0)).dropLast = _
  rw [hw, ← List.cons_append, List.dropLast_concat]
  rfl

/-- **C192.** What a room measures is what the hub logs. A node writes its stats (any of them, any values) as a JSON object into the body
buffer from its third byte, and sends a valve frame. If the message arrives intact and fresh at the hub (as in C184/C177), whatever happened before, then the hub prints exactly
one line: a JSON object whose entries, as read by the independent reader, are `"@"` with the ID of that node in hexadecimal, `"+"` with the low
four bits of the message counter, and then exactly the entries of the object the node wrote, with their values; or nothing if the node's object was empty. -/
theorem C192_stats_logged (tpm minOn : Nat) (ht : tpm = 30 ∨ tpm = 60) (hm : minOn ≤ 255) (e : EncFn) (hel : EncLen e) (key : Bytes)
    (ids : List Bytes) (h0 h1 h : House) (hb : HBegin ids h0) (hr : HReach false tpm minOn e key ids h0 h1)
    -- the stats, and the text written into the buffer
    (s : StatSet) (hs : TabOK s) (sys mem : Bytes) (hsys : validKey sys = true) (bufSize : Nat) (mx sup : Bool)
    (hmem : bufSize ≤ mem.length) (hlead : idEntry s sys ++ countEntry s ≠ [] ∨ AllFit s sys bufSize) (r : Nat)
    (hw : (writeJSON s sys mem bufSize mx sup).1 = r) (hr0 : r ≠ 0)
    -- the node sends it
    (id : Bytes) (hid : id ∈ ids) (a : ValveArgs) (rnd rnd' : Bytes) (p0 p1 : Byte) (ha : a.ptext = p0 :: p1 :: (writeJSON s sys mem bufSize mx sup).2.2.mem)
    (x : SentMsg) (hx : (h1.chan.valve e key id a rnd rnd').sent = h1.chan.sent ++ [x])
    -- whatever happens next
    (hr' : HReach false tpm minOn e key ids { h1 with chan := h1.chan.valve e key id a rnd rnd' } h)
    (after : List SentMsg) (hsent : h.chan.sent = h1.chan.sent ++ x :: after)
    -- it arrives at the hub
    (hfresh : ∀ y ∈ x :: after, y.id = x.id → ∀ g ∈ h.chan.got, g.node = x.id → g.frame ≠ y.frame)
    (c0 cur0 : Bytes) (hgood : BothGood h0.chan.ee x.id c0) (hcur : getLastRXMsgCtr h0.chan.ee x.id = some cur0) (hlt : beVal cur0 < beVal x.ctr)
    (hfind : (getNextMatchingNodeID h0.chan.ee 0 (x.id.take ((x.frame[2]?.getD 0).toNat % 16))).map (rowID h0.chan.ee) = some x.id)
    (hsmall0 : beVal c0 + 255 < 2 ^ 40) (hsmall : beVal x.ctr + 255 < 2 ^ 40)
    (c : HCfg) (hacc : Accepts e c.dec key x) (hkey : c.key = some key) (hscr : 74 ≤ c.scratch) (hst : 31 ≤ c.stack.length)
    (hop : (c.o1 = .serial ∧ c.o2 ≠ .serial) ∨ (c.o1 ≠ .serial ∧ c.o2 = .serial)) (minute : Nat) :
    x.id = id ∧ ∃ effs es, (h.hear key c minute (x.frame.drop 1)).log = h.log ++ [.handled effs] ∧
      readObj ((writeJSON s sys mem bufSize mx sup).2.2.mem.take r) = some es ∧
      (es = [] → linesOf effs = []) ∧
      (es ≠ [] → ∃ json, linesOf effs = [json ++ [0x0d, 0x0a]] ∧
        readObj json = some (([0x40], .str (id.flatMap printHex)) :: ([0x2b], .num (beVal x.ctr % 16 : Nat)) :: es)) := by
  have hx' : (sendValve e key id (h1.chan.tx id) a rnd rnd').2 = some x := by
    have := List.append_cancel_left (show h1.chan.sent ++ (sendValve e key id (h1.chan.tx id) a rnd rnd').2.toList = _ from hx)
    generalize (sendValve e key id (h1.chan.tx id) a rnd rnd').2 = o at this ⊢
    cases o with
    | none => cases this
    | some y => cases this; rfl
  have hxx : x.id = id ∧ x.fType = FTS_BasicSensorOrValve ∧ x.body = valveMsg a.ptext a.valvePC := by
    unfold sendValve at hx'
    split at hx'
    · simp at hx'
    · dsimp only at hx'
      split at hx'
      · simp only [Option.some.injEq] at hx'
        subst hx'
        exact ⟨rfl, rfl, rfl⟩
      · simp at hx'
  obtain ⟨hxi, hO, hbody⟩ := hxx
  obtain ⟨P, n2, ht', hvm⟩ := json_body hs hsys (mx := mx) (sup := sup) hmem hlead hw hr0 p0 p1 a.valvePC
  rw [ha, hvm] at hbody
  have hcl := clean_all s hs sys (by
    intro hc
    unfold validKey at hsys
    rw [List.all_eq_true] at hsys
    have := hsys _ hc
    revert this; decide) P n2
  rw [ht']
  generalize hes : idEntry s sys ++ countEntry s ++ P.map (fun i => statEntry (statAt s.stats i)) = es at hbody hcl
  have hreach : HReach false tpm minOn e key ids h0 h := (HReach.valve a rnd rnd' hr hid).trans hr'
  obtain ⟨heff, hseq⟩ := heard_effects ht hm hel hb hreach hsent hfresh hO (by rw [hbody]; simp) hgood hcur hlt hfind hsmall0 hsmall hacc hkey hscr hst
  have hnos : ∀ op : FrameOp, op ≠ .serial → linesOf (want op x.body x.id (x.frame.drop 1)) = [] := by
    intro op hop
    cases op with
    | null => rfl
    | serial => exact absurd rfl hop
    | relay => simp only [want]; split <;> rfl
    | boiler =>
      simp only [want]
      split
      · rfl
      · split <;> rfl
  have hlines : linesOf (handleRaw h.chan.ee c (x.frame.drop 1)).2.2 = linesOf (want .serial x.body x.id (x.frame.drop 1)) := by
    rw [heff]
    unfold linesOf
    rw [List.filterMap_append]
    show linesOf _ ++ linesOf _ = linesOf _
    rcases hop with ⟨o1, o2⟩ | ⟨o1, o2⟩
    · rw [hnos _ o2, o1, List.append_nil]
    · rw [hnos _ o1, o2, List.nil_append]
  refine ⟨hxi, _, es, rfl, readObj_text es hcl, ?_, ?_⟩
  · intro he
    show linesOf _ = []
    rw [hlines]
    simp only [want]
    rw [if_neg]
    · rfl
    · intro hc
      have := hc.1
      rw [hbody, he] at this
      simp [joinC] at this
  · intro he
    have hcj : CarriesJSON x.body := by
      rw [hbody]
      refine ⟨?_, by simp, by simp⟩
      cases es with
      | nil => exact absurd rfl he
      | cons y t => obtain ⟨k, v⟩ := y; cases v <;> simp [joinC, entryText]
    refine ⟨_, ?_, readObj_text (([0x40], .str (id.flatMap printHex)) :: ([0x2b], .num (beVal x.ctr % 16 : Nat)) :: es) ?_⟩
    · show linesOf _ = _
      rw [hlines]
      simp only [want]
      rw [if_pos hcj, List.getElem?_drop, hseq, hxi, line_text id (beVal x.ctr % 16) (by omega) es he x.body (by rw [hbody]; rfl)]
      rfl
    · intro y hy
      rcases List.mem_cons.1 hy with rfl | hy
      · exact ⟨by decide, hex_clean id⟩
      rcases List.mem_cons.1 hy with rfl | hy
      · show (0x22 : Byte) ∉ _
        decide
      · exact hcl y hy

/-! ## Non-vacuity: a node at 18.75C reports its temperature and light -/

def exStats : StatSet := [JOp.setID [], .put (ascii "T|C16") 300 false, .put (ascii "L") 97 false].foldl JOp.run { cap := 2 }
def exBuf : Bytes := List.replicate 30 0
def exText : Bytes := (writeJSON exStats [] exBuf 30 true false).2.2.mem
def exStatArgs : ValveArgs := ⟨0 :: 0 :: exText, List.replicate 63 0, 4, 80, 284⟩
def exStatSent : House := { exHouse1 with chan := exHouse1.chan.valve nullEncChecked chKey exRxID exStatArgs [] [4, 5, 6] }
def exLogCfg : HCfg := { hsCfg exStatSent with o1 := .boiler, o2 := .serial }
def exLogged : House := exStatSent.hear chKey exLogCfg 20 (exMsgOf exStatSent)

theorem exStats_ok : TabOK exStats ∧ AllFit exStats [] 30 ∧ (writeJSON exStats [] exBuf 30 true false).1 = 20 ∧
    exText.take 20 = ascii "{\"T|C16\":300,\"L\":97}" := by
  refine ⟨⟨by decide +kernel, by decide +kernel, by decide +kernel, by decide +kernel, by decide +kernel, ?_, by decide +kernel⟩, ?_, by decide +kernel, by decide +kernel⟩
  · intro i hi
    have : exStats.id = some [] := by decide +kernel
    rw [this] at hi
    cases hi
    rfl
  · unfold AllFit
    decide +kernel

/-- The hub prints the line, and acts on the call for heat. -/
example : exLogged.log = exHouse1.log ++ [.handled [.heat 80, .serial (ascii "{\"@\":\"8081828384858687\",\"+\":7,\"T|C16\":300,\"L\":97}\r\n")]] ∧
    exStatSent.chan.sent.length = 1 ∧ exStatSent.chan.got = [] := by
  decide +kernel

end OTR.Props
