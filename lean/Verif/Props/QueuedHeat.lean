import Verif.Props.QueuedHouse
/-!
# C215: a request for heat that waits in the hub's queue is served

The house of C209: what the radio receives waits in the hub's receive queue until the main loop takes it off.
-/

namespace OTR.Props
open OTR

/-! ## Proofs -/

/-- What happens without a restart is seen without one. -/
theorem no_restart_seen {ok : HCfg → Prop} {mf cap : Nat} {pf : Bool} {tpm minOn : Nat} {e : EncFn} {key : Bytes} {ids : List Bytes} {s0 s : QHouse}
    (hr : QReach ok mf cap pf tpm minOn e key ids s0 s) : ∃ l, s.house.log = s0.house.log ++ l ∧ (s.restarts = s0.restarts → HubObs.restart ∉ l) := by
  induction hr with
  | start => exact ⟨[], by simp, fun _ => by simp⟩
  | valve _ _ _ _ _ ih => exact ih
  | plain _ _ _ _ _ _ ih => exact ih
  | restart _ _ ih => exact ih
  | crash _ _ _ _ _ _ ih => exact ih
  | rx _ _ _ _ _ _ ih => exact ih
  | @call s i o c minute _ _ _ _ _ _ _ _ _ _ ih =>
    obtain ⟨l, h1, h2⟩ := ih
    cases hm : o.msg with
    | none => exact ⟨l, by rw [← h1]; simp only [QHouse.called, hm], h2⟩
    | some m =>
      refine ⟨l ++ [.handled (handleRaw s.house.chan.ee c m.1).2.2], ?_, fun h => ?_⟩
      · rw [← List.append_assoc, ← h1]
        simp only [QHouse.called, hm]
        rfl
      · have := h2 h
        simp [this]
  | hubRestart junk ht ih =>
    obtain ⟨l, h1, _⟩ := ih
    have := restarts_mono ht
    refine ⟨l ++ [.restart], by rw [← List.append_assoc, ← h1]; rfl, fun h => ?_⟩
    have h : _ + 1 = _ := h
    omega
  | lose c i o m k junk _ ht _ _ _ _ _ _ _ _ _ ih =>
    obtain ⟨l, h1, _⟩ := ih
    have := restarts_mono ht
    refine ⟨l ++ [.restart], by rw [← List.append_assoc, ← h1]; rfl, fun h => ?_⟩
    have h : _ + 1 = _ := h
    omega
  | @tick s s0' _ ih =>
    obtain ⟨l, h1, h2⟩ := ih
    refine ⟨l ++ [.tick s0' (s.house.boiler.process tpm minOn s0' true).pin], by rw [← List.append_assoc, ← h1]; rfl, fun h => ?_⟩
    have := h2 h
    simp [this]

/-- A boiler that has been off for long enough stays so, or comes on and is on until its time is over. -/
theorem ready_kept {pf : Bool} {tpm minOn : Nat} (ht : tpm ≤ 60) (hm : minOn ≤ 255) {e : EncFn} {key : Bytes} {ids : List Bytes} {h0 h : House} (hb : BInv tpm minOn h0.boiler)
    (hready : min 254 minOn < h0.boiler.noCallM) (hoff : h0.boiler.isOn = false) (hr : HReach pf tpm minOn e key ids h0 h) :
    BInv tpm minOn h.boiler ∧ ∀ l, h.log = h0.log ++ l → HubObs.restart ∉ l →
      (h.boiler.isOn = false ∧ min 254 minOn < h.boiler.noCallM) ∨ minOn * tpm ≤ h.boiler.ticks + ticksSeen l := by
  induction hr with
  | start => exact ⟨hb, fun l hl _ => .inl ⟨hoff, hready⟩⟩
  | valve a r r' _ hid ih => exact ih
  | plain a r r' _ hid hne ih => exact ih
  | restart _ hid ih => exact ih
  | crash r r' k _ hid hc ih => exact ih
  | @hear h c minute msg hr hml hst hk hnf hgb ih =>
    obtain ⟨cl, happ, hcl⟩ := apply_call minute (handleRaw h.chan.ee c msg).2.2 h.boiler
    have hbo : (h.hear key c minute msg).boiler = { h.boiler with call := cl } := happ
    have hlog : (h.hear key c minute msg).log = h.log ++ [.handled (handleRaw h.chan.ee c msg).2.2] := rfl
    obtain ⟨l', hl'⟩ := log_grows hr
    refine ⟨by rw [hbo]; exact ih.1, fun l hl hnr => ?_⟩
    rw [hlog, hl', List.append_assoc] at hl
    have := List.append_cancel_left hl
    subst this
    have hts : ticksSeen (l' ++ [.handled (handleRaw h.chan.ee c msg).2.2]) = ticksSeen l' := by simp [ticksSeen, List.countP_append]
    rw [hbo, hts]
    exact ih.2 l' hl' (fun h => hnr (List.mem_append_left _ h))
  | @hubRestart h hr ih =>
    obtain ⟨l', hl'⟩ := log_grows hr
    refine ⟨BInv.init, fun l hl hnr => ?_⟩
    rw [show h.restart.log = h.log ++ [.restart] from rfl, hl', List.append_assoc] at hl
    have := List.append_cancel_left hl
    subst this
    exact absurd (by simp) hnr
  | @lose h c msg k hpf hr _ _ _ _ ih =>
    obtain ⟨l', hl'⟩ := log_grows hr
    refine ⟨BInv.init, fun l hl hnr => ?_⟩
    rw [show (h.lose key c msg k).log = h.log ++ [.restart] from rfl, hl', List.append_assoc] at hl
    have := List.append_cancel_left hl
    subst this
    exact absurd (by simp) hnr
  | @tick h s0 hr ih =>
    have hbi := ih.1.step ht hm (.tick s0 true) (by intro _ _ h; simp only [BEv.tick.injEq] at h; exact h.2.symm)
    have hlog : (h.tick tpm minOn s0).log = h.log ++ [.tick s0 (h.boiler.process tpm minOn s0 true).pin] := rfl
    have hbo : (h.tick tpm minOn s0).boiler = h.boiler.process tpm minOn s0 true := rfl
    obtain ⟨l', hl'⟩ := log_grows hr
    refine ⟨hbi, fun l hl hnr => ?_⟩
    rw [hlog, hl', List.append_assoc] at hl
    have := List.append_cancel_left hl
    subst this
    rw [hbo]
    have hih := ih.2 l' hl' (fun h => hnr (List.mem_append_left _ h))
    have hadd : ticksSeen (l' ++ [.tick s0 (h.boiler.process tpm minOn s0 true).pin]) = ticksSeen l' + 1 := by
      simp [ticksSeen, List.countP_append]
    rw [hadd]
    have hle := ih.1.2.1
    rcases Boiler.tick_cases ht hm h.boiler s0 with ⟨h1, _, h2, e⟩ | ⟨h1, on, e⟩ | ⟨off, hof, e⟩ | ⟨_, hz, e⟩ | e
    · right; rw [e]; dsimp only
      omega
    · rcases hih with ⟨h3, _⟩ | h3
      · rw [h3] at on; cases on
      · right; rw [e]; dsimp only
        omega
    · rcases hih with ⟨_, h3⟩ | h3
      · left
        rw [e]; dsimp only [Boiler.isOn]
        refine ⟨rfl, ?_⟩
        omega
      · have : h.boiler.ticks = 0 := by simpa [Boiler.isOn] using off
        right; rw [e]; dsimp only; omega
    · right; omega
    · have := ih.1.2.2.2; omega

theorem Laid_le {lui mf : Nat} {b : Nat → Byte} : ∀ {i : Nat} {fs : List Bytes}, Laid lui mf b i fs → ∀ f ∈ fs, f.length ≤ mf
  | _, [], _, _, h => by cases h
  | _, _ :: _, h, f, hf => by
    obtain ⟨_, _, h3, _, _, h6⟩ := h
    rcases List.mem_cons.1 hf with rfl | hf
    · exact h3
    · exact Laid_le h6 f hf

theorem waiting_len {q : VQ} {mf : Nat} {fs : List Bytes} (h : QHolds q mf fs) (f : Bytes) (hf : f ∈ fs) : f.length ≤ 255 := by
  have h1 := qh_mf h
  have : f.length ≤ q.mf := by
    obtain ⟨_, _, hl | ⟨A, B, e, hne, _, h2, h3, _⟩⟩ := h.1
    · exact Laid_le hl.2.2 f hf
    · rw [e] at hf
      rcases List.mem_append.1 hf with hf | hf
      · exact Laid_le h2 f hf
      · exact Laid_le h3 f hf
  rw [h.2] at this
  omega

theorem made_len {e : EncFn} (hel : EncLen e) {key : Bytes} {x : SentMsg} (hmade : Made e key x) : x.frame.length ≤ 64 := by
  obtain ⟨hctr, ptext, ptextLen, outbuf, idp, il, n, hh, out, hraw, hbody, hframe, _⟩ := hmade
  obtain ⟨k, hb, ct, tag, hiv, hkk, h31, heh, hhl, h4, hfl, hbl, hmax, hltb, hn, hpb, hciph, htag, hct, hout⟩ := encodeRaw_ok hel hraw
  rw [hframe, List.length_take]; omega

/-- The message a frame was taken from is the frame without its length byte. -/
theorem frame_msg {e : EncFn} (hel : EncLen e) {key : Bytes} {y : SentMsg} (hy : Made e key y) {m : Bytes} (hm : m.length ≤ 255) {n : Nat} (h : (framed m).take n = y.frame) :
    m = y.frame.drop 1 := by
  have h1 := framed_frame hel hy
  have h2 := made_len hel hy
  have hr : (y.frame.drop 1).length ≤ 63 := by rw [List.length_drop]; omega
  generalize y.frame.drop 1 = r at *
  rw [← h1] at h
  unfold framed at h
  cases n with
  | zero => cases h
  | succ n =>
    simp only [List.take_succ_cons, List.cons.injEq] at h
    obtain ⟨h3, h4⟩ := h
    have h5 := congrArg UInt8.toNat h3
    have h6 : m.length = r.length := by simpa [Nat.mod_eq_of_lt, show m.length < 256 by omega, show r.length < 256 by omega] using h5
    have h7 := congrArg List.length h4
    rw [List.length_take] at h7
    rw [List.take_of_length_le (by omega)] at h4
    exact h4

/-- **C215** In the house with the hub's receive queue: a message asking for at least 66%, of a node the hub knows, waits in the queue behind `ahead`, fresh (neither it nor a later one of
the same node was accepted before or waits ahead of it). Then whatever else happens — frames arriving at any time, ticks at any time, valves sending —, if the hub does not restart, the boiler
is on once the main loop has called `handle()` early enough in its cycle once for each message ahead and once more, and has ticked, and stays on at least until the minimum on time, counted from where the message waited,
is over; provided that, where the message waited, the boiler had been off for long enough, or that it was on and does not tick before the message is handled. -/
theorem C215_queued_request_gets_heat (ok : HCfg → Prop) (mf cap tpm minOn : Nat) (ht : tpm = 30 ∨ tpm = 60) (hm1 : 1 ≤ minOn) (hm : minOn ≤ 255) (e : EncFn) (hel : EncLen e) (key : Bytes)
    (ids : List Bytes) (s0 s s1 s2 : QHouse) (hb : QBegin mf cap ids s0) (hr : QReach ok mf cap false tpm minOn e key ids s0 s)
    -- the message waits
    (x : SentMsg) (before now after : List SentMsg) (hin : s.house.chan.sent = before ++ x :: now) (hsent : s1.house.chan.sent = before ++ x :: after) (hO : x.fType = FTS_BasicSensorOrValve) (b : Byte) (hbody : x.body[0]? = some b)
    (h66 : 66 ≤ b.toNat) (h100 : b.toNat ≤ 100) (ahead behind : List Bytes) (hw : s.waiting = ahead ++ x.frame.drop 1 :: behind)
    (hfresh : ∀ y ∈ x :: after, y.id = x.id → y.frame.drop 1 ∉ ahead ∧ ∀ g ∈ s.house.chan.got, g.node = x.id → g.frame ≠ y.frame)
    -- the hub knows its sender, and is set up to drive the boiler
    (c0 cur0 : Bytes) (hgood : BothGood s0.house.chan.ee x.id c0) (hcur : getLastRXMsgCtr s0.house.chan.ee x.id = some cur0) (hlt : beVal cur0 < beVal x.ctr)
    (hfind : (getNextMatchingNodeID s0.house.chan.ee 0 (x.id.take ((x.frame[2]?.getD 0).toNat % 16))).map (rowID s0.house.chan.ee) = some x.id)
    (hsmall0 : beVal c0 + 255 < 2 ^ 40) (hsmall : beVal x.ctr + 255 < 2 ^ 40)
    (hok : ∀ c, ok c → Accepts e c.dec key x ∧ 74 ≤ c.scratch ∧ (c.o1 = .boiler ∨ c.o2 = .boiler))
    -- `handle()` is called often enough, then whatever happens
    (hr1 : QReach ok mf cap false tpm minOn e key ids s s1) (hc : s.calls + ahead.length + 1 ≤ s1.calls) (hr2 : QReach ok mf cap false tpm minOn e key ids s1 s2) (hno : s2.restarts = s.restarts)
    (l1 l2 : List HubObs) (hl1 : s1.house.log = s.house.log ++ l1) (hl2 : s2.house.log = s1.house.log ++ l2)
    (hquiet : (s.house.boiler.pin = true ∧ ticksSeen l1 = 0) ∨
      ∃ pre post, s.house.log = pre ++ post ∧ onTicks post = 0 ∧ HubObs.restart ∉ post ∧ min 254 minOn + 2 ≤ minutesSeen post ∧ s.house.boiler.pin = false)
    (h1 : 1 ≤ ticksSeen l2) (hk : ticksSeen l1 + ticksSeen l2 < minOn * tpm) :
    s2.house.boiler.pin = true := by
  have hsz := hb.size
  have qi := qh_inv hsz (qbegin_inv hb) hr
  have qi1 := qh_inv hsz qi hr1
  have mono1 := restarts_mono hr1
  have mono2 := restarts_mono hr2
  obtain ⟨l1', e1, nr1⟩ := no_restart_seen hr1
  obtain ⟨l2', e2, nr2⟩ := no_restart_seen hr2
  have : l1' = l1 := List.append_cancel_left (e1.symm.trans hl1)
  subst this
  have : l2' = l2 := List.append_cancel_left (e2.symm.trans hl2)
  subst this
  have nr1 := nr1 (by omega)
  have nr2 := nr2 (by omega)
  have hH := q_sim hsz (qbegin_inv hb) hr
  obtain ⟨h, c, minute, hr3, ⟨hkey, hst, hokc⟩, hgf, hr4⟩ := C210_every_message_handled ok mf cap false tpm minOn e key ids s0 s s1 hb hr hr1 ahead behind (x.frame.drop 1) hw (by omega) hc
  obtain ⟨hacc, hscr, hop⟩ := hok c hokc
  have hreach := hH.trans hr3
  have inv := hinv (by omega) hm hel hb.house hreach
  have invs := hinv (by omega) hm hel hb.house hH
  have cinv := inv_reach hel hb.house.chan inv.reach
  have hoff := offInv ht hm1 hm hel hb.house hH
  -- where the message is, when it is handled
  obtain ⟨⟨la, ha⟩, _⟩ := house_grows hr3
  obtain ⟨⟨lb, hlb⟩, _⟩ := house_grows hr4
  have hlb : s1.house.chan.sent = h.chan.sent ++ lb := hlb
  have hafter : after = (now ++ la) ++ lb := by
    rw [hsent, ha, hin, List.append_assoc, List.append_assoc] at hlb
    have := List.append_cancel_left hlb
    simpa using this
  have hhs : h.chan.sent = before ++ x :: (now ++ la) := by rw [ha, hin]; simp
  have hxs : x ∈ h.chan.sent := by rw [hhs]; simp
  have hfr : ∀ y ∈ x :: (now ++ la), y.id = x.id → ∀ g ∈ h.chan.got, g.node = x.id → g.frame ≠ y.frame := by
    intro y hy hyid g hg hnode heq
    have hy' : y ∈ x :: after := by
      rw [hafter]
      rcases List.mem_cons.1 hy with h | h
      · exact List.mem_cons.2 (.inl h)
      · exact List.mem_cons.2 (.inr (List.mem_append_left _ h))
    have hys : y ∈ h.chan.sent := by rw [hhs]; exact List.mem_append_right _ hy
    obtain ⟨f1, f2⟩ := hfresh y hy' hyid
    rcases hgf g hg with hg' | ⟨m, hmem, n, hn⟩
    · exact f2 g hg' hnode heq
    · have hml : m.length ≤ 255 := waiting_len qi.holds m (by rw [hw]; exact List.mem_append_left _ hmem)
      have := frame_msg hel (cinv.made y hys).2 hml (hn.symm.trans heq)
      rw [this] at hmem
      exact f1 hmem
  have hb1 := asked_call tpm minOn ht hm e hel key ids s0.house h hb.house hreach before (now ++ la) x hhs hfr hO b hbody h66 h100 c0 cur0 hgood hcur hlt hfind hsmall0 hsmall c hacc hkey hscr hst hop minute
  -- the ticks before and after
  obtain ⟨p1, hp1⟩ := log_grows hr3
  obtain ⟨p2, hp2⟩ := log_grows hr4
  have hp2 : s1.house.log = (h.log ++ [.handled (handleRaw h.chan.ee c (x.frame.drop 1)).2.2]) ++ p2 := hp2
  have hl1' : l1' = p1 ++ ([.handled (handleRaw h.chan.ee c (x.frame.drop 1)).2.2] ++ p2) := by
    apply List.append_cancel_left (as := s.house.log)
    rw [← hl1, hp2, hp1]; simp
  have htk : ticksSeen l1' = ticksSeen p1 + ticksSeen p2 := by rw [hl1']; simp [ticksSeen, List.countP_append]
  have hp1n : HubObs.restart ∉ p1 := fun hx => nr1 (by rw [hl1']; exact List.mem_append_left _ hx)
  have hp2n : HubObs.restart ∉ p2 := fun hx => nr1 (by rw [hl1']; simp [hx])
  have hN : 30 ≤ minOn * tpm := by rcases ht with rfl | rfl <;> omega
  have hready : h.boiler.isOn = true ∨ min 254 minOn < h.boiler.noCallM := by
    rcases hquiet with ⟨hp, h0⟩ | ⟨pre, post, q1, q2, q4, q3, q5⟩
    · left
      have hst := (stays (by omega) hm invs.binv hr3).2 p1 hp1 hp1n
      have : s.house.boiler.ticks ≠ 0 := by
        have := invs.binv.1
        rw [hp] at this
        simpa [Boiler.isOn] using this.symm
      simp only [Boiler.isOn, bne_iff_ne, ne_eq]
      omega
    · have hlong := hoff.off pre post q1 ⟨q2, q4⟩
      rcases (ready_kept (by omega) hm invs.binv (by omega) (by rw [← invs.binv.1]; exact q5) hr3).2 p1 hp1 hp1n with h | h
      · exact .inr h.2
      · left
        simp only [Boiler.isOn, bne_iff_ne, ne_eq]
        omega
  have hbi : BInv tpm minOn (h.hear key c minute (x.frame.drop 1)).boiler := by rw [hb1]; exact inv.binv
  have hr5 := hr4.trans (q_sim hsz qi1 hr2)
  obtain ⟨g1, g2⟩ := after_call (by omega) hm (by omega) hbi (by rw [hb1]) (by rw [hb1]; exact hready) hr5
  have hfin := g2 (p2 ++ l2') (by rw [← List.append_assoc, hl2, hp2]; rfl) (by simp [hp2n, nr2])
  have htk2 : ticksSeen (p2 ++ l2') = ticksSeen p2 + ticksSeen l2' := by simp [ticksSeen, List.countP_append]
  rw [htk2] at hfin
  rw [g1.1]
  simp only [Boiler.isOn, bne_iff_ne, ne_eq]
  omega

/-- **C215** And so frost protection reaches the boiler through the queue: the same, for the message by which a valve (set up to open to at least 66%) whose room was below 4.5C at its last 27 readings (or at all of at least
11 since it started) reported its position. -/
theorem C215_queued_frost (v : ValveSetup) (hcb : v.c.binary = false) (hg : v.c.alwaysGlacial = false) (hmax : 66 ≤ v.maxPC) (pre es : List Reading) (hcold : ∀ x ∈ es, freezingReading v x)
    (hlong : 27 ≤ es.length ∨ (pre = [] ∧ 11 ≤ es.length))
    (ok : HCfg → Prop) (mf cap tpm minOn : Nat) (ht : tpm = 30 ∨ tpm = 60) (hm1 : 1 ≤ minOn) (hm : minOn ≤ 255) (e : EncFn) (hel : EncLen e) (key : Bytes)
    (ids : List Bytes) (s0 s s1 s2 : QHouse) (hb : QBegin mf cap ids s0) (hr : QReach ok mf cap false tpm minOn e key ids s0 s)
    (id : Bytes) (d : TxDev) (a : ValveArgs) (r r' : Bytes) (ha : a.valvePC.toNat = positionAfter v (pre ++ es)) (x : SentMsg) (hx : (sendValve e key id d a r r').2 = some x)
    (before now after : List SentMsg) (hin : s.house.chan.sent = before ++ x :: now) (hsent : s1.house.chan.sent = before ++ x :: after)
    (ahead behind : List Bytes) (hw : s.waiting = ahead ++ x.frame.drop 1 :: behind)
    (hfresh : ∀ y ∈ x :: after, y.id = x.id → y.frame.drop 1 ∉ ahead ∧ ∀ g ∈ s.house.chan.got, g.node = x.id → g.frame ≠ y.frame)
    (c0 cur0 : Bytes) (hgood : BothGood s0.house.chan.ee x.id c0) (hcur : getLastRXMsgCtr s0.house.chan.ee x.id = some cur0) (hlt : beVal cur0 < beVal x.ctr)
    (hfind : (getNextMatchingNodeID s0.house.chan.ee 0 (x.id.take ((x.frame[2]?.getD 0).toNat % 16))).map (rowID s0.house.chan.ee) = some x.id)
    (hsmall0 : beVal c0 + 255 < 2 ^ 40) (hsmall : beVal x.ctr + 255 < 2 ^ 40)
    (hok : ∀ c, ok c → Accepts e c.dec key x ∧ 74 ≤ c.scratch ∧ (c.o1 = .boiler ∨ c.o2 = .boiler))
    (hr1 : QReach ok mf cap false tpm minOn e key ids s s1) (hc : s.calls + ahead.length + 1 ≤ s1.calls) (hr2 : QReach ok mf cap false tpm minOn e key ids s1 s2) (hno : s2.restarts = s.restarts)
    (l1 l2 : List HubObs) (hl1 : s1.house.log = s.house.log ++ l1) (hl2 : s2.house.log = s1.house.log ++ l2)
    (hquiet : (s.house.boiler.pin = true ∧ ticksSeen l1 = 0) ∨
      ∃ pre post, s.house.log = pre ++ post ∧ onTicks post = 0 ∧ HubObs.restart ∉ post ∧ min 254 minOn + 2 ≤ minutesSeen post ∧ s.house.boiler.pin = false)
    (h1 : 1 ≤ ticksSeen l2) (hk : ticksSeen l1 + ticksSeen l2 < minOn * tpm) :
    s2.house.boiler.pin = true := by
  obtain ⟨hO, hbody⟩ := sendValve_body hx
  rw [freezing_open v hcb hg (by omega) pre es hcold hlong] at ha
  rw [if_pos (by omega)] at hbody
  exact C215_queued_request_gets_heat ok mf cap tpm minOn ht hm1 hm e hel key ids s0 s s1 s2 hb hr x before now after hin hsent hO a.valvePC hbody (by omega) (by omega) ahead behind hw hfresh
    c0 cur0 hgood hcur hlt hfind hsmall0 hsmall hok hr1 hc hr2 hno l1 l2 hl1 hl2 hquiet h1 hk

/-! ## Non-vacuity -/

theorem exCall_sent (s : QHouse) : (exCall s).house.chan.sent = s.house.chan.sent := by
  unfold exCall
  split
  · rename_i o _
    unfold QHouse.called
    cases o.msg <;> rfl
  · rfl

theorem exCall_sent2 (s : QHouse) : (exCall (exCall s)).house.chan.sent = s.house.chan.sent := (exCall_sent _).trans (exCall_sent s)
theorem exQ3_sent : exQ3.house.chan.sent = exQ2.house.chan.sent := by unfold exQ3; exact exCall_sent2 exQ2

theorem exQ3_reach {ok : HCfg → Prop} (ok1 : ok (hsCfg exQ2.house)) (ok2 : ok (hsCfg (exCall exQ2).house)) :
    QReach ok 64 3 false 30 1 nullEncChecked chKey [exRxID] exQ2 exQ3 := by
  unfold exQ3
  generalize exQ2 = s at *
  exact exCall_reach ok2 (exCall_reach ok1 .start)

theorem hs_accepts {h : House} {x : SentMsg} (hx : x ∈ h.chan.sent) (h8 : x.id.length = 8) : Accepts nullEncChecked (hsCfg h).dec chKey x := idealDec_accepts _ _ _ hx h8

/-- The stray frame and the report of C209's example are in the queue; two calls and one tick later the boiler is on, by the theorem. -/
example : exQ4.house.boiler.pin = true := by
  have hlen : exQ2.house.chan.sent.length = 1 ∧ exQ2.house.chan.got = [] ∧ exQ2.house.chan.sent.map (fun x => (x.fType, x.body[0]?, x.id == exRxID, decide (0 < beVal x.ctr),
      decide (beVal x.ctr + 255 < 2 ^ 40))) = [(FTS_BasicSensorOrValve, some 100, true, true, true)] ∧
      exQ2.house.chan.sent.map (fun x => ((x.frame[2]?.getD 0).toNat % 16, decide (exQ2.waiting = [[1, 2]] ++ x.frame.drop 1 :: []), decide (x.frame.drop 1 ∉ [[(1 : Byte), 2]]))) =
      [(4, true, true)] := by decide +kernel
  obtain ⟨h1, h2, h3, h4⟩ := hlen
  match hs : exQ2.house.chan.sent, h1 with
  | [x], _ =>
    rw [hs] at h3 h4
    simp only [List.map_cons, List.map_nil, List.cons.injEq, Prod.mk.injEq, beq_iff_eq, decide_eq_true_eq, and_true] at h3 h4
    obtain ⟨a1, a2, a3, a4, a5⟩ := h3
    obtain ⟨a6, a7, a8⟩ := h4
    have hs3 : exQ3.house.chan.sent = [x] := exQ3_sent.trans hs
    let ok : HCfg → Prop := fun c => okAll c ∧ Accepts nullEncChecked c.dec chKey x
    have hx2 : x ∈ exQ2.house.chan.sent := by rw [hs]; simp
    have hx8 : x.id.length = 8 := by rw [a3]; rfl
    have ok1 : ok (hsCfg exQ2.house) := ⟨okAll_hs _, hs_accepts hx2 hx8⟩
    have ok2 : ok (hsCfg (exCall exQ2).house) := ⟨okAll_hs _, hs_accepts ((exCall_sent exQ2).symm ▸ hx2) hx8⟩
    refine C215_queued_request_gets_heat ok 64 3 30 1 (.inl rfl) (by decide) (by decide) nullEncChecked nullEncChecked_len chKey [exRxID] exQ0 exQ2 exQ3 exQ4
      ⟨⟨chBegin, rfl, rfl⟩, by omega, ⟨_, rfl⟩, rfl, rfl⟩ exQ2_reach x [] [] [] hs hs3 a1 100 a2 (by decide) (by decide) [[1, 2]] [] a7 ?_
      [0, 0, 0, 0, 0, 0] [0, 0, 0, 0, 0, 0] (by rw [a3]; exact exRx_good) (by rw [a3]; decide +kernel) a4 (by rw [a6, a3]; decide +kernel) (by decide) a5
      (fun c h => ⟨h.2, h.1.1, h.1.2⟩) (exQ3_reach ok1 ok2) (by decide +kernel) (.tick false .start) (by decide +kernel)
      [.handled [], .handled [.heat 100]] [.tick false true] (by decide +kernel) (by decide +kernel)
      (.inr ⟨[], exQ2.house.log, (List.nil_append _).symm, by decide +kernel, by decide +kernel, by decide +kernel, by decide +kernel⟩) (by decide) (by decide)
    intro y hy hyid
    rw [List.mem_singleton.1 hy]
    exact ⟨a8, fun g hg => by rw [h2] at hg; cases hg⟩

end OTR.Props
