import Verif.Props.EndToEnd
/-!
# Heating stops

In the house of C183/C184: once the hub has heard from every valve that asked for heat that it (or a later state of it) has been heard, and no valve asks any more, the boiler goes off
within the minimum on time and stays off, whatever old messages an attacker has kept back.
-/

namespace OTR.Props

/-- The counter in the frame is the one it was made with. -/
theorem made_ctr {e : EncFn} (hel : EncLen e) {key : Bytes} {x : SentMsg} (h : Made e key x) : frameCtr x.frame = x.ctr := by
  obtain ⟨hctr, ptext, ptextLen, outbuf, idp, il, n, hh, out, hraw, hbody, hframe, _⟩ := h
  obtain ⟨k, hb, ct, tag, hiv, hkk, h31, heh, hhl, h4, hfl, hbl, hmax, hltb, hn, hpb, hciph, htag, hct, hout⟩ := encodeRaw_ok hel hraw
  obtain ⟨idb, t1, t2, hil8, hidc, hbuf, tl1, tl2, hfl2, hh', hhb⟩ := encodeHeader_ok.mp heh
  have h6 : (x.id.take 6).length = 6 := by
    rw [List.length_append, hctr] at hiv
    have : (x.id.take 6).length ≤ 6 := by rw [List.length_take]; omega
    omega
  have hd : (x.id.take 6 ++ x.ctr).drop 6 = x.ctr := by
    have : (x.id.take 6 ++ x.ctr).drop (x.id.take 6).length = x.ctr := List.drop_left
    rwa [h6] at this
  have hcl : (ct.take (encBody ptextLen)).length = encBody ptextLen := by
    rw [List.length_take]
    unfold encBody
    split
    · omega
    · rename_i h0; rw [hct h0]; rfl
  rw [hd, show x.ctr.take 6 = x.ctr from List.take_of_length_le (by omega)] at hout
  have h00 : x.frame[0]? = some (u8 hh.fl) := by
    rw [hframe, hout, hhb, List.getElem?_take_of_lt (by omega), congrArg Hdr.fl hh']
    rfl
  unfold frameCtr
  rw [h00, Option.getD_some]
  have hu : (u8 hh.fl).toNat = hh.fl := by
    unfold u8
    simp
    omega
  rw [hu, hframe, hout]
  have hp : hh.fl + 1 - 23 = (hb ++ ct.take (encBody ptextLen)).length := by
    rw [List.length_append, hcl]; omega
  rw [hp, List.drop_take, List.append_assoc, List.append_assoc, List.append_assoc, List.drop_left, List.take_take]
  have : min 6 (n - (hb ++ ct.take (encBody ptextLen)).length) = x.ctr.length := by
    rw [← hp, hctr]; omega
  rw [this, List.take_left]

/-- What was sent, accepted and observed is never lost. -/
theorem house_grows {pf : Bool} {tpm minOn : Nat} {e : EncFn} {key : Bytes} {ids : List Bytes} {h0 h : House} (hr : HReach pf tpm minOn e key ids h0 h) :
    (∃ l, h.chan.sent = h0.chan.sent ++ l) ∧ ∃ l, h.chan.got = h0.chan.got ++ l := by
  induction hr with
  | start => exact ⟨⟨[], by simp⟩, ⟨[], by simp⟩⟩
  | valve a r r' _ hid ih =>
    obtain ⟨⟨l, hl⟩, h2⟩ := ih
    exact ⟨⟨l ++ _, by show _ ++ _ = _; rw [hl, List.append_assoc]⟩, h2⟩
  | plain a r r' _ hid hne ih =>
    obtain ⟨⟨l, hl⟩, h2⟩ := ih
    exact ⟨⟨l ++ _, by show _ ++ _ = _; rw [hl, List.append_assoc]⟩, h2⟩
  | restart _ hid ih => exact ih
  | crash r r' k _ hid hc ih => exact ih
  | @hear h c minute msg _ hml hst hk hnf hgb ih =>
    obtain ⟨h1, l, hl⟩ := ih
    refine ⟨h1, ?_⟩
    show ∃ l, (if msg[0]? = some 0xcf then (deliver h.chan (framed msg) (c.scratch - 16) c.dec key).got else h.chan.got) = _
    split
    · unfold deliver
      dsimp only
      split
      · exact ⟨l ++ [_], by rw [hl, List.append_assoc]⟩
      · exact ⟨l, hl⟩
    · exact ⟨l, hl⟩
  | hubRestart _ ih => exact ih
  | lose _ _ _ _ _ _ _ _ _ ih => exact ih
  | tick s0 hr ih => exact ih

/-- While everything that asks for heat was superseded at `h`, the hub accepts no call for heat. -/
theorem no_hot {pf : Bool} {tpm minOn : Nat} (ht : tpm ≤ 60) (hm : minOn ≤ 255) {e : EncFn} (hel : EncLen e) {key : Bytes} {ids : List Bytes}
    {h0 h h' : House} (hb : HBegin ids h0) (hr : HReach pf tpm minOn e key ids h0 h) (hr' : HReach pf tpm minOn e key ids h h')
    (hsat : ∀ x ∈ h'.chan.sent, asksHeat x.fType.toNat x.body = true → ∃ g ∈ h.chan.got, g.node = x.id ∧ beVal x.ctr ≤ beVal (frameCtr g.frame)) :
    ∀ l, h'.log = h.log ++ l → ∀ o ∈ l, hotObs o = false := by
  induction hr' with
  | start =>
    intro l hl o ho
    have : l = [] := by simpa using hl
    rw [this] at ho; cases ho
  | valve a r r' _ hid ih =>
    exact ih (fun x hx => hsat x (List.mem_append_left _ hx))
  | plain a r r' _ hid hne ih =>
    exact ih (fun x hx => hsat x (List.mem_append_left _ hx))
  | restart _ hid ih => exact ih hsat
  | crash r r' k _ hid hc ih => exact ih hsat
  | @hear h2 c minute msg hr2 hml hst hk hnf hgb ih =>
    intro l hl
    obtain ⟨l2, hl2⟩ := log_grows hr2
    have hlog : (h2.hear key c minute msg).log = h2.log ++ [.handled (handleRaw h2.chan.ee c msg).2.2] := rfl
    rw [hlog, hl2, List.append_assoc] at hl
    have hl := (List.append_cancel_left hl).symm
    subst hl
    intro o ho
    rcases List.mem_append.1 ho with ho | ho
    · exact ih hsat l2 hl2 o ho
    · rw [List.mem_singleton] at ho
      subst ho
      show hot _ = false
      -- the state before and after
      have inv2 := hinv ht hm hel hb (hr.trans hr2)
      have cinv2 := inv_reach hel hb.chan inv2.reach
      have inv3 := hinv ht hm hel hb (HReach.hear c minute msg (hr.trans hr2) hml hst hk hnf hgb)
      have cinv3 := inv_reach hel hb.chan inv3.reach
      have hne : ∀ n body node, (hubRx h2.chan.ee c msg).1 = .ok (n, body, node) → msg[0]? = some 0xcf → body ≠ [] := by
        intro n body node hx hty
        rw [hubRx, hk] at hx
        obtain ⟨s, hs, _, _, _, hbd, hft⟩ := accepted_was_sent hel hnf hgb
          (fun s hs => ⟨hb.chan.len _ (cinv2.made s hs).1, (cinv2.made s hs).2⟩) hx
        rw [hbd]
        apply inv2.body s hs
        rw [← hft]
        have : (framed msg)[1]? = some 0xcf := by simp only [framed, List.getElem?_cons_succ]; exact hty
        rw [this]; decide
      rcases hear_cases h2 c minute msg hml hst hk hne with ⟨_, hn⟩ | ⟨hch, n, body, node, hrx, hgot, hheat⟩
      · rw [hn]; rfl
      · rw [← Bool.not_eq_true]
        intro hh
        unfold hot at hh
        rw [List.any_eq_true] at hh
        obtain ⟨ef, h4, h5⟩ := hh
        cases ef with
        | serial => simp at h5
        | relay => simp at h5
        | heat p =>
          simp only [decide_eq_true_eq] at h5
          obtain ⟨b, t, hbd, hbp, hp100⟩ := hheat p h4
          obtain ⟨xs, g1, g2, g3, _⟩ := cinv3.got
          rw [hch, hgot] at g1
          -- the last one accepted
          have hxs : ∃ ys y, xs = ys ++ [y] := by
            cases hx : xs.reverse with
            | nil =>
              have : xs = [] := by simpa using hx
              rw [this] at g1; simp at g1
            | cons y ys => exact ⟨ys.reverse, y, by rw [← List.reverse_reverse xs, hx]; simp⟩
          obtain ⟨ys, y, rfl⟩ := hxs
          rw [List.map_append] at g1
          obtain ⟨e1, e2⟩ := List.append_inj' g1 rfl
          simp only [List.map_cons, List.map_nil, List.cons.injEq, and_true] at e2
          have hy : y ∈ h2.chan.sent := g2 y (by simp)
          obtain ⟨g, hg, hgn, hgc⟩ := hsat y hy (by
            have e3 : y.fType.toNat = 79 := (congrArg GotMsg.fType e2).symm
            have e4 : y.body = body := (congrArg GotMsg.body e2).symm
            unfold asksHeat
            rw [e3, e4, hbd]
            simp only [BEq.rfl, Bool.true_and, decide_eq_true_eq]
            omega)
          obtain ⟨_, lg, hlg⟩ := house_grows hr2
          have hg2 : g ∈ ys.map SentMsg.got := by rw [← e1, hlg]; exact List.mem_append_left _ hg
          rw [List.mem_map] at hg2
          obtain ⟨z, hz, rfl⟩ := hg2
          have hzm := (cinv3.made z (g2 z (by simp [hz]))).2
          have hzc : beVal z.ctr < beVal y.ctr := by
            rw [List.pairwise_append] at g3
            exact g3.2.2 z hz y (by simp) hgn
          have : frameCtr z.got.frame = z.ctr := made_ctr hel hzm
          rw [this] at hgc
          omega
  | hubRestart hr2 ih =>
    intro l hl
    obtain ⟨l2, hl2⟩ := log_grows hr2
    have hl : _ ++ [_] = _ := hl
    rw [hl2, List.append_assoc] at hl
    rw [← List.append_cancel_left hl]
    intro o ho
    rcases List.mem_append.1 ho with ho | ho
    · exact ih hsat l2 hl2 o ho
    · rw [List.mem_singleton] at ho; subst ho; rfl
  | lose c msg k hpf hr2 _ _ _ _ ih =>
    intro l hl
    obtain ⟨l2, hl2⟩ := log_grows hr2
    have hl : _ ++ [_] = _ := hl
    rw [hl2, List.append_assoc] at hl
    rw [← List.append_cancel_left hl]
    intro o ho
    rcases List.mem_append.1 ho with ho | ho
    · exact ih hsat l2 hl2 o ho
    · rw [List.mem_singleton] at ho; subst ho; rfl
  | tick s0 hr2 ih =>
    intro l hl
    obtain ⟨l2, hl2⟩ := log_grows hr2
    have hl : _ ++ [_] = _ := hl
    rw [hl2, List.append_assoc] at hl
    rw [← List.append_cancel_left hl]
    intro o ho
    rcases List.mem_append.1 ho with ho | ho
    · exact ih hsat l2 hl2 o ho
    · rw [List.mem_singleton] at ho; subst ho; rfl

/-- **C193.** Heating stops when nobody asks any more. Take any two states of the house, the second later than the first. Suppose every message asking for heat
that was ever sent by the time of the second was, by the time of the first, accepted by the hub, or overtaken there by a later message of the same node. Then
between the two the hub acts on no call for heat, whatever anybody records, replays, delays or makes up, and whoever restarts or loses power; and once
the minimum on time has passed the boiler is off. -/
theorem C193_heating_stops (pf : Bool) (tpm minOn : Nat) (ht : tpm = 30 ∨ tpm = 60) (hm : minOn ≤ 255) (e : EncFn) (hel : EncLen e) (key : Bytes)
    (ids : List Bytes) (h0 h h' : House) (hb : HBegin ids h0) (hr : HReach pf tpm minOn e key ids h0 h) (hr' : HReach pf tpm minOn e key ids h h')
    (hsat : ∀ pre x post, h'.chan.sent = pre ++ x :: post → asksHeat x.fType.toNat x.body = true →
      ∃ y ∈ x :: post, y.id = x.id ∧ ⟨y.id, y.fType.toNat, y.body, y.frame⟩ ∈ h.chan.got) :
    ∃ l, h'.log = h.log ++ l ∧ (∀ es p, HubObs.handled es ∈ l → Eff.heat p ∈ es → p < 50) ∧
      (minOn * tpm ≤ ticksSeen l → h'.boiler.pin = false) := by
  have htot := hr.trans hr'
  have inv' := hinv (by omega) hm hel hb htot
  have cinv' := inv_reach hel hb.chan inv'.reach
  obtain ⟨l, hl⟩ := log_grows hr'
  have hno := no_hot (by omega) hm hel hb hr hr' (by
    intro x hx ha
    obtain ⟨pre, post, hsp⟩ := List.append_of_mem hx
    obtain ⟨y, hy, hyi, hyg⟩ := hsat pre x post hsp ha
    refine ⟨_, hyg, hyi, ?_⟩
    have hym : Made e key y := (cinv'.made y (by rw [hsp]; exact List.mem_append_right _ hy)).2
    show beVal x.ctr ≤ beVal (frameCtr y.frame)
    rw [made_ctr hel hym]
    rcases List.mem_cons.1 hy with rfl | hy
    · exact Nat.le_refl _
    · have ho := cinv'.order
      rw [hsp, List.pairwise_append] at ho
      exact Nat.le_of_lt ((List.pairwise_cons.1 ho.2.1).1 y hy hyi.symm)) l hl
  refine ⟨l, hl, ?_, ?_⟩
  · intro es p hes hp
    have h1 : hot es = false := hno _ hes
    by_cases h50 : 50 ≤ p
    · exfalso
      have : hot es = true := by
        unfold hot
        rw [List.any_eq_true]
        exact ⟨_, hp, by simp [h50]⟩
      rw [this] at h1; cases h1
    · omega
  · intro htk
    cases hon : h'.boiler.pin with
    | false => rfl
    | true =>
      exfalso
      obtain ⟨pre, es, post, p, h1, h2, h3, h4, _⟩ := C183_on_only_if_asked pf tpm minOn ht hm e hel key ids h0 h' hb htot hon
      have hhot : hotObs (.handled es) = true := by
        show hot es = true
        unfold hot
        rw [List.any_eq_true]
        exact ⟨_, h3, by simp [h4]⟩
      rw [hl] at h1
      rcases List.append_eq_append_iff.1 h1 with ⟨q, _, q2⟩ | ⟨q, q1, q2⟩
      · have := hno (.handled es) (by rw [q2]; simp)
        rw [hhot] at this; cases this
      · cases q with
        | nil =>
          have := hno (.handled es) (by rw [← List.nil_append l, ← q2]; simp)
          rw [hhot] at this; cases this
        | cons o q =>
          rw [List.cons_append, List.cons.injEq] at q2
          have : ticksSeen l ≤ ticksSeen post := by
            rw [q2.2]; unfold ticksSeen; rw [List.countP_append]; omega
          omega

/-! ## Non-vacuity: the freezing room's call was heard; nobody asks again; the boiler goes off -/

def ticksFrom (h : House) : Nat → House
  | 0 => h
  | n + 1 => (ticksFrom h n).tick 30 1 false

theorem ticksFrom_reach (h : House) : ∀ n, HReach false 30 1 nullEncChecked chKey [exRxID] h (ticksFrom h n)
  | 0 => .start
  | n + 1 => .tick false (ticksFrom_reach h n)

theorem ticksFrom_chan (h : House) : ∀ n, (ticksFrom h n).chan = h.chan
  | 0 => rfl
  | n + 1 => ticksFrom_chan h n

theorem exCold3_reach : HReach false 30 1 nullEncChecked chKey [exRxID] exHouse0 exCold3 :=
  have h1 : HReach false 30 1 nullEncChecked chKey [exRxID] exHouse0 exHouse1 := .tick true (.tick true (.tick true .start))
  .tick false (.hear (hsCfg (exReported 100)) 20 (exMsgOf (exReported 100)) (.valve (exValve 100) [] [4, 5, 6] h1 (by simp)) (by decide +kernel)
    (hsCfg_ok _).2.2.1 (hsCfg_ok _).2.2.2 (hsCfg_ok _).1 (hsCfg_ok _).2.1)

/-- The boiler is on when the call has been heard, and the hypothesis of C193 holds from then on; 30 ticks later it is off. -/
example : exCold3.boiler.pin = true ∧ (ticksFrom exCold3 30).boiler.pin = false := by
  refine ⟨by decide +kernel, ?_⟩
  have hs : exCold3.chan.sent.map SentMsg.got = exCold3.chan.got ∧ exCold3.chan.sent.length = 1 ∧
      ticksSeen ((ticksFrom exCold3 30).log.drop exCold3.log.length) = 30 := by decide +kernel
  obtain ⟨l, hl, _, hp⟩ := C193_heating_stops false 30 1 (.inl rfl) (by decide) nullEncChecked nullEncChecked_len chKey [exRxID] exHouse0 exCold3 (ticksFrom exCold3 30)
    ⟨chBegin, rfl, rfl⟩ exCold3_reach (ticksFrom_reach _ _) (by
      intro pre x post h _
      rw [ticksFrom_chan] at h
      refine ⟨x, by simp, rfl, ?_⟩
      rw [← hs.1, h]
      show x.got ∈ _
      simp)
  refine hp ?_
  have : l = (ticksFrom exCold3 30).log.drop exCold3.log.length := by rw [hl, List.drop_left]
  rw [this, hs.2.2]
  decide

end OTR.Props
