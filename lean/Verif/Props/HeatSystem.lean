import Verif.Props.SecureChannelLive
import Verif.Props.Messaging
import Verif.Props.Boiler
/-!
# C183–C184: radio valves and a boiler hub as a whole

The system of C175 (any number of transmitters sharing a key, restarting and losing power as they like; a network that delivers any bytes
at any time), with the receiver being a boiler hub: what arrives goes through the message handler to the boiler driver, which runs from the
hub's main loop.
-/

namespace OTR.Props
open OTR

/-! ## Specification -/

/-- What can be seen at the hub, in order: a message was handled and this was done for it; or the main loop ticked (at the start of a minute or
not) and the boiler output was then on or off; or the hub restarted. -/
inductive HubObs where
  | handled (es : List Eff)
  | tick (minute on : Bool)
  | restart
deriving DecidableEq

/-- The transmitters, the network and the hub's storage; the hub's boiler driver; all that was seen at the hub. -/
structure House where
  chan : Chan
  boiler : Boiler
  log : List HubObs

/-- Any bytes reach the hub, at this minute of its clock. The record of what was accepted is that of C175. -/
def House.hear (h : House) (key : Bytes) (c : HCfg) (minute : Nat) (msg : Bytes) : House :=
  let r := handleRaw h.chan.ee c msg
  { chan := { h.chan with
      ee := r.2.1
      got := if msg[0]? = some 0xcf then (deliver h.chan (framed msg) (c.scratch - 16) c.dec key).got else h.chan.got }
    boiler := h.boiler.apply minute r.2.2
    log := h.log ++ [.handled r.2.2] }

/-- The hub's main loop ticks. -/
def House.tick (h : House) (tpm minOn : Nat) (s0 : Bool) : House :=
  { h with boiler := h.boiler.process tpm minOn s0 true, log := h.log ++ [.tick s0 (h.boiler.process tpm minOn s0 true).pin] }

/-- The hub restarts, its boiler driver as new. -/
def House.restart (h : House) : House := { h with boiler := .init, log := h.log ++ [.restart] }

/-- The hub loses power after `k` EEPROM byte writes of handling a message, and restarts. -/
def House.lose (h : House) (key : Bytes) (c : HCfg) (msg : Bytes) (k : Nat) : House :=
  { chan := { h.chan with ee := crashEE h.chan.ee (framed msg) (c.scratch - 16) c.dec key k }
    boiler := .init
    log := h.log ++ [.restart] }

/-- The states the house can get into; `pf`: may the hub lose power while it handles a message? Transmitters send valve frames, or other frames, but not an 'O' frame without a body (C76). -/
inductive HReach (pf : Bool) (tpm minOn : Nat) (e : EncFn) (key : Bytes) (ids : List Bytes) (h0 : House) : House → Prop
  | start : HReach pf tpm minOn e key ids h0 h0
  | valve {h id} (a : ValveArgs) (r r' : Bytes) : HReach pf tpm minOn e key ids h0 h → id ∈ ids →
      HReach pf tpm minOn e key ids h0 { h with chan := h.chan.valve e key id a r r' }
  | plain {h id} (a : PlainArgs) (r r' : Bytes) : HReach pf tpm minOn e key ids h0 h → id ∈ ids →
      a.fType ≠ FTS_BasicSensorOrValve ∨ (a.ptext.getD []).take a.len ≠ [] →
      HReach pf tpm minOn e key ids h0 { h with chan := h.chan.plain e key id a r r' }
  | restart {h id} : HReach pf tpm minOn e key ids h0 h → id ∈ ids →
      HReach pf tpm minOn e key ids h0 { h with chan := { h.chan with tx := setAt h.chan.tx id ((h.chan.tx id).step .restart).1 } }
  | crash {h id} (r r' : Bytes) (k : Nat) : HReach pf tpm minOn e key ids h0 h → id ∈ ids → h.chan.crashOK id = true →
      HReach pf tpm minOn e key ids h0 { h with chan := h.chan.crash id r r' k }
  | hear {h} (c : HCfg) (minute : Nat) (msg : Bytes) : HReach pf tpm minOn e key ids h0 h → msg.length ≤ 255 → 31 ≤ c.stack.length →
      c.key = some key → NoForgery c.dec key h.chan.sent → GivesBack e c.dec → HReach pf tpm minOn e key ids h0 (h.hear key c minute msg)
  | hubRestart {h} : HReach pf tpm minOn e key ids h0 h → HReach pf tpm minOn e key ids h0 h.restart
  | lose {h} (c : HCfg) (msg : Bytes) (k : Nat) : pf = true → HReach pf tpm minOn e key ids h0 h → msg[0]? = some 0xcf →
      NoForgery c.dec key h.chan.sent → GivesBack e c.dec → CrashOK h.chan.ee (framed msg) (c.scratch - 16) c.dec key →
      HReach pf tpm minOn e key ids h0 (h.lose key c msg k)
  | tick {h} (s0 : Bool) : HReach pf tpm minOn e key ids h0 h → HReach pf tpm minOn e key ids h0 (h.tick tpm minOn s0)

/-- A proper beginning: as in C175, with the hub just started. -/
structure HBegin (ids : List Bytes) (h0 : House) : Prop where
  chan : Begin ids h0.chan
  boiler : h0.boiler = .init
  log : h0.log = []

/-- Something sent that asks for heat: an 'O' frame whose first body byte, the valve position, is from 50 to 100 percent. -/
def asksHeat (fType : Nat) (body : Bytes) : Bool :=
  fType == 79 && (match body with | [] => false | p :: _ => decide (50 ≤ p.toNat ∧ p.toNat ≤ 100))

/-- Ticks seen with the boiler on. -/
def onTicks (log : List HubObs) : Nat := log.countP fun | .tick _ on => on | _ => false

/-- Ticks seen. -/
def ticksSeen (log : List HubObs) : Nat := log.countP fun | .tick _ _ => true | _ => false

/-- Starts of a minute seen. -/
def minutesSeen (log : List HubObs) : Nat := log.countP fun | .tick s0 _ => s0 | _ => false

/-! ## Proofs -/

/-- A message for which the boiler driver was given a position of at least 50%. -/
def hot (es : List Eff) : Bool := es.any fun | .heat p => decide (50 ≤ p) | _ => false

def hotObs : HubObs → Bool
  | .handled es => hot es
  | _ => false

theorem apply_call (minute : Nat) : ∀ (es : List Eff) (b : Boiler),
    ∃ c, b.apply minute es = { b with call := c } ∧ (c = true → b.call = true ∨ hot es = true)
  | [], b => ⟨b.call, rfl, fun h => .inl h⟩
  | .heat p :: t, b => by
    obtain ⟨c, h1, h2⟩ := apply_call minute t (b.remoteCall p minute)
    obtain ⟨c', h3⟩ := b.call_fields p minute
    refine ⟨c, by rw [Boiler.apply, h1, h3], fun hc => ?_⟩
    rcases h2 hc with h | h
    · unfold Boiler.remoteCall at h
      split at h
      · rename_i hle
        right
        have : 50 ≤ p := by rcases b.thr_cases minute with e | e <;> omega
        simp [hot, this]
      · exact .inl h
    · right
      unfold hot at h ⊢
      rw [List.any_cons, h, Bool.or_true]
  | .serial _ :: t, b => by
    obtain ⟨c, h1, h2⟩ := apply_call minute t b
    exact ⟨c, (by rw [Boiler.apply, h1]; intro p hp; cases hp), fun hc => by simpa [hot] using h2 hc⟩
  | .relay _ :: t, b => by
    obtain ⟨c, h1, h2⟩ := apply_call minute t b
    exact ⟨c, (by rw [Boiler.apply, h1]; intro p hp; cases hp), fun hc => by simpa [hot] using h2 hc⟩

theorem want_hot {op : FrameOp} {body node msg : Bytes} {p : Nat} (h : Eff.heat p ∈ want op body node msg) :
    ∃ b t, body = b :: t ∧ b.toNat = p ∧ p ≤ 100 := by
  cases op with
  | null => simp [want] at h
  | serial => simp only [want] at h; split at h <;> simp at h
  | relay => simp only [want] at h; split at h <;> simp at h
  | boiler =>
    cases body with
    | nil => simp [want] at h
    | cons b t =>
      simp only [want] at h
      split at h
      · simp only [List.mem_singleton, Eff.heat.injEq] at h
        exact ⟨b, t, rfl, h.symm, by omega⟩
      · simp at h

/-- Handling a message is receiving it, as far as the channel is concerned, and what was done is explained by what was accepted. -/
theorem hear_cases {key : Bytes} (h : House) (c : HCfg) (minute : Nat) (msg : Bytes)
    (hm : msg.length ≤ 255) (hs : 31 ≤ c.stack.length) (hk : c.key = some key)
    (hne : ∀ n body node, (hubRx h.chan.ee c msg).1 = .ok (n, body, node) → msg[0]? = some 0xcf → body ≠ []) :
    ((h.hear key c minute msg).chan = h.chan ∧ (handleRaw h.chan.ee c msg).2.2 = []) ∨
    ((h.hear key c minute msg).chan = deliver h.chan (framed msg) (c.scratch - 16) c.dec key ∧
      ∃ n body node, (hubRx h.chan.ee c msg).1 = .ok (n, body, node) ∧
        (deliver h.chan (framed msg) (c.scratch - 16) c.dec key).got = h.chan.got ++ [⟨node, 79, body, (framed msg).take n⟩] ∧
        ∀ p, Eff.heat p ∈ (handleRaw h.chan.ee c msg).2.2 → ∃ b t, body = b :: t ∧ b.toNat = p ∧ p ≤ 100) := by
  have hrx : hubRx h.chan.ee c msg = rx h.chan.ee ⟨framed msg, true, c.scratch - 16, c.dec, some key⟩ := by rw [hubRx, hk]
  by_cases hr : (∃ r, (hubRx h.chan.ee c msg).1 = .ok r) ∧ msg[0]? = some 0xcf
  · right
    obtain ⟨⟨⟨n, body, node⟩, hr⟩, hty⟩ := hr
    have hact := (C76_actions_partial h.chan.ee c msg hm hs).2 n body node hty hr (.inl (hne n body node hr hty))
    refine ⟨?_, n, body, node, hr, ?_, ?_⟩
    · unfold House.hear
      dsimp only
      rw [if_pos hty, hact]
      unfold deliver
      dsimp only
      rw [← hrx]
    · unfold deliver
      dsimp only
      rw [← hrx, hr]
      dsimp only
      congr 3
      have : (framed msg)[1]? = some 0xcf := by simp only [framed, List.getElem?_cons_succ]; exact hty
      rw [this]; decide
    · intro p hp
      rw [hact] at hp
      rcases List.mem_append.mp hp with h | h <;> exact want_hot h
  · left
    have href := handleRaw_refuse h.chan.ee c msg (by
      by_cases h1 : msg[0]? = some 0xcf
      · left; intro r hr'; exact hr ⟨⟨r, hr'⟩, h1⟩
      · exact .inr h1)
    refine ⟨?_, href.1⟩
    unfold House.hear
    dsimp only
    rw [href.2]
    by_cases h1 : msg[0]? = some 0xcf
    · rw [if_pos h1]
      unfold deliver
      dsimp only
      rw [← hrx]
      cases hx : (hubRx h.chan.ee c msg).1 with
      | ok r => exact absurd ⟨⟨r, hx⟩, h1⟩ hr
      | fail => rfl
      | ub => rfl
    · rw [if_neg h1]

theorem length_le_of_subset {α : Type} [DecidableEq α] : ∀ (l1 l2 : List α), l1.Nodup → (∀ x ∈ l1, x ∈ l2) → l1.length ≤ l2.length
  | [], _, _, _ => Nat.zero_le _
  | a :: t, l2, hn, hs => by
    have ha : a ∈ l2 := hs a (by simp)
    have := length_le_of_subset t (l2.erase a) hn.of_cons (by
      intro x hx
      rw [List.mem_erase_of_ne]
      · exact hs x (by simp [hx])
      · rintro rfl; exact (List.nodup_cons.mp hn).1 hx)
    rw [List.length_erase_of_mem ha] at this
    have : 0 < l2.length := List.length_pos_of_mem ha
    simp only [List.length_cons]; omega

structure HInv (pf : Bool) (tpm minOn : Nat) (e : EncFn) (key : Bytes) (ids : List Bytes) (h0 h : House) : Prop where
  reach : Reach pf e key ids h0.chan h.chan
  body : ∀ x ∈ h.chan.sent, x.fType.toNat = 79 → x.body ≠ []
  calls : h.log.countP hotObs ≤ h.chan.got.countP fun g => asksHeat g.fType g.body
  acts : ∀ es p, HubObs.handled es ∈ h.log → Eff.heat p ∈ es → 50 ≤ p → ∃ g ∈ h.chan.got, asksHeat g.fType g.body = true ∧ ∃ b t, g.body = b :: t ∧ b.toNat = p
  binv : BInv tpm minOn h.boiler
  budget : onTicks h.log + (if h.boiler.call then minOn * tpm - 1 else h.boiler.ticks - 1) ≤ (minOn * tpm - 1) * h.log.countP hotObs
  pend : h.boiler.call = true → ∃ pre es post, h.log = pre ++ .handled es :: post ∧ hot es = true ∧ ticksSeen post = 0
  recent : 0 < h.boiler.ticks → ∃ pre es post, h.log = pre ++ .handled es :: post ∧ hot es = true ∧ ticksSeen post + h.boiler.ticks ≤ minOn * tpm

theorem sent_valve_body {e : EncFn} {key id : Bytes} {d : TxDev} {a : ValveArgs} {r r' : Bytes} {x : SentMsg}
    (h : (sendValve e key id d a r r').2 = some x) : x.body ≠ [] := by
  unfold sendValve at h
  split at h
  · simp at h
  · dsimp only at h
    split at h
    · simp only [Option.some.injEq] at h
      subst h
      simp [valveMsg]
    · simp at h

theorem sent_plain_body {e : EncFn} {key id : Bytes} {d : TxDev} {a : PlainArgs} {r r' : Bytes} {x : SentMsg}
    (h : (sendPlain e key id d a r r').2 = some x) : x.fType = a.fType ∧ x.body = (a.ptext.getD []).take a.len := by
  unfold sendPlain at h
  split at h
  · simp at h
  · dsimp only at h
    split at h
    · simp only [Option.some.injEq] at h
      subst h
      exact ⟨rfl, rfl⟩
    · simp at h

/-- The hub comes up again. -/
theorem hinv_boot {pf : Bool} {tpm minOn : Nat} {e : EncFn} {key : Bytes} {ids : List Bytes} {h0 h h' : House} (ih : HInv pf tpm minOn e key ids h0 h)
    (hr : Reach pf e key ids h0.chan h'.chan) (hs : h'.chan.sent = h.chan.sent) (hg : h'.chan.got = h.chan.got) (hb : h'.boiler = .init)
    (hl : h'.log = h.log ++ [.restart]) : HInv pf tpm minOn e key ids h0 h' := by
  have hc : h'.log.countP hotObs = h.log.countP hotObs := by rw [hl, List.countP_append]; simp [hotObs]
  refine ⟨hr, by rw [hs]; exact ih.body, by rw [hc, hg]; exact ih.calls, ?_, by rw [hb]; exact BInv.init, ?_, ?_, ?_⟩
  · intro es p hes
    rw [hl, List.mem_append, List.mem_singleton] at hes
    rcases hes with hes | hes
    · rw [hg]; exact ih.acts es p hes
    · cases hes
  · have : onTicks h'.log = onTicks h.log := by rw [hl]; simp [onTicks, List.countP_append]
    rw [hc, hb, this]
    have := Nat.le_trans (Nat.le_add_right _ _) ih.budget
    simpa [Boiler.init] using this
  · rw [hb]; intro h; cases h
  · rw [hb]; intro h; simp [Boiler.init] at h

theorem hinv {pf : Bool} {tpm minOn : Nat} (ht : tpm ≤ 60) (hm : minOn ≤ 255) {e : EncFn} (hel : EncLen e) {key : Bytes} {ids : List Bytes} {h0 h : House}
    (hb : HBegin ids h0) (hr : HReach pf tpm minOn e key ids h0 h) : HInv pf tpm minOn e key ids h0 h := by
  induction hr with
  | start =>
    refine ⟨.start, by rw [hb.chan.sent]; simp, by rw [hb.log]; simp, by rw [hb.log]; simp, by rw [hb.boiler]; exact BInv.init, ?_, ?_, ?_⟩
    · rw [hb.boiler, hb.log]; simp [Boiler.init, onTicks]
    · rw [hb.boiler]; simp [Boiler.init]
    · rw [hb.boiler]; simp [Boiler.init]
  | @valve h id a r r' _ hid ih =>
    refine ⟨.valve a r r' ih.reach hid, ?_, ih.calls, ih.acts, ih.binv, ih.budget, ih.pend, ih.recent⟩
    intro x hx hf
    simp only [Chan.valve, List.mem_append, Option.mem_toList] at hx
    rcases hx with hx | hx
    · exact ih.body x hx hf
    · exact sent_valve_body hx
  | @plain h id a r r' _ hid hne ih =>
    refine ⟨.plain a r r' ih.reach hid, ?_, ih.calls, ih.acts, ih.binv, ih.budget, ih.pend, ih.recent⟩
    intro x hx hf
    simp only [Chan.plain, List.mem_append, Option.mem_toList] at hx
    rcases hx with hx | hx
    · exact ih.body x hx hf
    · obtain ⟨e1, e2⟩ := sent_plain_body hx
      rw [e2]
      rcases hne with h | h
      · exfalso; apply h; rw [e1] at hf; apply UInt8.toNat_inj.mp; rw [hf]; rfl
      · exact h
  | restart _ hid ih => exact ⟨.restart ih.reach hid, ih.body, ih.calls, ih.acts, ih.binv, ih.budget, ih.pend, ih.recent⟩
  | crash r r' k _ hid hc ih => exact ⟨.crash r r' k ih.reach hid hc, ih.body, ih.calls, ih.acts, ih.binv, ih.budget, ih.pend, ih.recent⟩
  | @hear h c minute msg _ hml hst hk hnf hgb ih =>
    have cinv := inv_reach hel hb.chan ih.reach
    have hne : ∀ n body node, (hubRx h.chan.ee c msg).1 = .ok (n, body, node) → msg[0]? = some 0xcf → body ≠ [] := by
      intro n body node hx hty
      rw [hubRx, hk] at hx
      obtain ⟨s, hs, _, _, _, hbd, hft⟩ := accepted_was_sent hel hnf hgb
        (fun s hs => ⟨hb.chan.len _ (cinv.made s hs).1, (cinv.made s hs).2⟩) hx
      rw [hbd]
      apply ih.body s hs
      rw [← hft]
      have : (framed msg)[1]? = some 0xcf := by simp only [framed, List.getElem?_cons_succ]; exact hty
      rw [this]; decide
    obtain ⟨cl, happ, hcl⟩ := apply_call minute (handleRaw h.chan.ee c msg).2.2 h.boiler
    have hbo : (h.hear key c minute msg).boiler = { h.boiler with call := cl } := happ
    have hlog : (h.hear key c minute msg).log = h.log ++ [.handled (handleRaw h.chan.ee c msg).2.2] := rfl
    have hsent : (h.hear key c minute msg).chan.sent = h.chan.sent := rfl
    have hcases := hear_cases h c minute msg hml hst hk hne
    have hgot : ∀ g ∈ h.chan.got, g ∈ (h.hear key c minute msg).chan.got := by
      intro g hg
      rcases hcases with ⟨h1, _⟩ | ⟨h1, n, body, node, _, h3, _⟩
      · rw [h1]; exact hg
      · rw [h1, h3]; simp [hg]
    have hhot : hot (handleRaw h.chan.ee c msg).2.2 = true → ∃ n body node, (hubRx h.chan.ee c msg).1 = .ok (n, body, node) ∧
        (h.hear key c minute msg).chan.got = h.chan.got ++ [⟨node, 79, body, (framed msg).take n⟩] ∧ asksHeat 79 body = true := by
      intro hh
      rcases hcases with ⟨_, h2⟩ | ⟨h1, n, body, node, h2, h3, h4⟩
      · rw [h2] at hh; simp [hot] at hh
      · refine ⟨n, body, node, h2, by rw [h1, h3], ?_⟩
        unfold hot at hh
        rw [List.any_eq_true] at hh
        obtain ⟨ef, h5, h6⟩ := hh
        cases ef with
        | heat p =>
          simp only [decide_eq_true_eq] at h6
          obtain ⟨b, t, rfl, h7, h8⟩ := h4 p h5
          simp only [asksHeat, beq_self_eq_true, Bool.true_and, decide_eq_true_eq]
          omega
        | serial => simp at h6
        | relay => simp at h6
    constructor
    · rcases hcases with ⟨h1, _⟩ | ⟨h1, _⟩
      · rw [h1]; exact ih.reach
      · rw [h1]; exact .deliver _ _ _ ih.reach hnf hgb
    · rw [hsent]; exact ih.body
    · rw [hlog, List.countP_append]
      by_cases hh : hot (handleRaw h.chan.ee c msg).2.2 = true
      · obtain ⟨n, body, node, _, h3, h4⟩ := hhot hh
        rw [h3, List.countP_append]
        have := ih.calls
        simp only [List.countP_singleton, hotObs, hh, h4, if_true]
        omega
      · have h0 : List.countP hotObs [HubObs.handled (handleRaw h.chan.ee c msg).2.2] = 0 := by simp [hotObs, hh]
        rw [h0, Nat.add_zero]
        refine Nat.le_trans ih.calls ?_
        rcases hcases with ⟨h1, _⟩ | ⟨h1, n, body, node, _, h3, _⟩
        · rw [h1]; exact Nat.le_refl _
        · rw [h1, h3, List.countP_append]; exact Nat.le_add_right _ _
    · intro es p hes hp h50
      rw [hlog, List.mem_append, List.mem_singleton] at hes
      rcases hes with hes | hes
      · obtain ⟨g, hg, h1⟩ := ih.acts es p hes hp h50
        exact ⟨g, hgot g hg, h1⟩
      · simp only [HubObs.handled.injEq] at hes
        rw [hes] at hp
        have hh : hot (handleRaw h.chan.ee c msg).2.2 = true := by
          unfold hot; rw [List.any_eq_true]; exact ⟨_, hp, by simpa using h50⟩
        obtain ⟨n, body, node, h2, h3, h4⟩ := hhot hh
        refine ⟨⟨node, 79, body, (framed msg).take n⟩, by rw [h3]; simp, h4, ?_⟩
        rcases hcases with ⟨_, h5⟩ | ⟨_, n', body', node', h5, _, h6⟩
        · rw [h5] at hp; cases hp
        · rw [h2] at h5
          simp only [Res.ok.injEq, Prod.mk.injEq] at h5
          obtain ⟨rfl, rfl, rfl⟩ := h5
          obtain ⟨b, t, h7, h8, _⟩ := h6 p hp
          exact ⟨b, t, h7, h8⟩
    · rw [hbo]; exact ih.binv
    · rw [hbo, hlog, List.countP_append]
      have hon : onTicks (h.log ++ [.handled (handleRaw h.chan.ee c msg).2.2]) = onTicks h.log := by simp [onTicks, List.countP_append]
      rw [hon]
      have hbud := ih.budget
      dsimp only
      by_cases hh : hot (handleRaw h.chan.ee c msg).2.2 = true
      · have : List.countP hotObs [HubObs.handled (handleRaw h.chan.ee c msg).2.2] = 1 := by simp [hotObs, hh]
        rw [this, Nat.mul_add, Nat.mul_one]
        by_cases hc : cl = true
        · rw [if_pos hc]
          by_cases hc' : h.boiler.call = true
          · rw [if_pos hc'] at hbud; omega
          · rw [if_neg hc'] at hbud; omega
        · rw [if_neg hc]
          have := ih.binv.2.1
          by_cases hc' : h.boiler.call = true
          · rw [if_pos hc'] at hbud; omega
          · rw [if_neg hc'] at hbud; omega
      · have h0 : List.countP hotObs [HubObs.handled (handleRaw h.chan.ee c msg).2.2] = 0 := by simp [hotObs, hh]
        rw [h0, Nat.add_zero]
        have hle := ih.binv.2.1
        by_cases hc : cl = true
        · rw [if_pos hc]
          rcases hcl hc with h1 | h1
          · rw [if_pos h1] at hbud; exact hbud
          · exact absurd h1 hh
        · rw [if_neg hc]
          by_cases hc' : h.boiler.call = true
          · rw [if_pos hc'] at hbud; omega
          · rw [if_neg hc'] at hbud; exact hbud
    · intro hc
      rw [hbo] at hc
      rw [hlog]
      rcases hcl hc with h1 | h1
      · obtain ⟨pre, es, post, h2, h3, h4⟩ := ih.pend h1
        refine ⟨pre, es, post ++ [.handled (handleRaw h.chan.ee c msg).2.2], by rw [h2]; simp, h3, ?_⟩
        simpa [ticksSeen, List.countP_append] using h4
      · exact ⟨h.log, _, [], rfl, h1, rfl⟩
    · intro hc
      rw [hbo] at hc
      rw [hlog, hbo]
      obtain ⟨pre, es, post, h2, h3, h4⟩ := ih.recent hc
      refine ⟨pre, es, post ++ [.handled (handleRaw h.chan.ee c msg).2.2], by rw [h2]; simp, h3, ?_⟩
      simpa [ticksSeen, List.countP_append] using h4
  | @hubRestart h _ ih =>
    exact hinv_boot (h' := h.restart) ih ih.reach rfl rfl rfl rfl
  | @lose h c msg k hpf _ hty hnf hgb hcr ih =>
    exact hinv_boot (h' := h.lose key c msg k) ih (.rxCrash _ _ _ _ hpf ih.reach hnf hgb hcr) rfl rfl rfl rfl
  | @tick h s0 _ ih =>
    have hbi := ih.binv.step ht hm (.tick s0 true) (by intro _ _ h; simp only [BEv.tick.injEq] at h; exact h.2.symm)
    have hlog : (h.tick tpm minOn s0).log = h.log ++ [.tick s0 (h.boiler.process tpm minOn s0 true).pin] := rfl
    have hbo : (h.tick tpm minOn s0).boiler = h.boiler.process tpm minOn s0 true := rfl
    have hcnt : (h.tick tpm minOn s0).log.countP hotObs = h.log.countP hotObs := by
      rw [hlog, List.countP_append]; simp [hotObs]
    have hle := ih.binv.2.1
    refine ⟨ih.reach, ih.body, by rw [hcnt]; exact ih.calls, ?_, hbi, ?_, ?_, ?_⟩
    · intro es p hes
      rw [hlog, List.mem_append, List.mem_singleton] at hes
      rcases hes with hes | hes
      · exact ih.acts es p hes
      · cases hes
    · rw [hcnt, hbo, hlog]
      have hon : onTicks (h.log ++ [.tick s0 (h.boiler.process tpm minOn s0 true).pin]) =
          onTicks h.log + if (h.boiler.process tpm minOn s0 true).pin then 1 else 0 := by
        simp [onTicks, List.countP_append, List.countP_singleton]
      rw [hon]
      have hbud := ih.budget
      rcases Boiler.tick_cases ht hm h.boiler s0 with ⟨h1, _, _, e⟩ | ⟨h1, on, e⟩ | ⟨_, _, e⟩ | ⟨_, _, e⟩ | e
      · rw [e]
        rw [if_pos h1] at hbud
        dsimp only
        by_cases hz : minOn * tpm - 1 = 0
        · simp [hz] at hbud ⊢; exact hbud
        · simp [hz]; omega
      · rw [e]
        rw [h1] at hbud
        dsimp only
        rw [h1]
        simp only [Bool.false_eq_true, if_false] at hbud ⊢
        by_cases hz : h.boiler.ticks - 1 = 0
        · simp [hz]; omega
        · simp [hz]; omega
      · rw [e]
        have := Nat.le_trans (Nat.le_add_right _ _) hbud
        simpa using this
      · rw [e]
        have := Nat.le_trans (Nat.le_add_right _ _) hbud
        simpa using this
      · have := ih.binv.2.2.2; omega
    · intro hc
      exfalso
      rw [hbo] at hc
      rcases Boiler.tick_cases ht hm h.boiler s0 with ⟨_, _, _, e⟩ | ⟨h1, _, e⟩ | ⟨_, _, e⟩ | ⟨_, _, e⟩ | e
      · rw [e] at hc; cases hc
      · rw [e] at hc; rw [h1] at hc; cases hc
      · rw [e] at hc; cases hc
      · rw [e] at hc; cases hc
      · have := ih.binv.2.2.2; omega
    · intro hc
      rw [hbo] at hc ⊢
      rw [hlog]
      have hadd : ∀ post, ticksSeen (post ++ [.tick s0 (h.boiler.process tpm minOn s0 true).pin]) = ticksSeen post + 1 := by
        intro post; simp [ticksSeen, List.countP_append]
      rcases Boiler.tick_cases ht hm h.boiler s0 with ⟨h1, _, h2, e⟩ | ⟨h1, on, e⟩ | ⟨_, _, e⟩ | ⟨_, _, e⟩ | e
      · obtain ⟨pre, es, post, h3, h4, h5⟩ := ih.pend h1
        refine ⟨pre, es, post ++ [.tick s0 (h.boiler.process tpm minOn s0 true).pin], by rw [h3]; simp, h4, ?_⟩
        rw [hadd, e]; dsimp only; omega
      · have h0 : 0 < h.boiler.ticks := by simp [Boiler.isOn] at on; omega
        obtain ⟨pre, es, post, h3, h4, h5⟩ := ih.recent h0
        refine ⟨pre, es, post ++ [.tick s0 (h.boiler.process tpm minOn s0 true).pin], by rw [h3]; simp, h4, ?_⟩
        rw [hadd, e]; dsimp only; omega
      · rw [e] at hc; simp at hc
      · rw [e] at hc; simp at hc
      · have := ih.binv.2.2.2; omega

/-- **C183.** Whatever is recorded, replayed, delayed, reordered, altered or made up on the air, and however the transmitters restart and lose
power: the boiler is on only if, within the last minimum-on-time, the hub accepted a message asking for heat, which one of the transmitters
had sent. -/
theorem C183_on_only_if_asked (pf : Bool) (tpm minOn : Nat) (ht : tpm = 30 ∨ tpm = 60) (hm : minOn ≤ 255) (e : EncFn) (hel : EncLen e) (key : Bytes)
    (ids : List Bytes) (h0 h : House) (hb : HBegin ids h0) (hr : HReach pf tpm minOn e key ids h0 h) (hon : h.boiler.pin = true) :
    ∃ pre es post p, h.log = pre ++ .handled es :: post ∧ ticksSeen post < minOn * tpm ∧ Eff.heat p ∈ es ∧ 50 ≤ p ∧
      ∃ x ∈ h.chan.sent, x.id ∈ ids ∧ x.fType = FTS_BasicSensorOrValve ∧ ∃ b, x.body[0]? = some b ∧ b.toNat = p := by
  have inv := hinv (by omega) hm hel hb hr
  have h0 : 0 < h.boiler.ticks := by
    have := inv.binv.1
    rw [hon] at this
    simp [Boiler.isOn] at this
    omega
  obtain ⟨pre, es, post, h1, h2, h3⟩ := inv.recent h0
  unfold hot at h2
  rw [List.any_eq_true] at h2
  obtain ⟨ef, h4, h5⟩ := h2
  cases ef with
  | serial => simp at h5
  | relay => simp at h5
  | heat p =>
    simp only [decide_eq_true_eq] at h5
    obtain ⟨g, hg, ha, b, t, hgb, hbp⟩ := inv.acts es p (by rw [h1]; simp) h4 h5
    have cinv := inv_reach hel hb.chan inv.reach
    obtain ⟨xs, g1, g2, _⟩ := cinv.got
    rw [g1, List.mem_map] at hg
    obtain ⟨x, hx, rfl⟩ := hg
    refine ⟨pre, es, post, p, h1, by omega, h4, h5, x, g2 x hx, (cinv.made x (g2 x hx)).1, ?_, b, ?_, hbp⟩
    · simp only [asksHeat, SentMsg.got, Bool.and_eq_true, beq_iff_eq] at ha
      apply UInt8.toNat_inj.mp; rw [ha.1]; rfl
    · simp only [SentMsg.got] at hgb
      rw [hgb]; rfl

/-- **C183.** However long the history and whatever an attacker does, the boiler has been on for less than the minimum on time for each
message asking for heat that the transmitters sent: nobody can run the boiler without the valves asking. -/
theorem C183_bounded (pf : Bool) (tpm minOn : Nat) (ht : tpm = 30 ∨ tpm = 60) (hm : minOn ≤ 255) (e : EncFn) (hel : EncLen e) (key : Bytes)
    (ids : List Bytes) (h0 h : House) (hb : HBegin ids h0) (hr : HReach pf tpm minOn e key ids h0 h) :
    onTicks h.log ≤ (minOn * tpm - 1) * h.chan.sent.countP fun x => asksHeat x.fType.toNat x.body := by
  have inv := hinv (by omega) hm hel hb hr
  have cinv := inv_reach hel hb.chan inv.reach
  obtain ⟨xs, g1, g2, g3, _⟩ := cinv.got
  have hnd : (xs.filter fun x => asksHeat x.fType.toNat x.body).Nodup := by
    have := g3.filter (fun x => asksHeat x.fType.toNat x.body)
    refine this.imp ?_
    rintro a b hab rfl
    exact Nat.lt_irrefl _ (hab rfl)
  have hlen := length_le_of_subset _ (h.chan.sent.filter fun x => asksHeat x.fType.toNat x.body) hnd (by
    intro x hx
    simp only [List.mem_filter] at hx ⊢
    exact ⟨g2 x hx.1, hx.2⟩)
  have hc := inv.calls
  rw [g1, List.countP_map] at hc
  rw [← List.countP_eq_length_filter, ← List.countP_eq_length_filter] at hlen
  have hc' : h.log.countP hotObs ≤ h.chan.sent.countP fun x => asksHeat x.fType.toNat x.body := Nat.le_trans hc hlen
  have := Nat.le_trans (Nat.le_add_right _ _) inv.budget
  exact Nat.le_trans this (Nat.mul_le_mul_left _ hc')

/-! ## C184: valves that ask get heat -/

/-- No restart, and the boiler off at each tick. -/
def Calm (l : List HubObs) : Prop := onTicks l = 0 ∧ HubObs.restart ∉ l

theorem calm_handled (l : List HubObs) (es : List Eff) : Calm (l ++ [.handled es]) ↔ Calm l := by
  simp [Calm, onTicks, List.countP_append]

theorem calm_tick (l : List HubObs) (s0 on : Bool) : Calm (l ++ [.tick s0 on]) ↔ Calm l ∧ on = false := by
  cases on <;> simp [Calm, onTicks, List.countP_append]

theorem calm_restart (l : List HubObs) : ¬ Calm (l ++ [.restart]) := by
  simp [Calm]

/-- How long the output has been off is known from the log, to one minute. -/
structure OffInv (h : House) : Prop where
  on : h.boiler.isOn = true → ∀ pre post, h.log = pre ++ post → Calm post → minutesSeen post = 0
  off : ∀ pre post, h.log = pre ++ post → Calm post → minutesSeen post ≤ h.boiler.noCallM + 1 ∨ h.boiler.noCallM = 255

theorem append_singleton_cases {α : Type} {l pre post : List α} {x : α} (h : l ++ [x] = pre ++ post) :
    post = [] ∨ ∃ post', post = post' ++ [x] ∧ l = pre ++ post' := by
  rcases List.eq_nil_or_concat post with rfl | ⟨post', y, rfl⟩
  · exact .inl rfl
  · rw [List.concat_eq_append, ← List.append_assoc] at h
    obtain ⟨h1, h2⟩ := List.append_inj' h rfl
    simp only [List.cons.injEq, and_true] at h2
    subst h2
    exact .inr ⟨post', by rw [List.concat_eq_append], h1⟩

theorem offInv_log {h h' : House} (ih : OffInv h) (h1 : h'.boiler.isOn = h.boiler.isOn) (h2 : h'.boiler.noCallM = h.boiler.noCallM)
    (h3 : h'.log = h.log) : OffInv h' := by
  refine ⟨fun ho pre post hl => ih.on (by rw [← h1]; exact ho) pre post (by rw [← h3]; exact hl), fun pre post hl ho => ?_⟩
  rw [h2]; exact ih.off pre post (by rw [← h3]; exact hl) ho

theorem offInv {pf : Bool} {tpm minOn : Nat} (ht : tpm = 30 ∨ tpm = 60) (hm1 : 1 ≤ minOn) (hm : minOn ≤ 255) {e : EncFn} (hel : EncLen e) {key : Bytes} {ids : List Bytes} {h0 h : House}
    (hb : HBegin ids h0) (hr : HReach pf tpm minOn e key ids h0 h) : OffInv h := by
  induction hr with
  | start =>
    refine ⟨by rw [hb.boiler]; intro h; simp [Boiler.isOn, Boiler.init] at h, fun pre post hl _ => ?_⟩
    rw [hb.log] at hl
    have : post = [] := (List.append_eq_nil_iff.mp hl.symm).2
    subst this
    left; exact Nat.zero_le _
  | valve a r r' _ hid ih => exact offInv_log ih rfl rfl rfl
  | plain a r r' _ hid hne ih => exact offInv_log ih rfl rfl rfl
  | restart _ hid ih => exact offInv_log ih rfl rfl rfl
  | crash r r' k _ hid hc ih => exact offInv_log ih rfl rfl rfl
  | @hear h c minute msg _ hml hst hk hnf hgb ih =>
    obtain ⟨cl, happ, hcl⟩ := apply_call minute (handleRaw h.chan.ee c msg).2.2 h.boiler
    have hbo : (h.hear key c minute msg).boiler = { h.boiler with call := cl } := happ
    have hlog : (h.hear key c minute msg).log = h.log ++ [.handled (handleRaw h.chan.ee c msg).2.2] := rfl
    refine ⟨fun ho pre post hl hz => ?_, fun pre post hl hz => ?_⟩
    · rw [hbo] at ho
      rw [hlog] at hl
      rcases append_singleton_cases hl with rfl | ⟨post', rfl, hl'⟩
      · rfl
      · have := ih.on ho pre post' hl' ((calm_handled _ _).mp hz)
        simpa [minutesSeen, List.countP_append] using this
    · rw [hbo]
      rw [hlog] at hl
      rcases append_singleton_cases hl with rfl | ⟨post', rfl, hl'⟩
      · left; exact Nat.zero_le _
      · have := ih.off pre post' hl' ((calm_handled _ _).mp hz)
        simpa [minutesSeen, List.countP_append] using this
  | @hubRestart h _ ih =>
    refine ⟨fun ho => by simp [House.restart, Boiler.isOn, Boiler.init] at ho, fun pre post hl hz => ?_⟩
    rcases append_singleton_cases (show h.log ++ [.restart] = pre ++ post from hl) with rfl | ⟨post', rfl, hl'⟩
    · left; exact Nat.zero_le _
    · exact absurd hz (calm_restart _)
  | @lose h c msg k hpf _ _ _ _ _ ih =>
    refine ⟨fun ho => by simp [House.lose, Boiler.isOn, Boiler.init] at ho, fun pre post hl hz => ?_⟩
    rcases append_singleton_cases (show h.log ++ [.restart] = pre ++ post from hl) with rfl | ⟨post', rfl, hl'⟩
    · left; exact Nat.zero_le _
    · exact absurd hz (calm_restart _)
  | @tick h s0 hr ih =>
    have inv := hinv (by omega) hm hel hb hr
    have hlog : (h.tick tpm minOn s0).log = h.log ++ [.tick s0 (h.boiler.process tpm minOn s0 true).pin] := rfl
    have hbo : (h.tick tpm minOn s0).boiler = h.boiler.process tpm minOn s0 true := rfl
    have hN : 30 ≤ minOn * tpm := by
      rcases ht with rfl | rfl <;> omega
    have hadd : ∀ post p, minutesSeen (post ++ [.tick s0 p]) = minutesSeen post + (if s0 then 1 else 0) := by
      intro post p
      simp [minutesSeen, List.countP_append, List.countP_singleton]
    have hn := inv.binv.2.2
    rcases Boiler.tick_cases (tpm := tpm) (by omega) hm h.boiler s0 with ⟨h1, _, h2, e⟩ | ⟨h1, on, e⟩ | ⟨off, _, e⟩ | ⟨_, hz, _⟩ | e
    · -- turned on, or kept on: an "on" tick is last
      have hp : (h.boiler.process tpm minOn s0 true).pin = true := by
        rw [e]
        simp only [bne_iff_ne, ne_eq]
        rcases ht with rfl | rfl <;> omega
      have hnil : ∀ pre post, (h.tick tpm minOn s0).log = pre ++ post → Calm post → post = [] := by
        intro pre post hl hz
        rw [hlog] at hl
        rcases append_singleton_cases hl with rfl | ⟨post', rfl, hl'⟩
        · rfl
        · rw [calm_tick, hp] at hz; cases hz.2
      refine ⟨fun _ pre post hl hz => ?_, fun pre post hl hz => ?_⟩
      · rw [hnil pre post hl hz]; rfl
      · rw [hnil pre post hl hz]; left; exact Nat.zero_le _
    · by_cases hz : h.boiler.ticks - 1 = 0
      · -- goes off
        refine ⟨fun ho => ?_, fun pre post hl hz' => ?_⟩
        · rw [hbo, e] at ho; simp [Boiler.isOn, hz] at ho
        · rw [hlog] at hl
          rcases append_singleton_cases hl with rfl | ⟨post', rfl, hl'⟩
          · left; exact Nat.zero_le _
          · rw [calm_tick] at hz'
            rw [hadd, ih.on on pre post' hl' hz'.1]
            left; split <;> omega
      · have hp : (h.boiler.process tpm minOn s0 true).pin = true := by
          rw [e]; simp [hz]
        have hnil : ∀ pre post, (h.tick tpm minOn s0).log = pre ++ post → Calm post → post = [] := by
          intro pre post hl hz
          rw [hlog] at hl
          rcases append_singleton_cases hl with rfl | ⟨post', rfl, hl'⟩
          · rfl
          · rw [calm_tick, hp] at hz; cases hz.2
        refine ⟨fun _ pre post hl hz => ?_, fun pre post hl hz => ?_⟩
        · rw [hnil pre post hl hz]; rfl
        · rw [hnil pre post hl hz]; left; exact Nat.zero_le _
    · refine ⟨fun ho => ?_, fun pre post hl hz' => ?_⟩
      · rw [hbo, e] at ho; simp [Boiler.isOn] at ho
      · rw [hlog] at hl
        rw [hbo, e]
        rcases append_singleton_cases hl with rfl | ⟨post', rfl, hl'⟩
        · left; exact Nat.zero_le _
        · rw [calm_tick] at hz'
          rw [hadd]
          dsimp only
          have := ih.off pre post' hl' hz'.1
          split <;> omega
    · exfalso; omega
    · omega

/-- A transmitter's frame begins with the length byte that the radio strips and the hub's queue supplies again. -/
theorem framed_frame {e : EncFn} (hel : EncLen e) {key : Bytes} {x : SentMsg} (hmade : Made e key x) : framed (x.frame.drop 1) = x.frame := by
  obtain ⟨hctr, ptext, ptextLen, outbuf, idp, il, n, h, out, hraw, hbody, hframe, src, rfl, hsrc⟩ := hmade
  obtain ⟨k, hb, ct, tag, hiv, hkk, h31, heh, hhl, h4, hfl, hbl, hmax, hltb, hn, hpb, hciph, htag, hct, hout⟩ := encodeRaw_ok hel hraw
  obtain ⟨idb, t1, t2, hil8, hidc, hbuf, tl1, tl2, hfl2, hh, hhb⟩ := encodeHeader_ok.mp heh
  have hxl : x.frame.length = n ∧ x.frame[0]? = some (u8 h.fl) := by
    have hctl : (ct.take (encBody ptextLen)).length = encBody ptextLen := by
      unfold encBody
      by_cases h0 : ptextLen = 0
      · simp [h0]
      · simp [h0, hct h0]
    have hivl : (((x.id.take 6 ++ x.ctr).drop 6).take 6).length = 6 := by
      rw [List.length_take, List.length_drop]; omega
    constructor
    · rw [hframe, hout, List.length_take]
      simp only [List.length_append, hctl, htag, hivl, List.length_singleton]
      omega
    · rw [hframe, hout, hhb, hh]
      rw [List.getElem?_take_of_lt (by omega)]
      simp
  obtain ⟨h1, h2⟩ := hxl
  have hlen : 0 < x.frame.length := by omega
  rw [List.getElem?_eq_getElem hlen, Option.some.injEq] at h2
  unfold framed
  rw [List.length_drop, h1, show n - 1 = h.fl by omega, ← h2]
  have := List.drop_eq_getElem_cons hlen
  rw [List.drop_zero] at this
  exact this.symm

theorem log_grows {pf : Bool} {tpm minOn : Nat} {e : EncFn} {key : Bytes} {ids : List Bytes} {h0 h : House} (hr : HReach pf tpm minOn e key ids h0 h) :
    ∃ l, h.log = h0.log ++ l := by
  induction hr with
  | start => exact ⟨[], by simp⟩
  | valve a r r' _ hid ih => exact ih
  | plain a r r' _ hid hne ih => exact ih
  | restart _ hid ih => exact ih
  | crash r r' k _ hid hc ih => exact ih
  | hear c minute msg _ hml hst hk hnf hgb ih =>
    obtain ⟨l, hl⟩ := ih
    exact ⟨l ++ [_], by show _ ++ [_] = _; rw [hl, List.append_assoc]⟩
  | hubRestart _ ih =>
    obtain ⟨l, hl⟩ := ih
    exact ⟨l ++ [_], by show _ ++ [_] = _; rw [hl, List.append_assoc]⟩
  | lose _ _ _ _ _ _ _ _ _ ih =>
    obtain ⟨l, hl⟩ := ih
    exact ⟨l ++ [_], by show _ ++ [_] = _; rw [hl, List.append_assoc]⟩
  | tick s0 hr ih =>
    obtain ⟨l, hl⟩ := ih
    exact ⟨l ++ [_], by show _ ++ [_] = _; rw [hl, List.append_assoc]⟩

/-- While on time remains, the boiler stays on. -/
theorem stays {pf : Bool} {tpm minOn : Nat} (ht : tpm ≤ 60) (hm : minOn ≤ 255) {e : EncFn} {key : Bytes} {ids : List Bytes} {h0 h : House} (hb : BInv tpm minOn h0.boiler)
    (hr : HReach pf tpm minOn e key ids h0 h) :
    BInv tpm minOn h.boiler ∧ ∀ l, h.log = h0.log ++ l → HubObs.restart ∉ l → h0.boiler.ticks ≤ h.boiler.ticks + ticksSeen l := by
  induction hr with
  | start =>
    refine ⟨hb, fun l hl _ => ?_⟩
    omega
  | valve a r r' _ hid ih => exact ih
  | plain a r r' _ hid hne ih => exact ih
  | restart _ hid ih => exact ih
  | crash r r' k _ hid hc ih => exact ih
  | @hear h c minute msg hr hml hst hk hnf hgb ih =>
    obtain ⟨cl, happ, hcl⟩ := apply_call minute (handleRaw h.chan.ee c msg).2.2 h.boiler
    have hbo : (h.hear key c minute msg).boiler = { h.boiler with call := cl } := happ
    have hlog : (h.hear key c minute msg).log = h.log ++ [.handled (handleRaw h.chan.ee c msg).2.2] := rfl
    obtain ⟨l', hl'⟩ := log_grows hr
    refine ⟨by rw [hbo]; exact ih.1, fun l hl hnr => ?_⟩
    rw [hlog, hl', List.append_assoc] at hl
    have := List.append_cancel_left hl
    subst this
    rw [hbo]
    have := ih.2 l' hl' (fun h => hnr (List.mem_append_left _ h))
    simp only [ticksSeen, List.countP_append] at this ⊢
    simpa using this
  | @hubRestart h hr ih =>
    obtain ⟨l', hl'⟩ := log_grows hr
    refine ⟨BInv.init, fun l hl hnr => ?_⟩
    rw [show h.restart.log = h.log ++ [.restart] from rfl, hl', List.append_assoc] at hl
    have := List.append_cancel_left hl
    subst this
    exact absurd (by simp) hnr
  | @lose h c msg k hpf hr _ _ _ _ ih =>
    obtain ⟨l', hl'⟩ := log_grows hr
    refine ⟨BInv.init, fun l hl hnr => ?_⟩
    rw [show (h.lose key c msg k).log = h.log ++ [.restart] from rfl, hl', List.append_assoc] at hl
    have := List.append_cancel_left hl
    subst this
    exact absurd (by simp) hnr
  | @tick h s0 hr ih =>
    have hbi := ih.1.step ht hm (.tick s0 true) (by intro _ _ h; simp only [BEv.tick.injEq] at h; exact h.2.symm)
    have hlog : (h.tick tpm minOn s0).log = h.log ++ [.tick s0 (h.boiler.process tpm minOn s0 true).pin] := rfl
    have hbo : (h.tick tpm minOn s0).boiler = h.boiler.process tpm minOn s0 true := rfl
    obtain ⟨l', hl'⟩ := log_grows hr
    refine ⟨hbi, fun l hl hnr => ?_⟩
    rw [hlog, hl', List.append_assoc] at hl
    have := List.append_cancel_left hl
    subst this
    rw [hbo]
    have hih := ih.2 l' hl' (fun h => hnr (List.mem_append_left _ h))
    have hadd : ticksSeen (l' ++ [.tick s0 (h.boiler.process tpm minOn s0 true).pin]) = ticksSeen l' + 1 := by
      simp [ticksSeen, List.countP_append]
    rw [hadd]
    have hle := ih.1.2.1
    rcases Boiler.tick_cases ht hm h.boiler s0 with ⟨h1, _, h2, e⟩ | ⟨h1, on, e⟩ | ⟨off, _, e⟩ | ⟨_, hz, e⟩ | e
    · rw [e]; dsimp only
      omega
    · rw [e]; dsimp only; omega
    · have : h.boiler.ticks = 0 := by simpa [Boiler.isOn] using off
      rw [e]; dsimp only; omega
    · rw [e]; dsimp only; omega
    · have := ih.1.2.2.2; omega

/-- A call for heat is not cancelled by a message. -/
theorem apply_keeps (minute : Nat) : ∀ (es : List Eff) (bo : Boiler), bo.call = true → (bo.apply minute es).call = true := by
  intro es
  induction es with
  | nil => intro bo h; exact h
  | cons ef es ih =>
    intro bo h
    cases ef with
    | heat p =>
      rw [Boiler.apply]
      apply ih
      unfold Boiler.remoteCall
      split
      · rfl
      · exact h
    | serial => rw [Boiler.apply] <;> first | exact ih _ h | (intro p hp; cases hp)
    | relay => rw [Boiler.apply] <;> first | exact ih _ h | (intro p hp; cases hp)

/-- Such a message is acted on. -/
theorem asked_call (tpm minOn : Nat) (ht : tpm = 30 ∨ tpm = 60) (hm : minOn ≤ 255) (e : EncFn) (hel : EncLen e) (key : Bytes)
    (ids : List Bytes) (h0 h : House) (hb : HBegin ids h0) (hr : HReach false tpm minOn e key ids h0 h)
    (before after : List SentMsg) (x : SentMsg) (hsent : h.chan.sent = before ++ x :: after)
    (hfresh : ∀ y ∈ x :: after, y.id = x.id → ∀ g ∈ h.chan.got, g.node = x.id → g.frame ≠ y.frame)
    (hO : x.fType = FTS_BasicSensorOrValve) (b : Byte) (hbody : x.body[0]? = some b) (h66 : 66 ≤ b.toNat) (h100 : b.toNat ≤ 100)
    (c0 cur0 : Bytes) (hgood : BothGood h0.chan.ee x.id c0) (hcur : getLastRXMsgCtr h0.chan.ee x.id = some cur0) (hlt : beVal cur0 < beVal x.ctr)
    (hfind : (getNextMatchingNodeID h0.chan.ee 0 (x.id.take ((x.frame[2]?.getD 0).toNat % 16))).map (rowID h0.chan.ee) = some x.id)
    (hsmall0 : beVal c0 + 255 < 2 ^ 40) (hsmall : beVal x.ctr + 255 < 2 ^ 40)
    (c : HCfg) (hacc : Accepts e c.dec key x) (hkey : c.key = some key) (hscr : 74 ≤ c.scratch) (hst : 31 ≤ c.stack.length)
    (hop : c.o1 = .boiler ∨ c.o2 = .boiler) (minute : Nat) :
    (h.hear key c minute (x.frame.drop 1)).boiler = { h.boiler with call := true } := by
  have inv := hinv (by omega) hm hel hb hr
  have cinv := inv_reach hel hb.chan inv.reach
  have hxs : x ∈ h.chan.sent := by rw [hsent]; simp
  obtain ⟨hxid, hxm⟩ := cinv.made x hxs
  have hfr := framed_frame hel hxm
  have hdel := C177_delivered e hel key ids h0.chan h.chan hb.chan inv.reach before after x hsent hfresh c0 cur0 hgood hcur hlt hfind hsmall0 hsmall
    c.dec hacc (c.scratch - 16) (by omega) []
  rw [List.append_nil] at hdel
  have hlen : x.frame.length ≤ 64 := by
    obtain ⟨hctr, ptext, ptextLen, outbuf, idp, il, n, hh, out, hraw, hbody, hframe, _⟩ := hxm
    obtain ⟨k, hb, ct, tag, hiv, hkk, h31, heh, hhl, h4, hfl, hbl, hmax, hltb, hn, hpb, hciph, htag, hct, hout⟩ := encodeRaw_ok hel hraw
    rw [hframe, List.length_take]; omega
  -- the handler acts on it
  have hrx : ∃ n node, (hubRx h.chan.ee c (x.frame.drop 1)).1 = .ok (n, x.body, node) ∧ (x.frame[1]?.getD 0).toNat % 128 = x.fType.toNat := by
    unfold hubRx
    rw [hfr, hkey]
    unfold deliver at hdel
    dsimp only at hdel
    generalize (rx h.chan.ee ⟨x.frame, true, c.scratch - 16, c.dec, some key⟩).1 = R at hdel ⊢
    cases R with
    | fail => have := congrArg List.length hdel; simp at this
    | ub => have := congrArg List.length hdel; simp at this
    | ok r =>
      obtain ⟨n, body, node⟩ := r
      have := List.append_cancel_left hdel
      simp only [List.cons.injEq, GotMsg.mk.injEq, and_true] at this
      exact ⟨n, node, by rw [this.2.2.1], this.2.1⟩
  obtain ⟨n, node, hrx, htype⟩ := hrx
  have hty : (x.frame.drop 1)[0]? = some 0xcf := by
    have h80 : ∃ b1, x.frame[1]? = some b1 ∧ 128 ≤ b1.toNat := by
      obtain ⟨hctr, ptext, ptextLen, outbuf, idp, il, n, hh, out, hraw, hbody, hframe, _⟩ := hxm
      obtain ⟨k, hb, ct, tag, hiv, hkk, h31, heh, hhl, h4, hfl, hbl, hmax, hltb, hn, hpb, hciph, htag, hct, hout⟩ := encodeRaw_ok hel hraw
      obtain ⟨idb, t1, t2, hil8, hidc, hbuf, tl1, tl2, hfl2, hh', hhb⟩ := encodeHeader_ok.mp heh
      refine ⟨typeByte true x.fType, ?_, ?_⟩
      · rw [hframe, hout, hhb, List.getElem?_take_of_lt (by omega)]
        simp
      · have := typeByte_toNat true x.fType t2
        rw [if_pos rfl] at this
        omega
    obtain ⟨b1, hb1, hge⟩ := h80
    rw [List.getElem?_drop, hb1]
    rw [hb1, Option.getD_some, hO] at htype
    have h79 : (FTS_BasicSensorOrValve : Byte).toNat = 79 := rfl
    rw [h79] at htype
    have hlt := b1.toNat_lt
    congr 1
    apply UInt8.toNat_inj.mp
    show b1.toNat = 207
    omega
  obtain ⟨bt, hbt⟩ : ∃ t, x.body = b :: t := by
    cases hx : x.body with
    | nil => rw [hx] at hbody; simp at hbody
    | cons a t => rw [hx] at hbody; simp at hbody; exact ⟨t, by rw [hbody]⟩
  have hact := (C76_actions_partial h.chan.ee c (x.frame.drop 1) (by rw [List.length_drop]; omega) hst).2 n x.body node hty hrx (.inl (by rw [hbt]; simp))
  have hwant : want .boiler x.body node (x.frame.drop 1) = [.heat b.toNat] := by
    rw [hbt]; simp only [want]; rw [if_pos h100]
  have hcallM : ∀ (es : List Eff) (bo : Boiler), Eff.heat b.toNat ∈ es → (bo.apply minute es).call = true := by
    intro es
    induction es with
    | nil => intro bo h; cases h
    | cons ef es ih =>
      intro bo h
      rcases List.mem_cons.mp h with h | h'
      · rw [← h, Boiler.apply]
        apply apply_keeps
        unfold Boiler.remoteCall
        rw [if_pos]
        have := bo.thr_cases minute
        omega
      · cases ef with
        | heat p => rw [Boiler.apply]; exact ih _ h'
        | serial => rw [Boiler.apply] <;> first | exact ih _ h' | (intro p hp; cases hp)
        | relay => rw [Boiler.apply] <;> first | exact ih _ h' | (intro p hp; cases hp)
  have hmem : Eff.heat b.toNat ∈ (handleRaw h.chan.ee c (x.frame.drop 1)).2.2 := by
    rw [hact]
    rcases hop with ho | ho
    · rw [ho, hwant]; simp
    · rw [ho, hwant]; simp
  have hcall := hcallM _ h.boiler hmem
  obtain ⟨cl, happ, _⟩ := apply_call minute (handleRaw h.chan.ee c (x.frame.drop 1)).2.2 h.boiler
  have : cl = true := by rw [happ] at hcall; exact hcall
  rw [← this]; exact happ

/-- After a call for heat, while the boiler is on or has been off for long enough, it is on from the next tick until its time is over, whatever else arrives. -/
theorem after_call {pf : Bool} {tpm minOn : Nat} (ht : tpm ≤ 60) (hm : minOn ≤ 255) (hN : 1 ≤ minOn * tpm) {e : EncFn} {key : Bytes} {ids : List Bytes} {h0 h : House} (hb : BInv tpm minOn h0.boiler)
    (hcall : h0.boiler.call = true) (hready : h0.boiler.isOn = true ∨ min 254 minOn < h0.boiler.noCallM) (hr : HReach pf tpm minOn e key ids h0 h) :
    BInv tpm minOn h.boiler ∧ ∀ l, h.log = h0.log ++ l → HubObs.restart ∉ l →
      (ticksSeen l = 0 ∧ h.boiler.call = true ∧ (h.boiler.isOn = true ∨ min 254 minOn < h.boiler.noCallM)) ∨ (1 ≤ ticksSeen l ∧ minOn * tpm ≤ h.boiler.ticks + ticksSeen l) := by
  induction hr with
  | start =>
    refine ⟨hb, fun l hl _ => .inl ⟨?_, hcall, hready⟩⟩
    rw [(List.append_cancel_left (show h0.log ++ [] = h0.log ++ l by rw [List.append_nil]; exact hl)).symm]; rfl
  | valve a r r' _ hid ih => exact ih
  | plain a r r' _ hid hne ih => exact ih
  | restart _ hid ih => exact ih
  | crash r r' k _ hid hc ih => exact ih
  | @hear h c minute msg hr hml hst hk hnf hgb ih =>
    obtain ⟨cl, happ, hcl⟩ := apply_call minute (handleRaw h.chan.ee c msg).2.2 h.boiler
    have hbo : (h.hear key c minute msg).boiler = { h.boiler with call := cl } := happ
    have hlog : (h.hear key c minute msg).log = h.log ++ [.handled (handleRaw h.chan.ee c msg).2.2] := rfl
    obtain ⟨l', hl'⟩ := log_grows hr
    refine ⟨by rw [hbo]; exact ih.1, fun l hl hnr => ?_⟩
    rw [hlog, hl', List.append_assoc] at hl
    have := List.append_cancel_left hl
    subst this
    have hts : ticksSeen (l' ++ [.handled (handleRaw h.chan.ee c msg).2.2]) = ticksSeen l' := by simp [ticksSeen, List.countP_append]
    rw [hbo, hts]
    rcases ih.2 l' hl' (fun h => hnr (List.mem_append_left _ h)) with ⟨h1, h2, h3⟩ | h1
    · refine .inl ⟨h1, ?_, h3⟩
      have := apply_keeps minute (handleRaw h.chan.ee c msg).2.2 h.boiler h2
      rw [happ] at this
      exact this
    · exact .inr h1
  | @hubRestart h hr ih =>
    obtain ⟨l', hl'⟩ := log_grows hr
    refine ⟨BInv.init, fun l hl hnr => ?_⟩
    rw [show h.restart.log = h.log ++ [.restart] from rfl, hl', List.append_assoc] at hl
    have := List.append_cancel_left hl
    subst this
    exact absurd (by simp) hnr
  | @lose h c msg k hpf hr _ _ _ _ ih =>
    obtain ⟨l', hl'⟩ := log_grows hr
    refine ⟨BInv.init, fun l hl hnr => ?_⟩
    rw [show (h.lose key c msg k).log = h.log ++ [.restart] from rfl, hl', List.append_assoc] at hl
    have := List.append_cancel_left hl
    subst this
    exact absurd (by simp) hnr
  | @tick h s0 hr ih =>
    have hbi := ih.1.step ht hm (.tick s0 true) (by intro _ _ h; simp only [BEv.tick.injEq] at h; exact h.2.symm)
    have hlog : (h.tick tpm minOn s0).log = h.log ++ [.tick s0 (h.boiler.process tpm minOn s0 true).pin] := rfl
    have hbo : (h.tick tpm minOn s0).boiler = h.boiler.process tpm minOn s0 true := rfl
    obtain ⟨l', hl'⟩ := log_grows hr
    refine ⟨hbi, fun l hl hnr => .inr ?_⟩
    rw [hlog, hl', List.append_assoc] at hl
    have := List.append_cancel_left hl
    subst this
    rw [hbo]
    have hih := ih.2 l' hl' (fun h => hnr (List.mem_append_left _ h))
    have hadd : ticksSeen (l' ++ [.tick s0 (h.boiler.process tpm minOn s0 true).pin]) = ticksSeen l' + 1 := by
      simp [ticksSeen, List.countP_append]
    rw [hadd]
    have hle := ih.1.2.1
    refine ⟨Nat.le_add_left _ _, ?_⟩
    rcases Boiler.tick_cases ht hm h.boiler s0 with ⟨h1, _, h2, e⟩ | ⟨h1, on, e⟩ | ⟨off, hoff, e⟩ | ⟨_, hz, e⟩ | e
    · rw [e]; dsimp only
      omega
    · rw [e]; dsimp only
      rcases hih with ⟨_, h3, _⟩ | ⟨_, h3⟩
      · rw [h3] at h1; cases h1
      · omega
    · rcases hih with ⟨_, h3, h4⟩ | ⟨_, h3⟩
      · have := hoff h3
        rcases h4 with h4 | h4
        · rw [off] at h4; cases h4
        · omega
      · have : h.boiler.ticks = 0 := by simpa [Boiler.isOn] using off
        rw [e]; dsimp only; omega
    · omega
    · have := ih.1.2.2.2; omega

/-- **C184.** In the same system: a message asking for at least 66%, of a node the hub knows, that arrives intact and fresh (neither it nor a later
one of the same node was accepted before) makes the boiler come on at the next tick, provided the boiler is on or has been off for long
enough; and the boiler then stays on for the minimum on time (less one tick), whatever else arrives. -/
theorem C184_asked_gets_heat (tpm minOn : Nat) (ht : tpm = 30 ∨ tpm = 60) (hm1 : 1 ≤ minOn) (hm : minOn ≤ 255) (e : EncFn) (hel : EncLen e) (key : Bytes)
    (ids : List Bytes) (h0 h : House) (hb : HBegin ids h0) (hr : HReach false tpm minOn e key ids h0 h)
    (before after : List SentMsg) (x : SentMsg) (hsent : h.chan.sent = before ++ x :: after)
    (hfresh : ∀ y ∈ x :: after, y.id = x.id → ∀ g ∈ h.chan.got, g.node = x.id → g.frame ≠ y.frame)
    (hO : x.fType = FTS_BasicSensorOrValve) (b : Byte) (hbody : x.body[0]? = some b) (h66 : 66 ≤ b.toNat) (h100 : b.toNat ≤ 100)
    (c0 cur0 : Bytes) (hgood : BothGood h0.chan.ee x.id c0) (hcur : getLastRXMsgCtr h0.chan.ee x.id = some cur0) (hlt : beVal cur0 < beVal x.ctr)
    (hfind : (getNextMatchingNodeID h0.chan.ee 0 (x.id.take ((x.frame[2]?.getD 0).toNat % 16))).map (rowID h0.chan.ee) = some x.id)
    (hsmall0 : beVal c0 + 255 < 2 ^ 40) (hsmall : beVal x.ctr + 255 < 2 ^ 40)
    (c : HCfg) (hacc : Accepts e c.dec key x) (hkey : c.key = some key) (hscr : 74 ≤ c.scratch) (hst : 31 ≤ c.stack.length)
    (hop : c.o1 = .boiler ∨ c.o2 = .boiler) (minute : Nat) (s0 : Bool)
    (hquiet : h.boiler.pin = true ∨ ∃ pre post, h.log = pre ++ post ∧ onTicks post = 0 ∧ HubObs.restart ∉ post ∧ min 254 minOn + 2 ≤ minutesSeen post)
    (h2 : House) (hr2 : HReach false tpm minOn e key ids ((h.hear key c minute (x.frame.drop 1)).tick tpm minOn s0) h2)
    (l : List HubObs) (hl : h2.log = ((h.hear key c minute (x.frame.drop 1)).tick tpm minOn s0).log ++ l) (hnr : HubObs.restart ∉ l) (hk : ticksSeen l ≤ minOn * tpm - 2) :
    h2.boiler.pin = true := by
  have inv := hinv (by omega) hm hel hb hr
  have hoff := offInv ht hm1 hm hel hb hr
  have hb1 := asked_call tpm minOn ht hm e hel key ids h0 h hb hr before after x hsent hfresh hO b hbody h66 h100 c0 cur0 hgood hcur hlt hfind hsmall0 hsmall c hacc hkey hscr hst hop minute
  have hbinv1 : BInv tpm minOn (h.hear key c minute (x.frame.drop 1)).boiler := by rw [hb1]; exact inv.binv
  have hbi : BInv tpm minOn ((h.hear key c minute (x.frame.drop 1)).tick tpm minOn s0).boiler :=
    hbinv1.step (by omega) hm (.tick s0 true) (by intro _ _ h; simp only [BEv.tick.injEq] at h; exact h.2.symm)
  have hN : 30 ≤ minOn * tpm := by rcases ht with rfl | rfl <;> omega
  have hready : h.boiler.isOn = true ∨ min 254 minOn < h.boiler.noCallM := by
    rcases hquiet with hq | ⟨pre, post, q1, q2, q4, q3⟩
    · left; rw [← inv.binv.1]; exact hq
    · right
      have := hoff.off pre post q1 ⟨q2, q4⟩
      omega
  have hticks : ((h.hear key c minute (x.frame.drop 1)).tick tpm minOn s0).boiler.ticks = minOn * tpm - 1 := by
    show ((h.hear key c minute (x.frame.drop 1)).boiler.process tpm minOn s0 true).ticks = _
    rw [hb1]
    rcases Boiler.tick_cases (tpm := tpm) (by omega) hm { h.boiler with call := true } s0 with ⟨_, _, _, e⟩ | ⟨h1, _⟩ | ⟨h1, h2, _⟩ | ⟨_, hz, _⟩ | e
    · rw [e]
    · cases h1
    · exfalso
      have := h2 rfl
      dsimp only at this
      rcases hready with hr | hr
      · have h1' : h.boiler.isOn = false := h1
        rw [hr] at h1'; cases h1'
      · omega
    · omega
    · have := inv.binv.2.2.2; dsimp only at e; omega
  obtain ⟨g1, g2⟩ := stays (by omega) hm hbi hr2
  have := g2 l hl hnr
  rw [g1.1]
  simp only [Boiler.isOn, bne_iff_ne, ne_eq]
  omega

/-! ## Non-vacuity -/

def exHouse0 : House := ⟨chStart, .init, []⟩
/-- Three quiet minutes (minimum on time one minute), then a valve reports 80% and then 81% open. -/
def exHouse1 : House := ((exHouse0.tick 30 1 true).tick 30 1 true).tick 30 1 true
def exValve (pc : Byte) : ValveArgs := ⟨List.replicate 32 0, List.replicate 63 0, 4, pc, 284⟩
def exHouse2 : House := { exHouse1 with chan := exHouse1.chan.valve nullEncChecked chKey exRxID (exValve 80) [] [4, 5, 6] }
def exHouse3 : House := { exHouse2 with chan := exHouse2.chan.valve nullEncChecked chKey exRxID (exValve 81) [] [7, 8, 9] }
def hsCfg (h : House) : HCfg := ⟨100, idealDec h.chan.sent, some chKey, List.replicate 31 0, .boiler, .null⟩
def hsMsg (i : Nat) : Bytes := ((exHouse3.chan.sent[i]?.map (·.frame)).getD []).drop 1
/-- The first arrives and is acted on; then it is replayed; then the boiler's time is over. -/
def exHouse4 : House := (exHouse3.hear chKey (hsCfg exHouse3) 20 (hsMsg 0)).tick 30 1 false
def exHouse5 : House := (exHouse4.hear chKey (hsCfg exHouse4) 20 (hsMsg 0)).tick 30 1 false

theorem hsCfg_ok (h : House) : NoForgery (hsCfg h).dec chKey h.chan.sent ∧ GivesBack nullEncChecked (hsCfg h).dec ∧ 31 ≤ (hsCfg h).stack.length ∧
    (hsCfg h).key = some chKey := ⟨idealDec_noForgery _ _, idealDec_givesBack _, by simp [hsCfg], rfl⟩

theorem exHReach3 : HReach false 30 1 nullEncChecked chKey [exRxID] exHouse0 exHouse3 :=
  .valve (id := exRxID) (exValve 81) [] [7, 8, 9] (.valve (id := exRxID) (exValve 80) [] [4, 5, 6] (.tick true (.tick true (.tick true .start))) (by simp)) (by simp)

theorem exHReach5 : HReach false 30 1 nullEncChecked chKey [exRxID] exHouse0 exHouse5 := by
  have h4 : HReach false 30 1 nullEncChecked chKey [exRxID] exHouse0 exHouse4 :=
    .tick false (.hear (hsCfg exHouse3) 20 (hsMsg 0) exHReach3 (by decide +kernel) (hsCfg_ok _).2.2.1 (hsCfg_ok _).2.2.2 (hsCfg_ok _).1 (hsCfg_ok _).2.1)
  exact .tick false (.hear (hsCfg exHouse4) 20 (hsMsg 0) h4 (by decide +kernel) (hsCfg_ok _).2.2.1 (hsCfg_ok _).2.2.2 (hsCfg_ok _).1 (hsCfg_ok _).2.1)

example : HBegin [exRxID] exHouse0 := ⟨chBegin, rfl, rfl⟩

/-- The call turns the boiler on, the replay does nothing; two messages asked for heat, two ticks were on. -/
example : exHouse5.boiler.pin = true ∧ exHouse5.log = [.tick true false, .tick true false, .tick true false, .handled [.heat 80], .tick false true,
      .handled [], .tick false true] ∧ exHouse5.chan.sent.countP (fun x => asksHeat x.fType.toNat x.body) = 2 ∧ onTicks exHouse5.log = 2 := by
  decide +kernel

/-- The hypotheses of C184 at that point. -/
example : ∃ x y, exHouse3.chan.sent = [] ++ x :: [y] ∧ exHouse3.chan.got = [] ∧ x.fType = FTS_BasicSensorOrValve ∧ x.body[0]? = some 80 ∧
    x.id = exRxID ∧ 0 < beVal x.ctr ∧ beVal x.ctr + 255 < 2 ^ 40 ∧ (x.frame[2]?.getD 0).toNat % 16 = 4 ∧
    exHouse3.log = [] ++ exHouse3.log ∧ onTicks exHouse3.log = 0 ∧ HubObs.restart ∉ exHouse3.log ∧ min 254 1 + 2 ≤ minutesSeen exHouse3.log := by
  have h : exHouse3.chan.sent.length = 2 ∧ exHouse3.chan.got = [] ∧ exHouse3.chan.sent.map (fun x => (x.fType, x.body[0]?, x.id == exRxID, decide (0 < beVal x.ctr),
      decide (beVal x.ctr + 255 < 2 ^ 40), (x.frame[2]?.getD 0).toNat % 16)) =
      [(FTS_BasicSensorOrValve, some 80, true, true, true, 4), (FTS_BasicSensorOrValve, some 81, true, true, true, 4)] := by decide +kernel
  obtain ⟨h1, h2, h3⟩ := h
  match hs : exHouse3.chan.sent, h1 with
  | [x, y], _ =>
    rw [hs] at h3
    simp only [List.map_cons, List.map_nil, List.cons.injEq, Prod.mk.injEq, beq_iff_eq, decide_eq_true_eq, and_true] at h3
    obtain ⟨⟨a1, a2, a3, a4, a5, a6⟩, _⟩ := h3
    exact ⟨x, y, rfl, h2, a1, a2, a3, a4, a5, a6, rfl, by decide +kernel, by decide +kernel, by decide +kernel⟩

/-- The hub loses power while handling the first message; after it is up again the second arrives, and then the first is replayed in vain. -/
def exHouse6 : House := (exHouse3.lose chKey (hsCfg exHouse3) (hsMsg 0) 1).hear chKey (hsCfg exHouse3) 20 (hsMsg 1)
def exHouse7 : House := exHouse6.hear chKey (hsCfg exHouse6) 20 (hsMsg 0)

theorem hsCrash_ok : CrashOK exHouse3.chan.ee (framed (hsMsg 0)) ((hsCfg exHouse3).scratch - 16) (hsCfg exHouse3).dec chKey := by
  intro n body node h
  have h1 : (match (rx exHouse3.chan.ee ⟨framed (hsMsg 0), true, (hsCfg exHouse3).scratch - 16, (hsCfg exHouse3).dec, some chKey⟩).1 with
      | .ok (_, _, node) => decide (node = exRxID) | _ => true) = true := by
    decide +kernel
  rw [h] at h1
  simp only [decide_eq_true_eq] at h1
  refine ⟨⟨[0, 0, 0, 0, 0, 0], ?_⟩, by decide +kernel⟩
  rw [h1]
  exact exRx_good

theorem exHReach7 : HReach true 30 1 nullEncChecked chKey [exRxID] exHouse0 exHouse7 := by
  have h3 : HReach true 30 1 nullEncChecked chKey [exRxID] exHouse0 exHouse3 :=
    .valve (id := exRxID) (exValve 81) [] [7, 8, 9] (.valve (id := exRxID) (exValve 80) [] [4, 5, 6] (.tick true (.tick true (.tick true .start))) (by simp)) (by simp)
  have h4 := HReach.lose (hsCfg exHouse3) (hsMsg 0) 1 rfl h3 (by decide +kernel) (hsCfg_ok _).1 (hsCfg_ok _).2.1 hsCrash_ok
  have h5 : HReach true 30 1 nullEncChecked chKey [exRxID] exHouse0 exHouse6 :=
    .hear (hsCfg exHouse3) 20 (hsMsg 1) h4 (by decide +kernel) (hsCfg_ok _).2.2.1 (hsCfg_ok _).2.2.2 (hsCfg_ok exHouse3).1 (hsCfg_ok _).2.1
  exact .hear (hsCfg exHouse6) 20 (hsMsg 0) h5 (by decide +kernel) (hsCfg_ok _).2.2.1 (hsCfg_ok _).2.2.2 (hsCfg_ok _).1 (hsCfg_ok _).2.1

example : exHouse7.log = [.tick true false, .tick true false, .tick true false, .restart, .handled [.heat 81], .handled []] := by decide +kernel

end OTR.Props
