import Verif.Props.EndToEnd
import Verif.Props.HeatStops
import Verif.Props.QueueHandler
/-!
# C209–C210: the whole house with the hub's receive queue

The house of C183–C193, but what reaches the hub does not go to its handlers at once: the radio's interrupt puts it on the receive queue, at any moment, if there is room,
and the main loop takes messages off, one per call.
-/

namespace OTR.Props
open OTR

/-! ## Specification -/

/-- The house, the hub's queue and serial power; frames taken in and messages handled since the hub last started; calls of `handle()` early enough in their cycle, and restarts. -/
structure QHouse where
  house : House
  q : VQ
  serial : Bool
  inb : List Bytes
  done : List Bytes
  calls : Nat
  restarts : Nat

/-- The main loop calls `handle()`, which did `o`. -/
def QHouse.called (s : QHouse) (key : Bytes) (c : HCfg) (minute : Nat) (i : HandleIn) (o : HandleOut) : QHouse :=
  { s with
    house := match o.msg with | none => s.house | some m => s.house.hear key c minute m.1
    q := o.q, serial := o.serial, inb := s.inb ++ o.inb
    done := s.done ++ (o.msg.map (·.1)).toList
    calls := s.calls + if i.sct < 189 then 1 else 0 }

/-- The hub starts again, its queue empty, in whatever memory. -/
def QHouse.reset (s : QHouse) (h : House) (maxRX cap : Nat) (junk : Nat → Byte) : QHouse :=
  { s with house := h, q := VQ.new maxRX cap junk, inb := [], done := [], restarts := s.restarts + 1 }

/-- What the whole system can do from `s0`: as `HReach`, but with frames going through the queue, of frame size `mf`; `ok`: what is known of how the hub is set up. -/
inductive QReach (ok : HCfg → Prop) (mf cap : Nat) (pf : Bool) (tpm minOn : Nat) (e : EncFn) (key : Bytes) (ids : List Bytes) (s0 : QHouse) : QHouse → Prop
  | start : QReach ok mf cap pf tpm minOn e key ids s0 s0
  | valve {s id} (a : ValveArgs) (r r' : Bytes) : QReach ok mf cap pf tpm minOn e key ids s0 s → id ∈ ids →
      QReach ok mf cap pf tpm minOn e key ids s0 { s with house := { s.house with chan := s.house.chan.valve e key id a r r' } }
  | plain {s id} (a : PlainArgs) (r r' : Bytes) : QReach ok mf cap pf tpm minOn e key ids s0 s → id ∈ ids →
      a.fType ≠ FTS_BasicSensorOrValve ∨ (a.ptext.getD []).take a.len ≠ [] →
      QReach ok mf cap pf tpm minOn e key ids s0 { s with house := { s.house with chan := s.house.chan.plain e key id a r r' } }
  | restart {s id} : QReach ok mf cap pf tpm minOn e key ids s0 s → id ∈ ids →
      QReach ok mf cap pf tpm minOn e key ids s0 { s with house := { s.house with chan := { s.house.chan with tx := setAt s.house.chan.tx id ((s.house.chan.tx id).step .restart).1 } } }
  | crash {s id} (r r' : Bytes) (k : Nat) : QReach ok mf cap pf tpm minOn e key ids s0 s → id ∈ ids → s.house.chan.crashOK id = true →
      QReach ok mf cap pf tpm minOn e key ids s0 { s with house := { s.house with chan := s.house.chan.crash id r r' k } }
  | rx {s} (as : Arrivals) (q' : VQ) (fs : List Bytes) : QReach ok mf cap pf tpm minOn e key ids s0 s → ArrLegal mf as → s.q.arrive as = some (q', fs) →
      QReach ok mf cap pf tpm minOn e key ids s0 { s with q := q', inb := s.inb ++ fs }
  | call {s} (i : HandleIn) (o : HandleOut) (c : HCfg) (minute : Nat) : QReach ok mf cap pf tpm minOn e key ids s0 s →
      ArrLegal mf i.arr0 → ArrLegal mf i.arr1 → ArrLegal mf i.arr2 → queueHandle s.q s.serial i = some o →
      31 ≤ c.stack.length → c.key = some key → NoForgery c.dec key s.house.chan.sent → GivesBack e c.dec → ok c →
      QReach ok mf cap pf tpm minOn e key ids s0 (s.called key c minute i o)
  | hubRestart {s} (junk : Nat → Byte) : QReach ok mf cap pf tpm minOn e key ids s0 s → QReach ok mf cap pf tpm minOn e key ids s0 (s.reset s.house.restart mf cap junk)
  | lose {s} (c : HCfg) (i : HandleIn) (o : HandleOut) (m : Bytes × Bool) (k : Nat) (junk : Nat → Byte) : pf = true → QReach ok mf cap pf tpm minOn e key ids s0 s →
      ArrLegal mf i.arr0 → ArrLegal mf i.arr1 → ArrLegal mf i.arr2 → queueHandle s.q s.serial i = some o → o.msg = some m → m.1[0]? = some 0xcf →
      NoForgery c.dec key s.house.chan.sent → GivesBack e c.dec → CrashOK s.house.chan.ee (framed m.1) (c.scratch - 16) c.dec key →
      QReach ok mf cap pf tpm minOn e key ids s0 (s.reset (s.house.lose key c m.1 k) mf cap junk)
  | tick {s} (s0' : Bool) : QReach ok mf cap pf tpm minOn e key ids s0 s → QReach ok mf cap pf tpm minOn e key ids s0 { s with house := s.house.tick tpm minOn s0' }

/-- Messages waiting, oldest first. -/
def QHouse.waiting (s : QHouse) : List Bytes := s.inb.drop s.done.length

/-- A proper beginning: that of the house, with a new queue of a legal size. -/
structure QBegin (mf cap : Nat) (ids : List Bytes) (s0 : QHouse) : Prop where
  house : HBegin ids s0.house
  size : 1 ≤ mf ∧ mf ≤ 255 ∧ 1 ≤ cap
  queue : ∃ junk, s0.q = VQ.new mf cap junk
  none : s0.inb = [] ∧ s0.done = []

/-! ## Proofs -/

/-- The queue holds what was taken in and not yet handled. -/
structure QHInv (mf : Nat) (s : QHouse) : Prop where
  holds : QHolds s.q mf s.waiting
  pre : s.done <+: s.inb

theorem qh_mf {mf : Nat} {q : VQ} {fs : List Bytes} (h : QHolds q mf fs) : mf ≤ 255 := by
  have := h.1.cfg
  rw [h.2] at this
  omega

theorem head_len {mf : Nat} {q : VQ} {f : Bytes} {fs : List Bytes} (h : QHolds q mf (f :: fs)) : f.length ≤ 255 := by
  have h1 := qh_mf h
  obtain ⟨_, _, h3, _⟩ := h.1.first
  rw [h.2] at h3
  omega

theorem drop_append_le {α : Type} {a b : List α} (n : Nat) (h : n ≤ a.length) : (a ++ b).drop n = a.drop n ++ b := by
  rw [List.drop_append, show n - a.length = 0 by omega, List.drop_zero]

/-- What a call does to the queue and the lists. -/
theorem called_spec {mf : Nat} {s : QHouse} (h : QHInv mf s) {i : HandleIn} {o : HandleOut} (h0 : ArrLegal mf i.arr0) (h1 : ArrLegal mf i.arr1) (h2 : ArrLegal mf i.arr2)
    (ho : queueHandle s.q s.serial i = some o) :
    (o.msg = none ∧ QHolds o.q mf (s.waiting ++ o.inb) ∧ (i.sct < 189 → s.waiting = [])) ∨
    ∃ f b l, o.msg = some (f, b) ∧ s.waiting ++ o.inb = f :: l ∧ QHolds o.q mf l ∧ f.length ≤ 255 := by
  obtain ⟨o', e1, _, hl, hr⟩ := C166_one_call s.q mf s.waiting h.holds s.serial i h0 h1 h2
  rw [ho] at e1
  cases e1
  by_cases hs : i.sct < 189
  · obtain ⟨q0, inb0, hq, hm⟩ := hr hs
    obtain ⟨q0', inb0', hq', hh⟩ := arrive_spec h.holds i.arr0 h0
    rw [hq] at hq'
    cases hq'
    cases hw : s.waiting ++ inb0 with
    | nil =>
      rw [hw] at hm
      exact .inl ⟨hm.2.1, hm.2.2, fun _ => (List.append_eq_nil_iff.1 hw).1⟩
    | cons f t =>
      rw [hw] at hm
      obtain ⟨_, hm2, l, h3, h4⟩ := hm
      rw [hw] at hh
      exact .inr ⟨f, _, l, hm2, h3, h4, head_len hh⟩
  · have := hl (by omega)
    exact .inl ⟨this.2.1, this.2.2, fun h => absurd h hs⟩

theorem called_inv {mf : Nat} {s : QHouse} (h : QHInv mf s) {i : HandleIn} {o : HandleOut} (h0 : ArrLegal mf i.arr0) (h1 : ArrLegal mf i.arr1) (h2 : ArrLegal mf i.arr2)
    (ho : queueHandle s.q s.serial i = some o) (key : Bytes) (c : HCfg) (minute : Nat) : QHInv mf (s.called key c minute i o) := by
  obtain ⟨t, ht⟩ := h.pre
  have hw : s.waiting = t := by unfold QHouse.waiting; rw [← ht, List.drop_left]
  rcases called_spec h h0 h1 h2 ho with ⟨hm, hq, _⟩ | ⟨f, b, l, hm, hl, hq, _⟩
  · have e : (s.called key c minute i o).waiting = s.waiting ++ o.inb := by
      unfold QHouse.waiting QHouse.called
      rw [hm]
      simp only [Option.map_none, Option.toList_none, List.append_nil]
      exact drop_append_le _ (by rw [← ht]; simp)
    refine ⟨by rw [e]; exact hq, ?_⟩
    show s.done ++ (o.msg.map (·.1)).toList <+: s.inb ++ o.inb
    rw [hm]
    exact ⟨t ++ o.inb, by simp [← ht]⟩
  · rw [hw] at hl
    have e : s.inb ++ o.inb = (s.done ++ [f]) ++ l := by rw [← ht, List.append_assoc, hl]; simp
    have e2 : (s.called key c minute i o).waiting = l := by
      unfold QHouse.waiting QHouse.called
      rw [hm]
      show List.drop (s.done ++ [f]).length (s.inb ++ o.inb) = l
      rw [e, List.drop_left]
    refine ⟨by rw [e2]; exact hq, ?_⟩
    show s.done ++ (o.msg.map (·.1)).toList <+: s.inb ++ o.inb
    rw [hm, e]
    exact ⟨l, rfl⟩

theorem qh_inv {ok : HCfg → Prop} {mf cap : Nat} {pf : Bool} {tpm minOn : Nat} {e : EncFn} {key : Bytes} {ids : List Bytes} {s0 s : QHouse} (hsz : 1 ≤ mf ∧ mf ≤ 255 ∧ 1 ≤ cap)
    (h0 : QHInv mf s0) (hr : QReach ok mf cap pf tpm minOn e key ids s0 s) : QHInv mf s := by
  induction hr with
  | start => exact h0
  | valve _ _ _ _ _ ih => exact ⟨ih.holds, ih.pre⟩
  | plain _ _ _ _ _ _ ih => exact ⟨ih.holds, ih.pre⟩
  | restart _ _ ih => exact ⟨ih.holds, ih.pre⟩
  | crash _ _ _ _ _ _ ih => exact ⟨ih.holds, ih.pre⟩
  | @rx s as q' fs _ hl ha ih =>
    obtain ⟨q'', fs', e1, e2⟩ := arrive_spec ih.holds as hl
    rw [ha] at e1
    cases e1
    obtain ⟨t, ht⟩ := ih.pre
    refine ⟨?_, ⟨t ++ fs, by show s.done ++ (t ++ fs) = s.inb ++ fs; rw [← List.append_assoc, ht]⟩⟩
    show QHolds q' mf ((s.inb ++ fs).drop s.done.length)
    rw [drop_append_le _ (by rw [← ht]; simp)]
    exact e2
  | call i o c minute _ h0 h1 h2 ho _ _ _ _ _ ih => exact called_inv ih h0 h1 h2 ho key c minute
  | hubRestart junk _ _ => exact ⟨⟨QInv.new mf cap junk ⟨hsz.1, hsz.2.1⟩ hsz.2.2, rfl⟩, List.nil_prefix⟩
  | lose _ _ _ _ _ junk => exact ⟨⟨QInv.new mf cap junk ⟨hsz.1, hsz.2.1⟩ hsz.2.2, rfl⟩, List.nil_prefix⟩
  | tick _ _ ih => exact ⟨ih.holds, ih.pre⟩

theorem qbegin_inv {mf cap : Nat} {ids : List Bytes} {s0 : QHouse} (hb : QBegin mf cap ids s0) : QHInv mf s0 := by
  obtain ⟨junk, hq⟩ := hb.queue
  refine ⟨?_, ?_⟩
  · rw [hq]
    unfold QHouse.waiting
    rw [hb.none.1, List.drop_nil]
    exact ⟨QInv.new mf cap junk ⟨hb.size.1, hb.size.2.1⟩ hb.size.2.2, rfl⟩
  · rw [hb.none.2]
    exact List.nil_prefix

/-- The step relation seen from the house. -/
theorem q_sim {ok : HCfg → Prop} {mf cap : Nat} {pf : Bool} {tpm minOn : Nat} {e : EncFn} {key : Bytes} {ids : List Bytes} {s0 s : QHouse} (hsz : 1 ≤ mf ∧ mf ≤ 255 ∧ 1 ≤ cap)
    (h0 : QHInv mf s0) (hr : QReach ok mf cap pf tpm minOn e key ids s0 s) : HReach pf tpm minOn e key ids s0.house s.house := by
  induction hr with
  | start => exact .start
  | valve a r r' _ hid ih => exact .valve a r r' ih hid
  | plain a r r' _ hid ha ih => exact .plain a r r' ih hid ha
  | restart _ hid ih => exact .restart ih hid
  | crash r r' k _ hid hc ih => exact .crash r r' k ih hid hc
  | rx _ _ _ _ _ _ ih => exact ih
  | @call s i o c minute hs a0 a1 a2 ho hst hk hnf hg hok ih =>
    show HReach pf tpm minOn e key ids s0.house (match o.msg with | none => s.house | some m => s.house.hear key c minute m.1)
    rcases called_spec (qh_inv hsz h0 hs) a0 a1 a2 ho with ⟨hm, _⟩ | ⟨f, b, l, hm, _, _, hlen⟩
    · rw [hm]; exact ih
    · rw [hm]; exact .hear c minute f ih hlen hst hk hnf hg
  | hubRestart _ _ ih => exact .hubRestart ih
  | lose c i o m k _ hpf _ _ _ _ _ _ h1 h2 h3 h4 ih => exact .lose c m.1 k hpf ih h1 h2 h3 h4
  | tick s0' _ ih => exact .tick s0' ih

/-- **C209** The queue changes nothing but the timing: over every history, with the radio's interrupts anywhere, no memory outside the queue is touched, the messages handled are
the frames taken in since the hub's start, in order, each once, none lost and none invented but those still waiting; and the house is in a state it can reach without the queue — so that
all that is proved of that house (C183–C193) holds with the queue. -/
theorem C209_queue_refines (ok : HCfg → Prop) (mf cap : Nat) (pf : Bool) (tpm minOn : Nat) (e : EncFn) (key : Bytes) (ids : List Bytes) (s0 s : QHouse) (hb : QBegin mf cap ids s0)
    (hr : QReach ok mf cap pf tpm minOn e key ids s0 s) :
    (∀ i, ArrLegal mf i.arr0 → ArrLegal mf i.arr1 → ArrLegal mf i.arr2 → ∃ o, queueHandle s.q s.serial i = some o) ∧ (∀ as, ArrLegal mf as → ∃ r, s.q.arrive as = some r) ∧
    s.done ++ s.waiting = s.inb ∧ QHolds s.q mf s.waiting ∧ HReach pf tpm minOn e key ids s0.house s.house := by
  have inv := qh_inv hb.size (qbegin_inv hb) hr
  obtain ⟨t, ht⟩ := inv.pre
  refine ⟨fun i h0 h1 h2 => ?_, fun as ha => ?_, ?_, inv.holds, q_sim hb.size (qbegin_inv hb) hr⟩
  · obtain ⟨o, ho, _⟩ := C166_one_call s.q mf s.waiting inv.holds s.serial i h0 h1 h2
    exact ⟨o, ho⟩
  · obtain ⟨q', inb, e1, _⟩ := arrive_spec inv.holds as ha
    exact ⟨_, e1⟩
  · unfold QHouse.waiting
    rw [← ht, List.drop_left]

/-- **C209** For instance: with the queue, too, the boiler is on only if a valve of the house recently asked for heat, and stays on no longer than the messages sent account for. -/
theorem C209_on_only_if_asked (ok : HCfg → Prop) (mf cap : Nat) (pf : Bool) (tpm minOn : Nat) (ht : tpm = 30 ∨ tpm = 60) (hm : minOn ≤ 255) (e : EncFn) (hel : EncLen e) (key : Bytes) (ids : List Bytes)
    (s0 s : QHouse) (hb : QBegin mf cap ids s0) (hr : QReach ok mf cap pf tpm minOn e key ids s0 s) :
    (s.house.boiler.pin = true → ∃ pre es post p, s.house.log = pre ++ .handled es :: post ∧ ticksSeen post < minOn * tpm ∧ Eff.heat p ∈ es ∧ 50 ≤ p ∧
      ∃ x ∈ s.house.chan.sent, x.id ∈ ids ∧ x.fType = FTS_BasicSensorOrValve ∧ ∃ b, x.body[0]? = some b ∧ b.toNat = p) ∧
    onTicks s.house.log ≤ (minOn * tpm - 1) * s.house.chan.sent.countP fun x => asksHeat x.fType.toNat x.body :=
  have h := (C209_queue_refines ok mf cap pf tpm minOn e key ids s0 s hb hr).2.2.2.2
  ⟨C183_on_only_if_asked pf tpm minOn ht hm e hel key ids _ _ hb.house h, C183_bounded pf tpm minOn ht hm e hel key ids _ _ hb.house h⟩

/-! ## Every message gets its turn -/

theorem restarts_mono {ok : HCfg → Prop} {mf cap : Nat} {pf : Bool} {tpm minOn : Nat} {e : EncFn} {key : Bytes} {ids : List Bytes} {s0 s : QHouse} (hr : QReach ok mf cap pf tpm minOn e key ids s0 s) :
    s0.restarts ≤ s.restarts := by
  induction hr with
  | start => exact Nat.le_refl _
  | valve _ _ _ _ _ ih => exact ih
  | plain _ _ _ _ _ _ ih => exact ih
  | restart _ _ ih => exact ih
  | crash _ _ _ _ _ _ ih => exact ih
  | rx _ _ _ _ _ _ ih => exact ih
  | call _ _ _ _ _ _ _ _ _ _ _ _ _ _ ih => exact ih
  | hubRestart _ _ ih => exact Nat.le_succ_of_le ih
  | lose _ _ _ _ _ _ _ _ _ _ _ _ _ _ _ _ _ ih => exact Nat.le_succ_of_le ih
  | tick _ _ ih => exact ih

/-- Whatever was accepted since `h0` was one of these messages. -/
def GotFrom (h0 h : House) (ms : List Bytes) : Prop := ∀ g ∈ h.chan.got, g ∈ h0.chan.got ∨ ∃ m ∈ ms, ∃ n, g.frame = (framed m).take n

theorem got_hear {h0 h : House} {ms : List Bytes} (hg : GotFrom h0 h ms) (key : Bytes) (c : HCfg) (minute : Nat) (msg : Bytes) : GotFrom h0 (h.hear key c minute msg) (ms ++ [msg]) := by
  have old : ∀ g ∈ h.chan.got, g ∈ h0.chan.got ∨ ∃ m ∈ ms ++ [msg], ∃ n, g.frame = (framed m).take n := by
    intro g h1
    rcases hg g h1 with h2 | ⟨m, h2, h3⟩
    · exact .inl h2
    · exact .inr ⟨m, List.mem_append_left _ h2, h3⟩
  intro g h1
  have h1 : g ∈ (if msg[0]? = some 0xcf then (deliver h.chan (framed msg) (c.scratch - 16) c.dec key).got else h.chan.got) := h1
  split at h1
  · unfold deliver at h1
    dsimp only at h1
    split at h1
    · rcases List.mem_append.1 h1 with h1 | h1
      · exact old g h1
      · rw [List.mem_singleton.1 h1]
        exact .inr ⟨msg, by simp, _, rfl⟩
    · exact old g h1
  · exact old g h1

/-- C210 from any state in which the queue is in order. -/
theorem handled_from {ok : HCfg → Prop} {mf cap : Nat} {pf : Bool} {tpm minOn : Nat} {e : EncFn} {key : Bytes} {ids : List Bytes} {s s' : QHouse} (hsz : 1 ≤ mf ∧ mf ≤ 255 ∧ 1 ≤ cap)
    (inv : QHInv mf s) (hr' : QReach ok mf cap pf tpm minOn e key ids s s') {ahead behind : List Bytes} {m : Bytes} (hw : s.waiting = ahead ++ m :: behind)
    (hno : s'.restarts = s.restarts) (hc : s.calls + ahead.length + 1 ≤ s'.calls) :
    ∃ h c minute, HReach pf tpm minOn e key ids s.house h ∧ (c.key = some key ∧ 31 ≤ c.stack.length ∧ ok c) ∧ GotFrom s.house h ahead ∧ HReach pf tpm minOn e key ids (h.hear key c minute m) s'.house := by
  have key' : (∃ hd ah be, s'.waiting = ah ++ m :: be ∧ ah.length + s'.calls ≤ ahead.length + s.calls ∧ ahead = hd ++ ah ∧ GotFrom s.house s'.house hd) ∨
      ∃ h c minute, HReach pf tpm minOn e key ids s.house h ∧ (c.key = some key ∧ 31 ≤ c.stack.length ∧ ok c) ∧ GotFrom s.house h ahead ∧ HReach pf tpm minOn e key ids (h.hear key c minute m) s'.house := by
    clear hc
    induction hr' with
    | start => exact .inl ⟨[], ahead, behind, hw, Nat.le_refl _, rfl, fun g hg => .inl hg⟩
    | valve a r r' _ hid ih =>
      rcases ih hno with h | ⟨h, c, mi, h1, h2, hgf, h3⟩
      · exact .inl h
      · exact .inr ⟨h, c, mi, h1, h2, hgf, .valve a r r' h3 hid⟩
    | plain a r r' _ hid ha ih =>
      rcases ih hno with h | ⟨h, c, mi, h1, h2, hgf, h3⟩
      · exact .inl h
      · exact .inr ⟨h, c, mi, h1, h2, hgf, .plain a r r' h3 hid ha⟩
    | restart _ hid ih =>
      rcases ih hno with h | ⟨h, c, mi, h1, h2, hgf, h3⟩
      · exact .inl h
      · exact .inr ⟨h, c, mi, h1, h2, hgf, .restart h3 hid⟩
    | crash r r' k _ hid hcr ih =>
      rcases ih hno with h | ⟨h, c, mi, h1, h2, hgf, h3⟩
      · exact .inl h
      · exact .inr ⟨h, c, mi, h1, h2, hgf, .crash r r' k h3 hid hcr⟩
    | @rx t as q' fs ht hl ha ih =>
      rcases ih hno with ⟨hd, ah, be, h1, h2, h5, h6⟩ | h
      · refine .inl ⟨hd, ah, be ++ fs, ?_, h2, h5, h6⟩
        obtain ⟨u, hu⟩ := (qh_inv hsz inv ht).pre
        show (t.inb ++ fs).drop t.done.length = _
        rw [drop_append_le _ (by rw [← hu]; simp)]
        show t.waiting ++ fs = _
        rw [h1]; simp
      · exact .inr h
    | @call t i o c minute ht a0 a1 a2 ho hst hk hnf hg hok ih =>
      have ti := qh_inv hsz inv ht
      have hsim := q_sim hsz inv ht
      obtain ⟨u, hu⟩ := ti.pre
      rcases called_spec ti a0 a1 a2 ho with ⟨hm, _, hs⟩ | ⟨f, b, l, hm, hl, hq, hlen⟩
      · rcases ih hno with ⟨hd, ah, be, h1, h2, h5, h6⟩ | ⟨h, c', mi, h1, h2, hgf, h3⟩
        · refine .inl ⟨hd, ah, be ++ o.inb, ?_, ?_, h5, ?_⟩
          · unfold QHouse.waiting QHouse.called
            rw [hm]
            simp only [Option.map_none, Option.toList_none, List.append_nil]
            rw [drop_append_le _ (by rw [← hu]; simp)]
            show t.waiting ++ o.inb = _
            rw [h1]; simp
          · have : ¬ i.sct < 189 := fun hlt => by rw [hs hlt] at h1; simp at h1
            show ah.length + (t.calls + if i.sct < 189 then 1 else 0) ≤ _
            rw [if_neg this]
            exact h2
          · show GotFrom s.house (match o.msg with | none => t.house | some m => t.house.hear key c minute m.1) hd
            rw [hm]; exact h6
        · refine .inr ⟨h, c', mi, h1, h2, hgf, ?_⟩
          show HReach pf tpm minOn e key ids _ (match o.msg with | none => t.house | some m => t.house.hear key c minute m.1)
          rw [hm]; exact h3
      · have hwu : t.waiting = u := by unfold QHouse.waiting; rw [← hu, List.drop_left]
        rcases ih hno with ⟨hd, ah, be, h1, h2, h5, h6⟩ | ⟨h, c', mi, h1, h2, hgf, h3⟩
        · cases ah with
          | nil =>
            rw [h1] at hl
            simp only [List.nil_append, List.cons_append, List.cons.injEq] at hl
            refine .inr ⟨t.house, c, minute, hsim, ⟨hk, hst, hok⟩, fun g hg => by rw [h5, List.append_nil]; exact h6 g hg, ?_⟩
            show HReach pf tpm minOn e key ids _ (match o.msg with | none => t.house | some m => t.house.hear key c minute m.1)
            rw [hm, hl.1]
            exact .start
          | cons a ah =>
            have hfa : f = a := by
              rw [h1] at hl
              simp only [List.cons_append, List.cons.injEq] at hl
              exact hl.1.symm
            refine .inl ⟨hd ++ [a], ah, be ++ o.inb, ?_, ?_, by rw [h5]; simp, ?_⟩
            · have e2 : t.inb ++ o.inb = (t.done ++ [f]) ++ l := by rw [← hu, List.append_assoc, ← hwu, hl]; simp
              unfold QHouse.waiting QHouse.called
              rw [hm]
              show List.drop (t.done ++ [f]).length (t.inb ++ o.inb) = _
              rw [e2, List.drop_left]
              rw [h1] at hl
              simp only [List.cons_append, List.cons.injEq, List.append_assoc] at hl
              rw [← hl.2]
            · show ah.length + (t.calls + if i.sct < 189 then 1 else 0) ≤ _
              simp only [List.length_cons] at h2
              split <;> omega
            · show GotFrom s.house (match o.msg with | none => t.house | some m => t.house.hear key c minute m.1) _
              rw [hm, hfa]
              exact got_hear h6 key c minute a
        · refine .inr ⟨h, c', mi, h1, h2, hgf, ?_⟩
          show HReach pf tpm minOn e key ids _ (match o.msg with | none => t.house | some m => t.house.hear key c minute m.1)
          rw [hm]
          exact .hear c minute f h3 hlen hst hk hnf hg
    | hubRestart _ ht ih =>
      have := restarts_mono ht
      have hno : _ + 1 = _ := hno
      omega
    | lose _ _ _ _ _ _ _ ht =>
      have := restarts_mono ht
      have hno : _ + 1 = _ := hno
      omega
    | tick s0' _ ih =>
      rcases ih hno with h | ⟨h, c, mi, h1, h2, hgf, h3⟩
      · exact .inl h
      · exact .inr ⟨h, c, mi, h1, h2, hgf, .tick s0' h3⟩
  rcases key' with ⟨_, ah, be, _, h2, _⟩ | h
  · omega
  · exact h

/-- **C210** A message waiting behind `n` others is given to the handlers, as it was received, by the time the main loop has called `handle()` `n + 1` times early enough in its cycle, whatever else happens
meanwhile — more frames arriving, valves sending, ticks — unless the hub restarts; and what is accepted before it comes from those that waited ahead of it. -/
theorem C210_every_message_handled (ok : HCfg → Prop) (mf cap : Nat) (pf : Bool) (tpm minOn : Nat) (e : EncFn) (key : Bytes) (ids : List Bytes) (s0 s s' : QHouse) (hb : QBegin mf cap ids s0)
    (hr : QReach ok mf cap pf tpm minOn e key ids s0 s) (hr' : QReach ok mf cap pf tpm minOn e key ids s s') (ahead behind : List Bytes) (m : Bytes) (hw : s.waiting = ahead ++ m :: behind)
    (hno : s'.restarts = s.restarts) (hc : s.calls + ahead.length + 1 ≤ s'.calls) :
    ∃ h c minute, HReach pf tpm minOn e key ids s.house h ∧ (c.key = some key ∧ 31 ≤ c.stack.length ∧ ok c) ∧ GotFrom s.house h ahead ∧ HReach pf tpm minOn e key ids (h.hear key c minute m) s'.house :=
  handled_from hb.size (qh_inv hb.size (qbegin_inv hb) hr) hr' hw hno hc

/-! ## Non-vacuity -/

/-- The quiet house of C184 with an empty queue; a valve reports 100%; a stray frame and the report are taken in; two calls, and a tick. -/
def exQ0 : QHouse := ⟨exHouse0, VQ.new 64 3 (fun _ => 0), false, [], [], 0, 0⟩
def exQ1 : QHouse := { exQ0 with house := exReported 100 }
def exArr : Arrivals := [([1, 2], 2), (exMsgOf (exReported 100), (exMsgOf (exReported 100)).length)]
def exQ2 : QHouse := match exQ1.q.arrive exArr with | some r => { exQ1 with q := r.1, inb := exQ1.inb ++ r.2 } | none => exQ1
def exHandleIn : HandleIn := ⟨100, false, true, [], [], []⟩
def exCall (s : QHouse) : QHouse := match queueHandle s.q s.serial exHandleIn with | some o => s.called chKey (hsCfg s.house) 20 exHandleIn o | none => s
def exQ3 : QHouse := exCall (exCall exQ2)
def exQ4 : QHouse := { exQ3 with house := exQ3.house.tick 30 1 false }

/-- The hub's set-up: enough scratch space, and the boiler driver as one of the handlers. -/
def okAll (c : HCfg) : Prop := 74 ≤ c.scratch ∧ (c.o1 = .boiler ∨ c.o2 = .boiler)

theorem exCall_reach {ok : HCfg → Prop} {s0 s : QHouse} (hok : ok (hsCfg s.house)) (h : QReach ok 64 3 false 30 1 nullEncChecked chKey [exRxID] s0 s) : QReach ok 64 3 false 30 1 nullEncChecked chKey [exRxID] s0 (exCall s) := by
  have nil : ArrLegal 64 [] := fun _ h => by cases h
  unfold exCall
  cases ho : queueHandle s.q s.serial exHandleIn with
  | none => exact h
  | some o => exact .call exHandleIn o (hsCfg s.house) 20 h nil nil nil ho (hsCfg_ok _).2.2.1 (hsCfg_ok _).2.2.2 (hsCfg_ok s.house).1 (hsCfg_ok _).2.1 hok

theorem okAll_hs (h : House) : okAll (hsCfg h) := ⟨Nat.le_of_ble_eq_true rfl, .inl rfl⟩

theorem exQ2_reach {ok : HCfg → Prop} : QReach ok 64 3 false 30 1 nullEncChecked chKey [exRxID] exQ0 exQ2 := by
  have h0 : QReach ok 64 3 false 30 1 nullEncChecked chKey [exRxID] exQ0 { exQ0 with house := exHouse1 } :=
    .tick (s := { exQ0 with house := (exHouse0.tick 30 1 true).tick 30 1 true }) true (.tick (s := { exQ0 with house := exHouse0.tick 30 1 true }) true (.tick (s := exQ0) true .start))
  have h1 : QReach ok 64 3 false 30 1 nullEncChecked chKey [exRxID] exQ0 exQ1 :=
    .valve (s := { exQ0 with house := exHouse1 }) (exValve 100) [] [4, 5, 6] h0 (by simp)
  unfold exQ2
  cases ha : exQ1.q.arrive exArr with
  | none => exact h1
  | some r =>
    refine .rx exArr r.1 r.2 h1 ?_ ha
    intro a ha
    have : ∀ a ∈ exArr, a.1.length ≤ 64 ∧ a.2 ≤ a.1.length := by decide +kernel
    exact this a ha

theorem exQ4_reach : QReach okAll 64 3 false 30 1 nullEncChecked chKey [exRxID] exQ0 exQ4 := .tick false (exCall_reach (okAll_hs _) (exCall_reach (okAll_hs _) exQ2_reach))
example : QReach okAll 64 3 false 30 1 nullEncChecked chKey [exRxID] exQ2 exQ4 := .tick false (exCall_reach (okAll_hs _) (exCall_reach (okAll_hs _) .start))

/-- Both frames were taken in and handled in order, the second asking for heat; the boiler came on. -/
example : exQ2.inb = [[1, 2], exMsgOf (exReported 100)] ∧ exQ2.waiting = [[1, 2]] ++ exMsgOf (exReported 100) :: [] ∧ exQ4.done = exQ2.inb ∧ exQ4.calls = exQ2.calls + 1 + 1 ∧
    exQ4.restarts = exQ2.restarts ∧ exQ4.house.boiler.pin = true ∧
    exQ4.house.log = [.tick true false, .tick true false, .tick true false, .handled [], .handled [.heat 100], .tick false true] := by decide +kernel
example : QBegin 64 3 [exRxID] exQ0 := ⟨⟨chBegin, rfl, rfl⟩, by omega, ⟨_, rfl⟩, rfl, rfl⟩

end OTR.Props
