import Verif.Props.ClosedLoop
import Verif.Props.QueuedHeat
/-!
# C222: the whole system keeps the room warm

The valve and its room of C198 together with the radio, the secured messages, the hub and its boiler of C184: a boiler hub that hears from a valve now and then keeps the boiler on while
the valve is open, and so keeps the valve's room warm.
-/

namespace OTR.Props
open OTR

/-! ## Specification -/

/-- One minute at the hub, in which it does not restart: at most `tpm` ticks of its main loop, at least one of them at the start of a minute; anything may arrive. -/
def MinuteOf (tpm minOn : Nat) (e : EncFn) (key : Bytes) (ids : List Bytes) (h h' : House) : Prop :=
  HReach false tpm minOn e key ids h h' ∧ ∃ l, h'.log = h.log ++ l ∧ HubObs.restart ∉ l ∧ ticksSeen l ≤ tpm ∧ 1 ≤ minutesSeen l

/-- At some time between `h` and `h'` the hub, which started as `h0`, hears a message giving the position `pc`, of a node it knows, intact and fresh (neither it nor a later one of that
node was accepted before), and is set up to drive the boiler. -/
def Hears (tpm minOn : Nat) (e : EncFn) (key : Bytes) (ids : List Bytes) (h0 h h' : House) (pc : Nat) : Prop :=
  ∃ (m : House) (x : SentMsg) (before after : List SentMsg) (b : Byte) (c0 cur0 : Bytes) (c : HCfg) (minute : Nat),
    HReach false tpm minOn e key ids h m ∧ HReach false tpm minOn e key ids (m.hear key c minute (x.frame.drop 1)) h' ∧
    m.chan.sent = before ++ x :: after ∧ (∀ y ∈ x :: after, y.id = x.id → ∀ g ∈ m.chan.got, g.node = x.id → g.frame ≠ y.frame) ∧
    x.fType = FTS_BasicSensorOrValve ∧ x.body[0]? = some b ∧ b.toNat = pc ∧
    BothGood h0.chan.ee x.id c0 ∧ getLastRXMsgCtr h0.chan.ee x.id = some cur0 ∧ beVal cur0 < beVal x.ctr ∧
    (getNextMatchingNodeID h0.chan.ee 0 (x.id.take ((x.frame[2]?.getD 0).toNat % 16))).map (rowID h0.chan.ee) = some x.id ∧
    beVal c0 + 255 < 2 ^ 40 ∧ beVal x.ctr + 255 < 2 ^ 40 ∧
    Accepts e c.dec key x ∧ c.key = some key ∧ 74 ≤ c.scratch ∧ 31 ≤ c.stack.length ∧ (c.o1 = .boiler ∨ c.o2 = .boiler)

/-- The boiler on at every tick of the last `L` minutes up to and including minute `k`; `H` gives the house at the start of each minute. -/
def BoilerOnFor (H : Nat → House) (L k : Nat) : Prop :=
  L ≤ k + 1 ∧ ∀ j, j < L → ∃ l, (H (k - j + 1)).log = (H (k - j)).log ++ l ∧ onTicks l = ticksSeen l

/-! ## The boiler -/

/-- What can happen to the boiler without a restart. -/
inductive BPath (tpm minOn : Nat) (b : Boiler) : List HubObs → Boiler → Prop
  | nil : BPath tpm minOn b [] b
  | msg {l b'} (es : List Eff) (c : Bool) : BPath tpm minOn b l b' → (b'.call = true → c = true) → BPath tpm minOn b (l ++ [.handled es]) { b' with call := c }
  | tick {l b'} (s0 : Bool) : BPath tpm minOn b l b' → BPath tpm minOn b (l ++ [.tick s0 (b'.process tpm minOn s0 true).pin]) (b'.process tpm minOn s0 true)

theorem house_path {pf : Bool} {tpm minOn : Nat} {e : EncFn} {key : Bytes} {ids : List Bytes} {h0 h : House} (hr : HReach pf tpm minOn e key ids h0 h) :
    ∃ l, h.log = h0.log ++ l ∧ (HubObs.restart ∉ l → BPath tpm minOn h0.boiler l h.boiler) := by
  induction hr with
  | start => exact ⟨[], by simp, fun _ => .nil⟩
  | valve a r r' _ hid ih => exact ih
  | plain a r r' _ hid hne ih => exact ih
  | restart _ hid ih => exact ih
  | crash r r' k _ hid hc ih => exact ih
  | @hear h c minute msg _ hml hst hk hnf hgb ih =>
    obtain ⟨l, hl, hp⟩ := ih
    refine ⟨l ++ [.handled (handleRaw h.chan.ee c msg).2.2], by rw [← List.append_assoc, ← hl]; rfl, fun hnr => ?_⟩
    obtain ⟨cl, happ, _⟩ := apply_call minute (handleRaw h.chan.ee c msg).2.2 h.boiler
    show BPath tpm minOn h0.boiler _ (h.boiler.apply minute (handleRaw h.chan.ee c msg).2.2)
    have hk := apply_keeps minute (handleRaw h.chan.ee c msg).2.2 h.boiler
    rw [happ] at hk ⊢
    exact .msg _ cl (hp (fun h => hnr (List.mem_append_left _ h))) hk
  | hubRestart _ ih =>
    obtain ⟨l, hl, _⟩ := ih
    exact ⟨l ++ [.restart], by rw [← List.append_assoc, ← hl]; rfl, fun h => absurd (by simp) h⟩
  | lose _ _ _ _ _ _ _ _ _ ih =>
    obtain ⟨l, hl, _⟩ := ih
    exact ⟨l ++ [.restart], by rw [← List.append_assoc, ← hl]; rfl, fun h => absurd (by simp) h⟩
  | @tick h s0 hr ih =>
    obtain ⟨l, hl, hp⟩ := ih
    exact ⟨l ++ [.tick s0 (h.boiler.process tpm minOn s0 true).pin], by rw [← List.append_assoc, ← hl]; rfl,
      fun hnr => .tick s0 (hp (fun h => hnr (List.mem_append_left _ h)))⟩

theorem house_path' {pf : Bool} {tpm minOn : Nat} {e : EncFn} {key : Bytes} {ids : List Bytes} {h0 h : House} (hr : HReach pf tpm minOn e key ids h0 h) {l : List HubObs}
    (hl : h.log = h0.log ++ l) (hnr : HubObs.restart ∉ l) : BPath tpm minOn h0.boiler l h.boiler := by
  obtain ⟨l', h1, h2⟩ := house_path hr
  have : l' = l := List.append_cancel_left (h1.symm.trans hl)
  subst this
  exact h2 hnr

theorem ticksSeen_msg (l : List HubObs) (es : List Eff) : ticksSeen (l ++ [.handled es]) = ticksSeen l ∧ onTicks (l ++ [.handled es]) = onTicks l ∧
    minutesSeen (l ++ [.handled es]) = minutesSeen l := by simp [ticksSeen, onTicks, minutesSeen, List.countP_append]

theorem ticksSeen_tick (l : List HubObs) (s0 on : Bool) : ticksSeen (l ++ [.tick s0 on]) = ticksSeen l + 1 ∧
    onTicks (l ++ [.tick s0 on]) = onTicks l + (if on then 1 else 0) ∧ minutesSeen (l ++ [.tick s0 on]) = minutesSeen l + (if s0 then 1 else 0) := by
  cases s0 <;> cases on <;> simp [ticksSeen, onTicks, minutesSeen, List.countP_append]

theorem ticksSeen_append (l l' : List HubObs) : ticksSeen (l ++ l') = ticksSeen l + ticksSeen l' ∧ minutesSeen (l ++ l') = minutesSeen l + minutesSeen l' := by
  simp [ticksSeen, minutesSeen, List.countP_append]

/-- Able to come on, or on. -/
def CanStart (minOn : Nat) (b : Boiler) : Prop := b.isOn = true ∨ min 254 minOn < b.noCallM

section
variable {tpm minOn : Nat} (ht : tpm ≤ 60) (hm : minOn ≤ 255)
include ht hm

theorem path_inv {b b' : Boiler} {l : List HubObs} (hb : BInv tpm minOn b) (hp : BPath tpm minOn b l b') : BInv tpm minOn b' := by
  induction hp with
  | nil => exact hb
  | msg es c _ _ ih => exact ih
  | tick s0 _ ih => exact ih.step ht hm (.tick s0 true) (by intro _ _ h; simp only [BEv.tick.injEq] at h; exact h.2.symm)

/-- While time remains the boiler stays on, at every tick. -/
theorem path_stays {b b' : Boiler} {l : List HubObs} (hb : BInv tpm minOn b) (hp : BPath tpm minOn b l b') :
    b.ticks ≤ b'.ticks + ticksSeen l ∧ (ticksSeen l < b.ticks → onTicks l = ticksSeen l) := by
  induction hp with
  | nil => exact ⟨Nat.le_refl _, fun _ => rfl⟩
  | @msg l b' es c hp _ ih =>
    obtain ⟨t1, t2, _⟩ := ticksSeen_msg l es
    rw [t1, t2]; exact ih
  | @tick l b' s0 hp ih =>
    have hi := path_inv ht hm hb hp
    obtain ⟨t1, t2, _⟩ := ticksSeen_tick l s0 (b'.process tpm minOn s0 true).pin
    rw [t1, t2]
    have hle := hi.2.1
    have key : b.ticks ≤ (b'.process tpm minOn s0 true).ticks + (ticksSeen l + 1) ∧ ((b'.process tpm minOn s0 true).pin = true ∨ (b'.process tpm minOn s0 true).ticks = 0) := by
      rcases Boiler.tick_cases ht hm b' s0 with ⟨_, _, _, e⟩ | ⟨_, on, e⟩ | ⟨off, _, e⟩ | ⟨_, hz, e⟩ | e
      · rw [e]; dsimp only; simp only [bne_iff_ne, ne_eq]; omega
      · rw [e]; dsimp only; simp only [bne_iff_ne, ne_eq]; omega
      · have : b'.ticks = 0 := by simpa [Boiler.isOn] using off
        rw [e]; dsimp only; omega
      · rw [e]; dsimp only; omega
      · have := hi.2.2.2; omega
    refine ⟨key.1, fun hlt => ?_⟩
    rw [ih.2 (by omega)]
    rcases key.2 with h | h
    · rw [if_pos h]
    · omega

/-- After a call for heat that finds the boiler ready it is on at every tick until its time is over. -/
theorem path_call {b b' : Boiler} {l : List HubObs} (hN : 2 ≤ minOn * tpm) (hb : BInv tpm minOn b) (hc : b.call = true) (hr : CanStart minOn b) (hp : BPath tpm minOn b l b') :
    ((ticksSeen l = 0 ∧ b'.call = true ∧ CanStart minOn b') ∨ (1 ≤ ticksSeen l ∧ minOn * tpm ≤ b'.ticks + ticksSeen l)) ∧
    (ticksSeen l < minOn * tpm → onTicks l = ticksSeen l) := by
  induction hp with
  | nil => exact ⟨.inl ⟨rfl, hc, hr⟩, fun _ => rfl⟩
  | @msg l b' es c hp hk ih =>
    obtain ⟨t1, t2, _⟩ := ticksSeen_msg l es
    rw [t1, t2]
    refine ⟨?_, ih.2⟩
    rcases ih.1 with ⟨h1, h2, h3⟩ | h
    · exact .inl ⟨h1, hk h2, h3⟩
    · exact .inr h
  | @tick l b' s0 hp ih =>
    have hi := path_inv ht hm hb hp
    obtain ⟨t1, t2, _⟩ := ticksSeen_tick l s0 (b'.process tpm minOn s0 true).pin
    rw [t1, t2]
    have hle := hi.2.1
    have key : minOn * tpm ≤ (b'.process tpm minOn s0 true).ticks + (ticksSeen l + 1) ∧ ((b'.process tpm minOn s0 true).pin = true ∨ (b'.process tpm minOn s0 true).ticks = 0) := by
      rcases Boiler.tick_cases ht hm b' s0 with ⟨_, _, _, e⟩ | ⟨hc', on, e⟩ | ⟨off, ho, e⟩ | ⟨_, hz, e⟩ | e
      · rw [e]; dsimp only; simp only [bne_iff_ne, ne_eq]; omega
      · rcases ih.1 with ⟨_, h2, _⟩ | ⟨_, h⟩
        · rw [hc'] at h2; cases h2
        · rw [e]; dsimp only; simp only [bne_iff_ne, ne_eq]; omega
      · have : b'.ticks = 0 := by simpa [Boiler.isOn] using off
        rcases ih.1 with ⟨_, h2, h3⟩ | ⟨_, h⟩
        · have := ho h2
          rcases h3 with h3 | h3
          · rw [off] at h3; cases h3
          · omega
        · rw [e]; dsimp only; omega
      · omega
      · have := hi.2.2.2; omega
    refine ⟨.inr ⟨by omega, key.1⟩, fun hlt => ?_⟩
    rw [ih.2 (by omega)]
    rcases key.2 with h | h
    · rw [if_pos h]
    · omega

/-- While off it gets nearer to being ready, or comes on for its time. -/
theorem path_off {b b' : Boiler} {l : List HubObs} (hb : BInv tpm minOn b) (hoff : b.isOn = false) (hp : BPath tpm minOn b l b') :
    (b'.isOn = false ∧ min 255 (b.noCallM + minutesSeen l) ≤ b'.noCallM) ∨ minOn * tpm ≤ b'.ticks + ticksSeen l := by
  induction hp with
  | nil => have := hb.2.2.2; left; exact ⟨hoff, by show min 255 (_ + 0) ≤ _; omega⟩
  | @msg l b' es c hp hk ih =>
    obtain ⟨t1, t2, t3⟩ := ticksSeen_msg l es
    rw [t1, t3]; exact ih
  | @tick l b' s0 hp ih =>
    have hi := path_inv ht hm hb hp
    obtain ⟨t1, _, t3⟩ := ticksSeen_tick l s0 (b'.process tpm minOn s0 true).pin
    rw [t1, t3]
    rcases Boiler.tick_cases ht hm b' s0 with ⟨_, _, _, e⟩ | ⟨_, on, e⟩ | ⟨off, _, e⟩ | ⟨_, hz, e⟩ | e
    · right; rw [e]; dsimp only; omega
    · rcases ih with ⟨h, _⟩ | h
      · rw [on] at h; cases h
      · right; rw [e]; dsimp only; omega
    · have h0 : b'.ticks = 0 := by simpa [Boiler.isOn] using off
      rcases ih with ⟨_, h⟩ | h
      · left; rw [e]; exact ⟨rfl, by dsimp only; omega⟩
      · right; rw [e]; dsimp only; omega
    · right; rw [e]; dsimp only; omega
    · have := hi.2.2.2; omega

end

/-! ## Minutes -/

/-- The hub is about to turn the boiler on, or has it on with at least `minOn - a` minutes to go. -/
def Sure (tpm minOn : Nat) (b : Boiler) (a : Nat) : Prop := (b.call = true ∧ CanStart minOn b) ∨ minOn * tpm ≤ b.ticks + a * tpm

structure Setting (tpm minOn : Nat) (e : EncFn) (ids : List Bytes) (h0 : House) : Prop where
  t : tpm = 30 ∨ tpm = 60
  m : 3 ≤ minOn ∧ minOn ≤ 255
  len : EncLen e
  beg : HBegin ids h0

section
variable {tpm minOn : Nat} {e : EncFn} {key : Bytes} {ids : List Bytes} {h0 h h' : House}

theorem Setting.inv (hs : Setting tpm minOn e ids h0) (hr : HReach false tpm minOn e key ids h0 h) : BInv tpm minOn h.boiler :=
  (hinv (by have := hs.t; omega) hs.m.2 hs.len hs.beg hr).binv

/-- Just before and after the report. -/
theorem hears_at (hs : Setting tpm minOn e ids h0) (hr : HReach false tpm minOn e key ids h0 h) {pc : Nat} (h66 : 66 ≤ pc) (h100 : pc ≤ 100)
    (hh : Hears tpm minOn e key ids h0 h h' pc) :
    ∃ m : House, HReach false tpm minOn e key ids h m ∧ ∃ m' : House, m'.boiler = { m.boiler with call := true } ∧ (∃ o, m'.log = m.log ++ [.handled o]) ∧
      HReach false tpm minOn e key ids m' h' := by
  obtain ⟨m, x, before, after, b, c0, cur0, c, minute, r1, r2, a1, a2, a3, a4, a5, a6, a7, a8, a9, a10, a11, a12, a13, a14, a15, a16⟩ := hh
  refine ⟨m, r1, _, asked_call tpm minOn hs.t hs.m.2 e hs.len key ids h0 m hs.beg (hr.trans r1) before after x a1 a2 a3 b a4 (by omega) (by omega) c0 cur0 a6 a7 a8 a9 a10 a11 c a12 a13 a14
    a15 a16 minute, ⟨_, rfl⟩, r2⟩

/-- The parts of a minute before and after. -/
theorem split_log {m m' : House} (r1 : HReach false tpm minOn e key ids h m) {o : List Eff} (ho : m'.log = m.log ++ [.handled o]) (r2 : HReach false tpm minOn e key ids m' h')
    {l : List HubObs} (hl : h'.log = h.log ++ l) (hnr : HubObs.restart ∉ l) :
    ∃ l1 l2, m.log = h.log ++ l1 ∧ h'.log = m'.log ++ l2 ∧ HubObs.restart ∉ l1 ∧ HubObs.restart ∉ l2 ∧ ticksSeen l = ticksSeen l1 + ticksSeen l2 ∧
      minutesSeen l = minutesSeen l1 + minutesSeen l2 := by
  obtain ⟨l1, e1⟩ := log_grows r1
  obtain ⟨l2, e2⟩ := log_grows r2
  have : l = l1 ++ [.handled o] ++ l2 := by
    apply List.append_cancel_left (as := h.log)
    rw [← hl, e2, ho, e1]; simp
  subst this
  simp only [List.mem_append, not_or] at hnr
  refine ⟨l1, l2, e1, e2, hnr.1.1, hnr.2, ?_, ?_⟩
  · rw [(ticksSeen_append _ _).1, (ticksSeen_msg _ _).1]
  · rw [(ticksSeen_append _ _).2, (ticksSeen_msg _ _).2.2]

theorem tpm_pos (hs : Setting tpm minOn e ids h0) : 30 ≤ tpm ∧ tpm ≤ 60 ∧ 2 ≤ minOn * tpm ∧ 3 * tpm ≤ minOn * tpm := by
  have h1 : 3 * tpm ≤ minOn * tpm := Nat.mul_le_mul_right _ hs.m.1
  have := hs.t
  exact ⟨by omega, by omega, by omega, h1⟩

theorem minutes_ticks (l : List HubObs) : minutesSeen l ≤ ticksSeen l := by
  unfold minutesSeen ticksSeen
  apply List.countP_mono_left
  intro x _ h
  cases x with
  | tick s0 on => rfl
  | handled => cases h
  | restart => cases h

/-- A minute in which the boiler is sure: on at every tick, and one minute less sure after it. -/
theorem sure_minute (hs : Setting tpm minOn e ids h0) (hr : HReach false tpm minOn e key ids h0 h) (hm : MinuteOf tpm minOn e key ids h h') {a : Nat}
    (ha : a + 2 ≤ minOn) (h1 : Sure tpm minOn h.boiler a) :
    Sure tpm minOn h'.boiler (a + 1) ∧ ∃ l, h'.log = h.log ++ l ∧ onTicks l = ticksSeen l := by
  obtain ⟨r, l, hl, hnr, ht1, ht2⟩ := hm
  obtain ⟨p1, p2, p3, p4⟩ := tpm_pos hs
  have hp := house_path' r hl hnr
  have hi := hs.inv hr
  have := minutes_ticks l
  have ham : (a + 2) * tpm ≤ minOn * tpm := Nat.mul_le_mul_right _ ha
  rw [Nat.add_mul] at ham
  have hexp : (a + 1) * tpm = a * tpm + tpm := by rw [Nat.add_mul, Nat.one_mul]
  rcases h1 with ⟨hc, hrd⟩ | hA
  · obtain ⟨q1, q2⟩ := path_call p2 hs.m.2 p3 hi hc hrd hp
    refine ⟨?_, l, hl, q2 (by omega)⟩
    rcases q1 with ⟨q, _⟩ | ⟨_, q⟩
    · omega
    · right; rw [hexp]; omega
  · obtain ⟨q1, q2⟩ := path_stays p2 hs.m.2 hi hp
    refine ⟨.inr ?_, l, hl, q2 (by omega)⟩
    rw [hexp]; omega

/-- A minute with a report when the boiler is sure, or ready and off: sure after it. -/
theorem report_minute (hs : Setting tpm minOn e ids h0) (hr : HReach false tpm minOn e key ids h0 h) (hm : MinuteOf tpm minOn e key ids h h') {pc : Nat} (h66 : 66 ≤ pc) (h100 : pc ≤ 100)
    (hh : Hears tpm minOn e key ids h0 h h' pc) :
    ((∃ a, a + 2 ≤ minOn ∧ Sure tpm minOn h.boiler a) ∨ (h.boiler.isOn = false ∧ min 254 minOn < h.boiler.noCallM) → Sure tpm minOn h'.boiler 1) ∧
    (Sure tpm minOn h'.boiler 1 ∨ h'.boiler.isOn = false) := by
  obtain ⟨r, l, hl, hnr, ht1, ht2⟩ := hm
  obtain ⟨p1, p2, p3, p4⟩ := tpm_pos hs
  obtain ⟨m, r1, m', hb, ⟨o, ho⟩, r2⟩ := hears_at hs hr h66 h100 hh
  obtain ⟨l1, l2, e1, e2, n1, n2, hts, hms⟩ := split_log r1 ho r2 hl hnr
  have hi := hs.inv hr
  have hi1 := hs.inv (hr.trans r1)
  have hi2 : BInv tpm minOn m'.boiler := by rw [hb]; exact hi1
  have hp1 := house_path' r1 e1 n1
  have hp2 := house_path' r2 e2 n2
  -- ready when the report comes
  have fin : CanStart minOn m.boiler → Sure tpm minOn h'.boiler 1 := by
    intro hrd
    rcases (path_call p2 hs.m.2 p3 hi2 (by rw [hb]) (by rw [hb]; exact hrd) hp2).1 with ⟨_, q1, q2⟩ | ⟨_, q⟩
    · exact .inl ⟨q1, q2⟩
    · right; omega
  constructor
  · intro hc
    apply fin
    have hon : 0 < m.boiler.ticks → CanStart minOn m.boiler := fun h => by
      left
      simp only [Boiler.isOn, bne_iff_ne, ne_eq]
      omega
    rcases hc with ⟨a, ha, hc⟩ | ⟨ho, hn⟩
    · rcases hc with ⟨hc, hrd⟩ | hA
      · rcases (path_call p2 hs.m.2 p3 hi hc hrd hp1).1 with ⟨_, _, q⟩ | ⟨_, q⟩
        · exact q
        · exact hon (by omega)
      · have ham : (a + 2) * tpm ≤ minOn * tpm := Nat.mul_le_mul_right _ ha
        rw [Nat.add_mul] at ham
        have := (path_stays p2 hs.m.2 hi hp1).1
        exact hon (by omega)
    · rcases path_off p2 hs.m.2 hi ho hp1 with ⟨_, q⟩ | q
      · right; have := hs.m; omega
      · exact hon (by omega)
  · by_cases hrd : CanStart minOn m.boiler
    · exact .inl (fin hrd)
    · have hoff : m'.boiler.isOn = false := by
        rw [hb]
        rw [Bool.eq_false_iff]
        intro h; exact hrd (.inl h)
      rcases path_off p2 hs.m.2 hi2 hoff hp2 with ⟨q, _⟩ | q
      · exact .inr q
      · left; right; omega

/-- A minute from off. -/
theorem off_minute (hs : Setting tpm minOn e ids h0) (hr : HReach false tpm minOn e key ids h0 h) (hm : MinuteOf tpm minOn e key ids h h') (hoff : h.boiler.isOn = false) :
    (h'.boiler.isOn = false ∧ min 255 (h.boiler.noCallM + 1) ≤ h'.boiler.noCallM) ∨ Sure tpm minOn h'.boiler 1 := by
  obtain ⟨r, l, hl, hnr, ht1, ht2⟩ := hm
  obtain ⟨p1, p2, p3, p4⟩ := tpm_pos hs
  rcases path_off p2 hs.m.2 (hs.inv hr) hoff (house_path' r hl hnr) with ⟨q1, q2⟩ | q
  · left; exact ⟨q1, by omega⟩
  · right; right; omega

end

/-! ## The boiler follows the valve -/

section
variable {tpm minOn D : Nat} {e : EncFn} {key : Bytes} {ids : List Bytes} {h0 : House} {H : Nat → House} {pc : Nat → Nat}

/-- From when the boiler is sure (or off and ready), on. -/
theorem on_from (hs : Setting tpm minOn e ids h0) (m N : Nat) (hr : ∀ k, HReach false tpm minOn e key ids h0 (H k)) (hmin : ∀ k, m ≤ k → k < N → MinuteOf tpm minOn e key ids (H k) (H (k + 1)))
    (hpc : ∀ k, m ≤ k → k < N → 66 ≤ pc k ∧ pc k ≤ 100) (hD : D + 2 ≤ minOn)
    (hrep : ∀ k, m ≤ k → k + D ≤ N → ∃ j, k ≤ j ∧ j < k + D ∧ Hears tpm minOn e key ids h0 (H j) (H (j + 1)) (pc j))
    (q : Nat) (hq : m ≤ q) (hqN : q < N) (hsure : Sure tpm minOn (H (q + 1)).boiler 1) (k : Nat) (hk : q < k) (hkN : k < N) :
    ∃ l, (H (k + 1)).log = (H k).log ++ l ∧ onTicks l = ticksSeen l := by
  have key : ∀ i, q + 1 + i ≤ N → ∃ j, m ≤ j ∧ j ≤ q + i ∧ q + 1 + i ≤ j + D ∧ Sure tpm minOn (H (q + 1 + i)).boiler (q + 1 + i - j) ∧
      ∀ x, j < x → x < q + 1 + i → ¬ Hears tpm minOn e key ids h0 (H x) (H (x + 1)) (pc x) := by
    intro i
    induction i with
    | zero =>
      intro hN
      refine ⟨q, hq, by omega, ?_, by rw [show q + 1 + 0 - q = 1 by omega]; exact hsure, fun x h1 h2 => by omega⟩
      rcases Nat.eq_zero_or_pos D with h | h
      · obtain ⟨j, _, _, _⟩ := hrep q hq (by omega); omega
      · omega
    | succ i ih =>
      intro hN
      obtain ⟨j, j0, j1, j2, j3, j4⟩ := ih (by omega)
      have hmk := hmin (q + 1 + i) (by omega) (by omega)
      by_cases hre : Hears tpm minOn e key ids h0 (H (q + 1 + i)) (H (q + 1 + i + 1)) (pc (q + 1 + i))
      · have hb := hpc (q + 1 + i) (by omega) (by omega)
        have := (report_minute hs (hr _) hmk hb.1 hb.2 hre).1 (.inl ⟨_, by omega, j3⟩)
        refine ⟨q + 1 + i, by omega, by omega, ?_, ?_, fun x h1 h2 => by omega⟩
        · rcases Nat.eq_zero_or_pos D with h | h
          · obtain ⟨j, _, _, _⟩ := hrep q hq (by omega); omega
          · omega
        · rw [show q + 1 + (i + 1) - (q + 1 + i) = 1 by omega]; exact this
      · have := (sure_minute hs (hr _) hmk (a := q + 1 + i - j) (by omega) j3).1
        refine ⟨j, j0, by omega, ?_, ?_, fun x h1 h2 => ?_⟩
        · apply Classical.byContradiction
          intro hlt
          obtain ⟨x, x1, x2, x3⟩ := hrep (j + 1) (by omega) (by omega)
          by_cases hx : x < q + 1 + i
          · exact j4 x (by omega) hx x3
          · have : x = q + 1 + i := by omega
            subst this; exact hre x3
        · rw [show q + 1 + (i + 1) - j = q + 1 + i - j + 1 by omega]; exact this
        · by_cases hx : x < q + 1 + i
          · exact j4 x h1 hx
          · have : x = q + 1 + i := by omega
            subst this; exact hre
  obtain ⟨j, _, j1, j2, j3, _⟩ := key (k - (q + 1)) (by omega)
  rw [show q + 1 + (k - (q + 1)) = k by omega] at j3 j2
  exact (sure_minute hs (hr k) (hmin k (by omega) hkN) (a := k - j) (by omega) j3).2

/-- **C222, the boiler follows the valve.** If the hub hears from a valve at least once in any `D` minutes, `D` at least two minutes less than the minimum on time, then whatever state the boiler
was in, and whatever else arrives and whoever else asks, once the valve has been at 66% or more for `2*D + min 254 minOn + 1` minutes the boiler is on at every tick, as long as it stays so. -/
theorem C222_boiler_follows (hs : Setting tpm minOn e ids h0) (m N : Nat) (hr : ∀ k, HReach false tpm minOn e key ids h0 (H k))
    (hmin : ∀ k, m ≤ k → k < N → MinuteOf tpm minOn e key ids (H k) (H (k + 1))) (hpc : ∀ k, m ≤ k → k < N → 66 ≤ pc k ∧ pc k ≤ 100) (hD : D + 2 ≤ minOn)
    (hrep : ∀ k, m ≤ k → k + D ≤ N → ∃ j, k ≤ j ∧ j < k + D ∧ Hears tpm minOn e key ids h0 (H j) (H (j + 1)) (pc j))
    (k : Nat) (hk : m + (2 * D + min 254 minOn + 1) ≤ k) (hkN : k < N) :
    ∃ l, (H (k + 1)).log = (H k).log ++ l ∧ onTicks l = ticksSeen l := by
  obtain ⟨j1, a1, a2, a3⟩ := hrep m (Nat.le_refl _) (by omega)
  have hb1 := hpc j1 a1 (by omega)
  have hm1 := hmin j1 a1 (by omega)
  rcases (report_minute hs (hr _) hm1 hb1.1 hb1.2 a3).2 with h | hoff
  · exact on_from hs m N hr hmin hpc hD hrep j1 a1 (by omega) h k (by omega) hkN
  · have hoffs : ∀ i, i ≤ min 254 minOn + 1 → (∃ j, j1 + 1 ≤ j ∧ j ≤ j1 + 1 + i ∧ Sure tpm minOn (H j).boiler 1) ∨
        ((H (j1 + 1 + i)).boiler.isOn = false ∧ i ≤ (H (j1 + 1 + i)).boiler.noCallM) := by
      intro i
      induction i with
      | zero => intro _; exact .inr ⟨hoff, Nat.zero_le _⟩
      | succ i ih =>
        intro hi
        rcases ih (by omega) with ⟨j, x1, x2, x3⟩ | ⟨x1, x2⟩
        · exact .inl ⟨j, x1, by omega, x3⟩
        · rcases off_minute hs (hr _) (hmin (j1 + 1 + i) (by omega) (by omega)) x1 with ⟨y1, y2⟩ | y
          · exact .inr ⟨y1, by show _ ≤ (H (j1 + 1 + i + 1)).boiler.noCallM; omega⟩
          · exact .inl ⟨j1 + 1 + i + 1, by omega, by omega, y⟩
    -- the next report after that finds the boiler ready
    have hnext : ∃ q, j1 + 1 ≤ q ∧ q ≤ j1 + 1 + min 254 minOn + D ∧ Hears tpm minOn e key ids h0 (H q) (H (q + 1)) (pc q) ∧ Sure tpm minOn (H (q + 1)).boiler 1 := by
      have climb : ∀ j, j1 + 1 ≤ j → j ≤ j1 + 2 + min 254 minOn → (Sure tpm minOn (H j).boiler 1 ∨ ((H j).boiler.isOn = false ∧ min 254 minOn < (H j).boiler.noCallM)) →
          ∃ q, j1 + 1 ≤ q ∧ q ≤ j1 + 1 + min 254 minOn + D ∧ Hears tpm minOn e key ids h0 (H q) (H (q + 1)) (pc q) ∧ Sure tpm minOn (H (q + 1)).boiler 1 := by
        intro j x1 x2 x3
        -- up to the first report from j on
        have walk : ∀ i, i ≤ D → (∃ q, j ≤ q ∧ q < j + i ∧ Hears tpm minOn e key ids h0 (H q) (H (q + 1)) (pc q) ∧ Sure tpm minOn (H (q + 1)).boiler 1) ∨
            ((∀ x, j ≤ x → x < j + i → ¬ Hears tpm minOn e key ids h0 (H x) (H (x + 1)) (pc x)) ∧
              (Sure tpm minOn (H (j + i)).boiler (i + 1) ∨ ((H (j + i)).boiler.isOn = false ∧ min 254 minOn < (H (j + i)).boiler.noCallM))) := by
          intro i
          induction i with
          | zero => intro _; exact .inr ⟨fun x h1 h2 => by omega, x3⟩
          | succ i ih =>
            intro hi
            have hmk := hmin (j + i) (by omega) (by omega)
            have hbk := hpc (j + i) (by omega) (by omega)
            rcases ih (by omega) with ⟨q, y1, y2, y3⟩ | ⟨y1, y2⟩
            · exact .inl ⟨q, y1, by omega, y3⟩
            · by_cases hre : Hears tpm minOn e key ids h0 (H (j + i)) (H (j + i + 1)) (pc (j + i))
              · left
                refine ⟨j + i, by omega, by omega, hre, ?_⟩
                apply (report_minute hs (hr _) hmk hbk.1 hbk.2 hre).1
                rcases y2 with y2 | y2
                · exact .inl ⟨_, by omega, y2⟩
                · exact .inr y2
              · right
                refine ⟨fun x h1 h2 => ?_, ?_⟩
                · by_cases hx : x < j + i
                  · exact y1 x h1 hx
                  · have : x = j + i := by omega
                    subst this; exact hre
                · rcases y2 with y2 | ⟨y2, y3⟩
                  · exact .inl (sure_minute hs (hr _) hmk (a := i + 1) (by omega) y2).1
                  · rcases off_minute hs (hr _) hmk y2 with ⟨z1, z2⟩ | z
                    · right; exact ⟨z1, by have := hs.m; show _ < (H (j + i + 1)).boiler.noCallM; omega⟩
                    · left
                      rcases z with z | z
                      · exact .inl z
                      · right
                        have hexp : (i + 1 + 1) * tpm = i * tpm + tpm + tpm := by rw [Nat.add_mul, Nat.add_mul, Nat.one_mul]
                        rw [hexp]
                        show _ ≤ (H (j + i + 1)).boiler.ticks + _
                        omega
        rcases walk D (Nat.le_refl _) with ⟨q, y1, y2, y3⟩ | ⟨y1, _⟩
        · exact ⟨q, by omega, by omega, y3⟩
        · obtain ⟨x, z1, z2, z3⟩ := hrep j (by omega) (by omega)
          exact absurd z3 (y1 x z1 z2)
      rcases hoffs (min 254 minOn + 1) (Nat.le_refl _) with ⟨j, x1, x2, x3⟩ | ⟨x1, x2⟩
      · exact climb j x1 (by omega) (.inl x3)
      · refine climb (j1 + 1 + (min 254 minOn + 1)) (by omega) (by omega) (.inr ⟨x1, ?_⟩)
        omega
    obtain ⟨q, q1, q2, _, q4⟩ := hnext
    exact on_from hs m N hr hmin hpc hD hrep q (by omega) (by omega) q4 k (by omega) hkN

end

/-! ## The room -/

/-- C198 up to a time. -/
theorem warm_until {v : ValveSetup} {es : Nat → Reading} (hr : PlainRoom v es) (t L N : Nat) (ht : ∀ k, k ≤ N → t ≤ targetAt v es k)
    (heats : ∀ k, k < N → HeldOpen v es L k → tempAt es k ≤ 16 * (t : Int) - 9 → tempAt es k ≤ tempAt es (k + 1)) (n : Nat) (hn : n ≤ N) :
    min (tempAt es 0) (16 * (t : Int) - 9) - 11 - L ≤ tempAt es n := by
  suffices h : tempAt es n > 16 * (t : Int) - 9 ∨ min (tempAt es 0) (16 * (t : Int) - 9) - 11 - L + lag v es L n ≤ tempAt es n by omega
  induction n with
  | zero => have := lag_le v es L 0; omega
  | succ k ih =>
    have ih := ih (by omega)
    by_cases hA : tempAt es (k + 1) > 16 * (t : Int) - 9
    · exact .inl hA
    have hf := lag_falls hr L k (by have := ht (k + 1) hn; omega)
    have hl := lag_le v es L (k + 1)
    have hs := hr.slow k
    right
    by_cases hz : lag v es L k = 0
    · by_cases hk : tempAt es k ≤ 16 * (t : Int) - 9
      · have := heats k (by omega) (openRun_held v es k L (by unfold lag at hz; omega)) hk
        omega
      · omega
    · omega

/-- **C222, kept warm by the whole system.** A valve (set up to open to 66% at least) reads its room once a minute, and the hub hears of the position it set at least once in any `D` minutes, `D` at
least two minutes less than the minimum on time, not restarting meanwhile. The room (when below `t` less 9/16C) does not cool once the radiator has been fully open, and the boiler on, for
`L` minutes. Then whatever else is sent, replayed or made up, whoever else asks for heat, and whatever user, schedule and occupancy do to the valve, as long as its target
is not below `t` the room is never colder than `(12 + L + 2*D + min 254 minOn)/16`C below the lower of where it started and `t` less 9/16C. -/
theorem C222_room_kept_warm (v : ValveSetup) (es : Nat → Reading) (hv : PlainRoom v es) (h66 : 66 ≤ v.maxPC) (t L D N : Nat) (htar : ∀ k, k ≤ N → t ≤ targetAt v es k)
    (tpm minOn : Nat) (ht : tpm = 30 ∨ tpm = 60) (hm : minOn ≤ 255) (hD : D + 2 ≤ minOn) (hD1 : 1 ≤ D) (e : EncFn) (hel : EncLen e) (key : Bytes) (ids : List Bytes) (h0 : House)
    (hb : HBegin ids h0) (H : Nat → House) (hr : HReach false tpm minOn e key ids h0 (H 0)) (hmin : ∀ k, k < N → MinuteOf tpm minOn e key ids (H k) (H (k + 1)))
    (hears : ∀ k, k + D ≤ N → ∃ j, k ≤ j ∧ j < k + D ∧ Hears tpm minOn e key ids h0 (H j) (H (j + 1)) (posAt v es j))
    (heats : ∀ k, k < N → HeldOpen v es L k → BoilerOnFor H L k → tempAt es k ≤ 16 * (t : Int) - 9 → tempAt es k ≤ tempAt es (k + 1)) (k : Nat) (hk : k ≤ N) :
    min (tempAt es 0) (16 * (t : Int) - 9) - (12 + L + 2 * D + min 254 minOn : Nat) ≤ tempAt es k := by
  have hs : Setting tpm minOn e ids h0 := ⟨ht, ⟨by omega, hm⟩, hel, hb⟩
  have hreach : ∀ k, k ≤ N → HReach false tpm minOn e key ids h0 (H k) := by
    intro k
    induction k with
    | zero => intro _; exact hr
    | succ k ih => intro h; exact (ih (by omega)).trans (hmin k (by omega)).1
  have := warm_until hv t (L + (2 * D + min 254 minOn + 1)) N htar (fun k hkN hopen hcold => ?_) k hk
  · omega
  · obtain ⟨o1, o2⟩ := hopen
    refine heats k hkN ⟨by omega, fun j hj => o2 j (by omega)⟩ ⟨by omega, fun j hj => ?_⟩ hcold
    have := C222_boiler_follows (H := fun i => H (min i N)) (pc := posAt v es) (D := D) hs (k + 1 - (L + (2 * D + min 254 minOn + 1))) (k + 1) (fun i => hreach _ (by omega))
      (fun i h1 h2 => by
        have := hmin i (by omega)
        rw [show min i N = i by omega, show min (i + 1) N = i + 1 by omega]; exact this)
      (fun i h1 h2 => by
        have := o2 (k - i) (by omega)
        rw [show k - (k - i) = i by omega] at this
        omega) hD
      (fun i h1 h2 => by
        obtain ⟨x, x1, x2, x3⟩ := hears i (by omega)
        exact ⟨x, x1, x2, by rw [show min x N = x by omega, show min (x + 1) N = x + 1 by omega]; exact x3⟩)
      (k - j) (by omega) (by omega)
    rwa [show min (k - j) N = k - j by omega, show min (k - j + 1) N = k - j + 1 by omega] at this

/-! ## Non-vacuity: a valve that is fully open reports once a minute -/

/-- Each minute the valve sends `100%`, the hub hears it, and its main loop ticks. -/
def exSends (h : House) : House := { h with chan := h.chan.valve nullEncChecked chKey exRxID (exValve 100) [] [4, 5, 6] }
def exLast (h : House) : Bytes := ((h.chan.sent.getLast?.map (·.frame)).getD []).drop 1
def exMinutes : Nat → House
  | 0 => exHouse0
  | k + 1 => ((exSends (exMinutes k)).hear chKey (hsCfg (exSends (exMinutes k))) 20 (exLast (exSends (exMinutes k)))).tick 30 3 true

/-- What is needed of the message last sent. -/
def exMsgOK (h : House) : Bool :=
  match h.chan.sent.getLast? with
  | none => false
  | some x => decide (x.fType = FTS_BasicSensorOrValve) && decide (x.body[0]? = some 100) && decide (x.id = exRxID) && decide (0 < beVal x.ctr) &&
      decide (beVal x.ctr + 255 < 2 ^ 40) && decide ((x.frame[2]?.getD 0).toNat % 16 = 4) && decide (x.frame.length ≤ 64) &&
      h.chan.got.all fun g => decide (g.frame ≠ x.frame)

theorem exMinutes_ok : ∀ k, k < 12 → exMsgOK (exSends (exMinutes k)) = true := by decide +kernel

theorem exMinute_of (h : House) (hok : exMsgOK (exSends h) = true) :
    MinuteOf 30 3 nullEncChecked chKey [exRxID] h (((exSends h).hear chKey (hsCfg (exSends h)) 20 (exLast (exSends h))).tick 30 3 true) ∧
    Hears 30 3 nullEncChecked chKey [exRxID] exHouse0 h (((exSends h).hear chKey (hsCfg (exSends h)) 20 (exLast (exSends h))).tick 30 3 true) 100 := by
  have r1 : HReach false 30 3 nullEncChecked chKey [exRxID] h (exSends h) := .valve (id := exRxID) (exValve 100) [] [4, 5, 6] .start (by simp)
  have hlg : (exSends h).log = h.log := rfl
  obtain ⟨c1, c2, c3, c4⟩ := hsCfg_ok (exSends h)
  generalize exSends h = m at *
  unfold exMsgOK at hok
  cases hx : m.chan.sent.getLast? with
  | none => rw [hx] at hok; cases hok
  | some x =>
    rw [hx] at hok
    simp only [Bool.and_eq_true, decide_eq_true_eq, List.all_eq_true] at hok
    obtain ⟨⟨⟨⟨⟨⟨⟨a1, a2⟩, a3⟩, a4⟩, a5⟩, a6⟩, a7⟩, a8⟩ := hok
    have hl : exLast m = x.frame.drop 1 := by unfold exLast; rw [hx]; rfl
    obtain ⟨before, hs⟩ := List.getLast?_eq_some_iff.1 hx
    rw [hl]
    have r2 := HReach.hear (hsCfg m) 20 (x.frame.drop 1) r1 (by rw [List.length_drop]; omega) c3 c4 c1 c2
    have hmlog : m.log = h.log := hlg
    refine ⟨⟨.tick true r2, [.handled (handleRaw m.chan.ee (hsCfg m) (x.frame.drop 1)).2.2,
        .tick true ((m.hear chKey (hsCfg m) 20 (x.frame.drop 1)).boiler.process 30 3 true true).pin], ?_, by simp, by simp [ticksSeen], by simp [minutesSeen]⟩,
      m, x, before, [], 100, [0, 0, 0, 0, 0, 0], [0, 0, 0, 0, 0, 0], hsCfg m, 20, r1, .tick true .start, hs, ?_, a1, a2, rfl, ?_, ?_, a4, ?_, by decide, a5,
      hs_accepts (by rw [hs]; simp) (by rw [a3]; rfl), c4, ?_, c3, .inl rfl⟩
    · rw [← hmlog]
      exact List.append_assoc m.log [_] [_]
    · intro y hy _ g hg _
      rw [List.mem_singleton.1 hy]
      exact a8 g hg
    · rw [a3]; exact exRx_good
    · rw [a3]; decide +kernel
    · rw [a6, a3]; decide +kernel
    · show 74 ≤ 100; omega

/-- WARM at 19C, not set back; the room is at 12.5C and loses a sixteenth of a degree in each of the first four minutes. -/
def exCooling (k : Nat) : Reading := simWarm (200 - (min k 4 : Nat))

theorem exCooling_plain : PlainRoom exSetup exCooling where
  half := by decide
  brisk := ⟨rfl, fun _ => rfl⟩
  settings := fun _ => sim_settings
  range := fun k => by show -1900 ≤ (200 - (min k 4 : Nat) : Int) ∧ (200 - (min k 4 : Nat) : Int) ≤ 1000; omega
  slow := fun k => by show (200 - (min (k + 1) 4 : Nat) : Int) ≤ (200 - (min k 4 : Nat) : Int) + 1 ∧ (200 - (min k 4 : Nat) : Int) ≤ (200 - (min (k + 1) 4 : Nat) : Int) + 1; omega

theorem exCooling_open : ∀ k, k < 13 → posAt exSetup exCooling k = 100 ∧ targetAt exSetup exCooling k = 19 := by decide +kernel

/-- All the hypotheses of C222 hold of these 12 minutes (minimum on time 3 minutes), and the boiler, off at first, does come on and stay on. -/
example : (∀ k, k ≤ 12 → 200 - 22 ≤ tempAt exCooling k) ∧ (exMinutes 3).boiler.pin = false ∧ BoilerOnFor exMinutes 5 11 := by
  have hmin : ∀ k, k < 12 → MinuteOf 30 3 nullEncChecked chKey [exRxID] (exMinutes k) (exMinutes (k + 1)) ∧
      Hears 30 3 nullEncChecked chKey [exRxID] exHouse0 (exMinutes k) (exMinutes (k + 1)) (posAt exSetup exCooling k) := fun k hk => by
    rw [(exCooling_open k (by omega)).1]
    exact exMinute_of _ (exMinutes_ok k hk)
  have hon : BoilerOnFor exMinutes 5 11 := by
    have hs : Setting 30 3 nullEncChecked [exRxID] exHouse0 := ⟨.inl rfl, by omega, nullEncChecked_len, ⟨chBegin, rfl, rfl⟩⟩
    have hreach : ∀ k, k ≤ 12 → HReach false 30 3 nullEncChecked chKey [exRxID] exHouse0 (exMinutes k) := by
      intro k
      induction k with
      | zero => intro _; exact .start
      | succ k ih => intro h; exact (ih (by omega)).trans (hmin k (by omega)).1.1
    refine ⟨by omega, fun j hj => ?_⟩
    have := C222_boiler_follows (H := fun i => exMinutes (min i 12)) (pc := fun _ => 100) (D := 1) hs 0 12 (fun i => hreach _ (by omega))
      (fun i h1 h2 => by rw [show min i 12 = i by omega, show min (i + 1) 12 = i + 1 by omega]; exact (hmin i h2).1) (fun _ _ _ => by omega) (by omega)
      (fun i h1 h2 => ⟨i, by omega, by omega, by
        rw [show min i 12 = i by omega, show min (i + 1) 12 = i + 1 by omega]
        have := (hmin i (by omega)).2
        rwa [(exCooling_open i (by omega)).1] at this⟩) (11 - j) (by omega) (by omega)
    rwa [show min (11 - j) 12 = 11 - j by omega, show min (11 - j + 1) 12 = 11 - j + 1 by omega] at this
  refine ⟨fun k hk => ?_, by decide +kernel, hon⟩
  have := C222_room_kept_warm exSetup exCooling exCooling_plain (by decide) 19 5 1 12 (fun k hk => by rw [(exCooling_open k (by omega)).2]; omega) 30 3 (.inl rfl) (by omega) (by omega) (by omega)
    nullEncChecked nullEncChecked_len chKey [exRxID] exHouse0 ⟨chBegin, rfl, rfl⟩ exMinutes .start (fun k hk => (hmin k hk).1)
    (fun k hk => ⟨k, by omega, by omega, (hmin k (by omega)).2⟩) (fun k hk h1 h2 h3 => by
      have := h1.1
      show (200 - (min k 4 : Nat) : Int) ≤ 200 - (min (k + 1) 4 : Nat)
      omega) k hk
  have h0 : tempAt exCooling 0 = 200 := rfl
  rw [h0] at this
  omega

end OTR.Props
