import Verif.Model.ClockBytes
/-! # C229: the clock read and set while its interrupt runs -/

namespace OTR.Props
open OTR

theorem ticks_succ' (n : Nat) (r : RTC) : RTC.ticks (n + 1) r = (RTC.ticks n r).tick := rfl

theorem two_bytes (n : Nat) (h : n < 65536) : (u8 n).toNat + 256 * (u8 (n / 256)).toNat = n := by
  unfold u8; simp only [UInt8.toNat_ofNat']; omega

theorem time_isr (c : Clk) : c.isr.time = c.time.tick := by
  have h1 : c.time.tick.mins < 65536 ∧ c.time.tick.days < 65536 := by
    have a : c.time.mins < 65536 ∧ c.time.days < 65536 := by
      have := c.mLo.toNat_lt; have := c.mHi.toNat_lt; have := c.dLo.toNat_lt; have := c.dHi.toNat_lt
      constructor
      · show c.mLo.toNat + 256 * c.mHi.toNat < 65536; omega
      · show c.dLo.toNat + 256 * c.dHi.toNat < 65536; omega
    unfold RTC.tick
    split
    · split
      · exact ⟨by show 0 < 65536; omega, by show (c.time.days + 1) % 65536 < 65536; omega⟩
      · exact ⟨by show c.time.mins + 1 < 65536; omega, a.2⟩
    · exact a
  show (⟨_, (u8 _).toNat + 256 * (u8 _).toNat, (u8 _).toNat + 256 * (u8 _).toNat⟩ : RTC) = _
  rw [two_bytes _ h1.1, two_bytes _ h1.2]
  rfl

theorem before_off {c : Clk} (w : Nat → Bool) (h : c.ie = false) :
    c.before w = { c with t := c.t + 1, pend := c.pend || w c.t, asked := if w c.t then c.asked + 1 else c.asked } := by
  unfold Clk.before
  simp [h]

/-- A step lets in at most one clock interrupt. -/
theorem before_any (w : Nat → Bool) (c : Clk) :
    ∃ n, (c.before w).time = c.time.ticks n ∧ (c.before w).done = c.done + n ∧ (c.before w).ee = c.ee ∧ (c.before w).ie = c.ie := by
  unfold Clk.before
  dsimp only
  split
  · refine ⟨1, ?_, rfl, rfl, rfl⟩
    rw [time_isr]; rfl
  · exact ⟨0, rfl, rfl, rfl, rfl⟩

theorem ticks_add (a b : Nat) (r : RTC) : RTC.ticks b (RTC.ticks a r) = RTC.ticks (a + b) r := by
  induction b with
  | zero => rfl
  | succ b ih => rw [← Nat.add_assoc, ticks_succ', ih]; rfl

/-- With interrupts off: what a program returns and does depends on time and EEPROM only, and lets no interrupt in. -/
def Off {α : Type} (p : ClkP α) (f : RTC → EE → α × RTC × EE) : Prop :=
  ∀ w c, c.ie = false → (p w c).1 = (f c.time c.ee).1 ∧ (p w c).2.time = (f c.time c.ee).2.1 ∧ (p w c).2.ee = (f c.time c.ee).2.2 ∧
    (p w c).2.done = c.done ∧ (p w c).2.ie = false

theorem atomic_lin {α : Type} {p : ClkP α} {f : RTC → EE → α × RTC × EE} (hp : Off p f) (w : Nat → Bool) (c : Clk) :
    ∃ n, (clkAtomic p w c).1 = (f (c.time.ticks n) c.ee).1 ∧ (clkAtomic p w c).2.time = (f (c.time.ticks n) c.ee).2.1 ∧
      (clkAtomic p w c).2.ee = (f (c.time.ticks n) c.ee).2.2 ∧ (clkAtomic p w c).2.done = c.done + n ∧ (clkAtomic p w c).2.ie = c.ie := by
  obtain ⟨n1, a1, a2, a3, a4⟩ := before_any w c
  obtain ⟨n2, b1, b2, b3, b4⟩ := before_any w (c.before w)
  have h := hp w { (c.before w).before w with ie := false } rfl
  refine ⟨n1 + n2, ?_⟩
  have et : ({ (c.before w).before w with ie := false } : Clk).time = c.time.ticks (n1 + n2) := by
    show ((c.before w).before w).time = _
    rw [b1, a1, ticks_add]
  have ee : ({ (c.before w).before w with ie := false } : Clk).ee = c.ee := by
    show ((c.before w).before w).ee = _
    rw [b3, a3]
  rw [et, ee] at h
  obtain ⟨h1, h2, h3, h4, h5⟩ := h
  have hb := before_off w h5
  refine ⟨h1, ?_, ?_, ?_, ?_⟩
  · show ({ Clk.before w (p w { (c.before w).before w with ie := false }).2 with ie := _ } : Clk).time = _
    rw [hb]; exact h2
  · show (Clk.before w (p w { (c.before w).before w with ie := false }).2).ee = _
    rw [hb]; exact h3
  · show (Clk.before w (p w { (c.before w).before w with ie := false }).2).done = _
    rw [hb]
    show (p w { (c.before w).before w with ie := false }).2.done = _
    rw [h4]
    show ((c.before w).before w).done = _
    rw [b2, a2]; omega
  · show (c.before w).ie = _
    exact a4

theorem off_loadMins : Off loadMins fun r m => (r.mins, r, m) := by
  intro w c h
  have e1 := before_off w h
  have e2 := before_off (c := c.before w) w (by rw [e1]; exact h)
  refine ⟨?_, ?_, ?_, ?_, ?_⟩
  · show (c.before w).mLo.toNat + 256 * ((c.before w).before w).mHi.toNat = _
    rw [e2, e1]; rfl
  · show ((c.before w).before w).time = _
    rw [e2, e1]; rfl
  · show ((c.before w).before w).ee = _
    rw [e2, e1]
  · show ((c.before w).before w).done = _
    rw [e2, e1]
  · show ((c.before w).before w).ie = _
    rw [e2, e1]; exact h

theorem off_loadDays : Off loadDays fun r m => (r.days, r, m) := by
  intro w c h
  have e1 := before_off w h
  have e2 := before_off (c := c.before w) w (by rw [e1]; exact h)
  refine ⟨?_, ?_, ?_, ?_, ?_⟩
  · show (c.before w).dLo.toNat + 256 * ((c.before w).before w).dHi.toNat = _
    rw [e2, e1]; rfl
  · show ((c.before w).before w).time = _
    rw [e2, e1]; rfl
  · show ((c.before w).before w).ee = _
    rw [e2, e1]
  · show ((c.before w).before w).done = _
    rw [e2, e1]
  · show ((c.before w).before w).ie = _
    rw [e2, e1]; exact h

theorem off_storeMins (v : Nat) (hv : v < 65536) : Off (storeMins v) fun r m => ((), { r with mins := v }, m) := by
  intro w c h
  have e1 := before_off w h
  have e2 := before_off (c := { c.before w with mHi := u8 (v / 256) }) w (by show (c.before w).ie = false; rw [e1]; exact h)
  have e : (storeMins v w c).2 = { Clk.before w { c.before w with mHi := u8 (v / 256) } with mLo := u8 v } := rfl
  refine ⟨rfl, ?_, ?_, ?_, ?_⟩
  · rw [e, e2, e1]
    show (⟨c.sec, (u8 v).toNat + 256 * (u8 (v / 256)).toNat, _⟩ : RTC) = _
    rw [two_bytes v hv]; rfl
  · rw [e, e2, e1]
  · rw [e, e2, e1]
  · rw [e, e2, e1]; exact h

theorem off_storeDays (v : Nat) (hv : v < 65536) : Off (storeDays v) fun r m => ((), { r with days := v }, m) := by
  intro w c h
  have e1 := before_off w h
  have e2 := before_off (c := { c.before w with dHi := u8 (v / 256) }) w (by show (c.before w).ie = false; rw [e1]; exact h)
  have e : (storeDays v w c).2 = { Clk.before w { c.before w with dHi := u8 (v / 256) } with dLo := u8 v } := rfl
  refine ⟨rfl, ?_, ?_, ?_, ?_⟩
  · rw [e, e2, e1]
    show (⟨c.sec, _, (u8 v).toNat + 256 * (u8 (v / 256)).toNat⟩ : RTC) = _
    rw [two_bytes v hv]; rfl
  · rw [e, e2, e1]
  · rw [e, e2, e1]
  · rw [e, e2, e1]; exact h

theorem off_bind {α β : Type} {p : ClkP α} {q : α → ClkP β} {f : RTC → EE → α × RTC × EE} {g : α → RTC → EE → β × RTC × EE}
    (hp : Off p f) (hq : ∀ a, Off (q a) (g a)) : Off (.bind p q) fun r m => g (f r m).1 (f r m).2.1 (f r m).2.2 := by
  intro w c h
  obtain ⟨h1, h2, h3, h4, h5⟩ := hp w c h
  have := hq (p w c).1 w (p w c).2 h5
  rw [h1, h2, h3, h4] at this
  rw [← h1] at this
  have e : ClkP.bind p q w c = q (p w c).1 w (p w c).2 := rfl
  rw [e, h1] at *
  exact this

theorem off_ret {α : Type} (a : α) : Off (.ret a) fun r m => (a, r, m) := fun _ _ h => ⟨rfl, rfl, rfl, rfl, h⟩

theorem off_persist : Off (.step fun c => ((), { c with ee := c.time.persist.post c.ee })) fun r m => ((), r, r.persist.post m) := by
  intro w c h
  have e1 := before_off w h
  refine ⟨rfl, ?_, ?_, ?_, ?_⟩
  · show (c.before w).time = _
    rw [e1]; rfl
  · show (c.before w).time.persist.post (c.before w).ee = _
    rw [e1]; rfl
  · show (c.before w).done = _
    rw [e1]
  · show (c.before w).ie = _
    rw [e1]; exact h

theorem off_read {α : Type} (f : EE → α) : Off (.step fun c => (f c.ee, c)) fun r m => (f m, r, m) := by
  intro w c h
  have e1 := before_off w h
  refine ⟨?_, ?_, ?_, ?_, ?_⟩
  · show f (c.before w).ee = _
    rw [e1]
  · show (c.before w).time = _
    rw [e1]; rfl
  · show (c.before w).ee = _
    rw [e1]
  · show (c.before w).done = _
    rw [e1]
  · show (c.before w).ie = _
    rw [e1]; exact h

/-- **C229** `getMinutesSinceMidnightLT()` and `getDaysSince1999LT()`, with the clock interrupt coming between any two byte accesses: the result
is the time at a moment during the call (after `n` of the clock interrupts taken in it), the clock misses none of them, and the call changes
nothing. -/
theorem C229_read_whole (w : Nat → Bool) (c : Clk) :
    (∃ n, (getMinsP w c).1 = (c.time.ticks n).mins ∧ (getMinsP w c).2.time = c.time.ticks n ∧ (getMinsP w c).2.done = c.done + n ∧
      (getMinsP w c).2.ee = c.ee ∧ (getMinsP w c).2.ie = c.ie) ∧
    (∃ n, (getDaysP w c).1 = (c.time.ticks n).days ∧ (getDaysP w c).2.time = c.time.ticks n ∧ (getDaysP w c).2.done = c.done + n ∧
      (getDaysP w c).2.ee = c.ee ∧ (getDaysP w c).2.ie = c.ie) := by
  constructor
  · obtain ⟨n, h1, h2, h3, h4, h5⟩ := atomic_lin off_loadMins w c
    exact ⟨n, h1, h2, h4, h3, h5⟩
  · obtain ⟨n, h1, h2, h3, h4, h5⟩ := atomic_lin off_loadDays w c
    exact ⟨n, h1, h2, h4, h3, h5⟩

/-- **C229** `getSecondsLT()`: the seconds at one moment of the call. -/
theorem C229_seconds (w : Nat → Bool) (c : Clk) :
    ∃ n, (getSecP w c).1 = (c.time.ticks n).sec ∧ (getSecP w c).2.time = c.time.ticks n ∧ (getSecP w c).2.done = c.done + n ∧
      (getSecP w c).2.ee = c.ee ∧ (getSecP w c).2.ie = c.ie := by
  obtain ⟨n, h1, h2, h3, h4⟩ := before_any w c
  refine ⟨n, ?_, h1, h2, h3, h4⟩
  rw [← h1]; rfl

/-- **C229** `setHoursMinutesLT()` with the clock interrupt coming between any two byte accesses: as if the whole call had been made at one moment
(after `n` of the clock interrupts taken in it; those after it count on from the time set). -/
theorem C229_set_whole (w : Nat → Bool) (c : Clk) (h m : Nat) :
    ∃ n, ((setHMP h m w c).2.time, (setHMP h m w c).1, (setHMP h m w c).2.ee) = (c.time.ticks n).setHM h m c.ee ∧
      (setHMP h m w c).2.done = c.done + n ∧ (setHMP h m w c).2.ie = c.ie := by
  by_cases hv : h > 23 ∨ m > 59
  · refine ⟨0, ?_, ?_, ?_⟩
    · rw [setHMP, if_pos hv, RTC.setHM, if_pos hv]; rfl
    · rw [setHMP, if_pos hv]; rfl
    · rw [setHMP, if_pos hv]; rfl
  · have hlt : 60 * h + m < 65536 := by omega
    have off : Off (.bind loadMins fun old =>
        if 60 * h + m ≠ old then .bind (storeMins (60 * h + m)) fun _ => .step fun c => ((), { c with ee := c.time.persist.post c.ee })
        else .ret ()) fun r ee => ((), (r.setHM h m ee).1, (r.setHM h m ee).2.2) := by
      have := off_bind off_loadMins (q := fun old =>
        if 60 * h + m ≠ old then .bind (storeMins (60 * h + m)) fun _ => .step fun c => ((), { c with ee := c.time.persist.post c.ee })
        else .ret ()) (g := fun old r ee => if 60 * h + m ≠ old then ((), { r with mins := 60 * h + m }, ({ r with mins := 60 * h + m } : RTC).persist.post ee) else ((), r, ee)) (by
          intro old
          by_cases e : 60 * h + m ≠ old
          · simp only [if_pos e]
            exact off_bind (off_storeMins _ hlt) (fun _ => off_persist)
          · simp only [if_neg e]
            exact off_ret ())
      intro w c hc
      have := this w c hc
      dsimp only at this ⊢
      have es : c.time.setHM h m c.ee = if 60 * h + m ≠ c.time.mins then ({ c.time with mins := 60 * h + m }, true, ({ c.time with mins := 60 * h + m } : RTC).persist.post c.ee) else (c.time, true, c.ee) := by
        rw [RTC.setHM, if_neg hv]
      rw [es]
      by_cases e : 60 * h + m ≠ c.time.mins
      · rw [if_pos e] at this ⊢; exact this
      · rw [if_neg e] at this ⊢; exact this
    obtain ⟨n, h1, h2, h3, h4, h5⟩ := atomic_lin off w c
    refine ⟨n, ?_, ?_, ?_⟩
    · have ok : ((c.time.ticks n).setHM h m c.ee).2.1 = true := by
        rw [RTC.setHM, if_neg hv]; dsimp only; split <;> rfl
      rw [setHMP, if_neg hv]
      show (_, true, _) = _
      apply Prod.ext
      · exact h2
      · apply Prod.ext
        · exact ok.symm
        · exact h3
    · rw [setHMP, if_neg hv]; exact h4
    · rw [setHMP, if_neg hv]; exact h5

theorem dayWord_lt (m : EE) : dayWord m < 65536 := by
  have := (m eeDay).toNat_lt; have := (m (eeDay + 1)).toNat_lt
  unfold dayWord; omega

/-- The first half of `restoreRTC()`. -/
theorem restore_first (w : Nat → Bool) (c : Clk) :
    ∃ n, (clkAtomic (.bind (.step fun c => (dayWord c.ee, c)) fun days => .bind (if days ≠ 0xffff then storeDays days else .ret ()) fun _ =>
        .step fun c => ((c.ee eeHHMM).toNat, c)) w c).1 = (c.ee eeHHMM).toNat ∧
      (clkAtomic (.bind (.step fun c => (dayWord c.ee, c)) fun days => .bind (if days ≠ 0xffff then storeDays days else .ret ()) fun _ =>
        .step fun c => ((c.ee eeHHMM).toNat, c)) w c).2.time = (if dayWord c.ee ≠ 0xffff then { c.time.ticks n with days := dayWord c.ee } else c.time.ticks n) ∧
      (clkAtomic (.bind (.step fun c => (dayWord c.ee, c)) fun days => .bind (if days ≠ 0xffff then storeDays days else .ret ()) fun _ =>
        .step fun c => ((c.ee eeHHMM).toNat, c)) w c).2.ee = c.ee ∧
      (clkAtomic (.bind (.step fun c => (dayWord c.ee, c)) fun days => .bind (if days ≠ 0xffff then storeDays days else .ret ()) fun _ =>
        .step fun c => ((c.ee eeHHMM).toNat, c)) w c).2.done = c.done + n ∧
      (clkAtomic (.bind (.step fun c => (dayWord c.ee, c)) fun days => .bind (if days ≠ 0xffff then storeDays days else .ret ()) fun _ =>
        .step fun c => ((c.ee eeHHMM).toNat, c)) w c).2.ie = c.ie := by
  have off : Off (.bind (.step fun c => (dayWord c.ee, c)) fun days => .bind (if days ≠ 0xffff then storeDays days else .ret ()) fun _ =>
        .step fun c => ((c.ee eeHHMM).toNat, c))
      fun r m => ((m eeHHMM).toNat, if dayWord m ≠ 0xffff then { r with days := dayWord m } else r, m) := by
    intro w c hc
    have key : ∀ d, d < 65536 → Off (.bind (if d ≠ 0xffff then storeDays d else .ret ()) fun _ => .step fun c => ((c.ee eeHHMM).toNat, c))
        fun r m => ((m eeHHMM).toNat, if d ≠ 0xffff then { r with days := d } else r, m) := by
      intro d hd
      by_cases e : d ≠ 0xffff
      · simp only [if_pos e]
        exact off_bind (off_storeDays d hd) (fun _ => off_read fun m => (m eeHHMM).toNat)
      · simp only [if_neg e]
        exact off_bind (off_ret ()) (fun _ => off_read fun m => (m eeHHMM).toNat)
    have e1 := before_off w hc
    have := key (dayWord c.ee) (dayWord_lt c.ee) w (c.before w) (by rw [e1]; exact hc)
    have eq : ClkP.bind (.step fun c => (dayWord c.ee, c)) (fun days => .bind (if days ≠ 0xffff then storeDays days else .ret ()) fun _ =>
        .step fun c => ((c.ee eeHHMM).toNat, c)) w c = ClkP.bind (if dayWord c.ee ≠ 0xffff then storeDays (dayWord c.ee) else .ret ()) (fun _ =>
        .step fun c => ((c.ee eeHHMM).toNat, c)) w (c.before w) := by
      show ClkP.bind (if dayWord (c.before w).ee ≠ 0xffff then storeDays (dayWord (c.before w).ee) else .ret ()) (fun _ =>
        .step fun c => ((c.ee eeHHMM).toNat, c)) w (c.before w) = _
      have : (c.before w).ee = c.ee := by rw [e1]
      rw [this]
    rw [eq]
    have t : (c.before w).time = c.time := by rw [e1]; rfl
    have ee : (c.before w).ee = c.ee := by rw [e1]
    have dn : (c.before w).done = c.done := by rw [e1]
    rw [t, ee, dn] at this
    exact this
  obtain ⟨n, h1, h2, h3, h4, h5⟩ := atomic_lin off w c
  exact ⟨n, h1, h2, h3, h4, h5⟩

theorem set_mins (w : Nat → Bool) (c : Clk) (v : Nat) (hv : v < 65536) :
    ∃ n, (clkAtomic (storeMins v) w c).2.time = { c.time.ticks n with mins := v } ∧ (clkAtomic (storeMins v) w c).2.ee = c.ee ∧
      (clkAtomic (storeMins v) w c).2.done = c.done + n ∧ (clkAtomic (storeMins v) w c).2.ie = c.ie := by
  obtain ⟨n, h1, h2, h3, h4, h5⟩ := atomic_lin (off_storeMins v hv) w c
  exact ⟨n, h2, h3, h4, h5⟩

/-- **C229** `restoreRTC()` with the clock interrupt coming between any two byte accesses: the answer is the one for the saved bytes; the saved
date, if there is one, replaces the clock's after `k` of the clock interrupts taken in the call, and, if the answer is yes, the saved time of day
replaces the clock's after `n` of them. (So if midnight comes between the two, the date is the day after the one saved.) -/
theorem C229_restore (w : Nat → Bool) (c : Clk) :
    (restoreP w c).1 = (c.time.restore c.ee).2 ∧ (restoreP w c).2.ee = c.ee ∧ (restoreP w c).2.ie = c.ie ∧
    ∃ k n, k ≤ n ∧ (restoreP w c).2.done = c.done + n ∧
      let r := RTC.ticks (n - k) (if dayWord c.ee ≠ 0xffff then { c.time.ticks k with days := dayWord c.ee } else c.time.ticks k)
      (restoreP w c).2.time = if (c.time.restore c.ee).2 then { r with mins := (c.time.restore c.ee).1.mins } else r := by
  obtain ⟨k, h1, h2, h3, h4, h5⟩ := restore_first w c
  generalize ex : (clkAtomic (.bind (.step fun c => (dayWord c.ee, c)) fun days => .bind (if days ≠ 0xffff then storeDays days else .ret ()) fun _ =>
        .step fun c => ((c.ee eeHHMM).toNat, c)) w c) = x at h1 h2 h3 h4 h5
  have hp : (c.ee eeHHMM).toNat < 256 := (c.ee eeHHMM).toNat_lt
  have e : restoreP w c = (if (c.ee eeHHMM).toNat ≥ 24 * 8 then .ret false
      else if (c.ee eeHHMM).toNat % 8 = 0 then ClkP.bind (clkAtomic (storeMins ((c.ee eeHHMM).toNat / 8 * 60 + 8 + 45))) fun _ => .ret true
      else if (c.ee eeHHMM).toNat % 8 = 1 then ClkP.bind (clkAtomic (storeMins ((c.ee eeHHMM).toNat / 8 * 60 + 8 + 30))) fun _ => .ret true
      else if (c.ee eeHHMM).toNat % 8 = 3 then ClkP.bind (clkAtomic (storeMins ((c.ee eeHHMM).toNat / 8 * 60 + 8 + 15))) fun _ => .ret true
      else if (c.ee eeHHMM).toNat % 8 = 7 then ClkP.bind (clkAtomic (storeMins ((c.ee eeHHMM).toNat / 8 * 60 + 8))) fun _ => .ret true
      else .ret false : ClkP Bool) w x.2 := by
    rw [← h1, ← ex]; rfl
  rw [e]
  clear e
  have er : c.time.restore c.ee = (let r := if dayWord c.ee ≠ 0xffff then { c.time with days := dayWord c.ee } else c.time
      if (c.ee eeHHMM).toNat ≥ 24 * 8 then (r, false)
      else if (c.ee eeHHMM).toNat % 8 = 0 then ({ r with mins := (c.ee eeHHMM).toNat / 8 * 60 + 8 + 45 }, true)
      else if (c.ee eeHHMM).toNat % 8 = 1 then ({ r with mins := (c.ee eeHHMM).toNat / 8 * 60 + 8 + 30 }, true)
      else if (c.ee eeHHMM).toNat % 8 = 3 then ({ r with mins := (c.ee eeHHMM).toNat / 8 * 60 + 8 + 15 }, true)
      else if (c.ee eeHHMM).toNat % 8 = 7 then ({ r with mins := (c.ee eeHHMM).toNat / 8 * 60 + 8 }, true)
      else (r, false)) := rfl
  rw [er]
  clear er
  generalize (c.ee eeHHMM).toNat = p at *
  generalize (if dayWord c.ee ≠ 0xffff then { c.time with days := dayWord c.ee } else c.time) = rr
  dsimp only
  have no : (ClkP.ret false w x.2).2 = x.2 := rfl
  have yes : ∀ v, v < 65536 → (ClkP.bind (clkAtomic (storeMins v)) (fun _ => ClkP.ret true) w x.2).1 = true ∧
      (ClkP.bind (clkAtomic (storeMins v)) (fun _ => ClkP.ret true) w x.2).2.ee = c.ee ∧
      (ClkP.bind (clkAtomic (storeMins v)) (fun _ => ClkP.ret true) w x.2).2.ie = c.ie ∧
      ∃ k n, k ≤ n ∧ (ClkP.bind (clkAtomic (storeMins v)) (fun _ => ClkP.ret true) w x.2).2.done = c.done + n ∧
        (ClkP.bind (clkAtomic (storeMins v)) (fun _ => ClkP.ret true) w x.2).2.time =
          { RTC.ticks (n - k) (if dayWord c.ee ≠ 0xffff then { c.time.ticks k with days := dayWord c.ee } else c.time.ticks k) with mins := v } := by
    intro v hv
    obtain ⟨n, a1, a2, a3, a4⟩ := set_mins w x.2 v hv
    refine ⟨rfl, a2.trans h3, a4.trans h5, k, k + n, by omega, ?_, ?_⟩
    · exact a3.trans (by omega)
    · rw [show k + n - k = n by omega, ← h2]; exact a1
  by_cases c0 : p ≥ 24 * 8
  · simp only [if_pos c0]
    exact ⟨rfl, h3, h5, k, k, by omega, h4, by rw [Nat.sub_self]; exact h2⟩
  simp only [if_neg c0]
  by_cases c1 : p % 8 = 0
  · simp only [if_pos c1]; exact yes _ (by omega)
  simp only [if_neg c1]
  by_cases c2 : p % 8 = 1
  · simp only [if_pos c2]; exact yes _ (by omega)
  simp only [if_neg c2]
  by_cases c3 : p % 8 = 3
  · simp only [if_pos c3]; exact yes _ (by omega)
  simp only [if_neg c3]
  by_cases c4 : p % 8 = 7
  · simp only [if_pos c4]; exact yes _ (by omega)
  simp only [if_neg c4]
  exact ⟨rfl, h3, h5, k, k, by omega, h4, by rw [Nat.sub_self]; exact h2⟩

/-! ## No tick is lost -/

/-- The clock asks at most once in any 16 steps of the program. (The real clock: once every 2 s, some millions of instructions.) -/
def ClockSlow (w : Nat → Bool) : Prop := ∀ i j, i < j → w i = true → w j = true → i + 16 ≤ j

/-- Every tick asked for has been done, but perhaps for one, asked for in the last `a` steps. -/
def TickFresh (w : Nat → Bool) (a : Nat) (c : Clk) : Prop :=
  c.asked = c.done + c.pend.toNat ∧ (c.pend = true → ∃ t0, w t0 = true ∧ t0 < c.t ∧ c.t ≤ t0 + a)

theorem tickFresh_mono {w : Nat → Bool} {a b : Nat} {c : Clk} (h : TickFresh w a c) (hb : a ≤ b) : TickFresh w b c :=
  ⟨h.1, fun hp => by obtain ⟨t0, x, y, z⟩ := h.2 hp; exact ⟨t0, x, y, by omega⟩⟩

theorem before_fresh {w : Nat → Bool} (hw : ClockSlow w) {a : Nat} (ha : a < 16) {c : Clk} (h : TickFresh w a c) :
    TickFresh w (if c.ie then 0 else a + 1) (c.before w) ∧ (c.before w).ie = c.ie := by
  have no : w c.t = true → c.pend = false := by
    intro hx
    cases hp : c.pend with
    | false => rfl
    | true =>
      obtain ⟨t0, x, y, z⟩ := h.2 hp
      have := hw t0 c.t y x hx
      omega
  obtain ⟨h1, h2⟩ := h
  obtain ⟨sec, mLo, mHi, dLo, dHi, ie, pend, ee, t, asked, done⟩ := c
  dsimp only at h1 h2 no
  cases hx : w t with
  | true =>
    have hp := no hx
    subst hp
    cases ie with
    | true =>
      refine ⟨⟨?_, ?_⟩, ?_⟩
      · simp only [Clk.before, hx, Clk.isr, Bool.or_true, Bool.and_self, if_true, Bool.toNat_false]
        simp only [Bool.toNat_false] at h1; omega
      · simp [Clk.before, hx, Clk.isr]
      · simp [Clk.before, hx, Clk.isr]
    | false =>
      refine ⟨⟨?_, ?_⟩, ?_⟩
      · simp only [Clk.before, hx, Bool.or_true, Bool.false_and, if_true, Bool.false_eq_true, if_false, Bool.toNat_true]
        simp only [Bool.toNat_false] at h1; omega
      · intro _
        refine ⟨t, hx, ?_, ?_⟩
        · simp [Clk.before]
        · simp [Clk.before]
      · simp [Clk.before]
  | false =>
    cases ie with
    | true =>
      cases pend with
      | true =>
        refine ⟨⟨?_, ?_⟩, ?_⟩
        · simp only [Clk.before, hx, Clk.isr, Bool.or_false, Bool.and_self, if_true, Bool.false_eq_true, if_false, Bool.toNat_false]
          simp only [Bool.toNat_true] at h1; omega
        · simp [Clk.before, hx, Clk.isr]
        · simp [Clk.before, hx, Clk.isr]
      | false =>
        refine ⟨⟨?_, ?_⟩, ?_⟩
        · simp only [Clk.before, hx, Bool.or_false, Bool.and_false, Bool.false_eq_true, if_false, Bool.toNat_false]
          simp only [Bool.toNat_false] at h1; omega
        · simp [Clk.before, hx]
        · simp [Clk.before, hx]
    | false =>
      refine ⟨⟨?_, ?_⟩, ?_⟩
      · simp only [Clk.before, hx, Bool.or_false, Bool.false_and, Bool.false_eq_true, if_false]
        exact h1
      · intro hp
        simp only [Clk.before, hx, Bool.or_false, Bool.false_and, Bool.false_eq_true, if_false] at hp
        obtain ⟨t0, x, y, z⟩ := h2 hp
        refine ⟨t0, x, ?_, ?_⟩
        · simp only [Clk.before, Bool.false_and, Bool.false_eq_true, if_false]; omega
        · simp only [Clk.before, Bool.false_and, Bool.false_eq_true, if_false]; omega
      · simp [Clk.before]

/-- A program takes at most `n` steps with interrupts off. -/
def Takes {α : Type} (n : Nat) (p : ClkP α) : Prop :=
  ∀ w, ClockSlow w → ∀ a c, a + n ≤ 16 → c.ie = false → TickFresh w a c → TickFresh w (a + n) (p w c).2 ∧ (p w c).2.ie = false

theorem takes_step {α : Type} (f : Clk → α × Clk)
    (h : ∀ c, (f c).2.ie = c.ie ∧ (f c).2.pend = c.pend ∧ (f c).2.t = c.t ∧ (f c).2.asked = c.asked ∧ (f c).2.done = c.done) :
    Takes 1 (.step f) := by
  intro w hw a c ha hi hf
  obtain ⟨h1, h2⟩ := before_fresh hw (by omega) hf
  rw [hi] at h1 h2
  obtain ⟨e1, e2, e3, e4, e5⟩ := h (c.before w)
  simp only [Bool.false_eq_true, if_false] at h1
  refine ⟨⟨?_, ?_⟩, e1.trans h2⟩
  · show (f (c.before w)).2.asked = (f (c.before w)).2.done + (f (c.before w)).2.pend.toNat
    rw [e2, e4, e5]; exact h1.1
  · show (f (c.before w)).2.pend = true → ∃ t0, w t0 = true ∧ t0 < (f (c.before w)).2.t ∧ (f (c.before w)).2.t ≤ _
    rw [e2, e3]; exact h1.2

theorem takes_bind {α β : Type} {n m : Nat} {p : ClkP α} {q : α → ClkP β} (hp : Takes n p) (hq : ∀ a, Takes m (q a)) : Takes (n + m) (.bind p q) := by
  intro w hw a c ha hi hf
  obtain ⟨h1, h2⟩ := hp w hw a c (by omega) hi hf
  have := hq (p w c).1 w hw (a + n) (p w c).2 (by omega) h2 h1
  rw [Nat.add_assoc] at this
  exact this

theorem takes_ret {α : Type} (n : Nat) (x : α) : Takes n (.ret x) := fun _ _ _ _ _ hi hf => ⟨tickFresh_mono hf (by omega), hi⟩

theorem takes_mono {α : Type} {n m : Nat} {p : ClkP α} (h : Takes n p) (hm : n ≤ m) : Takes m p := fun w hw a c ha hi hf => by
  obtain ⟨x, y⟩ := h w hw a c (by omega) hi hf
  exact ⟨tickFresh_mono x (by omega), y⟩

theorem takes_storeMins (v : Nat) : Takes 2 (storeMins v) :=
  takes_bind (n := 1) (m := 1) (takes_step _ fun _ => ⟨rfl, rfl, rfl, rfl, rfl⟩) fun _ => takes_step _ fun _ => ⟨rfl, rfl, rfl, rfl, rfl⟩

theorem takes_storeDays (v : Nat) : Takes 2 (storeDays v) :=
  takes_bind (n := 1) (m := 1) (takes_step _ fun _ => ⟨rfl, rfl, rfl, rfl, rfl⟩) fun _ => takes_step _ fun _ => ⟨rfl, rfl, rfl, rfl, rfl⟩

theorem takes_loadMins : Takes 2 loadMins :=
  takes_bind (n := 1) (m := 1) (takes_step _ fun _ => ⟨rfl, rfl, rfl, rfl, rfl⟩) fun _ =>
    takes_bind (n := 1) (m := 0) (takes_step _ fun _ => ⟨rfl, rfl, rfl, rfl, rfl⟩) fun _ => takes_ret 0 _

theorem takes_loadDays : Takes 2 loadDays :=
  takes_bind (n := 1) (m := 1) (takes_step _ fun _ => ⟨rfl, rfl, rfl, rfl, rfl⟩) fun _ =>
    takes_bind (n := 1) (m := 0) (takes_step _ fun _ => ⟨rfl, rfl, rfl, rfl, rfl⟩) fun _ => takes_ret 0 _

/-- Between calls: interrupts are on and nothing has been missed. -/
def CaughtUp (w : Nat → Bool) (c : Clk) : Prop := c.ie = true ∧ TickFresh w 15 c

theorem atomic_caught {α : Type} {n : Nat} (hn : n ≤ 14) {p : ClkP α} (hp : Takes n p) {w : Nat → Bool} (hw : ClockSlow w) {c : Clk}
    (h : CaughtUp w c) : CaughtUp w (clkAtomic p w c).2 := by
  obtain ⟨hi, hf⟩ := h
  obtain ⟨a1, a2⟩ := before_fresh hw (by omega) hf
  rw [hi] at a1 a2
  obtain ⟨b1, b2⟩ := before_fresh (c := c.before w) hw (by rw [if_pos rfl]; omega) a1
  rw [a2] at b1 b2
  obtain ⟨d1, d2⟩ := hp w hw 0 { (c.before w).before w with ie := false } (by omega) rfl b1
  obtain ⟨e1, e2⟩ := before_fresh hw (by omega) d1
  rw [d2] at e1
  refine ⟨a2, tickFresh_mono (a := 0 + n + 1) e1 (by omega)⟩

theorem op_caught {w : Nat → Bool} (hw : ClockSlow w) (o : ClkOp) {c : Clk} (h : CaughtUp w c) : CaughtUp w (o.run w c) := by
  cases o with
  | seconds =>
    obtain ⟨a1, a2⟩ := before_fresh hw (by omega) h.2
    rw [h.1] at a1 a2
    exact ⟨a2, tickFresh_mono a1 (by rw [if_pos rfl]; omega)⟩
  | minutes => exact atomic_caught (n := 2) (by omega) takes_loadMins hw h
  | days => exact atomic_caught (n := 2) (by omega) takes_loadDays hw h
  | setHM hh mm =>
    show CaughtUp w (setHMP hh mm w c).2
    by_cases hv : hh > 23 ∨ mm > 59
    · rw [setHMP, if_pos hv]; exact h
    · rw [setHMP, if_neg hv]
      refine atomic_caught (n := 2 + 3) (by omega) (takes_bind takes_loadMins fun old => ?_) hw h
      by_cases e : 60 * hh + mm ≠ old
      · rw [if_pos e]
        exact takes_bind (n := 2) (m := 1) (takes_storeMins _) fun _ => takes_step _ fun _ => ⟨rfl, rfl, rfl, rfl, rfl⟩
      · rw [if_neg e]; exact takes_ret _ _
  | restore =>
    show CaughtUp w (restoreP w c).2
    have first : CaughtUp w (clkAtomic (.bind (.step fun c => (dayWord c.ee, c)) fun days => .bind (if days ≠ 0xffff then storeDays days else .ret ()) fun _ =>
        .step fun c => ((c.ee eeHHMM).toNat, c)) w c).2 := by
      refine atomic_caught (n := 1 + (2 + 1)) (by omega) (takes_bind (takes_step _ fun _ => ⟨rfl, rfl, rfl, rfl, rfl⟩) fun d => takes_bind (n := 2) (m := 1) ?_ fun _ =>
        takes_step _ fun _ => ⟨rfl, rfl, rfl, rfl, rfl⟩) hw h
      by_cases e : d ≠ 0xffff
      · rw [if_pos e]; exact takes_storeDays d
      · rw [if_neg e]; exact takes_ret _ _
    have sec : ∀ v x, CaughtUp w x → CaughtUp w (ClkP.bind (clkAtomic (storeMins v)) (fun _ => ClkP.ret true) w x).2 := fun v x hx =>
      atomic_caught (n := 2) (by omega) (takes_storeMins v) hw hx
    have e : restoreP w c = (fun (x : Nat × Clk) => (if x.1 ≥ 24 * 8 then .ret false
      else if x.1 % 8 = 0 then ClkP.bind (clkAtomic (storeMins (x.1 / 8 * 60 + 8 + 45))) fun _ => .ret true
      else if x.1 % 8 = 1 then ClkP.bind (clkAtomic (storeMins (x.1 / 8 * 60 + 8 + 30))) fun _ => .ret true
      else if x.1 % 8 = 3 then ClkP.bind (clkAtomic (storeMins (x.1 / 8 * 60 + 8 + 15))) fun _ => .ret true
      else if x.1 % 8 = 7 then ClkP.bind (clkAtomic (storeMins (x.1 / 8 * 60 + 8))) fun _ => .ret true
      else .ret false : ClkP Bool) w x.2) (clkAtomic (.bind (.step fun c => (dayWord c.ee, c)) fun days => .bind (if days ≠ 0xffff then storeDays days else .ret ()) fun _ =>
        .step fun c => ((c.ee eeHHMM).toNat, c)) w c) := rfl
    rw [e]
    clear e
    generalize (clkAtomic (.bind (.step fun c => (dayWord c.ee, c)) fun days => .bind (if days ≠ 0xffff then storeDays days else .ret ()) fun _ =>
        .step fun c => ((c.ee eeHHMM).toNat, c)) w c) = x at first ⊢
    obtain ⟨p, y⟩ := x
    dsimp only at first ⊢
    by_cases c0 : p ≥ 24 * 8
    · simp only [if_pos c0]; exact first
    simp only [if_neg c0]
    by_cases c1 : p % 8 = 0
    · simp only [if_pos c1]; exact sec _ _ first
    simp only [if_neg c1]
    by_cases c2 : p % 8 = 1
    · simp only [if_pos c2]; exact sec _ _ first
    simp only [if_neg c2]
    by_cases c3 : p % 8 = 3
    · simp only [if_pos c3]; exact sec _ _ first
    simp only [if_neg c3]
    by_cases c4 : p % 8 = 7
    · simp only [if_pos c4]; exact sec _ _ first
    simp only [if_neg c4]
    exact first

/-- **C229** Over any sequence of calls, with the clock interrupt asked for at any times that are at least 16 steps of the program apart, every
interrupt asked for is taken, but perhaps for the last, which is then taken before the next step. -/
theorem C229_no_tick_lost (w : Nat → Bool) (hw : ClockSlow w) (ops : List ClkOp) (c : Clk) (hi : c.ie = true) (hp : c.pend = false)
    (h0 : c.asked = c.done) :
    let c' := ops.foldl (fun c o => o.run w c) c
    c'.asked = c'.done + c'.pend.toNat ∧ (c'.before w).asked = (c'.before w).done := by
  have h : CaughtUp w c := ⟨hi, ⟨by rw [hp, h0]; rfl, fun h => by rw [hp] at h; cases h⟩⟩
  clear hi hp h0
  dsimp only
  induction ops generalizing c with
  | nil =>
    refine ⟨h.2.1, ?_⟩
    obtain ⟨a1, a2⟩ := before_fresh hw (by omega) h.2
    rw [h.1, if_pos rfl] at a1
    cases hp : (c.before w).pend with
    | true => obtain ⟨t0, _, x, y⟩ := a1.2 hp; omega
    | false => have := a1.1; rw [hp] at this; exact this
  | cons o os ih => exact ih _ (op_caught hw o h)

/-- At 04:15:58, and a tick asked for between the two bytes of the minutes. -/
def exClk : Clk := ⟨58, 255, 0, 7, 1, true, false, fun _ => 255, 0, 0, 0⟩

/-- Read as one, and the tick taken after; `exClk` and the tick at step 3 show what C229_read_whole rules out (256 + 255). -/
example : (getMinsP (fun t => t == 3) exClk).1 = 255 ∧ (ClkOp.run .seconds (fun t => t == 3) (ClkOp.run .minutes (fun t => t == 3) exClk)).time.mins = 256 ∧
    (loadMins (fun t => t == 1) exClk).1 = 511 := by decide +kernel

example : ClockSlow fun t => t == 3 := by
  intro i j h a b
  simp only [beq_iff_eq] at a b
  omega

/-- **C229** Two calls are not one moment: with `getHoursLT()` and `getMinutesLT()` (cpp 200-210) or `getDaysSince1999LT()` and a time of day, a tick
may come between, and the two do not fit. -/
theorem C229_two_calls : ∃ (w : Nat → Bool) (c : Clk), ClockSlow w ∧
    let a := getMinsP w c
    let b := getMinsP w a.2
    60 * (a.1 / 60) + b.1 % 60 + 59 ≤ c.time.mins ∧ 60 * (a.1 / 60) + b.1 % 60 + 60 = b.1 := by
  refine ⟨fun t => t == 6, ⟨58, 223, 1, 7, 1, true, false, fun _ => 255, 0, 0, 0⟩, ?_, ?_⟩
  · intro i j h a b
    simp only [beq_iff_eq] at a b
    omega
  · decide +kernel

end OTR.Props
