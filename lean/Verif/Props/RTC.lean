import Verif.Model.RTC
import Verif.Proof.EEPROM

/-!
# C68, C69, C94: the clock and its persistence
-/

namespace OTR.Props

/-- A legal clock reading (seconds even, as the tick is two seconds). -/
def RTCLegal (r : RTC) : Prop := r.sec < 60 ∧ r.sec % 2 = 0 ∧ r.mins < 1440 ∧ r.days < 65536

/-- Seconds since the start of day 0. -/
def rtcTotal (r : RTC) : Nat := r.sec + 60 * r.mins + 86400 * r.days

theorem tick_legal (r : RTC) (h : RTCLegal r) :
    RTCLegal r.tick ∧ rtcTotal r.tick = (rtcTotal r + 2) % (86400 * 65536) := by
  obtain ⟨h1, h2, h3, h4⟩ := h
  unfold RTC.tick RTCLegal rtcTotal
  by_cases hs : r.sec + 2 > 59
  · rw [if_pos hs]
    by_cases hm : r.mins + 1 > 1439
    · rw [if_pos hm]; dsimp only; refine ⟨by omega, ?_⟩; omega
    · rw [if_neg hm]; dsimp only; refine ⟨by omega, ?_⟩; omega
  · rw [if_neg hs]; dsimp only; refine ⟨by omega, ?_⟩; omega

/-- **C68.** From a legal time, any number of ticks keeps every field in range and advances the time by exactly two
seconds each, the day changing exactly at midnight (the day counter wraps after 65536 days). -/
theorem C68_counts (r : RTC) (h : RTCLegal r) (n : Nat) :
    RTCLegal (RTC.ticks n r) ∧ rtcTotal (RTC.ticks n r) = (rtcTotal r + 2 * n) % (86400 * 65536) := by
  induction n with
  | zero =>
    refine ⟨h, ?_⟩
    obtain ⟨h1, h2, h3, h4⟩ := h
    show rtcTotal r = _
    unfold rtcTotal
    omega
  | succ n ih =>
    obtain ⟨i1, i2⟩ := ih
    obtain ⟨t1, t2⟩ := tick_legal _ i1
    refine ⟨t1, ?_⟩
    show rtcTotal (RTC.ticks n r).tick = _
    rw [t2, i2]
    omega

/-- The fields are determined by the total, so C68 fixes the whole reading. -/
theorem C68_reading (r s : RTC) (hr : RTCLegal r) (hs : RTCLegal s) (h : rtcTotal r = rtcTotal s) : r = s := by
  obtain ⟨a, b, c⟩ := r
  obtain ⟨d, e, f⟩ := s
  unfold RTCLegal at hr hs
  unfold rtcTotal at h
  dsimp only at *
  have h3 : c = f := by omega
  have h2 : b = e := by omega
  have h1 : a = d := by omega
  rw [h1, h2, h3]

/-- **C68.** Every reading the user can obtain is legal: hour, minute, and the neighbouring hours. -/
theorem C68_getters (r : RTC) (h : RTCLegal r) :
    r.getHours < 24 ∧ r.getMinutes < 60 ∧ 60 * r.getHours + r.getMinutes = r.mins ∧
    r.getPrevHour = (r.getHours + 23) % 24 ∧ r.getNextHour = (r.getHours + 1) % 24 := by
  obtain ⟨h1, h2, h3, h4⟩ := h
  have hh : r.getHours < 24 := by unfold RTC.getHours; omega
  refine ⟨hh, by unfold RTC.getMinutes; omega, by unfold RTC.getHours RTC.getMinutes; omega, ?_, ?_⟩
  · unfold RTC.getPrevHour; split <;> omega
  · unfold RTC.getNextHour; split <;> omega

/-- **C68.** Setting the time: legal values take effect exactly (seconds rounded down to even), others change nothing. -/
theorem C68_set (r : RTC) (h : RTCLegal r) (ee : EE) (hh mm s : Nat) :
    RTCLegal (r.setHM hh mm ee).1 ∧ RTCLegal (r.setSeconds s).1 ∧
    ((r.setHM hh mm ee).2.1 = true ↔ hh < 24 ∧ mm < 60) ∧
    (hh < 24 ∧ mm < 60 → (r.setHM hh mm ee).1 = { r with mins := 60 * hh + mm }) ∧
    (¬ (hh < 24 ∧ mm < 60) → (r.setHM hh mm ee).1 = r ∧ (r.setHM hh mm ee).2.2 = ee) ∧
    (s < 60 → (r.setSeconds s).1.sec ≤ s ∧ s ≤ (r.setSeconds s).1.sec + 1) := by
  obtain ⟨h1, h2, h3, h4⟩ := h
  unfold RTC.setHM RTC.setSeconds RTCLegal
  by_cases hb : hh > 23 ∨ mm > 59
  · rw [if_pos hb]
    refine ⟨⟨h1, h2, h3, h4⟩, ?_, by simp; omega, by omega, fun _ => ⟨rfl, rfl⟩, ?_⟩
    · split <;> dsimp only <;> omega
    · intro hs; rw [if_neg (by omega)]; dsimp only; omega
  · rw [if_neg hb]
    refine ⟨?_, ?_, ?_, ?_, by omega, ?_⟩
    · dsimp only; split <;> dsimp only <;> omega
    · split <;> dsimp only <;> omega
    · dsimp only; split <;> simp <;> omega
    · intro _
      dsimp only
      split
      · rfl
      · rename_i hc
        have hc : 60 * hh + mm = r.mins := Classical.not_not.1 hc
        rw [hc]
    · intro hs; rw [if_neg (by omega)]; dsimp only; omega

/-- **C68.** Setting the seconds: accepted exactly when legal, touching nothing else; a refused value changes nothing. -/
theorem C68_set_seconds (r : RTC) (s : Nat) :
    ((r.setSeconds s).2 = true ↔ s < 60) ∧ (¬ s < 60 → (r.setSeconds s).1 = r) ∧
    (r.setSeconds s).1.mins = r.mins ∧ (r.setSeconds s).1.days = r.days := by
  unfold RTC.setSeconds
  by_cases hs : s > 59
  · rw [if_pos hs]; exact ⟨by simp; omega, fun _ => rfl, rfl, rfl⟩
  · rw [if_neg hs]; exact ⟨by simp; omega, by omega, rfl, rfl⟩

example : ((⟨58, 1439, 100⟩ : RTC).setSeconds 61) = (⟨58, 1439, 100⟩, false) ∧
    ((⟨58, 1439, 100⟩ : RTC).setSeconds 31) = (⟨30, 1439, 100⟩, true) := by decide

/-- **C68.** Elapsed seconds within a minute: exact modulo a minute. -/
theorem C68_elapsed (start now : Nat) (h1 : start < 60) (h2 : now < 60) :
    elapsedSeconds start now < 60 ∧ (start + elapsedSeconds start now) % 60 = now := by
  unfold elapsedSeconds; split <;> omega

/-- A concrete case: 23:59:58 on day 100 becomes 00:00:00 on day 101. -/
example : RTCLegal ⟨58, 1439, 100⟩ ∧ RTC.ticks 1 ⟨58, 1439, 100⟩ = ⟨0, 0, 101⟩ ∧
    RTC.ticks 31 ⟨58, 1439, 100⟩ = ⟨0, 1, 101⟩ := by
  refine ⟨by unfold RTCLegal; simp, by decide +kernel, by decide +kernel⟩

/-! ### C69 -/

theorem rtcByte_spec : ∀ q, q < 96 → (rtcByte (15 * q)).toNat < 192 ∧
    (∀ (d : Nat), ((rtcByte (15 * q)).toNat % 8 = 0 ∨ (rtcByte (15 * q)).toNat % 8 = 1 ∨ (rtcByte (15 * q)).toNat % 8 = 3 ∨
      (rtcByte (15 * q)).toNat % 8 = 7)) ∧
    (rtcByte (15 * q)).toNat / 8 * 60 + 8 + (if (rtcByte (15 * q)).toNat % 8 = 0 then 45 else if (rtcByte (15 * q)).toNat % 8 = 1 then 30
      else if (rtcByte (15 * q)).toNat % 8 = 3 then 15 else 0) = 15 * q + 8 := by
  have : ∀ q, q < 96 → (rtcByte (15 * q)).toNat < 192 ∧
    (((rtcByte (15 * q)).toNat % 8 = 0 ∨ (rtcByte (15 * q)).toNat % 8 = 1 ∨ (rtcByte (15 * q)).toNat % 8 = 3 ∨
      (rtcByte (15 * q)).toNat % 8 = 7)) ∧
    (rtcByte (15 * q)).toNat / 8 * 60 + 8 + (if (rtcByte (15 * q)).toNat % 8 = 0 then 45 else if (rtcByte (15 * q)).toNat % 8 = 1 then 30
      else if (rtcByte (15 * q)).toNat % 8 = 3 then 15 else 0) = 15 * q + 8 := by decide +kernel
  intro q hq
  exact ⟨(this q hq).1, fun _ => (this q hq).2.1, (this q hq).2.2⟩

theorem rtcByte_quarter (m : Nat) : rtcByte m = rtcByte (15 * (m / 15)) := by
  unfold rtcByte
  have : 15 * (m / 15) / 15 = m / 15 := by omega
  rw [this]

/-- Restoring from a byte persisted at minute `m`. -/
theorem restore_byte (r : RTC) (ee : EE) (m : Nat) (hm : m < 1440) (hb : ee 10 = rtcByte m) :
    (r.restore ee).2 = true ∧ (r.restore ee).1.mins = m / 15 * 15 + 8 ∧
    (r.restore ee).1.days = (if dayWord ee = 0xffff then r.days else dayWord ee) ∧ (r.restore ee).1.sec = r.sec := by
  obtain ⟨h1, h2, h3⟩ := rtcByte_spec (m / 15) (by omega)
  have h2 := h2 0
  rw [rtcByte_quarter] at hb
  rw [← hb] at h1 h2 h3
  have hd : (if dayWord ee ≠ 0xffff then { r with days := dayWord ee } else r).days =
      (if dayWord ee = 0xffff then r.days else dayWord ee) ∧
      (if dayWord ee ≠ 0xffff then { r with days := dayWord ee } else r).sec = r.sec := by
    by_cases h : dayWord ee = 0xffff
    · rw [if_neg (not_not_intro h), if_pos h]; exact ⟨rfl, rfl⟩
    · rw [if_pos h, if_neg h]; exact ⟨rfl, rfl⟩
  unfold RTC.restore
  dsimp only
  generalize (if dayWord ee ≠ 0xffff then { r with days := dayWord ee } else r) = R at *
  rw [if_neg (show ¬ (ee 10).toNat ≥ 24 * 8 by omega)]
  rcases h2 with e | e | e | e <;> simp only [e] at h3 ⊢ <;> simp at h3 ⊢ <;> exact ⟨by omega, hd⟩

theorem dayWord_upd10 (m : EE) (v : Byte) : dayWord (m.upd 10 v) = dayWord m := by
  simp [dayWord, EE.upd]

/-- The writes `persistRTC()` performs, in order. -/
theorem persist_writes (r : RTC) (m : EE) : (r.persist m).2 =
    if m 10 = rtcByte r.mins then [] else
      (10, rtcByte r.mins) :: (if dayWord m = r.days then [] else
        [(8, UInt8.ofNat (r.days % 256)), (9, UInt8.ofNat (r.days / 256))]) := by
  unfold RTC.persist
  dsimp only [eeRead, emIf]
  by_cases h : m 10 = rtcByte r.mins
  · rw [if_neg (not_not_intro h), if_pos h]; rfl
  · rw [if_pos h, if_neg h]
    by_cases h2 : rtcByte r.mins ≠ m 10 &&& rtcByte r.mins
    · simp only [emBind, emIf, if_pos h2, eeWrite]
      have e : applyW m [(10, rtcByte r.mins)] = m.upd 10 (rtcByte r.mins) := rfl
      rw [e, dayWord_upd10]
      by_cases h3 : dayWord m = r.days
      · rw [if_neg (not_not_intro h3), if_pos h3]; rfl
      · rw [if_pos h3, if_neg h3]; rfl
    · have h2' : rtcByte r.mins = m 10 &&& rtcByte r.mins := Classical.not_not.1 h2
      simp only [emBind, emIf, if_neg h2]
      have hc := smartClearBits_eq 10 (rtcByte r.mins) m
      rw [← h2'] at hc
      have hw : (smartClearBits 10 (rtcByte r.mins) m).2 = [(10, rtcByte r.mins)] := by
        rw [hc]; simp [wr1, h]
      simp only [hw, emRet, List.append_nil]
      have e : applyW m [(10, rtcByte r.mins)] = m.upd 10 (rtcByte r.mins) := rfl
      rw [e, dayWord_upd10]
      by_cases h3 : dayWord m = r.days
      · rw [if_neg (not_not_intro h3), if_pos h3]; rfl
      · rw [if_pos h3, if_neg h3]; rfl

/-- The EEPROM records the day and quarter hour of `r`. -/
def Persisted (m : EE) (r : RTC) : Prop := m 10 = rtcByte r.mins ∧ dayWord m = r.days

theorem persist_post (r : RTC) (m : EE) (hd : r.days < 65536) :
    r.persist.post m 10 = rtcByte r.mins ∧
    (m 10 ≠ rtcByte r.mins → dayWord (r.persist.post m) = r.days) ∧
    (m 10 = rtcByte r.mins → r.persist.post m = m) ∧
    (∀ a, a ≠ 8 → a ≠ 9 → a ≠ 10 → r.persist.post m a = m a) := by
  unfold EM.post
  rw [persist_writes]
  by_cases h : m 10 = rtcByte r.mins
  · rw [if_pos h]; exact ⟨h, fun h' => absurd h h', fun _ => rfl, fun _ _ _ _ => rfl⟩
  · rw [if_neg h]
    by_cases h2 : dayWord m = r.days
    · rw [if_pos h2]
      refine ⟨by simp [applyW, EE.upd], fun _ => ?_, fun h' => absurd h' h, ?_⟩
      · show dayWord (m.upd 10 _) = _
        rw [dayWord_upd10, h2]
      · intro a _ _ h3; simp [applyW, EE.upd, h3]
    · rw [if_neg h2]
      refine ⟨by simp [applyW, EE.upd], fun _ => ?_, fun h' => absurd h' h, ?_⟩
      · simp [dayWord, applyW, EE.upd]
        omega
      · intro a h1 h2 h3; simp [applyW, EE.upd, h1, h2, h3]

theorem rtcByte_inj (a b : Nat) (ha : a < 1440) (hb : b < 1440) (h : rtcByte a = rtcByte b) : a / 15 = b / 15 := by
  rw [rtcByte_quarter a, rtcByte_quarter b] at h
  obtain ⟨-, -, h1⟩ := rtcByte_spec (a / 15) (by omega)
  obtain ⟨-, -, h2⟩ := rtcByte_spec (b / 15) (by omega)
  rw [h] at h1
  rw [h1] at h2
  omega

/-- A run of the unit: before each call of `persistRTC()` some number of ticks pass. -/
def rtcRun : List Nat → RTC × EE → RTC × EE
  | [], s => s
  | n :: ns, (r, m) => rtcRun ns (RTC.ticks n r, (RTC.ticks n r).persist.post m)

theorem persisted_step (r : RTC) (h : RTCLegal r) (m : EE) (hp : Persisted m r) (n : Nat) (hn : n ≤ 42750) :
    Persisted ((RTC.ticks n r).persist.post m) (RTC.ticks n r) := by
  obtain ⟨hl, ht⟩ := C68_counts r h n
  obtain ⟨p1, p2, p3, -⟩ := persist_post (RTC.ticks n r) m hl.2.2.2
  refine ⟨p1, ?_⟩
  by_cases hb : m 10 = rtcByte (RTC.ticks n r).mins
  · rw [p3 hb, hp.2]
    have hq := rtcByte_inj _ _ h.2.2.1 hl.2.2.1 (hp.1.symm.trans hb)
    obtain ⟨a1, a2, a3, a4⟩ := h
    obtain ⟨b1, b2, b3, b4⟩ := hl
    unfold rtcTotal at ht
    omega
  · exact p2 hb

/-- **C69.** However long it runs, if `persistRTC()` is called at intervals of less than 23h45m (in practice every
minute), then a restart after any of the calls restores the right day and a legal time of day within 8 minutes of the
time at that call.  (`r2` is whatever the clock held at restart; days read as unset when the day number is 65535.) -/
theorem C69_restored_partial (r : RTC) (h : RTCLegal r) (m : EE) (hp : Persisted m r) (ns : List Nat) (hn : ∀ n ∈ ns, n ≤ 42750)
    (r2 : RTC) (hd : (rtcRun ns (r, m)).1.days ≠ 65535) :
    (r2.restore (rtcRun ns (r, m)).2).2 = true ∧
    (r2.restore (rtcRun ns (r, m)).2).1.days = (rtcRun ns (r, m)).1.days ∧
    (r2.restore (rtcRun ns (r, m)).2).1.mins < 1440 ∧
    (r2.restore (rtcRun ns (r, m)).2).1.mins ≤ (rtcRun ns (r, m)).1.mins + 8 ∧
    (rtcRun ns (r, m)).1.mins ≤ (r2.restore (rtcRun ns (r, m)).2).1.mins + 6 := by
  have key : ∀ (ns : List Nat) (r : RTC) (m : EE), RTCLegal r → Persisted m r → (∀ n ∈ ns, n ≤ 42750) →
      RTCLegal (rtcRun ns (r, m)).1 ∧ Persisted (rtcRun ns (r, m)).2 (rtcRun ns (r, m)).1 := by
    intro ns
    induction ns with
    | nil => intro r m h hp _; exact ⟨h, hp⟩
    | cons n ns ih =>
      intro r m h hp hn
      exact ih _ _ (C68_counts r h n).1 (persisted_step r h m hp n (hn n (by simp))) (fun k hk => hn k (by simp [hk]))
  obtain ⟨hl, p1, p2⟩ := key ns r m h hp hn
  obtain ⟨a1, a2, a3, -⟩ := restore_byte r2 _ _ hl.2.2.1 p1
  refine ⟨a1, ?_, ?_, ?_, ?_⟩
  · rw [a3, p2, if_neg hd]
  all_goals have := hl.2.2.1; omega

/-- **C69.** The record is established by the first call at which the stored quarter hour differs. -/
theorem C69_established (r : RTC) (h : RTCLegal r) (m : EE) (hne : m 10 ≠ rtcByte r.mins) : Persisted (r.persist.post m) r := by
  obtain ⟨p1, p2, -, -⟩ := persist_post r m h.2.2.2
  exact ⟨p1, p2 hne⟩

/-- **C69.** Whatever is in EEPROM, restoring never yields an illegal time of day, and reports failure unless the stored
byte is one of the 96 legal ones. -/
theorem C69_restore_legal (r : RTC) (h : RTCLegal r) (m : EE) :
    RTCLegal (r.restore m).1 ∧ ((r.restore m).2 = true ↔ ∃ q, q < 96 ∧ m 10 = rtcByte (15 * q)) := by
  have hw : dayWord m < 65536 := by
    have := byte_lt (m 8); have := byte_lt (m 9)
    unfold dayWord
    show (m 8).toNat + 256 * (m 9).toNat < 65536
    omega
  have hR : RTCLegal (if dayWord m ≠ 0xffff then { r with days := dayWord m } else r) := by
    obtain ⟨h1, h2, h3, h4⟩ := h
    split
    · exact ⟨h1, h2, h3, hw⟩
    · exact ⟨h1, h2, h3, h4⟩
  have hbyte : ∀ b : Byte, (b.toNat < 192 ∧ (b.toNat % 8 = 0 ∨ b.toNat % 8 = 1 ∨ b.toNat % 8 = 3 ∨ b.toNat % 8 = 7)) →
      b = rtcByte (15 * (b.toNat / 8 * 4 + (if b.toNat % 8 = 7 then 0 else if b.toNat % 8 = 3 then 1 else if b.toNat % 8 = 1 then 2 else 3))) := by
    apply forall_byte; decide +kernel
  have hq : (∃ q, q < 96 ∧ m 10 = rtcByte (15 * q)) ↔
      ((m 10).toNat < 192 ∧ ((m 10).toNat % 8 = 0 ∨ (m 10).toNat % 8 = 1 ∨ (m 10).toNat % 8 = 3 ∨ (m 10).toNat % 8 = 7)) := by
    constructor
    · rintro ⟨q, hq, e⟩
      obtain ⟨s1, s2, -⟩ := rtcByte_spec q hq
      rw [e]; exact ⟨s1, s2 0⟩
    · intro hh
      exact ⟨_, by split <;> (try split) <;> (try split) <;> omega, hbyte _ hh⟩
  rw [hq]
  unfold RTC.restore
  dsimp only
  generalize (if dayWord m ≠ 0xffff then { r with days := dayWord m } else r) = R at *
  obtain ⟨h1, h2, h3, h4⟩ := hR
  by_cases hp : (m 10).toNat ≥ 24 * 8
  · rw [if_pos hp]
    exact ⟨⟨h1, h2, h3, h4⟩, by simp; omega⟩
  · rw [if_neg hp]
    by_cases e0 : (m 10).toNat % 8 = 0
    · rw [if_pos e0]; exact ⟨⟨h1, h2, by dsimp only; omega, h4⟩, by simp [e0]; omega⟩
    · rw [if_neg e0]
      by_cases e1 : (m 10).toNat % 8 = 1
      · rw [if_pos e1]; exact ⟨⟨h1, h2, by dsimp only; omega, h4⟩, by simp [e1]; omega⟩
      · rw [if_neg e1]
        by_cases e3 : (m 10).toNat % 8 = 3
        · rw [if_pos e3]; exact ⟨⟨h1, h2, by dsimp only; omega, h4⟩, by simp [e3]; omega⟩
        · rw [if_neg e3]
          by_cases e7 : (m 10).toNat % 8 = 7
          · rw [if_pos e7]; exact ⟨⟨h1, h2, by dsimp only; omega, h4⟩, by simp [e7]; omega⟩
          · rw [if_neg e7]; exact ⟨⟨h1, h2, h3, h4⟩, by simp [e0, e1, e3, e7]⟩

/-- **C69, power failure during the call.** Whatever part of the writes took effect, the time of day restored is the one
recorded before or the one being recorded. -/
theorem C69_crash_time (r0 r : RTC) (h0 : RTCLegal r0) (h : RTCLegal r) (m : EE) (hp : Persisted m r0) (k : Nat) (r2 : RTC) :
    (r2.restore (applyW m ((r.persist m).2.take k))).2 = true ∧
    ((r2.restore (applyW m ((r.persist m).2.take k))).1.mins = r0.mins / 15 * 15 + 8 ∨
     (r2.restore (applyW m ((r.persist m).2.take k))).1.mins = r.mins / 15 * 15 + 8) := by
  have hcell : applyW m ((r.persist m).2.take k) 10 = rtcByte r0.mins ∨ applyW m ((r.persist m).2.take k) 10 = rtcByte r.mins := by
    rw [persist_writes]
    by_cases hb : m 10 = rtcByte r.mins
    · rw [if_pos hb]; left; simpa [applyW] using hp.1
    · rw [if_neg hb]
      cases k with
      | zero => left; simpa [applyW] using hp.1
      | succ k =>
        right
        rw [List.take_succ_cons]
        show applyW (m.upd 10 _) _ 10 = _
        rw [applyW_other]
        · simp [EE.upd]
        · intro w hw
          have hw := List.mem_of_mem_take hw
          split at hw
          · simp at hw
          · simp at hw; rcases hw with rfl | rfl <;> simp
  rcases hcell with e | e
  · obtain ⟨a, b, -⟩ := restore_byte r2 _ _ h0.2.2.1 e
    exact ⟨a, Or.inl b⟩
  · obtain ⟨a, b, -⟩ := restore_byte r2 _ _ h.2.2.1 e
    exact ⟨a, Or.inr b⟩

/-- A record as left by `persistRTC()` on day 255 at 23:45. -/
def ee2345 : EE := (RTC.mk 0 1425 255).persist.post (fun _ => 0xff)

/-- **C69 (refuted for power failure at midnight).** The day is written after the time, one byte at a time.  Power failing
just after the time of day was recorded at midnight restores a time a whole day slow; failing between the two bytes
of the day, when the low byte wraps, restores a time 256 days slow. -/
theorem C69_refuted_crash_day :
    Persisted ee2345 ⟨0, 1425, 255⟩ ∧
    (RTC.mk 0 0 0).restore (applyW ee2345 (((RTC.mk 0 0 256).persist ee2345).2.take 1)) = (⟨0, 8, 255⟩, true) ∧
    (RTC.mk 0 0 0).restore (applyW ee2345 (((RTC.mk 0 0 256).persist ee2345).2.take 2)) = (⟨0, 8, 0⟩, true) ∧
    (RTC.mk 0 0 0).restore ((RTC.mk 0 0 256).persist.post ee2345) = (⟨0, 8, 256⟩, true) := by
  refine ⟨⟨?_, ?_⟩, ?_, ?_, ?_⟩ <;> decide +kernel

/-- The hypotheses of C69 are met by a real run: an hour and a half of calls each minute (30 ticks) over midnight. -/
example : Persisted ee2345 ⟨0, 1425, 255⟩ ∧ (∀ n ∈ List.replicate 90 30, n ≤ 42750) ∧
    (rtcRun (List.replicate 16 30) (⟨0, 1425, 255⟩, ee2345)).1 = ⟨0, 1, 256⟩ := by
  refine ⟨⟨by decide +kernel, by decide +kernel⟩, by simp, by decide +kernel⟩

/-! ### C94: wear -/

/-- Number of writes to the time-of-day cell over a run. -/
def hhmmWrites : List Nat → RTC × EE → Nat
  | [], _ => 0
  | n :: ns, (r, m) =>
    (((RTC.ticks n r).persist m).2.filter (fun w => w.1 = 10)).length +
      hhmmWrites ns (RTC.ticks n r, (RTC.ticks n r).persist.post m)

/-- **C94.** Wear: however often `persistRTC()` is called, the time cell is written at most once for each quarter-hour
boundary passed (after the record is established), i.e. at most 4 times an hour. -/
theorem C94_wear (ns : List Nat) (r : RTC) (h : RTCLegal r) (m : EE) (hp : m 10 = rtcByte r.mins) :
    900 * hhmmWrites ns (r, m) ≤ r.sec + 60 * (r.mins % 15) + 2 * ns.sum := by
  induction ns generalizing r m with
  | nil => simp [hhmmWrites]
  | cons n ns ih =>
    obtain ⟨hl, ht⟩ := C68_counts r h n
    obtain ⟨p1, -, -, -⟩ := persist_post (RTC.ticks n r) m hl.2.2.2
    have hi := ih (RTC.ticks n r) hl ((RTC.ticks n r).persist.post m) p1
    simp only [hhmmWrites, List.sum_cons]
    have hw : (((RTC.ticks n r).persist m).2.filter (fun w => w.1 = 10)).length =
        if (RTC.ticks n r).mins / 15 = r.mins / 15 then 0 else 1 := by
      rw [persist_writes]
      by_cases hb : m 10 = rtcByte (RTC.ticks n r).mins
      · rw [if_pos hb, if_pos (rtcByte_inj _ _ h.2.2.1 hl.2.2.1 (hp.symm.trans hb)).symm]; rfl
      · have hne : ¬ (RTC.ticks n r).mins / 15 = r.mins / 15 := by
          intro e
          apply hb
          rw [hp, rtcByte_quarter r.mins, ← e, ← rtcByte_quarter]
        rw [if_neg hb, if_neg hne]
        split <;> simp
    rw [hw]
    obtain ⟨a1, a2, a3, a4⟩ := h
    obtain ⟨b1, b2, b3, b4⟩ := hl
    unfold rtcTotal at ht
    split
    · rename_i e
      omega
    · rename_i e
      omega

example : hhmmWrites (List.replicate 90 30) (⟨0, 1425, 255⟩, ee2345) = 6 := by decide +kernel

end OTR.Props
