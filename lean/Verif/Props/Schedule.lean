import Verif.Model.Schedule
import Verif.Proof.EEPROM
/-!
# Properties C43, C44, C54, C82, C83: schedules and modes
-/

namespace OTR

/-! ## Specification vocabulary -/

/-- Minute-of-day `mm` is one of the `n` minutes starting at `start`, wrapping at midnight. -/
def InSpan (mm start n : Nat) : Prop := ∃ k, k < n ∧ mm = (start + k) % minsPerDay

/-- When the stored byte `b` says warming starts: the programmed time less the pre-warm period. -/
def spanStart (b : Byte) : Nat := (6 * b.toNat + minsPerDay - prewarmMins) % minsPerDay

/-- Operations that request BAKE. -/
def VOp.bakes : VOp → Bool
  | .startBake => true
  | .set n => n == 2
  | _ => false

/-- Minute reads in a history. -/
def readCount (ops : List VOp) : Nat := ops.countP (· == .read)

/-! ## Lemmas -/

theorem inSpan_iff {mm s n : Nat} (hs : s < 1440) (hm : mm < 1440) (hn : n < 1440) (hn0 : 0 < n) :
    InSpan mm s n ↔
      (if s < (if s + n ≥ 1440 then s + n - 1440 else s + n) then s ≤ mm ∧ mm < (if s + n ≥ 1440 then s + n - 1440 else s + n)
       else s ≤ mm ∨ mm < (if s + n ≥ 1440 then s + n - 1440 else s + n)) := by
  have key : ∀ e, (s + n < 1440 ∧ e = s + n ∨ s + n ≥ 1440 ∧ e = s + n - 1440) →
      (InSpan mm s n ↔ if s < e then s ≤ mm ∧ mm < e else s ≤ mm ∨ mm < e) := by
    intro e he
    constructor
    · rintro ⟨k, hk, rfl⟩
      split <;> omega
    · intro h
      by_cases hle : s ≤ mm
      · refine ⟨mm - s, ?_, by omega⟩
        split at h <;> omega
      · refine ⟨mm + 1440 - s, ?_, by omega⟩
        split at h <;> omega
  apply key
  split <;> omega

theorem onTimeFromByte_eq (b : Byte) (h : b.toNat ≤ 239) : onTimeFromByte b = spanStart b ∧ spanStart b < 1440 := by
  unfold onTimeFromByte spanStart
  dsimp only
  split <;> omega

theorem schedOn_eq (m : EE) (w : Nat) :
    schedOn m w = if w < 2 ∧ (m (12 + w)).toNat ≤ 239 then spanStart (m (12 + w)) else 65535 := by
  unfold schedOn
  by_cases h1 : w ≥ 2
  · rw [if_pos h1, if_neg (by omega)]
  · rw [if_neg h1]
    dsimp only
    by_cases h2 : (m (12 + w)).toNat > 239
    · rw [if_pos h2, if_neg (by omega)]
    · rw [if_neg h2, if_pos (by omega), (onTimeFromByte_eq _ (by omega)).1]

theorem schedOff_eq (m : EE) (dur w : Nat) (hd : dur ≤ 255) :
    schedOff m dur w = if w < 2 ∧ (m (12 + w)).toNat ≤ 239 then (spanStart (m (12 + w)) + 36 + dur) % 1440 else 65535 := by
  unfold schedOff
  rw [schedOn_eq]
  dsimp only
  by_cases h : w < 2 ∧ (m (12 + w)).toNat ≤ 239
  · have := (onTimeFromByte_eq _ h.2).2
    simp only [if_pos h]
    rw [if_neg (by omega)]
    split <;> omega
  · simp only [if_neg h]; simp

theorem schedOnNow1_iff (m : EE) (dur mm w : Nat) (hd : dur ≤ 255) (hm : mm < 1440) :
    schedOnNow1 m dur mm w = true ↔
      (w < 2 ∧ (m (12 + w)).toNat ≤ 239) ∧ InSpan mm (spanStart (m (12 + w))) (36 + dur) := by
  unfold schedOnNow1
  rw [schedOn_eq, schedOff_eq m dur w hd]
  dsimp only
  by_cases h : w < 2 ∧ (m (12 + w)).toNat ≤ 239
  · have hs := (onTimeFromByte_eq _ h.2).2
    simp only [if_pos h]
    rw [if_neg (by omega), inSpan_iff hs hm (by omega) (by omega)]
    have e : (spanStart (m (12 + w)) + 36 + dur) % 1440 =
        (if spanStart (m (12 + w)) + (36 + dur) ≥ 1440 then spanStart (m (12 + w)) + (36 + dur) - 1440
         else spanStart (m (12 + w)) + (36 + dur)) := by split <;> omega
    rw [e]
    split <;> simp [h]
  · simp only [if_neg h, if_true]
    constructor
    · intro e; cases e
    · intro e; exact absurd e.1 h

theorem schedOnNow_iff (m : EE) (dur mm : Nat) (hd : dur ≤ 255) :
    schedOnNow m dur mm = true ↔ mm < 1440 ∧
      ∃ w, (w < 2 ∧ (m (12 + w)).toNat ≤ 239) ∧ InSpan mm (spanStart (m (12 + w))) (36 + dur) := by
  unfold schedOnNow
  by_cases h : mm ≥ 1440
  · rw [if_pos h]; simp; omega
  · rw [if_neg h, List.any_eq_true]
    constructor
    · rintro ⟨w, _, e⟩
      exact ⟨by omega, w, (schedOnNow1_iff m dur mm w hd (by omega)).1 e⟩
    · rintro ⟨_, w, e⟩
      exact ⟨w, by simp [e.1.1], (schedOnNow1_iff m dur mm w hd (by omega)).2 e⟩

theorem VMode.bake_le (v : VMode) (ops : List VOp) (h : v.bakeM ≤ 31) : (v.run ops).bakeM ≤ 31 := by
  induction ops generalizing v with
  | nil => exact h
  | cons op ops ih =>
    refine ih (v.step op) ?_
    cases op with
    | setWarm w => cases w <;> simp [VMode.step, VMode.setWarm, h]
    | startBake => simp [VMode.step, VMode.startBake]
    | cancelBake => simp [VMode.step, VMode.cancelBake]
    | set n =>
      simp only [VMode.step, VMode.set]
      split
      · simp [VMode.setWarm]
      · split
        · simp [VMode.setWarm, h]
        · split
          · simp [VMode.startBake]
          · exact h
    | read => simp only [VMode.step, VMode.read]; omega

/-- Without a new request the countdown falls by at least one at each read. -/
theorem VMode.bake_dec (v : VMode) (ops : List VOp) (hn : ∀ op ∈ ops, op.bakes = false) :
    (v.run ops).bakeM ≤ v.bakeM - readCount ops := by
  induction ops generalizing v with
  | nil => simp [VMode.run, readCount]
  | cons op ops ih =>
    have := ih (v.step op) (fun o ho => hn o (by simp [ho]))
    have hb := hn op (by simp)
    change ((v.step op).run ops).bakeM ≤ _
    have e : readCount (op :: ops) = readCount ops + if op == .read then 1 else 0 := by
      simp [readCount, List.countP_cons]
    rw [e]
    cases op with
    | setWarm w =>
      have : (v.step (.setWarm w)).bakeM ≤ v.bakeM := by cases w <;> simp [VMode.step, VMode.setWarm]
      simp; omega
    | startBake => cases hb
    | cancelBake =>
      have : (v.step .cancelBake).bakeM = 0 := rfl
      simp; omega
    | set n =>
      have : (v.step (.set n)).bakeM ≤ v.bakeM := by
        simp [VOp.bakes] at hb
        simp only [VMode.step, VMode.set]
        split
        · simp [VMode.setWarm]
        · split
          · simp [VMode.setWarm]
          · simp
      simp; omega
    | read =>
      have : (v.step .read).bakeM = v.bakeM - 1 := rfl
      simp; omega


namespace Props

/-! ## C43 -/

/-- **C43, setting.** Setting a schedule succeeds exactly for a legal schedule number and minute of the day.  Then it
is reported to start the pre-warm period before the requested time (rounded down to 6 minutes), to end `dur` minutes
after it, both modulo a day; the other schedule is unaffected. A refused request writes nothing. -/
theorem C43_set (split : Bool) (m : EE) (t which dur : Nat) (hd : dur ≤ 255) :
    ((schedSet split t which m).1 = true ↔ which < maxSchedules ∧ t < minsPerDay) ∧
    ((schedSet split t which m).1 = false → (schedSet split t which m).2 = []) ∧
    ((schedSet split t which m).1 = true →
      let m' := (schedSet split t which).post m
      schedOn m' which = (t - t % 6 + minsPerDay - prewarmMins) % minsPerDay ∧
      schedOff m' dur which = (t - t % 6 + dur) % minsPerDay ∧
      ∀ a, a ≠ eeSchedule + which → m' a = m a) := by
  by_cases h1 : which ≥ 2
  · have : schedSet split t which m = (false, []) := by simp [schedSet, emIf, h1, emRet]
    rw [this]; simp; omega
  · by_cases h2 : t ≥ 1440
    · have : schedSet split t which m = (false, []) := by simp [schedSet, emIf, h1, h2, emRet]
      rw [this]; simp; omega
    · have e : schedSet split t which m = (true, wr1 m (12 + which) (programmeByte t)) := by
        simp [schedSet, emIf, h1, h2, emRet, emBind, smartUpdate_eq]
      have ep : (schedSet split t which).post m = m.upd (12 + which) (programmeByte t) := by
        simp only [EM.post, e, applyW_wr1]
      have eb : (programmeByte t).toNat = t / 6 := by
        simp only [programmeByte, UInt8.toNat_ofNat']; omega
      rw [e]
      refine ⟨by simp; omega, by simp, fun _ => ?_⟩
      dsimp only
      rw [ep]
      refine ⟨?_, ?_, ?_⟩
      · rw [schedOn_eq, EE.upd_same, if_pos (by rw [eb]; omega)]
        unfold spanStart; rw [eb]; omega
      · rw [schedOff_eq _ _ _ hd, EE.upd_same, if_pos (by rw [eb]; omega)]
        unfold spanStart; rw [eb]; omega
      · intro a ha; exact EE.upd_other _ _ ha

/-- **C43, on now.** Whatever is stored, the schedule is "on now" exactly in the minutes of the pre-warm and on
periods of a stored schedule, including across midnight; "on soon" is the same 54 minutes ahead. -/
theorem C43_on_now (m : EE) (dur mm : Nat) (hd : dur ≤ 255) :
    (schedOnNow m dur mm = true ↔ mm < minsPerDay ∧
      ∃ which, which < maxSchedules ∧ (m (eeSchedule + which)).toNat ≤ maxProgrammeByte ∧
        InSpan mm (spanStart (m (eeSchedule + which))) (prewarmMins + dur)) ∧
    (schedOnSoon m dur mm = true ↔ mm < minsPerDay ∧ schedOnNow m dur ((mm + preprewarmMins) % minsPerDay) = true) := by
  refine ⟨?_, ?_⟩
  · rw [schedOnNow_iff m dur mm hd]
    constructor
    · rintro ⟨h, w, hw, hs⟩; exact ⟨h, w, hw.1, hw.2, hs⟩
    · rintro ⟨h, w, hw, hb, hs⟩; exact ⟨h, w, ⟨hw, hb⟩, hs⟩
  · unfold schedOnSoon
    by_cases h : mm ≥ 1440
    · rw [if_pos h]; simp; omega
    · rw [if_neg h]
      have e : (if mm + 54 ≥ 1440 then mm + 54 - 1440 else mm + 54) = (mm + 54) % 1440 := by split <;> omega
      dsimp only
      rw [e]
      simp; omega

/-- A schedule at 00:10 with 60 minutes on: starts 23:30, ends 01:06, on over midnight, off at the end. -/
example :
    let m := (schedSet true 10 0).post fun _ => 0xff
    schedOn m 0 = 1410 ∧ schedOff m 60 0 = 66 ∧ schedOnNow m 60 1439 = true ∧ schedOnNow m 60 0 = true ∧
    schedOnNow m 60 65 = true ∧ schedOnNow m 60 66 = false ∧ schedOnNow m 60 1409 = false ∧
    schedOnSoon m 60 1400 = true := by decide +kernel

/-- The learned on-time lies between the two configured times, whatever the circumstances. -/
theorem C43_on_time (a b : Nat) (hab : a ≤ b) (eco comfort lv : Bool) :
    a ≤ schedOnTime a b eco comfort lv ∧ schedOnTime a b eco comfort lv ≤ b := by
  unfold schedOnTime
  (repeat' split) <;> omega

/-! ## C44 -/

/-- **C44.** A stored byte above the legal range (erased 0xff included), or an out-of-range schedule number, is no
schedule: start and end are reported unset; if all are so then nothing is set and it is never on, now or soon. Clearing a schedule makes it
so. -/
theorem C44_no_schedule (m : EE) (dur which : Nat) (hd : dur ≤ 255) :
    ((which ≥ maxSchedules ∨ (m (eeSchedule + which)).toNat > maxProgrammeByte) ↔ schedOn m which = noSched) ∧
    (schedOn m which = noSched ↔ schedOff m dur which = noSched) ∧
    ((∀ w, w < maxSchedules → (m (eeSchedule + w)).toNat > maxProgrammeByte) ↔ schedAnySet m = false) ∧
    (schedAnySet m = false → ∀ mm, schedOnNow m dur mm = false ∧ schedOnSoon m dur mm = false) ∧
    schedOn ((schedClear which).post m) which = noSched ∧
    (∀ a, a ≠ eeSchedule + which → (schedClear which).post m a = m a) := by
  have h3 : (∀ w, w < 2 → (m (12 + w)).toNat > 239) ↔ schedAnySet m = false := by
    unfold schedAnySet
    rw [List.any_eq_false]
    simp
  refine ⟨?_, ?_, h3, ?_, ?_⟩
  · rw [schedOn_eq]
    by_cases h : which < 2 ∧ (m (12 + which)).toNat ≤ 239
    · have := (onTimeFromByte_eq _ h.2).2
      rw [if_pos h]; omega
    · rw [if_neg h]; simp; omega
  · rw [schedOn_eq, schedOff_eq _ _ _ hd]
    by_cases h : which < 2 ∧ (m (12 + which)).toNat ≤ 239
    · have := (onTimeFromByte_eq _ h.2).2
      simp only [if_pos h]; omega
    · simp only [if_neg h]
  · intro h mm
    have key : ∀ mm, schedOnNow m dur mm = false := by
      intro mm
      rw [Bool.eq_false_iff]
      intro hc
      rw [schedOnNow_iff m dur mm hd] at hc
      obtain ⟨_, w, ⟨hw, hb⟩, _⟩ := hc
      have := h3.2 h w hw
      omega
    refine ⟨key mm, ?_⟩
    unfold schedOnSoon
    split
    · rfl
    · exact key _
  · by_cases h : which ≥ 2
    · have e : (schedClear which).post m = m := by simp [EM.post, schedClear, emIf, h, emRet]
      rw [e]
      exact ⟨by rw [schedOn_eq, if_neg (by omega)], fun _ _ => rfl⟩
    · have e : (schedClear which).post m = m.upd (12 + which) 0xff := by
        simp only [EM.post, schedClear, emIf, h, if_false, emBind, emRet, smartErase_eq]
        simp [applyW_wr1]
      rw [e]
      refine ⟨?_, fun a ha => EE.upd_other _ _ ha⟩
      rw [schedOn_eq, EE.upd_same, if_neg]; intro hh; exact absurd hh.2 (by decide)

/-! ## C82 -/

theorem foldl_range_two {α : Type} (f : α → Nat → α) (a : α) : (List.range 2).foldl f a = f (f a 0) 1 := rfl

/-- Effect of a minute of schedule on the warm flag. -/
theorem applySched_warm (m : EE) (dur mm : Nat) (hd : dur ≤ 255) (hm : mm < 1440) (v : VMode)
    (hv : v.warm = schedOnNow m dur ((mm + 1439) % 1440)) : (applySched m dur mm v).warm = schedOnNow m dur mm := by
  -- starting now means on now
  have hstart : ∀ w, mm = schedOn m w → schedOnNow m dur mm = true := by
    intro w e
    rw [schedOn_eq] at e
    by_cases h : w < 2 ∧ (m (12 + w)).toNat ≤ 239
    · rw [if_pos h] at e
      rw [schedOnNow_iff m dur mm hd]
      exact ⟨hm, w, h, 0, by omega, by omega⟩
    · rw [if_neg h] at e; omega
  unfold applySched
  rw [foldl_range_two]
  unfold applySched1
  cases hn : schedOnNow m dur mm with
  | true =>
    simp only [Bool.not_true, Bool.false_and, Bool.false_eq_true, if_false]
    cases hp : schedOnNow m dur ((mm + 1439) % 1440) with
    | true =>
      rw [hp] at hv
      split <;> split <;> simp [VMode.setWarm, hv]
    | false =>
      -- some schedule starts now
      rw [schedOnNow_iff m dur mm hd] at hn
      obtain ⟨_, w, hw, hs⟩ := hn
      have hnp : ¬ InSpan ((mm + 1439) % 1440) (spanStart (m (12 + w))) (36 + dur) := by
        intro hc
        have : schedOnNow m dur ((mm + 1439) % 1440) = true :=
          (schedOnNow_iff m dur _ hd).2 ⟨by omega, w, hw, hc⟩
        rw [hp] at this; cases this
      have hs0 := (onTimeFromByte_eq _ hw.2).2
      have e : mm = schedOn m w := by
        rw [schedOn_eq, if_pos hw]
        obtain ⟨k, hk, hke⟩ := hs
        by_cases hk0 : k = 0
        · subst hk0; omega
        · exact absurd ⟨k - 1, by omega, by omega⟩ hnp
      rcases (by omega : w = 0 ∨ w = 1) with rfl | rfl
      · simp only [if_pos e]; split <;> simp [VMode.setWarm]
      · simp only [if_pos e]; split <;> simp [VMode.setWarm]
  | false =>
    have hne : ∀ w, mm ≠ schedOn m w := by
      intro w e
      have := hstart w e
      rw [hn] at this; cases this
    simp only [Bool.not_false, Bool.true_and, if_neg (hne 0), if_neg (hne 1)]
    cases hp : schedOnNow m dur ((mm + 1439) % 1440) with
    | false =>
      rw [hp] at hv
      split <;> split <;> simp [VMode.setWarm, hv]
    | true =>
      rw [schedOnNow_iff m dur _ hd] at hp
      obtain ⟨_, w, hw, k, hk, hke⟩ := hp
      have hnn : ¬ InSpan mm (spanStart (m (12 + w))) (36 + dur) := by
        intro hc
        have : schedOnNow m dur mm = true := (schedOnNow_iff m dur _ hd).2 ⟨by omega, w, hw, hc⟩
        rw [hn] at this; cases this
      have hs0 := (onTimeFromByte_eq _ hw.2).2
      have e : (mm == schedOff m dur w) = true := by
        rw [beq_iff_eq, schedOff_eq _ _ _ hd, if_pos hw]
        by_cases hk1 : k + 1 = 36 + dur
        · omega
        · exact absurd ⟨k + 1, by omega, by omega⟩ hnn
      rcases (by omega : w = 0 ∨ w = 1) with rfl | rfl
      · simp only [e]; simp; split <;> simp [VMode.setWarm]
      · simp only [e]; simp [VMode.setWarm]

/-- Minutes `t0, t0+1, ..., t0+n-1` of schedule application. -/
def runSched (m : EE) (dur t0 : Nat) (v : VMode) (n : Nat) : VMode :=
  (List.range n).foldl (fun v k => applySched m dur ((t0 + k) % minsPerDay) v) v

/-- **C82.** Left alone, the schedule drives the mode exactly: starting with the mode agreeing with the schedule,
after applying it in each of any number of consecutive minutes the unit is in WARM mode exactly when some schedule is
on at the last of those minutes — overlapping schedules, midnight and all. -/
theorem C82_schedule_drives_mode (m : EE) (dur t0 n : Nat) (hd : dur ≤ 255) (v : VMode)
    (hv : v.warm = schedOnNow m dur ((t0 + 1439) % minsPerDay)) :
    (runSched m dur t0 v n).warm = schedOnNow m dur ((t0 + n + 1439) % minsPerDay) := by
  induction n with
  | zero => exact hv
  | succ n ih =>
    unfold runSched at ih ⊢
    rw [List.range_succ, List.foldl_append]
    simp only [List.foldl_cons, List.foldl_nil]
    have e1 : (t0 + (n + 1) + 1439) % 1440 = (t0 + n) % 1440 := by omega
    have e2 : (t0 + n + 1439) % 1440 = ((t0 + n) % 1440 + 1439) % 1440 := by omega
    rw [e1]
    apply applySched_warm m dur _ hd (by omega)
    rw [ih, e2]

/-- **C82, in between.** A minute that is neither the start nor the end of a schedule leaves the mode alone, so that a
user's choice holds until the next start or end. -/
theorem C82_user_choice_holds (m : EE) (dur mm : Nat) (v : VMode)
    (h : ∀ w, w < maxSchedules → mm ≠ schedOn m w ∧ mm ≠ schedOff m dur w) : applySched m dur mm v = v := by
  unfold applySched
  rw [foldl_range_two]
  have h0 := h 0 (by omega)
  have h1 := h 1 (by omega)
  simp [applySched1, h0, h1]

example :
    let m := (schedSet true 10 0).post fun _ => 0xff
    (runSched m 60 1400 VMode.init 10).warm = false ∧ (runSched m 60 1400 VMode.init 11).warm = true ∧
    (runSched m 60 1400 VMode.init 106).warm = true ∧ (runSched m 60 1400 VMode.init 107).warm = false := by
  decide +kernel

/-! ## C54 -/

/-- **C54.** After any history, once BAKE has not been requested for 31 minute reads the mode is not BAKE. -/
theorem C54_bake_bounded (pre ops : List VOp) (hn : ∀ op ∈ ops, op.bakes = false) (hr : bakeMaxM ≤ readCount ops) :
    (VMode.init.run (pre ++ ops)).get ≠ 2 ∧ (VMode.init.run (pre ++ ops)).inBake = false := by
  have e : VMode.init.run (pre ++ ops) = (VMode.init.run pre).run ops := by simp [VMode.run]
  rw [e]
  have h1 := VMode.bake_le VMode.init pre (by simp [VMode.init])
  have h2 := VMode.bake_dec (VMode.init.run pre) ops hn
  have h3 : ((VMode.init.run pre).run ops).bakeM = 0 := by omega
  constructor
  · unfold VMode.get; rw [h3]; split <;> simp
  · simp [VMode.inBake, h3]

/-- **C54, starting.** Right after a BAKE request the mode is BAKE, and it is still BAKE after up to 30 minute reads if
nothing else happens; every other request or cancel ends or does not begin it. -/
theorem C54_bake_starts (v : VMode) (n : Nat) :
    ((v.startBake.run (List.replicate n .read)).get = 2 ↔ n ≤ bakeMaxM - 1) ∧
    (v.setWarm false).get = 0 ∧ v.cancelBake.get ≠ 2 ∧
    (v.set 0).2.get = 0 ∧ (v.set 2).2.get = 2 ∧ ((v.set n).1 = true ↔ n ≤ 2) := by
  have key : ∀ n (v : VMode), (v.run (List.replicate n .read)).bakeM = v.bakeM - n ∧
      (v.run (List.replicate n .read)).warm = v.warm := by
    intro n
    induction n with
    | zero => intro v; exact ⟨rfl, rfl⟩
    | succ n ih =>
      intro v
      rw [List.replicate_succ]
      have := ih v.read
      change ((v.read.run _).bakeM = _ ∧ (v.read.run _).warm = _)
      rw [this.1, this.2]
      exact ⟨by simp only [VMode.read]; omega, rfl⟩
  refine ⟨?_, by simp [VMode.get, VMode.setWarm], ?_, by simp [VMode.set, VMode.get, VMode.setWarm],
    by simp [VMode.set, VMode.startBake, VMode.get], ?_⟩
  · unfold VMode.get
    rw [(key n _).1, (key n _).2]
    simp only [VMode.startBake]
    by_cases h : n ≤ 30
    · have : 31 - n ≠ 0 := by omega
      simp [this, h]
    · have : 31 - n = 0 := by omega
      simp [this, h]
  · obtain ⟨w, b⟩ := v; cases w <;> simp [VMode.get, VMode.cancelBake]
  · unfold VMode.set
    split
    · simp; omega
    · split
      · simp; omega
      · split
        · simp; omega
        · simp; omega

/-- **C54, BAKE implies WARM**, in every state. -/
theorem C54_bake_implies_warm (v : VMode) : (v.inBake = true → v.warm = true) ∧ (v.get = 2 ↔ v.inBake = true) ∧
    (v.get = 0 ↔ v.warm = false) := by
  obtain ⟨w, b⟩ := v
  cases w <;> by_cases h : b = 0 <;> simp [VMode.inBake, VMode.get, h]

example : (VMode.init.run [.setWarm true, .startBake, .read, .setWarm true, .read]).get = 2 ∧
    (VMode.init.run [.startBake, .read, .setWarm false, .setWarm true]).get = 1 := by decide

end Props
end OTR
