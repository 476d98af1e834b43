import Verif.Model.Sleep
/-! # C160–C162: sleeping and delays -/

namespace OTR.Props
open OTR

/-! ## C160: sleeping until a time in the cycle -/

/-- A sleep of `d` half microseconds is within tolerance of what was asked for: a nap at most half as long again, a low-power sleep of
`ms` at most a fifth longer. -/
def SleepReq.Fits : SleepReq → Nat → Prop
  | .nap ms, d => 0 < d ∧ d ≤ 3000 * ms
  | .low ms, d => 0 < d ∧ d ≤ 2400 * ms

instance (r : SleepReq) (d : Nat) : Decidable (SleepReq.Fits r d) := by
  cases r <;> unfold SleepReq.Fits <;> infer_instance

/-- Every sleep on the way is within tolerance. -/
def NapsFit (target : Nat) : Nat → List Nat → Prop
  | _, [] => True
  | t, d :: ds => (subCycle t < target → SleepReq.Fits (sleepChoice (target - subCycle t)) d) ∧ NapsFit target (t + d) ds

/-- No sleep within tolerance passes the target tick. -/
theorem choice_safe (left d f : Nat) (hl : 1 ≤ left) (hl2 : left ≤ 255) (hf : f < 15625) (h : SleepReq.Fits (sleepChoice left) d) :
    0 < d ∧ f + d < (left + 1) * 15625 := by
  unfold sleepChoice at h
  by_cases h1 : left = 1
  · rw [if_pos h1] at h; simp only [SleepReq.Fits] at h; omega
  rw [if_neg h1] at h
  dsimp only at h
  by_cases h2 : 7 * left ≥ 20
  · rw [if_pos h2] at h
    by_cases h3 : 7 * left ≥ 80
    · rw [if_pos h3] at h
      by_cases h4 : 7 * left ≥ 333
      · rw [if_pos h4] at h; simp only [SleepReq.Fits] at h; omega
      · rw [if_neg h4] at h; simp only [SleepReq.Fits] at h; omega
    · rw [if_neg h3] at h; simp only [SleepReq.Fits] at h; omega
  · rw [if_neg h2] at h; simp only [SleepReq.Fits] at h; omega

theorem subCycle_lt {t : Nat} (h : t < 4000000) : subCycle t = t / 15625 := by
  unfold subCycle; omega

/-- Asked in good time, with every sleep within tolerance, it returns true, in the very tick asked for, in the same basic cycle. -/
theorem C160_sleep_until (target t : Nat) (ds : List Nat) (ht : t < 4000000) (htt : target < 256) (hn : t / 15625 ≤ target)
    (hfit : NapsFit target t ds) (r : Bool) (t' : Nat) (h : sleepUntil target t ds = some (r, t')) :
    r = true ∧ t' / 15625 = target ∧ t ≤ t' ∧ t' < 4000000 := by
  induction ds generalizing t with
  | nil =>
    rw [sleepUntil] at h
    rw [subCycle_lt ht] at h
    by_cases h1 : t / 15625 = target
    · rw [if_pos h1] at h; simp only [Option.some.injEq, Prod.mk.injEq] at h
      obtain ⟨rfl, rfl⟩ := h; exact ⟨rfl, h1, Nat.le_refl _, ht⟩
    · rw [if_neg h1, if_neg (by omega)] at h; cases h
  | cons d ds ih =>
    rw [sleepUntil] at h
    have hfit1 := hfit.1
    rw [subCycle_lt ht] at h hfit1
    by_cases h1 : t / 15625 = target
    · rw [if_pos h1] at h; simp only [Option.some.injEq, Prod.mk.injEq] at h
      obtain ⟨rfl, rfl⟩ := h; exact ⟨rfl, h1, Nat.le_refl _, ht⟩
    · rw [if_neg h1, if_neg (by omega)] at h
      obtain ⟨hd, hs⟩ := choice_safe (target - t / 15625) d (t % 15625) (by omega) (by omega) (Nat.mod_lt _ (by omega))
        (hfit1 (by omega))
      have hb : t + d < (target + 1) * 15625 := by
        have := Nat.div_add_mod t 15625
        omega
      obtain ⟨e1, e2, e3, e4⟩ := ih (t + d) (by omega) (by omega) hfit.2 h
      exact ⟨e1, e2, by omega, e4⟩

/-- It does return: each sleep takes time, so at most as many sleeps as there are half microseconds left. -/
theorem C160_returns (target t : Nat) (ds : List Nat) (ht : t < 4000000) (htt : target < 256)
    (hfit : NapsFit target t ds) (hlen : (target + 1) * 15625 - t ≤ ds.length) : sleepUntil target t ds ≠ none := by
  induction ds generalizing t with
  | nil =>
    simp only [List.length_nil] at hlen
    rw [sleepUntil]
    rw [subCycle_lt ht]
    by_cases h1 : t / 15625 = target
    · rw [if_pos h1]; simp
    · rw [if_neg h1, if_pos (by omega)]; simp
  | cons d ds ih =>
    simp only [List.length_cons] at hlen
    rw [sleepUntil]
    have hfit1 := hfit.1
    rw [subCycle_lt ht] at hfit1 ⊢
    by_cases h1 : t / 15625 = target
    · rw [if_pos h1]; simp
    · rw [if_neg h1]
      by_cases h2 : t / 15625 > target
      · rw [if_pos h2]; simp
      · rw [if_neg h2]
        obtain ⟨hd, hs⟩ := choice_safe (target - t / 15625) d (t % 15625) (by omega) (by omega) (Nat.mod_lt _ (by omega))
          (hfit1 (by omega))
        have := Nat.div_add_mod t 15625
        exact ih (t + d) (by omega) hfit.2 (by omega)

/-- Asked too late it returns false at once. -/
theorem C160_too_late (target t : Nat) (ds : List Nat) (h : target < subCycle t) : sleepUntil target t ds = some (false, t) := by
  cases ds <;> rw [sleepUntil, if_neg (by omega), if_pos h]

/-- The tolerance matters: one nap of 250 ms lasting 400 ms near the end of the cycle carries the wait into the next cycle, and it
then says true, 2 s late. -/
theorem C160_refuted_overrun :
    ∃ ds, sleepUntil 255 (207 * 15625) ds = some (true, (256 + 255) * 15625) ∧ ds.head? = some 800000 ∧
      NapsFit 255 (207 * 15625 + 800000) ds.tail := by
  refine ⟨[800000, 700000, 700000, 700000, 700000, 700000, 150000, 150000, 45000, 45000, 45000, 2400, 2400, 2400, 2400, 2400,
    2400, 600], by decide +kernel, rfl, ?_⟩
  simp only [NapsFit, List.tail_cons]
  repeat' constructor
  all_goals decide +kernel
/-- `msRemainingThisBasicCycle()` never promises more than there is, and is at most 215 ms short of it. -/
theorem C160_ms_remaining (t : Nat) (ht : t < 4000000) :
    msRemaining t * 2000 < 4000000 - t ∧ 4000000 - t ≤ msRemaining t * 2000 + 430000 := by
  unfold msRemaining
  rw [subCycle_lt ht]
  omega

example : NapsFit 100 0 [750000, 1] := by
  simp [NapsFit, subCycle, sleepChoice, SleepReq.Fits]

/-! ## C161: naps and waiting for the next cycle -/

/-- A nap that may not end early ends only after the watchdog has fired, and says so; one that may, ends at the first interrupt that finds
the CPU asleep, and says whether the watchdog has fired by then. -/
theorem C161_nap (premature : Bool) (es : List NapEv) (r : Bool) (h : napLoop premature false es = some r) :
    ∃ a e b, es = a ++ e :: b ∧ e.asleep = true ∧ (r = true ↔ ∃ x ∈ a ++ [e], x.wdt = true) ∧ (premature = false → r = true) ∧
      (premature = true → ∀ x ∈ a, x.asleep = false) := by
  have : ∀ (es : List NapEv) (f : Bool), napLoop premature f es = some r →
      ∃ a e b, es = a ++ e :: b ∧ e.asleep = true ∧ (r = true ↔ f = true ∨ ∃ x ∈ a ++ [e], x.wdt = true) ∧
        (premature = false → r = true) ∧ (premature = true → ∀ x ∈ a, x.asleep = false) := by
    intro es
    induction es with
    | nil => intro f h; cases h
    | cons e es ih =>
      intro f h
      rw [napLoop] at h
      have hrec : ∀ (hh : napLoop premature (f || e.wdt) es = some r) (hp : premature = true → e.asleep = false),
          ∃ a e' b, e :: es = a ++ e' :: b ∧ e'.asleep = true ∧ (r = true ↔ f = true ∨ ∃ x ∈ a ++ [e'], x.wdt = true) ∧
            (premature = false → r = true) ∧ (premature = true → ∀ x ∈ a, x.asleep = false) := by
        intro hh hp
        obtain ⟨a, e', b, h1, h2, h3, h4, h5⟩ := ih _ hh
        refine ⟨e :: a, e', b, by rw [h1]; rfl, h2, ?_, h4, ?_⟩
        · rw [h3]
          simp only [Bool.or_eq_true, List.cons_append, List.mem_cons, exists_eq_or_imp, or_assoc]
        · intro hpm x hx
          rcases List.mem_cons.mp hx with rfl | hx
          · exact hp hpm
          · exact h5 hpm x hx
      by_cases ha : e.asleep = true
      · rw [if_pos ha] at h
        by_cases hf : (f || e.wdt || premature) = true
        · rw [if_pos hf] at h
          simp only [Option.some.injEq] at h
          refine ⟨[], e, es, rfl, ha, ?_, ?_, fun _ x hx => by cases hx⟩
          · rw [← h]; simp
          · intro hp; rw [hp, Bool.or_false] at hf; rw [← h]; exact hf
        · rw [if_neg hf] at h
          refine hrec h (fun hp => ?_)
          rw [hp] at hf; simp at hf
      · rw [if_neg ha] at h
        exact hrec h (fun _ => by simpa using ha)
  obtain ⟨a, e, b, h1, h2, h3, h4, h5⟩ := this es false h
  exact ⟨a, e, b, h1, h2, by simpa using h3, h4, h5⟩

/-- A nap ends at the first interrupt that finds the CPU asleep once the watchdog has fired. -/
theorem C161_nap_ends (premature : Bool) (a b : List NapEv) (e : NapEv) (he : e.asleep = true)
    (hw : ∃ x ∈ a ++ [e], x.wdt = true) : napLoop premature false (a ++ e :: b) ≠ none := by
  have : ∀ (a : List NapEv) (f : Bool), (f = true ∨ ∃ x ∈ a ++ [e], x.wdt = true) → napLoop premature f (a ++ e :: b) ≠ none := by
    intro a
    induction a with
    | nil =>
      intro f hw
      rw [List.nil_append, napLoop]
      have : (f || e.wdt || premature) = true := by
        rcases hw with h | ⟨x, hx, h⟩
        · simp [h]
        · simp only [List.nil_append, List.mem_singleton] at hx; subst hx; simp [h]
      rw [if_pos he, if_pos this]; simp
    | cons y a ih =>
      intro f hw
      have hw' : (f || y.wdt) = true ∨ ∃ x ∈ a ++ [e], x.wdt = true := by
        rcases hw with h | ⟨x, hx, h⟩
        · left; simp [h]
        · rcases List.mem_cons.mp hx with rfl | hx
          · left; simp [h]
          · exact Or.inr ⟨x, hx, h⟩
      rw [List.cons_append, napLoop]
      split
      · split
        · simp
        · exact ih _ hw'
      · exact ih _ hw'
  exact this a false (Or.inr hw)

/-- "Until the watchdog time expires" is false: if the watchdog fires just as the loop is going back to sleep, after another interrupt, the
wake-up is lost and the nap goes on until some other interrupt. -/
theorem C161_refuted_lost_wakeup : napLoop false false [⟨true, false⟩, ⟨false, true⟩] = none ∧
    napLoop false false [⟨true, false⟩, ⟨true, true⟩] = some true := by decide

/-- `sleepUntilNewCycle` returns only when the seconds count differs from the old one, and returns the current count. -/
theorem C161_new_cycle (old secs : Nat) (ts : List CycleTurn) (v now : Nat) (h : newCycle old secs ts = some (v, now)) :
    v = now ∧ v ≠ old := by
  induction ts generalizing secs with
  | nil =>
    rw [newCycle] at h
    split at h
    · rename_i hne
      simp only [Option.some.injEq, Prod.mk.injEq] at h
      obtain ⟨rfl, rfl⟩ := h; exact ⟨rfl, fun e => hne e.symm⟩
    · cases h
  | cons u us ih =>
    rw [newCycle] at h
    split at h
    · rename_i hne
      simp only [Option.some.injEq, Prod.mk.injEq] at h
      obtain ⟨rfl, rfl⟩ := h; exact ⟨rfl, fun e => hne e.symm⟩
    · split at h
      · exact ih _ h
      · exact ih _ h

/-- A tick that finds the CPU asleep ends the wait with the next seconds value; so does one that comes while the pre-sleep routine is busy. -/
theorem C161_new_cycle_prompt (old : Nat) (us : List CycleTurn) :
    newCycle old old (⟨false, 0, 1⟩ :: us) = some ((old + 2) % 60, (old + 2) % 60) ∧
    newCycle old old (⟨true, 1, 0⟩ :: us) = some ((old + 2) % 60, (old + 2) % 60) := by
  have hne : old ≠ (old + 2) % 60 := by omega
  constructor <;> rw [newCycle, if_neg (by simp)] <;> simp only [if_true, Bool.false_eq_true, if_false, Nat.mul_zero, Nat.mul_one,
    Nat.add_zero] <;> cases us <;> rw [newCycle, if_pos hne]

/-- "Until the seconds roll" is false: a tick that comes between reading the time and going to sleep is slept through, and the next value
returned is 4 s on: a cycle is lost. -/
theorem C161_refuted_lost_cycle (old : Nat) :
    newCycle old old [⟨false, 1, 1⟩] = some ((old + 4) % 60, (old + 4) % 60) := by
  have hne : old ≠ (old + 4) % 60 := by omega
  rw [newCycle, if_neg (by simp)]
  simp only [Bool.false_eq_true, if_false, Nat.mul_one, Nat.add_assoc]
  rw [newCycle, if_pos hne]

/-! ## C162: busy delays -/

/-- At 1 MHz a constant delay of up to 1027 us is exact, a variable one of 4 to 1027 us is short by less than 4 us. -/
theorem C162_1MHz (us : Nat) (h : us ≤ 1027) :
    busy1MHz true us = us ∧ (4 ≤ us → busy1MHz false us ≤ us ∧ us < busy1MHz false us + 4) := by
  unfold busy1MHz avrX4
  constructor
  · simp only [true_and]
    by_cases h0 : us = 0
    · simp [h0]
    · rw [if_neg h0]
      by_cases h4 : us ≥ 4
      · rw [if_pos h4]
        by_cases hm : us / 4 % 256 = 0
        · rw [if_pos hm]; split <;> split <;> omega
        · rw [if_neg hm]; split <;> split <;> omega
      · rw [if_neg h4]; split <;> split <;> omega
  · intro h4
    simp only [Bool.false_eq_true, false_and, if_false]
    rw [if_pos h4]
    split <;> omega

/-- `delay_ms(ms)` at 1 MHz takes 0.996 ms per millisecond, before loop overhead. -/
theorem C162_delay_ms (ms : Nat) (h : ms < 256) : delayMs1MHz ms = 996 * ms := by
  unfold delayMs1MHz
  rw [(C162_1MHz 996 (by omega)).1, Nat.mod_eq_of_lt h, Nat.mul_comm]

/-- At 16 MHz a delay of up to 1023 us is exact (16 cycles per us) unless it is a multiple of 64 us. -/
theorem C162_16MHz_partial (us : Nat) (h : us ≤ 1023) (h0 : us % 64 ≠ 0) : busy16MHz true us = 16 * us := by
  unfold busy16MHz avrX4
  simp only [true_and]
  rw [if_neg (by omega)]
  simp only [Nat.zero_mod, if_true]
  rw [if_neg (by omega)]
  omega

/-- A multiple of 64 us is 64 us too long. -/
theorem C162_refuted_16MHz (k : Nat) (h : 1 ≤ k ∧ k ≤ 15) : busy16MHz true (64 * k) = 16 * (64 * k) + 16 * 64 := by
  unfold busy16MHz avrX4
  simp only [true_and]
  rw [if_neg (by omega)]
  simp only [Nat.zero_mod, if_true]
  rw [if_pos (by omega)]
  omega

/-- On ARM `_delay_x4cycles(n)` for every n but 0 takes 2^32 turns (15 minutes at 19 MHz) instead of n. -/
theorem C162_refuted_arm (n : Nat) (h : n ≠ 0) : armX4 n = 4 * 2 ^ 32 := by
  unfold armX4 armX4Long
  rw [if_neg h]; rfl

/-- Only `_delay_x4cycles(0)` is right on ARM: 256 turns of 4 cycles, as on AVR. -/
theorem C162_arm_zero : armX4 0 = avrX4 0 ∧ armX4 0 = 1024 := by decide +kernel

/-- On ARM `delay_ms(ms)` takes 8464 cycles per millisecond: less than half, at the 19 MHz assumed. -/
theorem C162_refuted_arm_ms (ms : Nat) : armDelayMs ms = 8464 * ms := by
  unfold armDelayMs
  rw [show armBusy (1000000 / (armLoopNS * 9)) = 8464 by decide +kernel, Nat.mul_comm]

/-- On ARM the busy spin of `us` microseconds takes 16 cycles per microsecond, against 19 at the clock assumed: always about a
sixth short (the comment in the code says a twentieth); and from 2^30 us it wraps round: that long plus `k` takes as long as `k`. -/
theorem C162_refuted_arm_us (us : Nat) (h1 : 1 ≤ us) (h : us < 2 ^ 30) :
    armBusy us = 16 * us ∧ armBusy us < 19 * us ∧ armBusy (2 ^ 30 + us) = armBusy us := by
  have e : 1000 / armLoopNS = 4 := by decide +kernel
  have k : armBusy us = 16 * us := by
    unfold armBusy armX4Long
    rw [e, if_neg (by omega)]; omega
  have k2 : armBusy (2 ^ 30 + us) = 16 * us := by
    unfold armBusy armX4Long
    rw [e, if_neg (by omega)]; omega
  omega

end OTR.Props
