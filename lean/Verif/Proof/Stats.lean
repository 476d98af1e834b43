import Verif.Model.Stats
import Verif.Proof.EEPROM
import Mathlib.Order.Basic
import Mathlib.Tactic.ByContra
/-! # By-hour statistics: helper lemmas -/

namespace OTR

theorem scan_count (p : Nat → Prop) [DecidablePred p] (n r : Nat) :
    scanDown (β := Nat) (fun r hh => .inl (if p hh then r + 1 else r)) id n r
      = r + (List.range n).countP (fun h => decide (p h)) := by
  induction n generalizing r with
  | zero => simp [scanDown]
  | succ n ih =>
    simp only [scanDown, List.range_succ, List.countP_append, List.countP_singleton]
    rw [ih]; split <;> simp_all; omega

theorem scan_min (day : DayStats) (n : Nat) (r : Byte) :
    let x := scanDown (β := Byte) (fun r hh => .inl (if day hh < r then day hh else r)) id n r
    x ≤ r ∧ (∀ h < n, x ≤ day h) ∧ (x = r ∨ ∃ h < n, x = day h) := by
  induction n generalizing r with
  | zero => simp [scanDown]
  | succ n ih =>
    have := ih (if day n < r then day n else r)
    simp only [scanDown]
    obtain ⟨h1, h2, h3⟩ := this
    generalize scanDown _ _ n _ = x at *
    simp only [UInt8.lt_iff_toNat_lt, UInt8.le_iff_toNat_le] at *
    refine ⟨?_, ?_, ?_⟩
    · split at h1 <;> omega
    · intro h hh
      by_cases e : h = n
      · subst e; split at h1 <;> omega
      · exact h2 h (by omega)
    · rcases h3 with h3 | ⟨h, hh, h3⟩
      · split at h3
        · exact Or.inr ⟨n, by omega, h3⟩
        · exact Or.inl h3
      · exact Or.inr ⟨h, by omega, h3⟩

theorem scan_max (day : DayStats) (n : Nat) (r : Byte) :
    let x := scanDown (β := Byte)
      (fun r hh => .inl (if day hh ≠ unsetByte ∧ (r = unsetByte ∨ day hh > r) then day hh else r)) id n r
    (r ≠ unsetByte → x ≠ unsetByte ∧ r ≤ x) ∧ (∀ h < n, day h ≠ unsetByte → x ≠ unsetByte ∧ day h ≤ x) ∧
    (x = r ∨ ∃ h < n, x = day h) := by
  induction n generalizing r with
  | zero => simp [scanDown]
  | succ n ih =>
    have := ih (if day n ≠ unsetByte ∧ (r = unsetByte ∨ day n > r) then day n else r)
    simp only [scanDown]
    obtain ⟨h1, h2, h3⟩ := this
    generalize scanDown _ _ n _ = x at *
    refine ⟨?_, ?_, ?_⟩
    · intro hr
      split at h1
      · rename_i hc
        have := h1 hc.1
        refine ⟨this.1, ?_⟩
        rcases hc.2 with h | h
        · exact absurd h hr
        · have hh := this.2
          simp only [GT.gt, UInt8.lt_iff_toNat_lt, UInt8.le_iff_toNat_le] at *; omega
      · exact h1 hr
    · intro h hh hu
      by_cases e : h = n
      · subst e
        split at h1
        · exact h1 hu
        · rename_i hc
          have hr : r ≠ unsetByte := fun hr => hc ⟨hu, Or.inl hr⟩
          have hle : ¬ day h > r := fun hr => hc ⟨hu, Or.inr hr⟩
          refine ⟨(h1 hr).1, ?_⟩
          have := (h1 hr).2
          simp only [GT.gt, UInt8.lt_iff_toNat_lt, UInt8.le_iff_toNat_le] at *; omega
      · exact h2 h (by omega) hu
    · rcases h3 with h3 | ⟨h, hh, h3⟩
      · split at h3
        · exact Or.inr ⟨n, by omega, h3⟩
        · exact Or.inl h3
      · exact Or.inr ⟨h, by omega, h3⟩

/-- How many of the hours in [a,b) have a sample satisfying `p`. -/
def hoursWith (day : DayStats) (p : Byte → Bool) (a b : Nat) : Nat := (List.range' a (b - a)).countP (fun h => p (day h))

theorem hoursWith_succ (day : DayStats) (p : Byte → Bool) (a b : Nat) (h : a ≤ b) :
    hoursWith day p a (b + 1) = hoursWith day p a b + (if p (day b) then 1 else 0) := by
  unfold hoursWith
  have : b + 1 - a = (b - a) + 1 := by omega
  rw [this, List.range'_concat, List.countP_append, List.countP_singleton]
  have : a + 1 * (b - a) = b := by omega
  rw [this]

theorem hoursWith_self (day : DayStats) (p : Byte → Bool) (a : Nat) : hoursWith day p a a = 0 := by
  simp [hoursWith]

/-- The quartile scan. -/
def quartScan (day : DayStats) (p : Byte → Bool) (n s : Nat) : Bool :=
  scanDown (fun (c : Nat) hh =>
    if day hh = unsetByte then .inr false
    else if p (day hh) then (if c + 1 ≥ 18 then .inr true else .inl (c + 1)) else .inl c) (fun _ => false) n s

theorem quartScan_iff (day : DayStats) (p : Byte → Bool) (n s : Nat) (hs : s < 18) :
    quartScan day p n s = true ↔
      ∃ k ≤ n, (∀ h, k ≤ h → h < n → day h ≠ unsetByte) ∧ 18 ≤ s + hoursWith day p k n := by
  induction n generalizing s with
  | zero =>
    simp only [quartScan, scanDown, Bool.false_eq_true, false_iff, not_exists, not_and]
    intro k hk _ h
    have : k = 0 := by omega
    subst this
    rw [hoursWith_self] at h; omega
  | succ n ih =>
    have step : quartScan day p (n + 1) s =
        (if day n = unsetByte then false
         else if p (day n) then (if s + 1 ≥ 18 then true else quartScan day p n (s + 1)) else quartScan day p n s) := by
      simp only [quartScan, scanDown]
      repeat' split
      all_goals simp_all
      all_goals grind
    rw [step]
    have nontriv : ∀ k, k ≤ n + 1 → 18 ≤ s + hoursWith day p k (n + 1) → k ≤ n := by
      intro k hk h
      by_contra hc
      have : k = n + 1 := by omega
      subst this; rw [hoursWith_self] at h; omega
    by_cases hu : day n = unsetByte
    · rw [if_pos hu]
      simp only [Bool.false_eq_true, false_iff, not_exists, not_and]
      intro k hk h1 h2
      exact h1 n (nontriv k hk h2) (by omega) hu
    · rw [if_neg hu]
      by_cases hp : p (day n) = true
      · rw [if_pos hp]
        by_cases h18 : s + 1 ≥ 18
        · rw [if_pos h18]
          simp only [true_iff]
          refine ⟨n, by omega, ?_, ?_⟩
          · intro h h1 h2; have : h = n := by omega
            subst this; exact hu
          · rw [hoursWith_succ _ _ _ _ (Nat.le_refl _), hoursWith_self, if_pos hp]; omega
        · rw [if_neg h18, ih _ (by omega)]
          constructor
          · rintro ⟨k, hk, h1, h2⟩
            refine ⟨k, by omega, ?_, ?_⟩
            · intro h a b
              by_cases e : h = n
              · subst e; exact hu
              · exact h1 h a (by omega)
            · rw [hoursWith_succ _ _ _ _ hk, if_pos hp]; omega
          · rintro ⟨k, hk, h1, h2⟩
            have hk' := nontriv k hk h2
            refine ⟨k, hk', fun h a b => h1 h a (by omega), ?_⟩
            rw [hoursWith_succ _ _ _ _ hk', if_pos hp] at h2; omega
      · rw [if_neg hp, ih _ hs]
        constructor
        · rintro ⟨k, hk, h1, h2⟩
          refine ⟨k, by omega, ?_, ?_⟩
          · intro h a b
            by_cases e : h = n
            · subst e; exact hu
            · exact h1 h a (by omega)
          · rw [hoursWith_succ _ _ _ _ hk, if_neg hp]; omega
        · rintro ⟨k, hk, h1, h2⟩
          have hk' := nontriv k hk h2
          refine ⟨k, hk', fun h a b => h1 h a (by omega), ?_⟩
          rw [hoursWith_succ _ _ _ _ hk', if_neg hp] at h2; omega

theorem hoursWith_le (day : DayStats) (p : Byte → Bool) (k n : Nat) (h : k ≤ n) :
    hoursWith day p k n ≤ hoursWith day p 0 n := by
  induction n with
  | zero => have : k = 0 := by omega
            subst this; omega
  | succ n ih =>
    by_cases e : k ≤ n
    · have := ih e; rw [hoursWith_succ _ _ _ _ e, hoursWith_succ _ _ _ _ (by omega)]; omega
    · have : k = n + 1 := by omega
      subst this; rw [hoursWith_self]; omega

theorem hoursWith_zero (day : DayStats) (p : Byte → Bool) (n : Nat) :
    hoursWith day p 0 n = (List.range n).countP (fun h => p (day h)) := by
  simp [hoursWith, List.range_eq_range']

theorem inBottom_scan (day : DayStats) (s : Byte) :
    inBottomQuartile day s = quartScan day (fun v => decide (v > s)) 24 0 := by
  unfold inBottomQuartile quartScan; simp only [decide_eq_true_eq]

theorem inTop_scan (day : DayStats) (s : Byte) :
    inTopQuartile day s = if s = unsetByte then false else quartScan day (fun v => decide (v < s)) 24 0 := by
  unfold inTopQuartile quartScan; simp only [decide_eq_true_eq]

/-- A positive quartile answer is sound whatever is unset. -/
theorem quart_sound (day : DayStats) (p : Byte → Bool) (h : quartScan day p 24 0 = true) :
    18 ≤ (List.range 24).countP (fun h => p (day h)) := by
  rw [quartScan_iff _ _ _ _ (by omega)] at h
  obtain ⟨k, hk, _, h2⟩ := h
  have := hoursWith_le day p k 24 hk
  rw [hoursWith_zero] at this
  omega

theorem quart_full (day : DayStats) (p : Byte → Bool) (hf : ∀ h < 24, day h ≠ unsetByte) :
    quartScan day p 24 0 = true ↔ 18 ≤ (List.range 24).countP (fun h => p (day h)) := by
  refine ⟨quart_sound day p, fun h => ?_⟩
  rw [quartScan_iff _ _ _ _ (by omega)]
  exact ⟨0, by omega, fun h _ h2 => hf h h2, by rw [hoursWith_zero]; omega⟩

end OTR
