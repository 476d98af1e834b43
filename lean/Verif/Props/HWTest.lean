import Verif.Model.HWTest
/-! # C163–C165: clock tests and calibration -/

namespace OTR.Props
open OTR

/-! ## C163: is the crystal running? -/

theorem oscLoop_spec (init : Nat) (rd : Nat → Nat) (f n : Nat) :
    ((oscLoop init rd f n).1 = true ↔ ∃ k, n ≤ k ∧ k < n + f ∧ rd k ≠ init ∧ rd k ≠ (init + 1) % 256) ∧
    (∀ k, n ≤ k → k < n + f → rd k ≠ init → rd k ≠ (init + 1) % 256 → (oscLoop init rd f n).2 ≤ k + 1) ∧
    (oscLoop init rd f n).2 ≤ n + f := by
  induction f generalizing n with
  | zero =>
    rw [oscLoop]
    refine ⟨⟨fun h => (by cases h), fun ⟨k, h⟩ => by omega⟩, fun k _ _ => by omega, by simp⟩
  | succ f ih =>
    rw [oscLoop]
    by_cases h : rd n ≠ init ∧ rd n ≠ (init + 1) % 256
    · rw [if_pos h]
      exact ⟨⟨fun _ => ⟨n, Nat.le_refl _, by omega, h.1, h.2⟩, fun _ => rfl⟩, fun k _ _ _ _ => by dsimp only; omega,
        by dsimp only; omega⟩
    · rw [if_neg h]
      obtain ⟨h1, h2, h3⟩ := ih (n + 1)
      refine ⟨⟨fun hh => ?_, fun ⟨k, ha, hb, hc, hd⟩ => ?_⟩, fun k ha hb hc hd => ?_, by omega⟩
      · obtain ⟨k, ha, hb, hc⟩ := h1.mp hh
        exact ⟨k, by omega, by omega, hc⟩
      · refine h1.mpr ⟨k, ?_, by omega, hc, hd⟩
        rcases Nat.eq_or_lt_of_le ha with rfl | hlt
        · exact absurd ⟨hc, hd⟩ h
        · exact hlt
      · refine h2 k ?_ (by omega) hc hd
        rcases Nat.eq_or_lt_of_le ha with rfl | hlt
        · exact absurd ⟨hc, hd⟩ h
        · exact hlt

/-- It says yes exactly if one of 254 looks at the counter shows neither the first value nor the next one, and never looks more often. -/
theorem C163_running (init : Nat) (rd : Nat → Nat) :
    ((oscCheck init rd).1 = true ↔ ∃ k, k < 254 ∧ rd k ≠ init ∧ rd k ≠ (init + 1) % 256) ∧ (oscCheck init rd).2 ≤ 254 := by
  obtain ⟨h1, _, h3⟩ := oscLoop_spec init rd 254 0
  unfold oscCheck
  refine ⟨h1.trans ⟨fun ⟨k, h⟩ => ⟨k, by omega, h.2.2⟩, fun ⟨k, h⟩ => ⟨k, by omega, by omega, h.2⟩⟩, by omega⟩

/-- A stopped crystal, or one that ticks no more than once in the whole time, is reported. -/
theorem C163_stopped (k0 : Nat) (k : Nat → Nat) (h : ∀ n, k n = k0 ∨ k n = k0 + 1) :
    (oscCheck (k0 % 256) (fun n => k n % 256)).1 = false := by
  rw [Bool.eq_false_iff]
  intro hc
  obtain ⟨n, _, h1, h2⟩ := (C163_running _ _).1.mp hc
  rcases h n with e | e <;> rw [e] at h1 h2 <;> omega

/-- A running crystal, seen to tick at least once and less than 254 times (2 s) from each look to the next, is found
in at most three looks. `k0` and `k n` count all ticks; the counter shows a byte of them. -/
theorem C163_found (k0 : Nat) (k : Nat → Nat) (h0 : k0 ≤ k 0 ∧ k 0 ≤ k0 + 253) (h : ∀ n, k n + 1 ≤ k (n + 1) ∧ k (n + 1) ≤ k n + 253) :
    (oscCheck (k0 % 256) (fun n => k n % 256)).1 = true ∧ (oscCheck (k0 % 256) (fun n => k n % 256)).2 ≤ 3 := by
  have : ∃ n, n < 3 ∧ k n % 256 ≠ k0 % 256 ∧ k n % 256 ≠ (k0 % 256 + 1) % 256 := by
    by_cases a0 : k0 + 2 ≤ k 0
    · exact ⟨0, by omega, by omega, by omega⟩
    have b0 := h 0
    by_cases a1 : k0 + 2 ≤ k (0 + 1)
    · exact ⟨0 + 1, by omega, by omega, by omega⟩
    have b1 := h (0 + 1)
    exact ⟨0 + 1 + 1, by omega, by omega, by omega⟩
  obtain ⟨n, hn, h1, h2⟩ := this
  obtain ⟨g1, g2, _⟩ := oscLoop_spec (k0 % 256) (fun n => k n % 256) 254 0
  refine ⟨g1.mpr ⟨n, by omega, by omega, h1, h2⟩, ?_⟩
  have := g2 n (by omega) (by omega) h1 h2
  unfold oscCheck; omega

-- 15 ms naps: two ticks of 7.8 ms each
example : (oscCheck (100 % 256) (fun n => (100 + 2 * n) % 256)).1 = true :=
  (C163_found 100 (fun n => 100 + 2 * n) (by omega) (fun n => by omega)).1

/-! ## C164: is the crystal in the right ratio to the CPU clock? -/

/-- The count is the number of 64-cycle steps of the CPU clock between the two edges, as a byte. -/
theorem extCount_eq (c1 d : Nat) : extCount c1 (c1 + d) = ((c1 + d) / 64 - c1 / 64) % 256 := by
  unfold extCount; omega

theorem extLoop_spec (cnt : Nat → Nat) (f i : Nat) (hf : f + i = 32) :
    ((extLoop cnt f i).1 = true ↔ ∃ k, i ≤ k ∧ k < 32 ∧ 118 < cnt k ∧ cnt k < 126) ∧ (extLoop cnt f i).2 ≤ 32 ∧
    ((extLoop cnt f i).1 = false → (extLoop cnt f i).2 = 32) := by
  induction f generalizing i with
  | zero => rw [extLoop]; exact ⟨⟨fun h => (by cases h), fun ⟨k, h⟩ => by omega⟩, by dsimp only; omega, fun _ => by dsimp only; omega⟩
  | succ f ih =>
    rw [extLoop]
    by_cases h : cnt i < 122 + 4 ∧ cnt i > 122 - 4
    · rw [if_pos h]
      exact ⟨⟨fun _ => ⟨i, Nat.le_refl _, by omega, by omega, by omega⟩, fun _ => rfl⟩, by dsimp only; omega, fun h => by cases h⟩
    · rw [if_neg h]
      have hstep : ∀ k, i ≤ k → 118 < cnt k → cnt k < 126 → i + 1 ≤ k := fun k ha hb hc => by
        rcases Nat.eq_or_lt_of_le ha with rfl | hlt
        · exact absurd ⟨by omega, by omega⟩ h
        · exact hlt
      by_cases h2 : i > 30
      · rw [if_pos h2]
        exact ⟨⟨fun h => (by cases h), fun ⟨k, a, b, c, d⟩ => by have := hstep k a c d; omega⟩, by dsimp only; omega,
          fun _ => by dsimp only; omega⟩
      · rw [if_neg h2]
        obtain ⟨g1, g2, g3⟩ := ih (i + 1) (by omega)
        exact ⟨g1.trans ⟨fun ⟨k, a⟩ => ⟨k, by omega, a.2⟩, fun ⟨k, a⟩ => ⟨k, hstep k a.1 a.2.2.1 a.2.2.2, a.2⟩⟩, g2, g3⟩

/-- Yes exactly if the crystal runs and one of 32 measurements counts 119 to 125 steps; it always ends. -/
theorem C164_sane (init : Nat) (rd cnt : Nat → Nat) :
    ((extCheck init rd cnt).1 = true ↔ (oscCheck init rd).1 = true ∧ ∃ k, k < 32 ∧ 119 ≤ cnt k ∧ cnt k ≤ 125) ∧
      (extCheck init rd cnt).2 ≤ 32 := by
  unfold extCheck
  by_cases h : (oscCheck init rd).1 = true
  · rw [if_pos h]
    obtain ⟨h1, h2, _⟩ := extLoop_spec cnt 32 0 rfl
    refine ⟨h1.trans ⟨fun ⟨k, a⟩ => ⟨h, k, by omega⟩, fun ⟨_, k, a⟩ => ⟨k, by omega⟩⟩, h2⟩
  · rw [if_neg h]
    exact ⟨⟨fun h => (by cases h), fun h' => absurd h'.1 h⟩, by simp⟩

/-- A measurement of a tick of `d` CPU cycles passes if d is 7616 to 8000 (CPU at 0.975 to 1.024 MHz), whatever the phase. -/
theorem C164_good_clock (c1 d : Nat) (h : 7616 ≤ d ∧ d ≤ 8000) : 119 ≤ extCount c1 (c1 + d) ∧ extCount c1 (c1 + d) ≤ 125 := by
  rw [extCount_eq]; omega

/-- If it passes, d is 7553 to 8063 (0.967 to 1.032 MHz), or off by a multiple of 16384 cycles. -/
theorem C164_pass_means (c1 d : Nat) (h : 119 ≤ extCount c1 (c1 + d) ∧ extCount c1 (c1 + d) ≤ 125) :
    ∃ j r, d = 16384 * j + r ∧ 7553 ≤ r ∧ r ≤ 8063 := by
  rw [extCount_eq] at h
  exact ⟨d / 16384, d % 16384, by omega, by omega, by omega⟩

/-- So a CPU at 3.1 MHz passes too: the count wraps. -/
theorem C164_refuted_wrap (c1 : Nat) : extCount c1 (c1 + 24192) = 122 := by
  rw [extCount_eq]; omega

/-! ## C165: calibrating the CPU clock -/

theorem calLoop_eq (cycles f t : Nat) (h : 39 * t < cycles ∨ t = 0) (hf : cycles ≤ f + t) (hp : 0 < cycles) :
    calLoop cycles f t = (cycles + 38) / 39 := by
  induction f generalizing t with
  | zero => rw [calLoop]; omega
  | succ f ih =>
    rw [calLoop]
    by_cases h2 : 39 * (t + 1) < cycles
    · rw [if_pos h2]; exact ih (t + 1) (Or.inl h2) (by omega)
    · rw [if_neg h2]; omega

/-- The count for a tick of `cycles` CPU cycles is the number of 39-cycle turns, rounded up, as a byte. -/
theorem C165_count (cycles : Nat) (h : 0 < cycles) : calCount cycles = (cycles + 38) / 39 % 256 := by
  unfold calCount
  rw [calLoop_eq cycles cycles 0 (Or.inr rfl) (by omega) h]

/-- Success means that at the OSCCAL value left, which is not a limit value, the last count was on target. -/
theorem tune_success (cnt : Nat → Nat → Nat) (f o i : Nat) (h : (tuneLoop cnt f o i).1 = true) :
    ∃ k, (tuneLoop cnt f o i).2.2 = k + 1 ∧ i ≤ k ∧ k < i + f ∧ cnt k (tuneLoop cnt f o i).2.1 = 200 ∧
      (tuneLoop cnt f o i).2.1 ≠ 0x80 ∧ (tuneLoop cnt f o i).2.1 ≠ 0xFF := by
  induction f generalizing o i with
  | zero => rw [tuneLoop] at h; cases h
  | succ f ih =>
    rw [tuneLoop] at h ⊢
    by_cases h1 : o = 0x80 ∨ o = 0xFF
    · rw [if_pos h1] at h; cases h
    rw [if_neg h1] at h ⊢
    have ht : calTarget = 200 := by decide
    by_cases h2 : cnt i o > calTarget
    · rw [if_pos h2] at h ⊢
      obtain ⟨k, a, b, c, d⟩ := ih _ _ h
      exact ⟨k, a, by omega, by omega, d⟩
    rw [if_neg h2] at h ⊢
    by_cases h3 : cnt i o < calTarget
    · rw [if_pos h3] at h ⊢
      obtain ⟨k, a, b, c, d⟩ := ih _ _ h
      exact ⟨k, a, by omega, by omega, d⟩
    · rw [if_neg h3]
      exact ⟨i, rfl, Nat.le_refl _, by omega, by dsimp only; omega, fun e => h1 (Or.inl e), fun e => h1 (Or.inr e)⟩

/-- Success, with a CPU clock that cannot exceed 1.27 MHz, means a tick took 7762 to 7800 CPU cycles when last measured: 0.9935 to
0.9984 MHz, so the clock is left up to 0.65% slow, never fast. At most 128 tries are made. -/
theorem C165_success (init : Nat) (rd : Nat → Nat) (cyc : Nat → Nat → Nat) (o : Nat) (hc : ∀ i o, 0 < cyc i o ∧ cyc i o ≤ 9945)
    (h : (calibrateOsc init rd (fun i o => calCount (cyc i o)) o).1 = true) :
    ∃ k o', calibrateOsc init rd (fun i o => calCount (cyc i o)) o = (true, o', k + 1) ∧ k < 128 ∧ 7762 ≤ cyc k o' ∧ cyc k o' ≤ 7800 ∧
      o' ≠ 0x80 ∧ o' ≠ 0xFF := by
  unfold calibrateOsc at h ⊢
  by_cases h0 : (oscCheck init rd).1 = true
  · rw [if_pos h0] at h ⊢
    obtain ⟨k, a, _, b, c, d⟩ := tune_success _ 128 o 0 h
    have hh := hc k (tuneLoop (fun i o => calCount (cyc i o)) 128 o 0).2.1
    rw [C165_count _ hh.1] at c
    refine ⟨k, (tuneLoop (fun i o => calCount (cyc i o)) 128 o 0).2.1, Prod.ext h (Prod.ext rfl a), by omega, by omega, by omega, d⟩
  · rw [if_neg h0] at h; cases h

/-- No success without a running crystal, and then the clock is left alone. -/
theorem C165_no_crystal (init : Nat) (rd : Nat → Nat) (cnt : Nat → Nat → Nat) (o : Nat) (h : (oscCheck init rd).1 = false) :
    calibrateOsc init rd cnt o = (false, o, 0) := by
  unfold calibrateOsc; rw [h]; rfl

/-- Starting in the upper range, the calibration value stays in it: it never jumps the gap between the oscillator's two ranges. -/
theorem tune_range (cnt : Nat → Nat → Nat) (f o i : Nat) (h : 0x80 ≤ o ∧ o ≤ 0xFF) :
    0x80 ≤ (tuneLoop cnt f o i).2.1 ∧ (tuneLoop cnt f o i).2.1 ≤ 0xFF := by
  induction f generalizing o i with
  | zero => exact h
  | succ f ih =>
    rw [tuneLoop]
    by_cases h1 : o = 0x80 ∨ o = 0xFF
    · rw [if_pos h1]; exact h
    rw [if_neg h1]
    by_cases h2 : cnt i o > calTarget
    · rw [if_pos h2]; exact ih _ _ (by omega)
    rw [if_neg h2]
    by_cases h3 : cnt i o < calTarget
    · rw [if_pos h3]; exact ih _ _ (by omega)
    · rw [if_neg h3]; exact h

theorem C165_range (init : Nat) (rd : Nat → Nat) (cnt : Nat → Nat → Nat) (o : Nat) (h : 0x80 ≤ o ∧ o ≤ 0xFF) :
    0x80 ≤ (calibrateOsc init rd cnt o).2.1 ∧ (calibrateOsc init rd cnt o).2.1 ≤ 0xFF := by
  unfold calibrateOsc
  split
  · exact tune_range cnt 128 o 0 h
  · exact h

/-- The search finds the target: for a clock whose count does not fall as OSCCAL rises through the upper range (so never wraps),
a value strictly inside that range that gives the target count is reached from every start strictly inside it. -/
theorem C165_finds (init : Nat) (rd : Nat → Nat) (c : Nat → Nat) (o t : Nat) (hx : (oscCheck init rd).1 = true)
    (hmono : ∀ a b, 0x80 ≤ a → a ≤ b → b ≤ 0xFF → c a ≤ c b)
    (ho : 0x80 < o ∧ o < 0xFF) (ht : 0x80 < t ∧ t < 0xFF) (hct : c t = 200) :
    ∃ o' n, calibrateOsc init rd (fun _ o => c o) o = (true, o', n) ∧ c o' = 200 := by
  unfold calibrateOsc
  rw [if_pos hx]
  have hT : calTarget = 200 := by decide
  have : ∀ (f o i : Nat), 0x80 < o → o < 0xFF → (t - o) + (o - t) < f →
      ∃ o' n, tuneLoop (fun _ o => c o) f o i = (true, o', n) ∧ c o' = 200 := by
    intro f
    induction f with
    | zero => intro o i _ _ h; omega
    | succ f ih =>
      intro o i h1 h2 hd
      rw [tuneLoop, if_neg (by omega)]
      by_cases h3 : c o > calTarget
      · rw [if_pos h3]
        have : t < o := by
          rcases Nat.lt_or_ge t o with h | h
          · exact h
          · have := hmono o t (by omega) h (by omega); omega
        have e : (o + 255) % 256 = o - 1 := by omega
        rw [e]
        exact ih _ _ (by omega) (by omega) (by omega)
      rw [if_neg h3]
      by_cases h4 : c o < calTarget
      · rw [if_pos h4]
        have : o < t := by
          rcases Nat.lt_or_ge o t with h | h
          · exact h
          · have := hmono t o (by omega) h (by omega); omega
        have e : (o + 1) % 256 = o + 1 := by omega
        rw [e]
        exact ih _ _ (by omega) (by omega) (by omega)
      · rw [if_neg h4]
        exact ⟨o, i + 1, rfl, by omega⟩
  exact this 128 o 0 ho.1 ho.2 (by omega)

example : ∃ o' n, calibrateOsc 0 (fun n => 2 * n) (fun _ o => calCount (39 * (o + 56))) 0xA0 = (true, o', n) ∧
    7762 ≤ 39 * (o' + 56) ∧ 39 * (o' + 56) ≤ 7800 := ⟨144, 17, by decide +kernel, by decide, by decide⟩

/-- The byte count matters: with a tick of 50 cycles more per step of OSCCAL and 7800 at 0x90, a start at 0xFE (1.7 MHz) wraps, is
taken for slow, and fails although 0x90 would do. -/
theorem C165_refuted_wrap : ∀ rd init, (calibrateOsc init rd (fun _ o => calCount (7800 + 50 * o - 50 * 0x90)) 0xFE).1 = false ∧
    calCount (7800 + 50 * 0x90 - 50 * 0x90) = 200 := by
  intro rd init
  refine ⟨?_, by rw [C165_count _ (by omega)]⟩
  unfold calibrateOsc
  split
  · rw [tuneLoop, if_neg (by omega), if_neg (by rw [C165_count _ (by omega)]; decide), if_pos (by rw [C165_count _ (by omega)]; decide),
      tuneLoop, if_pos (by decide)]
  · rfl

end OTR.Props
