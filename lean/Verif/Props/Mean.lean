import Verif.Model.Valve
/-!
# Property C252: the mean of the recent temperatures
-/

namespace OTR.Props
open OTR

theorem tdiv16 (a : Int) : (0 ≤ a → 16 * a.tdiv 16 ≤ a ∧ a ≤ 16 * a.tdiv 16 + 15) ∧ (a ≤ 0 → a ≤ 16 * a.tdiv 16 ∧ 16 * a.tdiv 16 ≤ a + 15) := by
  refine ⟨fun h => ?_, fun h => ?_⟩
  · rw [Int.tdiv_eq_ediv_of_nonneg h]; omega
  · have e : a.tdiv 16 = -((-a) / 16) := by
      have h1 : (-(-a)).tdiv 16 = -((-a).tdiv 16) := Int.neg_tdiv _ _
      rw [Int.neg_neg] at h1
      rw [h1, Int.tdiv_eq_ediv_of_nonneg (by omega)]
    rw [e]; omega

/-- **C252.** Not below freezing the mean is the average rounded to the nearest 1/16 C: never off by more than half. -/
theorem C252_nearest_partial (ts : List Int) (h : -8 ≤ ts.sum) :
    16 * smallIntMean ts ≤ ts.sum + 8 ∧ ts.sum ≤ 16 * smallIntMean ts + 7 := by
  unfold smallIntMean
  have := (tdiv16 (ts.sum + 8)).1 (by omega)
  omega

/-- **C252.** Below freezing it is too high, by between a half and one and a half sixteenths. -/
theorem C252_below_zero (ts : List Int) (h : ts.sum < -8) :
    ts.sum + 8 ≤ 16 * smallIntMean ts ∧ 16 * smallIntMean ts ≤ ts.sum + 23 := by
  unfold smallIntMean
  have := (tdiv16 (ts.sum + 8)).2 (by omega)
  omega

/-- **C252.** Sixteen equal temperatures have that mean, if not negative. -/
theorem C252_constant_partial (x : Int) (h : 0 ≤ x) : smallIntMean (List.replicate 16 x) = x := by
  have : (List.replicate 16 x).sum = 16 * x := by simp [List.replicate]; omega
  have := C252_nearest_partial (List.replicate 16 x) (by omega)
  omega

/-- **C252, refuted below zero.** Sixteen equal negative temperatures are said to average 1/16 C more than each of them. -/
theorem C252_constant_refuted (x : Int) (h : x < 0) : smallIntMean (List.replicate 16 x) = x + 1 := by
  have e : (List.replicate 16 x).sum = 16 * x := by simp [List.replicate]; omega
  have := C252_below_zero (List.replicate 16 x) (by omega)
  omega

/-- **C252.** Warmer readings never lower the mean. -/
theorem C252_monotone (ts us : List Int) (hl : ts.length = us.length) (h : ∀ k, ts.getD k 0 ≤ us.getD k 0) :
    smallIntMean ts ≤ smallIntMean us := by
  have hs : ts.sum ≤ us.sum := by
    induction ts generalizing us with
    | nil => cases us with
      | nil => exact Int.le_refl _
      | cons u us => simp at hl
    | cons a ts ih => cases us with
      | nil => simp at hl
      | cons u us =>
        have h0 := h 0
        have := ih us (by simpa using hl) (fun k => by simpa using h (k + 1))
        simp only [List.getD_cons_zero] at h0
        simp only [List.sum_cons]; omega
  unfold smallIntMean
  have a1 := tdiv16 (ts.sum + 8)
  have a2 := tdiv16 (us.sum + 8)
  generalize (ts.sum + 8).tdiv 16 = p at a1 ⊢
  generalize (us.sum + 8).tdiv 16 = q at a2 ⊢
  by_cases hn : 0 ≤ ts.sum + 8
  · have := a1.1 hn; have := a2.1 (by omega); omega
  · have h1 := a1.2 (by omega)
    by_cases hm : 0 ≤ us.sum + 8
    · have := a2.1 hm; omega
    · have := a2.2 (by omega); omega

/-- **C252.** What the valve works with: in a room steady below zero a filtering valve takes the room to be 1/16 C warmer
than an unfiltered one does (`ref16` is the reading plus half a degree). -/
theorem C252_filtered_reading (s : VState) (i : VIn) (ht : s.temps = List.replicate 16 (i.ref16 - 8)) :
    (s.filtering = 0 → s.adj16 i = i.ref16) ∧ (s.filtering ≠ 0 → 8 ≤ i.ref16 → s.adj16 i = i.ref16) ∧
    (s.filtering ≠ 0 → i.ref16 < 8 → s.adj16 i = i.ref16 + 1) := by
  unfold VState.adj16
  refine ⟨fun h => by simp [h], fun h h8 => ?_, fun h h8 => ?_⟩
  · rw [if_pos h, ht, C252_constant_partial _ (by omega)]; omega
  · rw [if_pos h, ht, C252_constant_refuted _ (by omega)]; omega

/-- Cases: −1 sixteen times averages 0; a room at 19 C with one reading a degree up. -/
example : smallIntMean (List.replicate 16 (-1)) = 0 ∧ smallIntMean (320 :: List.replicate 15 304) = 305 ∧
    smallIntMean (List.replicate 16 304) = 304 ∧ smallIntMean (List.replicate 16 (-80)) = -79 := by decide

end OTR.Props
