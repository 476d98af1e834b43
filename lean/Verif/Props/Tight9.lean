import Verif.Spec.ValveZones
import Verif.Props.Motor
/-!
# C102, tightened: the zones of the proportional valve

Two seeded mutants of the width of the end zones survived C102; this states the zones exactly.
-/
namespace OTR.Props
open OTR OTR.Spec

/-- **C102** (zones): a calibrated proportional driver in normal running, with time to run and the battery not low, runs the motor
exactly as the specification of the zones says; apart from a target met exactly, where it never runs. -/
theorem C102_zones (m : Motor) (i : MIn) (hp : m.prop = true) (hst : m.st = .normal) (hs : i.sct < m.limit)
    (hlow : i.low = false) (hneed : m.need = false) (hcan : m.cp.cannot = false) (hprec : m.cp.prec ≤ 15)
    (ht : m.target ≤ 100) (hne : m.cur ≠ m.target) :
    (m.poll i).2 = match valveRun m.target m.cur m.cp.prec with
      | none => []
      | some o => [.drive o i.first.hit, .off] := by
  have hl2 : ¬ i.sct ≥ m.limit := by omega
  have hnp : m.nonProp = false := by simp [Motor.nonProp, hneed, hcan]
  have hw : m.weps = max 11 (2 * m.cp.prec) := rfl
  have hrc : ∀ o, Motor.runCmds o i.first = [.drive o i.first.hit, .off] := fun o => rfl
  unfold Motor.poll
  rw [if_neg hl2, hst]
  dsimp only
  rw [if_neg hne, if_pos hp]
  unfold valveRun
  dsimp only
  rw [← hw]
  have hwb : 11 ≤ m.weps ∧ 2 * m.cp.prec ≤ m.weps ∧ m.weps ≤ 30 := by omega
  obtain ⟨w1, w2, w3⟩ := hwb
  have hbin1 : m.target ≥ 50 → (m.normalBin i).2 = if m.cur = 100 then [] else [.drive true i.first.hit, .off] := by
    intro h50
    unfold Motor.normalBin
    simp only [h50, decide_true, if_true, hlow]
    by_cases hc : m.cur = 100
    · simp [hc]
    · simp only [hc, if_false]
      by_cases hh : i.first.hit = true <;> simp [hh, hrc]
  have hbin0 : ¬ m.target ≥ 50 → (m.normalBin i).2 = if m.cur = 0 then [] else [.drive false i.first.hit, .off] := by
    intro h50
    unfold Motor.normalBin
    simp only [h50, decide_false, hlow]
    by_cases hc : m.cur = 0
    · simp [hc]
    · by_cases hh : i.first.hit = true <;> simp [hh, hrc, hc]
  have hpn : ∀ h : m.target + m.weps ≥ 100 + m.cp.prec ∨ m.target + m.cp.prec ≤ m.weps ∨
      (m.target + m.weps ≥ 100 ∧ m.cur = 100) ∨ (m.target ≤ m.weps ∧ m.cur = 0), m.normalProp i = none := by
    intro h
    unfold Motor.normalProp
    rw [if_neg (by simp [hneed]), if_neg (by simp [hnp])]
    dsimp only
    by_cases a : m.target ≥ 100 - m.weps + m.cp.prec ∨ m.target ≤ m.weps - m.cp.prec
    · rw [if_pos a]
    · rw [if_neg a, if_pos (by omega)]
  by_cases h1 : m.target + m.weps ≥ 100 + m.cp.prec
  · rw [hpn (.inl h1)]; dsimp only; rw [hbin1 (by omega), if_pos h1]
    by_cases hc : m.cur = 100 <;> simp [hc]
  rw [if_neg h1]
  by_cases h2 : m.target + m.cp.prec ≤ m.weps
  · rw [hpn (.inr (.inl h2))]; dsimp only; rw [hbin0 (by omega), if_pos h2]
    by_cases hc : m.cur = 0 <;> simp [hc]
  rw [if_neg h2]
  by_cases h3 : m.target + m.weps ≥ 100 ∧ m.cur = 100
  · rw [hpn (.inr (.inr (.inl h3)))]; dsimp only; rw [hbin1 (by omega), if_pos h3]
    simp [h3.2]
  rw [if_neg h3]
  by_cases h4 : m.target ≤ m.weps ∧ m.cur = 0
  · rw [hpn (.inr (.inr (.inr h4)))]; dsimp only; rw [hbin0 (by omega), if_pos h4]
    simp [h4.2]
  rw [if_neg h4]
  have hX : m.normalProp i = some (if (m.target ≥ m.cur ∧ m.target ≤ m.cur + m.cp.prec) ∨ (m.cur ≥ m.target ∧ m.cur ≤ m.target + m.cp.prec)
      then ({ m with hits := 0 }, []) else ((m.normalProp i).getD (m, [])) ) ∧
      (¬ ((m.target ≥ m.cur ∧ m.target ≤ m.cur + m.cp.prec) ∨ (m.cur ≥ m.target ∧ m.cur ≤ m.target + m.cp.prec)) →
        ((m.normalProp i).getD (m, [])).2 = [.drive (decide (m.target > m.cur)) i.first.hit, .off]) := by
    unfold Motor.normalProp
    rw [if_neg (by simp [hneed]), if_neg (by simp [hnp])]
    dsimp only
    rw [if_neg (by omega), if_neg (by omega)]
    by_cases h5 : (m.target ≥ m.cur ∧ m.target ≤ m.cur + m.cp.prec) ∨ (m.cur ≥ m.target ∧ m.cur ≤ m.target + m.cp.prec)
    · rw [if_pos h5, if_pos h5]
      exact ⟨rfl, fun h => absurd h5 h⟩
    · rw [if_neg h5, if_neg h5]
      by_cases hh : i.first.hit = true
      · rw [if_pos hh]
        exact ⟨rfl, fun _ => by simp [hrc, hh]⟩
      · rw [if_neg hh]
        exact ⟨rfl, fun _ => by simp [hrc, hh]⟩
  obtain ⟨hX, hY⟩ := hX
  rw [hX]
  dsimp only
  by_cases h5 : (m.target ≥ m.cur ∧ m.target ≤ m.cur + m.cp.prec) ∨ (m.cur ≥ m.target ∧ m.cur ≤ m.target + m.cp.prec)
  · rw [if_pos h5, if_pos (by omega)]
  · rw [if_neg h5, if_neg (by omega), hY h5]

/-- **C102** (no flapping): a valve standing at an end stop is left there when the target moves back by no more than the precision
from a target that sent it there. -/
theorem C102_no_flap (t t' p : Nat) (hp : p ≤ 15) :
    (valveRun t 100 p = none → t + max 11 (2 * p) ≥ 100 + p → t ≤ t' + p → valveRun t' 100 p = none) ∧
    (valveRun t 0 p = none → t + p ≤ max 11 (2 * p) → t' ≤ t + p → valveRun t' 0 p = none) := by
  constructor
  · intro _ h1 h2
    simp only [valveRun]
    by_cases a : t' + max 11 (2 * p) ≥ 100 + p
    · simp [a]
    · rw [if_neg a, if_neg (by omega), if_pos ⟨by omega, trivial⟩]
  · intro _ h1 h2
    simp only [valveRun]
    rw [if_neg (by omega)]
    by_cases a : t' + p ≤ max 11 (2 * p)
    · simp [a]
    · rw [if_neg a, if_neg (by omega), if_pos ⟨by omega, trivial⟩]

/-- The zones at work: precision 3 gives end zones of 11%; 92% sends an open valve to the stop, at the stop 89% leaves it there
and 88% does not; half open, 54% moves it and 53% does not. -/
example : valveRun 92 60 3 = some true ∧ valveRun 89 100 3 = none ∧ valveRun 88 100 3 = some false ∧
    valveRun 54 50 3 = some true ∧ valveRun 53 50 3 = none ∧ valveRun 8 30 3 = some false ∧ valveRun 11 0 3 = none := by decide

/-- A driver to which `C102_zones` applies: calibrated with precision 3, half open, asked for 60%. -/
example : ∃ m : Motor, m.prop = true ∧ m.st = .normal ∧ (5 < m.limit) ∧ m.need = false ∧ m.cp.cannot = false ∧ m.cp.prec ≤ 15 ∧
    m.target ≤ 100 ∧ m.cur ≠ m.target :=
  ⟨{ Motor.new true 200 40 0 0 with st := .normal, cur := 50, target := 60, need := false, cp := (Calib.update 2000 2000 40).2 },
    by decide +kernel⟩

end OTR.Props
