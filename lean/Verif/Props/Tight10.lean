import Verif.Props.UI
/-! # C110: a long vacant room's dial rests -/

namespace OTR.Props
open OTR

/-- **C110 (saving energy).** In a room vacant for more than 39 hours, a read that is not a fourth one, with the controls not used very recently and no button pressed at its start, does not read the
dial, even in WARM mode: the dial keeps its value. -/
theorem C110_dial_rests (c : UICfg) (u : UI) (i : UIIn) (h4 : (u.tick + 1) % 4 ≠ 0) (ht : u.tmo < 29) (hv : 39 < u.occ.getVacancyH) (hp : i.p1 = false) :
    (u.read c i).2.pot = u.pot := by
  have hpotD : (u.read c i).2.pot = (uiA c u i).pot := by
    rw [read_eq]; exact (pressIf_pot _ _ _).trans (uiD_pot c u i)
  rw [hpotD]
  have h1 : u.begin_.veryRecent = false := by
    have : ¬ u.begin_.tmo ≥ 29 := by unfold UI.begin_; dsimp only; split <;> omega
    exact decide_eq_false this
  have h2 : decide (u.begin_.tick % 4 = 0) = false := decide_eq_false (by simp only [UI.begin_]; omega)
  have h3 : u.begin_.pressIf c i.p1 = u.begin_ := by unfold UI.pressIf; rw [hp]; rfl
  have h5 : u.begin_.longLongVacant = true := decide_eq_true hv
  unfold uiA
  dsimp only
  rw [h1, h2, h3, h5, if_neg (by simp)]
  rfl

/-- Non-vacuity: 40 hours vacant, in WARM mode; the dial has been turned to 900, the stored value is still 500. -/
example : ∃ (u : UI) (i : UIIn), (u.tick + 1) % 4 ≠ 0 ∧ u.tmo < 29 ∧ 39 < u.occ.getVacancyH ∧ i.p1 = false ∧ u.mode.warm = true ∧ i.adc ≠ u.pot.value := by
  exact ⟨{ occ := { Occ.init with vacH := 40 }, mode := VMode.init.setWarm true, pot := { Pot.init with value := 500 } }, { adc := 900 }, by decide, by decide, by decide, rfl, by decide, by decide⟩

end OTR.Props
