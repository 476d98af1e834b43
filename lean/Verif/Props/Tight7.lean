import Verif.Props.UISettle
import Verif.Props.RFM23
/-!
# Properties C113 (a turn of the dial is reported) and C134 (each register is set once)
-/

namespace OTR.Props
open OTR

/-- What a dial position asks for. -/
inductive DialSetting where
  | frost
  | warm (target : Nat)
  | bake
deriving DecidableEq

/-- The setting of a dial position: the bottom end, the top end, or a warm target between. -/
def dialSetting (c : UICfg) (v : Nat) : DialSetting := if v < c.lo then .frost else if v > c.hi then .bake else .warm (c.warmOf v)

/-- This read looks at the dial: every fourth read, at every read just after use of the controls, and at every read while
in WARM mode with the room not long vacant. -/
def looksAtDial (c : UICfg) (u : UI) (i : UIIn) : Bool :=
  let v := u.begin_
  let w := v.pressIf c i.p1
  v.veryRecent || decide (v.tick % 4 = 0) || (w.mode.warm && !w.longLongVacant)

theorem nominal_setting (c : UICfg) (hw : ∀ v, c.minW ≤ c.warmOf v ∧ c.warmOf v ≤ c.maxW) (hm : 2 ≤ c.minW) (v w : Nat) :
    UI.nominalOf c v = UI.nominalOf c w ↔ dialSetting c v = dialSetting c w := by
  have h1 := hw v
  have h2 := hw w
  unfold UI.nominalOf dialSetting
  (repeat' split) <;> simp <;> omega

theorem dial_nominal (c : UICfg) (u : UI) (adc : Nat) (hn : u.nominal ≠ 0) :
    (UI.nominalOf c (u.dial c adc).pot.value = u.nominal ∧ (u.dial c adc).nominal = u.nominal) ∨
    (UI.nominalOf c (u.dial c adc).pot.value ≠ u.nominal ∧ (u.dial c adc).sig = true) := by
  have hE : ∀ (l : List PotEv) (u : UI), (l.foldl (UI.event c) u).nominal = u.nominal := by
    intro l
    induction l with
    | nil => intro u; rfl
    | cons e l ih =>
      intro u
      rw [List.foldl_cons, ih]
      cases e <;> simp only [UI.event, UI.manualWarm, UI.manualBake, UI.usedSig, UI.used] <;> (repeat' split) <;> rfl
  have hp := dial_pot c u adc
  have hpe := events_pot c (u.pot.read c.lo c.hi adc).2 { u with pot := (u.pot.read c.lo c.hi adc).1 }
  have hne := hE (u.pot.read c.lo c.hi adc).2 { u with pot := (u.pot.read c.lo c.hi adc).1 }
  rw [hp]
  unfold UI.dial
  dsimp only
  generalize List.foldl (UI.event c) { u with pot := (u.pot.read c.lo c.hi adc).1 } (u.pot.read c.lo c.hi adc).2 = v at hpe hne
  dsimp only at hpe hne
  generalize (u.pot.read c.lo c.hi adc).1 = q at hpe
  have hv1 : (if v.pot.value < c.lo then { v with mode := v.mode.setWarm false } else v).pot = q := by split <;> exact hpe
  have hv2 : (if v.pot.value < c.lo then { v with mode := v.mode.setWarm false } else v).nominal = u.nominal := by split <;> exact hne
  generalize (if v.pot.value < c.lo then { v with mode := v.mode.setWarm false } else v) = w at hv1 hv2
  rw [hv1, hv2]
  by_cases h : UI.nominalOf c q.value = u.nominal
  · left
    rw [if_neg (by simpa using h)]
    exact ⟨h, hv2⟩
  · right
    rw [if_pos h, if_pos hn]
    exact ⟨h, rfl⟩

theorem sig_reported (c : UICfg) (u : UI) (i : UIIn) (h : (uiA c u i).sig = true) : (u.read c i).1 = true := by
  apply read_true_of
  intro hD
  have hB := (uiC_kept c u i ((uiD_kept c u i hD).1)).1
  have hs : ((uiA c u i).pressIf c i.p2).sig = true := by
    unfold UI.pressIf UI.press
    (repeat' split) <;> first | exact h | rfl
  unfold uiB at hB
  dsimp only at hB
  rw [if_pos hs, feedback_status] at hB
  cases hB

theorem uiB_nominal (c : UICfg) (u : UI) (i : UIIn) : (uiB c u i).nominal = (uiA c u i).nominal := by
  have hp : ∀ (b : Bool) (v : UI), (v.pressIf c b).nominal = v.nominal := by
    intro b v; unfold UI.pressIf UI.press UI.usedSig UI.used; (repeat' split) <;> rfl
  unfold uiB
  dsimp only
  split
  · rw [(feedback_fields _ _).2, hp]
  · exact hp _ _

theorem read_nominal (c : UICfg) (u : UI) (i : UIIn) : (u.read c i).2.nominal = (uiA c u i).nominal := by
  have hp : ∀ (b : Bool) (v : UI), (v.pressIf c b).nominal = v.nominal := by
    intro b v; unfold UI.pressIf UI.press UI.usedSig UI.used; (repeat' split) <;> rfl
  have hsh : ∀ (v : UI) (a b : Bool), (v.show_ i a b).nominal = v.nominal := by
    intro v a b; unfold UI.show_; dsimp only; (repeat' split) <;> rfl
  have hpo : ((uiB c u i).poll c i).2.nominal = (uiB c u i).nominal := by
    unfold UI.poll; dsimp only; (repeat' split) <;> rfl
  rw [read_eq]
  show ((uiD c u i).pressIf c i.p4).nominal = _
  rw [hp]
  unfold uiD
  show ((uiC c u i).pressIf c i.p3).nominal = _
  rw [hp, ← uiB_nominal]
  unfold uiC
  dsimp only
  split
  · exact hpo
  · rw [hsh, hpo]

theorem read_pot (c : UICfg) (u : UI) (i : UIIn) : (u.read c i).2.pot = (uiA c u i).pot := by
  rw [read_eq]
  show ((uiD c u i).pressIf c i.p4).pot = _
  rw [pressIf_pot, uiD_pot]

/-- **C113 (the dial).** If one read looked at the dial and reported nothing (and was not the first look ever), and the next read
looks at the dial and finds it moved to a different setting — another warm target, or into or out of either end zone — then that
read reports that the user did something. -/
theorem C113_dial_turned (c : UICfg) (hp : c.hasPot = true) (hw : ∀ v, c.minW ≤ c.warmOf v ∧ c.warmOf v ≤ c.maxW) (hm : 2 ≤ c.minW)
    (u : UI) (hn : u.nominal ≠ 0) (i j : UIIn) (h1 : looksAtDial c u i = true) (hr : (u.read c i).1 = false)
    (h2 : looksAtDial c (u.read c i).2 j = true)
    (hs : dialSetting c ((u.read c i).2.read c j).2.pot.value ≠ dialSetting c (u.read c i).2.pot.value) :
    ((u.read c i).2.read c j).1 = true := by
  have hpn : ∀ (b : Bool) (v : UI), (v.pressIf c b).nominal = v.nominal := by
    intro b v; unfold UI.pressIf UI.press UI.usedSig UI.used; (repeat' split) <;> rfl
  have hA : ∀ (u : UI) (i : UIIn), looksAtDial c u i = true → uiA c u i = (u.begin_.pressIf c i.p1).dial c i.adc := by
    intro u i h
    unfold uiA
    unfold looksAtDial at h
    dsimp only at h ⊢
    rw [hp, h]
    rfl
  have d1 := dial_nominal c (u.begin_.pressIf c i.p1) i.adc (by rw [hpn]; exact hn)
  rw [← hA u i h1, hpn, ← read_pot, ← read_nominal] at d1
  have e1 : u.begin_.nominal = u.nominal := rfl
  rw [e1] at d1
  rcases d1 with ⟨d1, d2⟩ | ⟨_, d2⟩
  · have d3 := dial_nominal c ((u.read c i).2.begin_.pressIf c j.p1) j.adc (by rw [hpn]; show (u.read c i).2.nominal ≠ 0; rw [d2]; exact hn)
    rw [← hA _ j h2, hpn, ← read_pot] at d3
    have e2 : (u.read c i).2.begin_.nominal = (u.read c i).2.nominal := rfl
    rw [e2, d2] at d3
    rcases d3 with ⟨d3, _⟩ | ⟨_, d3⟩
    · exact absurd ((nominal_setting c hw hm _ _).1 (d3.trans d1.symm)) hs
    · exact sig_reported c _ j d3
  · rw [sig_reported c u i d2] at hr; cases hr

/-- A dial from 16C to 24C. -/
def uiDial : UICfg :=
  { hasPot := true, lo := 20, hi := 230, warmOf := fun v => 16 + v * 8 / 255, minW := 16, maxW := 24, isrLED := false, cycle := false }

/-- In WARM mode, the dial resting at the top of the normal range. -/
def uiTop : UI := { nominal := 23, tick := 3, mode := VMode.init.setWarm true, pot := ⟨920, 230⟩ }

/-- From the top of the normal range into the end zone: the hypotheses hold. -/
example : looksAtDial uiDial uiTop { adc := 920 } = true ∧ (uiTop.read uiDial { adc := 920 }).1 = false ∧
    looksAtDial uiDial (uiTop.read uiDial { adc := 920 }).2 { adc := 940 } = true ∧
    dialSetting uiDial ((uiTop.read uiDial { adc := 920 }).2.read uiDial { adc := 940 }).2.pot.value = .bake ∧
    dialSetting uiDial (uiTop.read uiDial { adc := 920 }).2.pot.value = .warm 23 := by decide +kernel

/-- **C134 (tables).** No register appears twice in any of the four register tables, so each is set to exactly one value. -/
theorem C134_tables_once : (regsFHT8V.map (·.1)).Nodup ∧ (regsOOK.map (·.1)).Nodup ∧ (regsGFSK.map (·.1)).Nodup ∧
    (regsJeeLabs.map (·.1)).Nodup := by decide +kernel

end OTR.Props
