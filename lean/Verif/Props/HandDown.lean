import Verif.Props.HandOpen
/-!
# Property C256: turning the dial down below the room's temperature ends the call for heat
-/

namespace OTR.Props
open OTR

/-- **C256.** The valve is in WARM or BAKE (on a schedule or by hand). The dial is turned down: within its normal range to a temperature the room
(to the nearest degree) has already reached; or into the frost end zone, in a room not below the frost temperature. Then
at the very next reading, whatever the schedule, occupancy, light and statistics, and whatever the position and state of the valve, it does not call for heat, and any BAKE is over. -/
theorem C256_dial_down (p : VCP) (c : UICfg) (vc : VCfg) (maxPC : Nat) (u : UI) (i : UIIn) (s : MV) (x : MVIn)
    (hp : c.hasPot = true) (hc : NoCycle c u i) (hn : NoPress i)
    (hs : (u.tick + 1) % 4 = 0 ∨ u.tmo ≥ 30 ∨ (u.mode.warm = true ∧ u.occ.getVacancyH ≤ 39))
    (h1 : u.nominal ≠ 0) (hr : u.pot.raw ≠ 65535) (hw : u.mode.warm = true)
    (hdown : (u.read c i).2.pot.value < u.pot.value) (hhi : (u.read c i).2.pot.value ≤ c.hi)
    (hmode : s.mode = (u.read c i).2.mode)
    (hroom : if c.lo ≤ (u.read c i).2.pot.value then (c.warmOf (u.read c i).2.pot.value : Int) ≤ (x.temp16 + 8) / 16
      else (x.tt.frostC : Int) ≤ (x.temp16 + 8) / 16) :
    let after := s.step p vc maxPC ([], { x with tt := controls c (u.read c i).2 x.tt })
    after.calling = false ∧ after.mode.inBake = false ∧ after.under = false := by
  intro after
  have hD := C254_dial p c u i x.tt hp hc hn hs h1 hr
  have e3 : after = s.read p vc maxPC { x with tt := controls c (u.read c i).2 x.tt } := rfl
  have ht : (after.target : Int) ≤ (x.temp16 + 8) / 16 := by
    by_cases hlo : c.lo ≤ (u.read c i).2.pot.value
    · rw [if_pos hlo] at hroom
      have hT := hD.2.2.1 hdown hlo hhi hw
      have hm := (C253_dial_turned c u i hp hc hn hs h1 hr hlo).2.2.1 hdown hhi
      have hmr : (s.mode.run []).read = (u.read c i).2.mode := by
        show s.mode.read = _
        rw [hmode]
        have a : (u.read c i).2.mode.warm = true := hm.2.trans hw
        have b := hm.1
        generalize (u.read c i).2.mode = m at a b
        obtain ⟨w, k⟩ := m
        dsimp only at a
        subst a
        have : k = 0 := by
          by_cases hk : k = 0
          · exact hk
          · exact absurd (by simp [VMode.get, hk]) b
        subst this
        rfl
      have : after.target = c.warmOf (u.read c i).2.pot.value := by
        rw [← hT]
        show computeTarget p { controls c (u.read c i).2 x.tt with mode := (s.mode.run []).read } = _
        rw [hmr]; rfl
      rw [this]; exact hroom
    · rw [if_neg hlo] at hroom
      have hlo' : (u.read c i).2.pot.value < c.lo := by omega
      have ho := (turned_occ c u i hp hn hs hr (by omega)).2 hlo' hw
      have hwf : (u.read c i).2.mode.warm = false := by
        rw [read_mode c u i hc hn, uiA_looks c u i hp hn hs]
        apply dial_frost
        rw [← uiA_looks c u i hp hn hs, ← read_pot]
        exact hlo'
      have : after.target = x.tt.frostC := by
        show computeTarget p { controls c (u.read c i).2 x.tt with mode := (s.mode.run []).read } = _
        have e : (s.mode.run []).read.warm = false := by show s.mode.warm = false; rw [hmode]; exact hwf
        generalize (s.mode.run []).read = m at e
        unfold computeTarget controls
        simp [e, ho]
      rw [this]; exact hroom
  have k := C87_call_for_heat p vc maxPC s { x with tt := controls c (u.read c i).2 x.tt }
  rw [← e3] at k
  have hu : after.under = false := by
    cases h : after.under
    · rfl
    · have := k.2.1.1 h
      dsimp only at this; omega
  refine ⟨?_, k.2.2.2.1 hu, hu⟩
  cases h : after.calling
  · rfl
  · have := (k.1.1 h).1
    dsimp only at this; omega

/-- Baking in a room at 20 °C, with the valve fully open and a schedule on, turned down from 21 °C to 18 °C; and into the frost zone. -/
example : let u : UI := { nominal := 21, tick := 3, mode := VMode.init.startBake, pot := ⟨640, 160⟩ }
    let y : MVIn := ⟨⟨VMode.init, 6, 0, 0, true, true, true, false, false, 0, 0, 0⟩, 320, false, false, false, true, none, false, 15⟩
    (u.read uiDial { adc := 300 }).2.pot.value < u.pot.value ∧
    (uiDial.warmOf (u.read uiDial { adc := 300 }).2.pot.value : Int) ≤ (y.temp16 + 8) / 16 ∧
    (u.read uiDial { adc := 40 }).2.pot.value < uiDial.lo ∧
    ((({ newMV with mode := u.mode, value := 100 } : MV).step vcpDefault ⟨false, false, false⟩ 100 ([], { y with tt := controls uiDial u y.tt })).calling = true) := by
  decide +kernel

end OTR.Props
