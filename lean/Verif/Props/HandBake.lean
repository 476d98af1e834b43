import Verif.Props.HandDown
/-!
# Property C257: pressing the button in a cold room opens the valve and calls for heat
-/

namespace OTR.Props
open OTR

/-- The target in BAKE. -/
def bakeTargetOf (p : VCP) (warmC : Nat) : Nat := min ((warmC + p.bakeUplift) % 256) maxTargetC

theorem bake_target_tt (p : VCP) (x : TTIn) (k : Nat) (h : x.mode = ⟨true, k + 1⟩) : computeTarget p x = bakeTargetOf p x.warmC := by
  unfold computeTarget bakeTargetOf
  simp [h, VMode.inBake]

/-- A minute of BAKE not reaching the target. -/
theorem bake_step (p : VCP) (vc : VCfg) (maxPC : Nat) (s : MV) (x : MVIn) (k W : Nat) (hW : x.tt.warmC = W)
    (hk : s.mode = ⟨true, k + 2⟩) (hc : (x.temp16 + 8) / 16 < bakeTargetOf p W) :
    (s.step p vc maxPC ([], x)).mode = ⟨true, k + 1⟩ ∧ (s.step p vc maxPC ([], x)).target = bakeTargetOf p W := by
  have hm : (s.mode.run []).read = ⟨true, k + 1⟩ := by show s.mode.read = _; rw [hk]; rfl
  have ht : (s.step p vc maxPC ([], x)).target = bakeTargetOf p W := by
    show computeTarget p { x.tt with mode := (s.mode.run []).read } = _
    rw [bake_target_tt p _ k hm]
    show bakeTargetOf p x.tt.warmC = _
    rw [hW]
  refine ⟨?_, ht⟩
  have k3 : (s.step p vc maxPC ([], x)).mode =
      if decide (((s.step p vc maxPC ([], x)).target : Int) ≤ (x.temp16 + 8) / 16) = true then (s.mode.run []).read.cancelBake else (s.mode.run []).read := rfl
  rw [k3, ht, if_neg (by simp only [decide_eq_true_eq]; omega), hm]

theorem bake_ticks (p : VCP) (vc : VCfg) (maxPC W : Nat) (es : List MVIn) : ∀ (k : Nat) (s : MV), s.mode = ⟨true, k⟩ → es.length < k →
    (∀ x ∈ es, x.tt.warmC = W ∧ (x.temp16 + 8) / 16 < bakeTargetOf p W) →
    (s.run p vc maxPC (es.map fun x => ([], x))).mode = ⟨true, k - es.length⟩ ∧
    ∀ t ∈ s.ticks p vc maxPC (es.map fun x => ([], x)), ∃ x ∈ es,
      t.1.target = bakeTargetOf p W ∧ t.1.maxTarget = W ∧ t.1.maxPC = min maxPC 100 ∧ t.1.ref16 = x.temp16 + 8 ∧
      t.1.glacial = (x.glacial || decide (min maxPC 100 < 50)) := by
  induction es with
  | nil => intro k s hk _ _; exact ⟨hk, fun t ht => by cases ht⟩
  | cons x es ih =>
    intro k s hk hlen hx
    simp only [List.length_cons] at hlen
    obtain ⟨j, rfl⟩ : ∃ j, k = j + 2 := ⟨k - 2, by omega⟩
    have hx0 := hx x (List.mem_cons_self ..)
    have hs := bake_step p vc maxPC s x j W hx0.1 hk hx0.2
    have hr := ih (j + 1) _ hs.1 (by omega) (fun y hy => hx y (List.mem_cons_of_mem _ hy))
    refine ⟨?_, fun t ht => ?_⟩
    · rw [show j + 2 - (x :: es).length = j + 1 - es.length by simp only [List.length_cons]; omega]
      exact hr.1
    · rcases List.mem_cons.1 ht with rfl | ht
      · exact ⟨x, List.mem_cons_self .., hs.2, hx0.1, rfl, rfl, rfl⟩
      · obtain ⟨y, hy, r⟩ := hr.2 t ht
        exact ⟨y, List.mem_cons_of_mem _ hy, r⟩

/-- **C257.** The button (of the kind that starts BAKE) is pressed, with the dial, if any, not in its frost end zone. If at every reading
in the next minutes (at most 30, with nobody else changing the mode), and at those the valve remembers, the room is more than 7.5 °C
below the BAKE target (the WARM temperature and the uplift, limited to the maximum), then whatever the schedule, occupancy, light and
statistics, the valve, from any state, is open to its limit: after 11 readings outside glacial operation, and in any case after 11 plus
one per percent. Being that open (at least 50%, at least its 'really open' minimum, and so any physical device), it then calls for
heat at the next reading in the 30 if the room is colder than the BAKE target, and it is still in BAKE. -/
theorem C257_bake_opens (p : VCP) (c : UICfg) (vc : VCfg) (hbin : vc.binary = false) (maxPC W : Nat) (u : UI) (hcyc : c.cycle = false)
    (hdial : c.hasPot = false ∨ c.lo ≤ u.pot.value) (es : List MVIn) (hlen : es.length ≤ 30)
    (s : MV) (hmode : s.mode = (u.press c).mode) (hv : s.value ≤ min maxPC 100) (htd : s.st.turndownM ≤ 11) (hf : s.st.Full) (hW95 : W ≤ 95)
    (hcold : ∀ x ∈ es, x.tt.warmC = W ∧ -1900 ≤ x.temp16 ∧ x.temp16 + 8 < 16 * ((bakeTargetOf p W : Int) - 7))
    (hmem : s.st.initialised = true → ∀ x ∈ s.st.temps, -1900 ≤ x ∧ x + 8 < 16 * ((bakeTargetOf p W : Int) - 7)) :
    let after := s.run p vc maxPC (es.map fun x => ([], x))
    (11 + (min maxPC 100 - s.value) ≤ es.length → after.value = min maxPC 100) ∧
    ((vc.alwaysGlacial = false ∧ 50 ≤ maxPC ∧ ∀ x ∈ es, x.glacial = false) → 11 ≤ es.length → after.value = min maxPC 100) ∧
    (∀ y : MVIn, es.length ≤ 29 → after.value = min maxPC 100 → 50 ≤ maxPC → y.minOpen ≤ min maxPC 100 →
      (y.phys = none ∨ y.physOpen = true) → y.tt.warmC = W → (y.temp16 + 8) / 16 < bakeTargetOf p W →
      (after.step p vc maxPC ([], y)).calling = true ∧ (after.step p vc maxPC ([], y)).mode.get = 2) := by
  have hm0 : s.mode = ⟨true, 31⟩ := by
    have hcond : ¬ (c.hasPot = true ∧ u.pot.value < c.lo) := by
      rcases hdial with h | h
      · rw [h]; simp
      · omega
    rw [hmode]
    unfold UI.press
    rw [if_neg (by rw [hcyc]; simp), if_neg hcond, usedSig_mode]
    rfl
  obtain ⟨M, T⟩ := bake_ticks p vc maxPC W es 31 s hm0 (by omega) (fun x hx => ⟨(hcold x hx).1, by have := (hcold x hx).2.2; omega⟩)
  intro after
  have hB95 : bakeTargetOf p W ≤ 95 := Nat.min_le_right _ _
  have key := C47_opens_in_time vc hbin (min maxPC 100) (s.ticks p vc maxPC (es.map fun x => ([], x)))
    (fun t ht => by
      obtain ⟨e, he, a1, a2, a3, a4, a5⟩ := T t ht
      exact ⟨a3, by rw [a1]; exact hB95, by rw [a2]; exact hW95, by rw [a3]; omega⟩)
    s.st s.value hv htd hf
    (fun t ht t' ht' => by
      obtain ⟨e, he, a1, a2, a3, a4, a5⟩ := T t ht
      obtain ⟨_, _, b1, _⟩ := T t' ht'
      have := (hcold e he).2
      unfold coldLimit
      rw [b1, a4]; omega)
    (fun hi t ht x hx => by
      obtain ⟨_, _, b1, _⟩ := T t ht
      have := hmem hi x hx
      unfold coldLimit
      rw [b1]; omega)
  rw [ticks_length, List.length_map, ← run_eq] at key
  refine ⟨key.1, fun ⟨g1, g2, g3⟩ hl => key.2 ⟨g1, fun t ht => ?_⟩ hl, ?_⟩
  · obtain ⟨e, he, a1, a2, a3, a4, a5⟩ := T t ht
    rw [a5, g3 e he]
    simp only [Bool.false_or, decide_eq_false_iff_not]; omega
  · intro y h28 hval h50 hmin hphys hyW hy
    have hs := bake_step p vc maxPC after y (29 - es.length) W hyW
      (by rw [show 29 - es.length + 2 = 31 - es.length by omega]; exact M) hy
    refine ⟨?_, ?_⟩
    · have k := (C87_call_for_heat p vc maxPC after y).1
      refine k.2 ⟨?_, by rw [hval]; omega, by rw [hval]; exact hmin, hphys⟩
      have e3 : (after.read p vc maxPC y).target = (after.step p vc maxPC ([], y)).target := rfl
      rw [e3, hs.2]; exact hy
    · rw [hs.1]
      unfold VMode.get
      simp

/-- A minute in a dark room at 10 °C, vacant for long, with no schedule and WARM set to 19 °C. -/
def coolBakeMinute : MVIn := ⟨⟨VMode.init, 6, 19, 60, false, false, false, false, false, 700, 0, 0⟩, 160, false, false, false, true, none, false, 15⟩

/-- The button pressed there: the hypotheses hold, and the valve opens. -/
example : (({ newMV with mode := (uiAway.press uiDial).mode } : MV).run vcpDefault ⟨false, false, false⟩ 100
    ((List.replicate 11 coolBakeMinute).map fun x => ([], x))).value = 100 :=
  (C257_bake_opens vcpDefault uiDial ⟨false, false, false⟩ rfl 100 19 uiAway rfl (.inr (by decide)) (List.replicate 11 coolBakeMinute)
    (by simp) _ rfl (by decide) (by decide) (fun h => by cases h) (by decide)
    (fun e he => by rw [List.eq_of_mem_replicate he]; decide +kernel)
    (fun h => by cases h)).2.1
    ⟨rfl, by decide, fun e he => by rw [List.eq_of_mem_replicate he]; rfl⟩ (by simp)

end OTR.Props
