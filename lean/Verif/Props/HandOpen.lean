import Verif.Props.HandOn
import Verif.Props.Valve
/-!
# Property C255: turning the dial up in a cold room opens the valve
-/

namespace OTR.Props
open OTR

/-- What the valve sees minute by minute: before each of its readings the controls go through some events `l`; it then sees
their occupancy, dial and use, with everything else as in `y`. Nobody but the controls changes the mode. -/
def withControls (c : UICfg) : UI → List (List UIEv × MVIn) → List (List VOp × MVIn)
  | _, [] => []
  | u, (l, y) :: t => ([], { y with tt := controls c (l.foldl (UI.step c) u) y.tt }) :: withControls c (l.foldl (UI.step c) u) t

/-- How many minutes go by in all. -/
def minutesAll : List (List UIEv × MVIn) → Nat
  | [] => 0
  | (l, _) :: t => minutesIn l + minutesAll t

theorem withControls_length (c : UICfg) (es : List (List UIEv × MVIn)) : ∀ u, (withControls c u es).length = es.length := by
  induction es with
  | nil => intro u; rfl
  | cons e t ih => intro u; simp [withControls, ih]

theorem step_mode_rest (p : VCP) (vc : VCfg) (maxPC : Nat) (s : MV) (x : MVIn) (h : s.mode = ⟨true, 0⟩) :
    (s.step p vc maxPC ([], x)).mode = ⟨true, 0⟩ := by
  show (if _ then s.mode.read.cancelBake else s.mode.read) = _
  rw [h]
  split <;> rfl

theorem held_target (p : VCP) (c : UICfg) (v n : Nat) (u : UI) (x : TTIn) (h : DialHeld c v (n + 1) u) :
    computeTarget p (controls c u x) = c.warmOf v := by
  have hw := h.occ
  have g1 : u.occ.getVacancyH = 0 := by unfold Occ.getVacancyH; rw [if_pos h.val]
  have g2 : u.occ.isLikelyOccupied = true := by
    unfold Occ.isLikelyOccupied
    simp only [bne_iff_ne, ne_eq]; omega
  unfold computeTarget controls
  simp [VMode.inBake, h.warm, h.bake, g1, g2, h.pot, TTIn.longVacant, TTIn.confVacant]

/-- Every reading of the valve while the dial is left alone: its target, and what it comes from. -/
theorem held_ticks (p : VCP) (c : UICfg) (vc : VCfg) (maxPC v : Nat) (hc : c.cycle = false) (es : List (List UIEv × MVIn)) :
    ∀ (n : Nat) (u : UI) (s : MV), n ≤ 50 → DialHeld c v n u → s.mode = ⟨true, 0⟩ →
    (∀ e ∈ es, ∀ a ∈ e.1, LeftAlone v a) → minutesAll es < n →
    ∀ t ∈ s.ticks p vc maxPC (withControls c u es), ∃ e ∈ es,
      t.1.target = c.warmOf v ∧ t.1.maxTarget = c.warmOf v ∧ t.1.maxPC = min maxPC 100 ∧ t.1.ref16 = e.2.temp16 + 8 ∧
      t.1.glacial = (e.2.glacial || decide (min maxPC 100 < 50)) := by
  induction es with
  | nil => intro n u s _ _ _ _ _ t ht; cases ht
  | cons e es ih =>
    intro n u s hn h hm hl hmin t ht
    obtain ⟨l, y⟩ := e
    have hh := dialHeld_run c v hc l n u hn h (hl _ (List.mem_cons_self ..)) (by simp only [minutesAll] at hmin; omega)
    simp only [minutesAll] at hmin
    have hex : ∃ k, n - minutesIn l = k + 1 := ⟨n - minutesIn l - 1, by omega⟩
    rcases List.mem_cons.1 ht with rfl | ht
    · refine ⟨(l, y), List.mem_cons_self .., ?_, ?_, rfl, rfl, rfl⟩
      · obtain ⟨k, hk⟩ := hex
        rw [hk] at hh
        have hmode : (l.foldl (UI.step c) u).mode = ⟨true, 0⟩ := by
          have a := hh.warm
          have b := hh.bake
          generalize (l.foldl (UI.step c) u).mode = m at a b
          cases m; cases a; cases b; rfl
        have := held_target p c v k _ y.tt hh
        rw [← this]
        show computeTarget p { controls c (l.foldl (UI.step c) u) y.tt with mode := (s.mode.run []).read } = _
        have e2 : (s.mode.run []).read = (l.foldl (UI.step c) u).mode := by rw [hm, hmode]; rfl
        rw [e2]
        rfl
      · show c.warmOf (l.foldl (UI.step c) u).pot.value = _
        rw [hh.pot]
    · obtain ⟨e', he', r⟩ := ih (n - minutesIn l) _ _ (by omega) hh (step_mode_rest p vc maxPC s _ hm)
        (fun e he => hl e (List.mem_cons_of_mem _ he)) (by omega) t ht
      exact ⟨e', List.mem_cons_of_mem _ he', r⟩

/-- **C255.** The dial is turned up within its normal range (as in `C254_dial`) and then left alone.
If at every reading in the next minutes (at most 49), and at those the valve remembers, the room is more than 7.5 °C colder
than the dial now shows, then whatever the schedule, occupancy history, light and statistics, the valve, from any state, is
open to its limit: after 11 readings outside glacial operation, and in any case after 11 plus one per percent. -/
theorem C255_dial_up_opens (p : VCP) (c : UICfg) (vc : VCfg) (hbin : vc.binary = false) (maxPC : Nat) (u : UI) (i : UIIn)
    (hp : c.hasPot = true) (hc : c.cycle = false) (hn : NoPress i)
    (hs : (u.tick + 1) % 4 = 0 ∨ u.tmo ≥ 30 ∨ (u.mode.warm = true ∧ u.occ.getVacancyH ≤ 39))
    (h1 : u.nominal ≠ 0) (hr : u.pot.raw ≠ 65535)
    (hup : u.pot.value < (u.read c i).2.pot.value) (hlo : c.lo ≤ (u.read c i).2.pot.value) (hhi : (u.read c i).2.pot.value ≤ c.hi)
    (hb : u.mode.bakeM = 0) (h95 : c.warmOf (u.read c i).2.pot.value ≤ 95)
    (es : List (List UIEv × MVIn)) (hl : ∀ e ∈ es, ∀ a ∈ e.1, LeftAlone (u.read c i).2.pot.value a) (hm : minutesAll es ≤ 49)
    (s : MV) (hmode : s.mode = (u.read c i).2.mode) (hv : s.value ≤ min maxPC 100) (htd : s.st.turndownM ≤ 11) (hf : s.st.Full)
    (hcold : ∀ e ∈ es, -1900 ≤ e.2.temp16 ∧ e.2.temp16 + 8 < 16 * ((c.warmOf (u.read c i).2.pot.value : Int) - 7))
    (hmem : s.st.initialised = true → ∀ x ∈ s.st.temps, -1900 ≤ x ∧ x + 8 < 16 * ((c.warmOf (u.read c i).2.pot.value : Int) - 7)) :
    (11 + (min maxPC 100 - s.value) ≤ es.length →
      (s.run p vc maxPC (withControls c (u.read c i).2 es)).value = min maxPC 100) ∧
    ((vc.alwaysGlacial = false ∧ 50 ≤ maxPC ∧ ∀ e ∈ es, e.2.glacial = false) → 11 ≤ es.length →
      (s.run p vc maxPC (withControls c (u.read c i).2 es)).value = min maxPC 100) := by
  have hmo := (C253_dial_turned c u i hp (Or.inl hc) hn hs h1 hr hlo).2.1 hup
  have ho := (turned_occ c u i hp hn hs hr (by omega)).1
  have h0 : DialHeld c (u.read c i).2.pot.value 50 (u.read c i).2 :=
    ⟨hmo.1, (hmo.2 hhi).trans hb, rfl, hlo, by rw [ho.2]; exact Nat.le_refl _, by rw [ho.2]; exact Nat.le_refl _, by rw [ho.1]; decide⟩
  have hsm : s.mode = ⟨true, 0⟩ := by
    rw [hmode]
    have a := h0.warm
    have b := h0.bake
    generalize (u.read c i).2.mode = m at a b
    cases m; cases a; cases b; rfl
  generalize (u.read c i).2 = w at *
  have T := held_ticks p c vc maxPC w.pot.value hc es 50 w s (Nat.le_refl _) h0 hsm hl (by omega)
  have key := C47_opens_in_time vc hbin (min maxPC 100) (s.ticks p vc maxPC (withControls c w es))
    (fun t ht => by
      obtain ⟨e, he, a1, a2, a3, a4, a5⟩ := T t ht
      exact ⟨a3, by rw [a1]; exact h95, by rw [a2]; exact h95, by rw [a3]; omega⟩)
    s.st s.value hv htd hf
    (fun t ht t' ht' => by
      obtain ⟨e, he, a1, a2, a3, a4, a5⟩ := T t ht
      obtain ⟨_, _, b1, _⟩ := T t' ht'
      have := hcold e he
      unfold coldLimit
      rw [b1, a4]; omega)
    (fun hi t ht x hx => by
      obtain ⟨_, _, b1, _⟩ := T t ht
      have := hmem hi x hx
      unfold coldLimit
      rw [b1]; omega)
  rw [ticks_length, withControls_length, ← run_eq] at key
  refine ⟨key.1, fun ⟨g1, g2, g3⟩ hlen => key.2 ⟨g1, fun t ht => ?_⟩ hlen⟩
  obtain ⟨e, he, a1, a2, a3, a4, a5⟩ := T t ht
  rw [a5, g3 e he]
  simp only [Bool.false_or, decide_eq_false_iff_not]; omega

/-- The controls after all those minutes. -/
def controlsAfter (c : UICfg) (u : UI) (es : List (List UIEv × MVIn)) : UI := es.foldl (fun u e => e.1.foldl (UI.step c) u) u

theorem withControls_append (c : UICfg) (es fs : List (List UIEv × MVIn)) : ∀ u,
    withControls c u (es ++ fs) = withControls c u es ++ withControls c (controlsAfter c u es) fs := by
  induction es with
  | nil => intro u; rfl
  | cons e t ih => intro u; simp only [List.cons_append, withControls, ih]; rfl

theorem minutesAll_append (es fs : List (List UIEv × MVIn)) : minutesAll (es ++ fs) = minutesAll es + minutesAll fs := by
  induction es with
  | nil => simp [minutesAll]
  | cons e t ih => simp only [List.cons_append, minutesAll, ih]; omega

theorem held_controls (c : UICfg) (v : Nat) (hc : c.cycle = false) (es : List (List UIEv × MVIn)) :
    ∀ (n : Nat) (u : UI), n ≤ 50 → DialHeld c v n u → (∀ e ∈ es, ∀ a ∈ e.1, LeftAlone v a) → minutesAll es < n →
    DialHeld c v (n - minutesAll es) (controlsAfter c u es) := by
  induction es with
  | nil => intro n u _ h _ _; exact h
  | cons e t ih =>
    intro n u hn h hl hm
    simp only [minutesAll] at hm ⊢
    have hh := dialHeld_run c v hc e.1 n u hn h (hl _ (List.mem_cons_self ..)) (by omega)
    have := ih (n - minutesIn e.1) _ (by omega) hh (fun e he => hl e (List.mem_cons_of_mem _ he)) (by omega)
    rwa [show n - minutesIn e.1 - minutesAll t = n - (minutesIn e.1 + minutesAll t) by omega] at this

theorem run_mode_rest (p : VCP) (vc : VCfg) (maxPC : Nat) (c : UICfg) (es : List (List UIEv × MVIn)) : ∀ (u : UI) (s : MV),
    s.mode = ⟨true, 0⟩ → (s.run p vc maxPC (withControls c u es)).mode = ⟨true, 0⟩ := by
  induction es with
  | nil => intro u s h; exact h
  | cons e t ih => intro u s h; exact ih _ _ (step_mode_rest p vc maxPC s _ h)

/-- **C255, the call for heat.** Once the valve is open to its limit (at least 50%, and at least its 'really open' minimum, and so is
any physical device), then at every reading while the dial is still left alone within the 49 minutes, it calls for heat if
and only if the room, to the nearest degree, is colder than the dial shows; and it reports no setback. -/
theorem C255_calls (p : VCP) (c : UICfg) (vc : VCfg) (maxPC : Nat) (u : UI) (i : UIIn)
    (hp : c.hasPot = true) (hc : c.cycle = false) (hn : NoPress i)
    (hs : (u.tick + 1) % 4 = 0 ∨ u.tmo ≥ 30 ∨ (u.mode.warm = true ∧ u.occ.getVacancyH ≤ 39))
    (h1 : u.nominal ≠ 0) (hr : u.pot.raw ≠ 65535)
    (hup : u.pot.value < (u.read c i).2.pot.value) (hlo : c.lo ≤ (u.read c i).2.pot.value) (hhi : (u.read c i).2.pot.value ≤ c.hi)
    (hb : u.mode.bakeM = 0) (es : List (List UIEv × MVIn)) (l : List UIEv) (y : MVIn)
    (hl : ∀ e ∈ es ++ [(l, y)], ∀ a ∈ e.1, LeftAlone (u.read c i).2.pot.value a) (hm : minutesAll (es ++ [(l, y)]) ≤ 49)
    (s : MV) (hmode : s.mode = (u.read c i).2.mode)
    (hval : (s.run p vc maxPC (withControls c (u.read c i).2 es)).value = min maxPC 100) (h50 : 50 ≤ maxPC)
    (hmin : y.minOpen ≤ min maxPC 100) (hphys : y.phys = none ∨ y.physOpen = true) :
    let after := s.run p vc maxPC (withControls c (u.read c i).2 (es ++ [(l, y)]))
    (after.calling = true ↔ (y.temp16 + 8) / 16 < c.warmOf (u.read c i).2.pot.value) ∧ after.setbackC = 0 := by
  have hmo := (C253_dial_turned c u i hp (Or.inl hc) hn hs h1 hr hlo).2.1 hup
  have ho := (turned_occ c u i hp hn hs hr (by omega)).1
  have h0 : DialHeld c (u.read c i).2.pot.value 50 (u.read c i).2 :=
    ⟨hmo.1, (hmo.2 hhi).trans hb, rfl, hlo, by rw [ho.2]; exact Nat.le_refl _, by rw [ho.2]; exact Nat.le_refl _, by rw [ho.1]; decide⟩
  have rest : ∀ m : VMode, m.warm = true → m.bakeM = 0 → m = ⟨true, 0⟩ := by
    intro m a b; cases m; cases a; cases b; rfl
  have hsm : s.mode = ⟨true, 0⟩ := by rw [hmode]; exact rest _ h0.warm h0.bake
  generalize (u.read c i).2 = w at *
  rw [minutesAll_append] at hm
  simp only [minutesAll] at hm
  have hA := held_controls c _ hc es 50 w (Nat.le_refl _) h0 (fun e he => hl e (List.mem_append_left _ he)) (by omega)
  have hB := dialHeld_run c _ hc l _ _ (by omega) hA (hl (l, y) (List.mem_append_right _ (List.mem_singleton.2 rfl))) (by omega)
  have hM := run_mode_rest p vc maxPC c es w s hsm
  intro after
  have ea : after = ((s.run p vc maxPC (withControls c w es)).step p vc maxPC
      ([], { y with tt := controls c (l.foldl (UI.step c) (controlsAfter c w es)) y.tt })) := by
    show s.run p vc maxPC (withControls c w (es ++ [(l, y)])) = _
    rw [withControls_append]
    unfold MV.run
    rw [List.foldl_append]
    rfl
  generalize s.run p vc maxPC (withControls c w es) = sv at *
  generalize l.foldl (UI.step c) (controlsAfter c w es) = uv at *
  have ek : (50 - minutesAll es - minutesIn l) = (50 - minutesAll es - minutesIn l - 1) + 1 := by omega
  rw [ek] at hB
  have ht : after.target = c.warmOf w.pot.value := by
    rw [ea, ← held_target p c w.pot.value _ uv y.tt hB]
    show computeTarget p { controls c uv y.tt with mode := (sv.mode.run []).read } = _
    have e2 : (sv.mode.run []).read = uv.mode := by rw [hM, rest uv.mode hB.warm hB.bake]; rfl
    rw [e2]
    rfl
  have k := C87_call_for_heat p vc maxPC sv { y with tt := controls c uv y.tt }
  have e3 : sv.step p vc maxPC ([], { y with tt := controls c uv y.tt }) = sv.read p vc maxPC { y with tt := controls c uv y.tt } := rfl
  rw [← e3, ← ea] at k
  rw [ht] at k
  refine ⟨⟨fun h => (k.1.1 h).1, fun h => k.1.2 ⟨h, ?_, ?_, hphys⟩⟩, ?_⟩
  · rw [hval]; omega
  · rw [hval]; exact hmin
  · rw [k.2.2.1, hM]
    show (if true = true then c.warmOf uv.pot.value - _ else 0) = 0
    rw [hB.pot]
    simp

/-- The controls of a room in FROST mode, vacant for 60 hours. -/
def uiAway : UI := { nominal := 16, tick := 3, mode := VMode.init, pot := ⟨100, 25⟩, occ := { Occ.init with vacH := 60 } }

/-- A minute in a dark room at 10 °C with no schedule. -/
def coolMinute : List UIEv × MVIn :=
  ([.minute, .read { adc := 402 }],
   ⟨⟨VMode.init, 6, 0, 0, false, false, false, false, false, 700, 0, 0⟩, 160, false, false, false, true, none, false, 15⟩)

/-- The dial turned up to 19 °C there: the hypotheses hold, and the valve opens. -/
example : (({ newMV with mode := (uiAway.read uiDial { adc := 400 }).2.mode } : MV).run vcpDefault ⟨false, false, false⟩ 100
    (withControls uiDial (uiAway.read uiDial { adc := 400 }).2 (List.replicate 11 coolMinute))).value = 100 :=
  (C255_dial_up_opens vcpDefault uiDial ⟨false, false, false⟩ rfl 100 uiAway { adc := 400 } rfl rfl ⟨rfl, rfl, rfl, rfl⟩
    (.inl (by decide)) (by decide) (by decide) (by decide +kernel) (by decide +kernel) (by decide +kernel) (by decide) (by decide +kernel)
    (List.replicate 11 coolMinute)
    (fun e he a ha => by
      rw [List.eq_of_mem_replicate he] at ha
      rcases List.mem_cons.1 ha with rfl | ha
      · trivial
      · rw [List.mem_singleton.1 ha]
        exact ⟨⟨rfl, rfl, rfl, rfl⟩, by decide +kernel⟩)
    (by decide +kernel) _ rfl (by decide) (by decide) (fun h => by cases h)
    (fun e he => by rw [List.eq_of_mem_replicate he]; decide +kernel)
    (fun h => by cases h)).2
    ⟨rfl, by decide, fun e he => by rw [List.eq_of_mem_replicate he]; rfl⟩ (by simp)

/-- The twelfth reading there calls for heat: the hypotheses hold. -/
example : (({ newMV with mode := (uiAway.read uiDial { adc := 400 }).2.mode } : MV).run vcpDefault ⟨false, false, false⟩ 100
    (withControls uiDial (uiAway.read uiDial { adc := 400 }).2 (List.replicate 11 coolMinute ++ [coolMinute]))).calling = true :=
  (C255_calls vcpDefault uiDial ⟨false, false, false⟩ 100 uiAway { adc := 400 } rfl rfl ⟨rfl, rfl, rfl, rfl⟩
    (.inl (by decide)) (by decide) (by decide) (by decide +kernel) (by decide +kernel) (by decide +kernel) (by decide)
    (List.replicate 11 coolMinute) _ _
    (fun e he a ha => by
      have he' : e = coolMinute := by
        rcases List.mem_append.1 he with h | h
        · exact List.eq_of_mem_replicate h
        · exact List.mem_singleton.1 h
      rw [he'] at ha
      rcases List.mem_cons.1 ha with rfl | ha
      · trivial
      · rw [List.mem_singleton.1 ha]
        exact ⟨⟨rfl, rfl, rfl, rfl⟩, by decide +kernel⟩)
    (by decide +kernel) _ rfl (by decide +kernel) (by decide) (by decide) (.inl rfl)).1.2 (by decide +kernel)

end OTR.Props
