import Verif.Props.Tight7
/-!
# Property C253: turning the dial, and the wiggle that answers the user
-/

namespace OTR.Props
open OTR

/-- No button interrupt comes during this read. -/
def NoPress (i : UIIn) : Prop := i.p1 = false ∧ i.p2 = false ∧ i.p3 = false ∧ i.p4 = false

theorem pressIf_false (c : UICfg) (u : UI) : u.pressIf c false = u := rfl

theorem read_mode (c : UICfg) (u : UI) (i : UIIn) (hc : NoCycle c u i) (hn : NoPress i) : (u.read c i).2.mode = (uiA c u i).mode := by
  obtain ⟨_, h2, h3, h4⟩ := hn
  rw [read_eq, h4, pressIf_false]
  show (uiD c u i).mode = _
  unfold uiD
  rw [h3, pressIf_false]
  show (uiC c u i).mode = _
  rw [uiC_mode c u i hc]
  unfold uiB
  dsimp only
  rw [h2, pressIf_false]
  split
  · rw [(feedback_pot _ _).2.1]
  · rfl

theorem usedSig_mode (c : UICfg) (u : UI) : (u.usedSig c).mode = u.mode := by
  unfold UI.usedSig UI.used UI.on; split <;> rfl

theorem occ_event_mode (c : UICfg) (u : UI) : (u.event c .occupied).mode = u.mode := rfl

theorem warm_event_mode (c : UICfg) (u : UI) (b : Bool) : (u.event c (.warm b)).mode = u.mode.setWarm b := by
  simp only [UI.event, UI.manualWarm]
  split
  · rw [usedSig_mode]
  · rfl

theorem bake_event_mode (c : UICfg) (u : UI) (b : Bool) :
    (u.event c (.bake b)).mode = if b then u.mode.startBake else u.mode.cancelBake := by
  have : (if u.mode.inBake ≠ b then u.usedSig c else u).mode = u.mode := by
    split
    · exact usedSig_mode c u
    · rfl
  show (if b then (if u.mode.inBake ≠ b then u.usedSig c else u).mode.startBake
    else (if u.mode.inBake ≠ b then u.usedSig c else u).mode.cancelBake) = _
  rw [this]

/-- The mode after reading the dial, if not at its frost end stop and not the first time. -/
theorem dial_mode (c : UICfg) (u : UI) (adc : Nat) (hn : u.nominal ≠ 0) (hlo : c.lo ≤ (u.dial c adc).pot.value) :
    (u.dial c adc).mode = ((u.pot.read c.lo c.hi adc).2.foldl (UI.event c) { u with pot := (u.pot.read c.lo c.hi adc).1 }).mode := by
  have hE : ∀ (l : List PotEv) (u : UI), (l.foldl (UI.event c) u).nominal = u.nominal := by
    intro l
    induction l with
    | nil => intro u; rfl
    | cons e l ih =>
      intro u
      rw [List.foldl_cons, ih]
      cases e <;> simp only [UI.event, UI.manualWarm, UI.manualBake, UI.usedSig, UI.used] <;> (repeat' split) <;> rfl
  have hp := dial_pot c u adc
  have hpe := events_pot c (u.pot.read c.lo c.hi adc).2 { u with pot := (u.pot.read c.lo c.hi adc).1 }
  have hne := hE (u.pot.read c.lo c.hi adc).2 { u with pot := (u.pot.read c.lo c.hi adc).1 }
  rw [hp] at hlo
  unfold UI.dial
  dsimp only
  generalize List.foldl (UI.event c) { u with pot := (u.pot.read c.lo c.hi adc).1 } (u.pot.read c.lo c.hi adc).2 = v at hpe hne ⊢
  dsimp only at hpe hne
  have hv : (if v.pot.value < c.lo then { v with mode := v.mode.setWarm false } else v) = v := by
    rw [if_neg (by rw [hpe]; omega)]
  rw [hv, hne]
  by_cases h : UI.nominalOf c v.pot.value ≠ u.nominal
  · rw [if_pos h, if_pos hn]
  · rw [if_neg h]

/-- **C253.** A read that looks at the dial (see C110), when the dial has been read before and no button is involved:
turned up to the top, the valve bakes for the full time; turned up, it is in WARM; turned down (but not to the frost end), any
BAKE is over and WARM or FROST is as it was; not turned, the mode is as it was. -/
theorem C253_dial_turned (c : UICfg) (u : UI) (i : UIIn) (hp : c.hasPot = true) (hc : NoCycle c u i) (hn : NoPress i)
    (hs : (u.tick + 1) % 4 = 0 ∨ u.tmo ≥ 30 ∨ (u.mode.warm = true ∧ u.occ.getVacancyH ≤ 39))
    (h1 : u.nominal ≠ 0) (hr : u.pot.raw ≠ 65535) (hlo : c.lo ≤ (u.read c i).2.pot.value) :
    let old := u.pot.value
    let new := (u.read c i).2.pot.value
    let m := (u.read c i).2.mode
    (new ≠ old → c.hi < new → m.get = 2 ∧ m.bakeM = bakeMaxM) ∧
    (old < new → m.warm = true ∧ (new ≤ c.hi → m.bakeM = u.mode.bakeM)) ∧
    (new < old → new ≤ c.hi → m.get ≠ 2 ∧ m.warm = u.mode.warm) ∧
    (new = old → m = u.mode) := by
  have hcond : (c.hasPot && (u.begin_.veryRecent || decide (u.begin_.tick % 4 = 0) ||
      ((u.begin_.pressIf c i.p1).mode.warm && !(u.begin_.pressIf c i.p1).longLongVacant))) = true := by
    rw [hn.1, pressIf_false]
    rcases hs with h | h | ⟨h1, h2⟩
    · have : u.begin_.tick % 4 = 0 := by simp only [UI.begin_]; omega
      simp [hp, this]
    · have h29 : u.begin_.tmo ≥ 29 := by unfold UI.begin_; dsimp only; split <;> omega
      have : u.begin_.veryRecent = true := decide_eq_true h29
      simp [hp, this]
    · have a : u.begin_.mode.warm = true := h1
      have b : u.begin_.longLongVacant = false := by
        have h2' : u.begin_.occ.getVacancyH ≤ 39 := h2
        simp only [UI.longLongVacant, decide_eq_false_iff_not]; omega
      simp [hp, a, b]
  have eA : uiA c u i = u.begin_.dial c i.adc := by
    unfold uiA
    dsimp only
    rw [if_pos hcond, hn.1, pressIf_false]
  have ep : (u.read c i).2.pot = (u.pot.read c.lo c.hi i.adc).1 := by
    rw [read_pot, eA, dial_pot]; rfl
  intro old new m
  have em : m = ((u.pot.read c.lo c.hi i.adc).2.foldl (UI.event c) { u.begin_ with pot := (u.pot.read c.lo c.hi i.adc).1 }).mode := by
    show (u.read c i).2.mode = _
    rw [read_mode c u i hc hn, eA]
    exact dial_mode c u.begin_ i.adc h1 (by rw [← eA, ← read_pot]; exact hlo)
  have en : new = (u.pot.read c.lo c.hi i.adc).1.value := by show (u.read c i).2.pot.value = _; rw [ep]
  have hlo' : c.lo ≤ new := hlo
  clear_value m new
  generalize hb : u.begin_ = ub at em
  have hm0 : ub.mode = u.mode := by rw [← hb]; rfl
  unfold Pot.read at em en
  dsimp only at em en
  by_cases hmv : (i.adc / 4 % 256 > u.pot.value ∧ (i.adc + 65536 - u.pot.raw) % 65536 ≥ 4) ∨
      (i.adc / 4 % 256 < u.pot.value ∧ (u.pot.raw + 65536 - i.adc) % 65536 ≥ 4)
  · rw [if_pos hmv] at em en
    dsimp only at em en
    rw [if_pos hr, if_neg (by omega)] at em
    have hne : new ≠ u.pot.value := by omega
    rw [← en] at em
    by_cases hh : new > c.hi
    · rw [if_pos hh] at em
      simp only [List.cons_append, List.nil_append, List.foldl_cons, List.foldl_nil, occ_event_mode, bake_event_mode, if_true] at em
      rw [em]
      refine ⟨fun _ _ => ⟨by simp [VMode.startBake, VMode.get], rfl⟩, fun _ => ⟨rfl, fun h => by omega⟩, fun _ h => by omega, fun h => absurd h hne⟩
    · rw [if_neg hh] at em
      by_cases hd : new < u.pot.value
      · rw [if_pos hd] at em
        simp only [List.cons_append, List.nil_append, List.foldl_cons, List.foldl_nil, occ_event_mode, bake_event_mode] at em
        rw [em, hm0]
        refine ⟨fun _ h => absurd h hh, fun (h : u.pot.value < new) => by omega, fun _ _ => ⟨?_, rfl⟩, fun h => absurd h hne⟩
        simp [VMode.cancelBake, VMode.get]; split <;> simp
      · rw [if_neg hd, if_pos (by omega)] at em
        simp only [List.cons_append, List.nil_append, List.foldl_cons, List.foldl_nil, occ_event_mode, warm_event_mode] at em
        rw [em, hm0]
        refine ⟨fun _ h => absurd h hh, fun _ => ⟨rfl, fun _ => rfl⟩, fun h => absurd h hd, fun h => absurd h hne⟩
  · rw [if_neg hmv] at em en
    dsimp only at em en
    have he : new = u.pot.value := en
    rw [em]
    refine ⟨fun h => absurd he h, fun (h : u.pot.value < new) => by omega, fun (h : new < u.pot.value) => by omega, fun _ => hm0⟩

/-! ### The wiggle -/

theorem press_wig (c : UICfg) (b : Bool) (u : UI) : (u.pressIf c b).wiggles = u.wiggles ∧ (u.sig = true → (u.pressIf c b).sig = true) := by
  unfold UI.pressIf UI.press UI.usedSig UI.used UI.on
  (repeat' split) <;> (refine ⟨rfl, fun h => ?_⟩; first | exact h | rfl)

theorem event_wig (c : UICfg) (u : UI) (e : PotEv) : (u.event c e).wiggles = u.wiggles ∧ (u.sig = true → (u.event c e).sig = true) := by
  cases e <;> unfold UI.event <;> dsimp only <;> (try unfold UI.manualWarm) <;> (try unfold UI.manualBake) <;> (try dsimp only) <;>
    (try unfold UI.usedSig UI.used UI.on) <;> (repeat' split) <;> (refine ⟨rfl, fun h => ?_⟩; first | exact h | rfl)

theorem events_wig (c : UICfg) (l : List PotEv) : ∀ u : UI, (l.foldl (UI.event c) u).wiggles = u.wiggles ∧
    (u.sig = true → (l.foldl (UI.event c) u).sig = true) := by
  induction l with
  | nil => exact fun u => ⟨rfl, id⟩
  | cons e t ih =>
    intro u
    have h1 := ih (u.event c e)
    have h2 := event_wig c u e
    exact ⟨h1.1.trans h2.1, fun h => h1.2 (h2.2 h)⟩

theorem dial_wig (c : UICfg) (u : UI) (adc : Nat) : (u.dial c adc).wiggles = u.wiggles ∧ (u.sig = true → (u.dial c adc).sig = true) := by
  unfold UI.dial
  dsimp only
  have h := events_wig c (u.pot.read c.lo c.hi adc).2 { u with pot := (u.pot.read c.lo c.hi adc).1 }
  (repeat' split) <;> exact ⟨h.1, fun hs => by first | exact h.2 hs | rfl⟩

theorem uiA_wig (c : UICfg) (u : UI) (i : UIIn) : (uiA c u i).wiggles = u.wiggles ∧ (u.sig = true → (uiA c u i).sig = true) := by
  have h1 := press_wig c i.p1 u.begin_
  unfold uiA
  dsimp only
  split
  · have h2 := dial_wig c (u.begin_.pressIf c i.p1) i.adc
    exact ⟨h2.1.trans h1.1, fun h => h2.2 (h1.2 h)⟩
  · exact ⟨h1.1, fun h => h1.2 h⟩

theorem read_wig (c : UICfg) (u : UI) (i : UIIn) : (u.read c i).2.wiggles = (uiB c u i).wiggles := by
  have hsh : ∀ (v : UI) (a b : Bool), (v.show_ i a b).wiggles = v.wiggles := by
    intro v a b; unfold UI.show_; dsimp only; (repeat' split) <;> rfl
  have hpo : ((uiB c u i).poll c i).2.wiggles = (uiB c u i).wiggles := by
    unfold UI.poll; dsimp only; (repeat' split) <;> rfl
  rw [read_eq]
  show ((uiD c u i).pressIf c i.p4).wiggles = _
  rw [(press_wig c _ _).1]
  unfold uiD
  show ((uiC c u i).pressIf c i.p3).wiggles = _
  rw [(press_wig c _ _).1]
  unfold uiC
  dsimp only
  split
  · exact hpo
  · rw [hsh, hpo]

/-- **C253.** A significant use of the controls is answered by one wiggle of the valve at the next read, if the valve is
in normal running; the valve is never wiggled otherwise, nor more than once a read, nor by a read that does not report
the user to have done something. -/
theorem C253_wiggle (c : UICfg) (u : UI) (i : UIIn) :
    (u.sig = true → i.normalRun = true → (u.read c i).2.wiggles = u.wiggles + 1) ∧
    ((u.read c i).2.wiggles = u.wiggles ∨
      (u.read c i).2.wiggles = u.wiggles + 1 ∧ i.normalRun = true ∧ (u.read c i).1 = true) := by
  have hA := uiA_wig c u i
  have h2 := press_wig c i.p2 (uiA c u i)
  rw [read_wig]
  by_cases hs : ((uiA c u i).pressIf c i.p2).sig = true
  · have eB : uiB c u i = ((uiA c u i).pressIf c i.p2).feedback i := by unfold uiB; dsimp only; rw [if_pos hs]
    have hret : (u.read c i).1 = true := by
      apply read_true_of
      intro hD
      have hB := (uiC_kept c u i ((uiD_kept c u i hD).1)).1
      rw [eB, feedback_status] at hB
      cases hB
    have ew : (uiB c u i).wiggles = u.wiggles + (if i.normalRun then 1 else 0) := by
      rw [eB]
      unfold UI.feedback
      dsimp only
      split
      · show ((uiA c u i).pressIf c i.p2).wiggles + 1 = _
        rw [h2.1, hA.1]
      · show ((uiA c u i).pressIf c i.p2).wiggles = _
        rw [h2.1, hA.1]; rfl
    rw [ew]
    cases i.normalRun with
    | true => exact ⟨fun _ _ => rfl, Or.inr ⟨rfl, rfl, hret⟩⟩
    | false => exact ⟨fun _ h => absurd h (by decide), Or.inl rfl⟩
  · have eB : uiB c u i = (uiA c u i).pressIf c i.p2 := by unfold uiB; dsimp only; rw [if_neg hs]
    rw [eB, h2.1, hA.1]
    exact ⟨fun h _ => absurd (h2.2 (hA.2 h)) hs, Or.inl rfl⟩

/-- A dial standing at 110 of 255 (16 C to 24 C), in WARM: turned to the top, up a little, down a little; and a wiggle. -/
def exDial : UI := { nominal := 19, tick := 3, mode := VMode.init.setWarm true, pot := ⟨440, 110⟩, sig := true }

example : NoPress ({ adc := 1000 } : UIIn) ∧ NoCycle uiDial exDial {} ∧ (exDial.tick + 1) % 4 = 0 ∧
    (exDial.read uiDial { adc := 1000 }).2.mode.get = 2 ∧ (exDial.read uiDial { adc := 480 }).2.mode.get = 1 ∧
    ({ exDial with mode := VMode.init }.read uiDial { adc := 480 }).2.mode.get = 1 ∧
    ({ exDial with mode := VMode.init.startBake }.read uiDial { adc := 400 }).2.mode.get = 1 ∧
    (exDial.read uiDial { normalRun := true }).2.wiggles = 1 ∧ (exDial.read uiDial {}).2.wiggles = 0 := by
  refine ⟨⟨rfl, rfl, rfl, rfl⟩, Or.inl rfl, ?_⟩
  decide +kernel

end OTR.Props
