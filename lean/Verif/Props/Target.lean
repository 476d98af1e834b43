import Verif.Model.Target
import Verif.Props.ValveLive
import Verif.Props.TempControl
/-!
# Properties C52, C53, C86-C88: target temperature and the modelled valve as a whole
-/

namespace OTR

/-- Parameters and settings in the documented ranges. -/
structure Settings (p : VCP) (frostC warmC : Nat) : Prop where
  lo : 5 ≤ frostC
  order : frostC ≤ warmC
  hi : warmC ≤ 95
  sb : p.sbDefault ≤ p.sbEco ∧ p.sbEco ≤ p.sbFull
  fits : p.sbFull ≤ warmC
  lift : warmC + p.bakeUplift < 256

theorem setbackOf_range (p : VCP) (x : TTIn) (h : p.sbDefault ≤ p.sbEco ∧ p.sbEco ≤ p.sbFull) :
    p.sbDefault ≤ setbackOf p x ∧ setbackOf p x ≤ p.sbFull := by
  unfold setbackOf
  dsimp only
  generalize (!(!x.longVacant && (x.soon || decide (x.dm < 7 * 60) &&
    decide (x.hlThis > if p.ecoBias x.warmC = true then 17 else 14))) && _) = b1
  cases b1 with
  | false => simp; omega
  | true =>
    simp only [if_true]
    generalize (!_ && _) = b2
    cases b2 <;> simp <;> omega

theorem ite_mono {q : Prop} [Decidable q] {a b a' b' : Nat} (ha : q → a ≤ a') (hb : ¬ q → b ≤ b') :
    (if q then a else b) ≤ (if q then a' else b') := by
  by_cases h : q
  · rw [if_pos h, if_pos h]; exact ha h
  · rw [if_neg h, if_neg h]; exact hb h

theorem sub8_eq {a b : Nat} (h : b ≤ a) (ha : a < 256) : sub8 a b = a - b := by unfold sub8; omega

namespace Props

/-! ## C52 -/

/-- **C52.** Whatever the mode, schedule, occupancy, light and history: the target is at least the FROST setting, at
most WARM except in BAKE when it is at most WARM plus the uplift, and always within 5..95 C. -/
theorem C52_target_bounds (p : VCP) (x : TTIn) (hs : Settings p x.frostC x.warmC) :
    x.frostC ≤ computeTarget p x ∧
    computeTarget p x ≤ (if x.mode.inBake then x.warmC + p.bakeUplift else x.warmC) ∧
    5 ≤ computeTarget p x ∧ computeTarget p x ≤ 95 := by
  obtain ⟨h1, h2, h3, h4, h5, h6⟩ := hs
  have hsb := setbackOf_range p x h4
  have key : x.frostC ≤ computeTarget p x ∧
      computeTarget p x ≤ (if x.mode.inBake then x.warmC + p.bakeUplift else x.warmC) ∧ computeTarget p x ≤ 95 := by
    unfold computeTarget
    dsimp only
    cases hw : x.mode.warm with
    | false =>
      have hb : x.mode.inBake = false := by unfold VMode.inBake; rw [hw]; rfl
      rw [hb]
      simp only [Bool.not_false, if_true, Bool.false_eq_true, if_false]
      split
      · have : (if p.isEco x.warmC = true then p.sbEco else p.sbDefault) ≤ x.warmC := by split <;> omega
        rw [sub8_eq this (by omega)]; omega
      · omega
    | true =>
      simp only [Bool.not_true, Bool.false_eq_true, if_false]
      cases hb : x.mode.inBake with
      | true => simp only [if_true]; omega
      | false =>
        simp only [Bool.false_eq_true, if_false]
        rw [sub8_eq (by omega) (by omega)]
        split
        · omega
        · split <;> omega
  omega

/-- The shipped parameter sets with any WARM setting on their scale (and any legal FROST) are within the hypothesis. -/
example (f w : Nat) (h1 : 5 ≤ f) (h2 : f ≤ w) (h3 : 16 ≤ w) (h4 : w ≤ 22) : Settings vcpDefault f w :=
  ⟨h1, h2, by omega, by decide +kernel, by have : vcpDefault.sbFull = 6 := by decide +kernel
                                           omega,
   by have : vcpDefault.bakeUplift = 10 := by decide +kernel
      omega⟩

/-- **Outside the hypothesis the bound fails**: with template parameters allowing a WARM setting below the full
setback, the 8-bit subtraction wraps and the target becomes 255 C. -/
theorem C52_wraps_with_odd_parameters :
    ∃ x : TTIn, x.frostC = 5 ∧ x.warmC = 5 ∧ x.vacancyH = 30 ∧ x.mode = ⟨true, 0⟩ ∧
      (VCP.mk' 5 5 6 20 10 3 6).scaleMin = 5 ∧ computeTarget (.mk' 5 5 6 20 10 3 6) x = 255 :=
  ⟨⟨⟨true, 0⟩, 5, 5, 30, false, false, false, false, false, 0, 0, 0⟩, rfl, rfl, rfl, rfl, by decide +kernel, by decide +kernel⟩

/-! ## C53 -/

/-- **C53, WARM.** In WARM mode (not BAKE) the target is at most the full setback below WARM; it is exactly WARM when
the room is occupied and not vacant for hours, when a schedule is on (unless vacant more than a day), or when
setbacks are locked out; and at a comfort setting it is lowered by no more than the eco setback. -/
theorem C53_warm_setback (p : VCP) (x : TTIn) (hs : Settings p x.frostC x.warmC) (hw : x.mode.warm = true)
    (hb : x.mode.inBake = false) :
    x.warmC ≤ computeTarget p x + p.sbFull ∧
    (x.likelyOccupied = true → x.vacancyH ≤ 2 → computeTarget p x = x.warmC) ∧
    (x.now = true → x.vacancyH ≤ 24 → computeTarget p x = x.warmC) ∧
    (x.lockout = true → computeTarget p x = x.warmC) ∧
    (p.warmCom ≤ x.warmC → x.warmC ≤ computeTarget p x + p.sbEco) := by
  obtain ⟨h1, h2, h3, h4, h5, h6⟩ := hs
  have hsb := setbackOf_range p x h4
  have hcom : p.warmCom ≤ x.warmC → setbackOf p x ≤ p.sbEco := by
    intro hc
    have : p.isCom x.warmC = true := by unfold VCP.isCom; simpa using hc
    unfold setbackOf
    dsimp only
    rw [this]
    simp only [Bool.true_or, Bool.not_true, Bool.false_and, Bool.false_eq_true, if_false]
    exact ite_le (fun _ => Nat.le_refl _) (fun _ => h4.1)
  unfold computeTarget
  dsimp only
  rw [hw, hb]
  simp only [Bool.not_true, Bool.false_eq_true, if_false]
  rw [sub8_eq (by omega) (by omega)]
  refine ⟨?_, ?_, ?_, ?_, ?_⟩
  · split
    · omega
    · split <;> omega
  · intro ho hv
    have e1 : x.longVacant = false := by unfold TTIn.longVacant; simp; omega
    have e2 : x.confVacant = false := by unfold TTIn.confVacant; simp; omega
    simp [e1, e2, ho]
  · intro hn hv
    have e1 : x.longVacant = false := by unfold TTIn.longVacant; simp; omega
    simp [e1, hn]
  · intro hl; simp [hl]
  · intro hc
    have := hcom hc
    split
    · omega
    · split <;> omega

/-- **C53, FROST.** In FROST mode the target is the FROST setting, except shortly before a scheduled warm period when
the room is not long vacant and the user has not just touched the controls; then it is a setback below WARM. -/
theorem C53_frost (p : VCP) (x : TTIn) (hs : Settings p x.frostC x.warmC) (hw : x.mode.warm = false) :
    computeTarget p x = (if x.soon = true ∧ x.recentUI = false ∧ x.vacancyH ≤ 24 then
      max x.frostC (x.warmC - if x.warmC ≤ p.warmEco then p.sbEco else p.sbDefault) else x.frostC) := by
  obtain ⟨h1, h2, h3, h4, h5, h6⟩ := hs
  unfold computeTarget
  dsimp only
  rw [hw]
  simp only [Bool.not_false, if_true]
  have he : (p.isEco x.warmC = true) ↔ x.warmC ≤ p.warmEco := by unfold VCP.isEco; simp
  have hl : x.longVacant = false ↔ x.vacancyH ≤ 24 := by unfold TTIn.longVacant; simp
  by_cases hc : x.soon = true ∧ x.recentUI = false ∧ x.vacancyH ≤ 24
  · rw [if_pos hc, if_pos (by rw [hl.2 hc.2.2, hc.1, hc.2.1]; rfl)]
    by_cases e : x.warmC ≤ p.warmEco
    · rw [if_pos (he.2 e), if_pos e, sub8_eq (by omega) (by omega)]
    · rw [if_neg (fun h => e (he.1 h)), if_neg e, sub8_eq (by omega) (by omega)]
  · rw [if_neg hc, if_neg]
    intro h
    simp only [Bool.and_eq_true, Bool.not_eq_true'] at h
    exact hc ⟨h.1.2, h.2, hl.1 h.1.1⟩

/-- The schedule is on, nobody in: full WARM; the same with the schedule off and dark for an hour, set back by 6 C. -/
example : computeTarget vcpDefault ⟨⟨true, 0⟩, 6, 19, 3, false, true, true, false, false, 60, 0, 0⟩ = 19 ∧
    computeTarget vcpDefault ⟨⟨true, 0⟩, 6, 19, 3, false, false, false, false, false, 60, 0, 0⟩ = 13 ∧
    computeTarget vcpDefault ⟨⟨false, 0⟩, 6, 19, 3, false, true, false, false, false, 60, 0, 0⟩ = 18 := by decide +kernel

/-! ## C86 -/

/-- When more than the default setback is allowed. -/
def ecoOK (p : VCP) (x : TTIn) : Bool :=
  !(!x.longVacant && (x.soon || (decide (x.dm < 7 * 60) && decide (x.hlThis > (if p.ecoBias x.warmC then 17 else 14))))) &&
  ((x.longVacant || x.confVacant) || ((x.longVacant || x.confVacant || !x.likelyOccupied) && decide (x.hlThis ≤ 1)) ||
    decide (x.dm ≠ 0))

/-- When the full setback is then allowed. -/
def fullOK (p : VCP) (x : TTIn) : Bool :=
  !(p.isCom x.warmC || (decide (x.dm < 7 * 60) && (decide (x.hlThis > min ((if p.ecoBias x.warmC then 17 else 14) - 4)
    ((if p.ecoBias x.warmC then 17 else 14) / 4 + (x.dm / 32) % 256)) ||
    decide (x.hlNext > 2 + (if p.ecoBias x.warmC then 17 else 14))))) &&
  (x.longVacant || decide (x.dm ≥ if (decide (x.hlThis ≤ 1) || decide (x.hlNext ≤ 1)) then 2 else 10))

theorem setbackOf_eq (p : VCP) (x : TTIn) :
    setbackOf p x = if ecoOK p x then (if fullOK p x then p.sbFull else p.sbEco) else p.sbDefault := rfl

theorem eco_mono (p : VCP) (x : TTIn) (d : Nat) (h : x.dm ≤ d) (he : ecoOK p x = true) :
    ecoOK p { x with dm := d } = true := by
  unfold ecoOK at *
  dsimp only [TTIn.longVacant, TTIn.confVacant] at *
  generalize (if p.ecoBias x.warmC = true then 17 else 14) = thr at *
  generalize decide (x.vacancyH > 24) = lv at *
  generalize decide (x.vacancyH > 2) = cv at *
  have a : decide (d < 7 * 60) = true → decide (x.dm < 7 * 60) = true := by simp; omega
  have b : decide (x.dm ≠ 0) = true → decide (d ≠ 0) = true := by simp; omega
  generalize decide (d < 7 * 60) = d1 at *
  generalize decide (x.dm < 7 * 60) = d2 at *
  generalize decide (x.dm ≠ 0) = d3 at *
  generalize decide (d ≠ 0) = d4 at *
  generalize decide (x.hlThis > thr) = d5 at *
  generalize decide (x.hlThis ≤ 1) = d6 at *
  generalize x.soon = s1 at *
  generalize x.likelyOccupied = s2 at *
  revert he a b
  cases lv <;> cases cv <;> cases d1 <;> cases d2 <;> cases d3 <;> cases d4 <;> cases d5 <;> cases d6 <;> cases s1 <;>
    cases s2 <;> decide

theorem full_mono (p : VCP) (x : TTIn) (d : Nat) (h : x.dm ≤ d) (he : fullOK p x = true) :
    fullOK p { x with dm := d } = true := by
  unfold fullOK at *
  dsimp only [TTIn.longVacant] at *
  generalize hthr : (if p.ecoBias x.warmC = true then 17 else 14) = thr at *
  have ht : 14 ≤ thr ∧ thr ≤ 17 := by rw [← hthr]; split <;> omega
  generalize decide (x.vacancyH > 24) = lv at *
  generalize (if (decide (x.hlThis ≤ 1) || decide (x.hlNext ≤ 1)) = true then 2 else 10) = q at *
  have a : (decide (d < 7 * 60) && decide (x.hlThis > min (thr - 4) (thr / 4 + d / 32 % 256))) = true →
      (decide (x.dm < 7 * 60) && decide (x.hlThis > min (thr - 4) (thr / 4 + x.dm / 32 % 256))) = true := by
    simp only [Bool.and_eq_true, decide_eq_true_eq]; omega
  have a' : decide (d < 7 * 60) = true → decide (x.dm < 7 * 60) = true := by simp; omega
  have b : decide (x.dm ≥ q) = true → decide (d ≥ q) = true := by simp; omega
  generalize decide (d < 7 * 60) = d1 at *
  generalize decide (x.dm < 7 * 60) = d2 at *
  generalize decide (x.hlThis > min (thr - 4) (thr / 4 + d / 32 % 256)) = d3 at *
  generalize decide (x.hlThis > min (thr - 4) (thr / 4 + x.dm / 32 % 256)) = d4 at *
  generalize decide (x.dm ≥ q) = d5 at *
  generalize decide (d ≥ q) = d6 at *
  generalize p.isCom x.warmC = s1 at *
  generalize decide (x.hlNext > 2 + thr) = s2 at *
  revert he a a' b
  cases lv <;> cases d1 <;> cases d2 <;> cases d3 <;> cases d4 <;> cases d5 <;> cases d6 <;> cases s1 <;>
    cases s2 <;> decide

/-- **C86.** All else equal, longer darkness never raises the target. -/
theorem C86_darker_never_warmer (p : VCP) (x : TTIn) (hs : Settings p x.frostC x.warmC) (d : Nat) (h : x.dm ≤ d) :
    computeTarget p { x with dm := d } ≤ computeTarget p x := by
  obtain ⟨h1, h2, h3, h4, h5, h6⟩ := hs
  have hsb : setbackOf p x ≤ setbackOf p { x with dm := d } := by
    rw [setbackOf_eq, setbackOf_eq]
    cases e1 : ecoOK p x with
    | false =>
      simp only [Bool.false_eq_true, if_false]
      exact le_ite (fun _ => le_ite (fun _ => by omega) fun _ => by omega) fun _ => by omega
    | true =>
      rw [eco_mono p x d h e1]
      cases e2 : fullOK p x with
      | false =>
        simp only [Bool.false_eq_true, if_false, if_true]
        exact le_ite (fun _ => by omega) fun _ => by omega
      | true => rw [full_mono p x d h e2]; simp
  have r := (setbackOf_range p { x with dm := d } h4).2
  unfold computeTarget
  refine ite_mono (fun _ => Nat.le_refl _) fun _ => ite_mono (fun _ => Nat.le_refl _) fun _ =>
    ite_mono (fun _ => Nat.le_refl _) fun _ => ite_mono (fun _ => ?_) fun _ => Nat.le_refl _
  dsimp only
  rw [sub8_eq (by omega) (by omega), sub8_eq (by omega) (by omega)]; omega

/-- It does lower it: 17 C after one dark minute, 14 C (eco) … 13 C (full) as it goes on. -/
example : computeTarget vcpDefault ⟨⟨true, 0⟩, 6, 19, 0, false, false, false, false, false, 0, 5, 5⟩ = 18 ∧
    computeTarget vcpDefault ⟨⟨true, 0⟩, 6, 19, 0, false, false, false, false, false, 1, 5, 5⟩ = 16 ∧
    computeTarget vcpDefault ⟨⟨true, 0⟩, 6, 19, 0, false, false, false, false, false, 60, 5, 5⟩ = 13 := by decide +kernel

/-! ## C87 -/

/-- **C87.** At every reading of the valve: it calls for heat exactly when the room (to the nearest degree) is under
target, the valve was open at least 50% and at least its 'really open' minimum, and so was any physical device; the
setback reported is how far the target is below WARM in WARM mode and 0 in FROST; BAKE ends once the target is reached;
and the position never exceeds 100%. -/
theorem C87_call_for_heat (p : VCP) (c : VCfg) (maxPC : Nat) (s : MV) (x : MVIn) :
    ((s.read p c maxPC x).calling = true ↔
      (x.temp16 + 8) / 16 < (s.read p c maxPC x).target ∧ 50 ≤ s.value ∧ x.minOpen ≤ s.value ∧
        (x.phys = none ∨ x.physOpen = true)) ∧
    ((s.read p c maxPC x).under = true ↔ (x.temp16 + 8) / 16 < (s.read p c maxPC x).target) ∧
    (s.read p c maxPC x).setbackC = (if s.mode.warm then x.tt.warmC - (s.read p c maxPC x).target else 0) ∧
    ((s.read p c maxPC x).under = false → (s.read p c maxPC x).mode.inBake = false) ∧
    (s.value ≤ 100 → (s.read p c maxPC x).value ≤ 100) := by
  have e1 : (s.read p c maxPC x).calling = (!(decide (((s.read p c maxPC x).target : Int) ≤ (x.temp16 + 8) / 16)) &&
      decide (s.value ≥ 50) && ((x.phys.isNone || x.physOpen) && decide (s.value ≥ x.minOpen))) := rfl
  have e2 : (s.read p c maxPC x).under = !(decide (((s.read p c maxPC x).target : Int) ≤ (x.temp16 + 8) / 16)) := rfl
  have e3 : (s.read p c maxPC x).setbackC = if s.mode.warm then (if (s.read p c maxPC x).target < x.tt.warmC then
      x.tt.warmC - (s.read p c maxPC x).target else 0) else 0 := rfl
  refine ⟨?_, ?_, ?_, ?_, ?_⟩
  · rw [e1]
    generalize (s.read p c maxPC x).target = T
    simp only [Bool.and_eq_true, Bool.not_eq_true', decide_eq_false_iff_not,
      decide_eq_true_eq, Bool.or_eq_true, Option.isNone_iff_eq_none, Int.not_le]
    constructor
    · rintro ⟨⟨h1, h2⟩, h3, h4⟩; exact ⟨h1, h2, h4, h3⟩
    · rintro ⟨h1, h2, h3, h4⟩; exact ⟨⟨h1, h2⟩, h4, h3⟩
  · rw [e2]
    generalize (s.read p c maxPC x).target = T
    simp only [Bool.not_eq_true', decide_eq_false_iff_not, Int.not_le]
  · rw [e3]
    generalize (s.read p c maxPC x).target = T
    by_cases hw : s.mode.warm = true
    · rw [if_pos hw, if_pos hw]; split <;> omega
    · rw [if_neg hw, if_neg hw]
  · intro h
    simp only [MV.read] at *
    rw [Bool.not_eq_eq_eq_not] at h
    rw [if_pos (by simpa using h)]
    simp [VMode.cancelBake, VMode.inBake]
  · intro h
    simp only [MV.read]
    refine (C45_limits c s.st s.value _ x.phys).2 h ?_
    simp only [setupInput, VIn.setTemp]
    omega

/-! ## C88 -/
end Props

/-- One minute of the valve's life: whatever is done to the mode by user and schedule, then a reading. -/
def MV.step (p : VCP) (c : VCfg) (maxPC : Nat) (s : MV) (e : List VOp × MVIn) : MV :=
  ({ s with mode := s.mode.run e.1 }).read p c maxPC e.2

/-- Any number of minutes. -/
def MV.run (p : VCP) (c : VCfg) (maxPC : Nat) (s : MV) (es : List (List VOp × MVIn)) : MV := es.foldl (MV.step p c maxPC) s

/-- What the valve state machine is given at a reading. -/
def MV.tickOf (p : VCP) (maxPC : Nat) (s : MV) (e : List VOp × MVIn) : VTick :=
  (setupInput (min maxPC 100) { e.2 with tt := { e.2.tt with mode := (s.mode.run e.1).read } }
    (computeTarget p { e.2.tt with mode := (s.mode.run e.1).read }), e.2.phys)

theorem step_eq (p : VCP) (c : VCfg) (maxPC : Nat) (s : MV) (e : List VOp × MVIn) :
    ((s.step p c maxPC e).st, (s.step p c maxPC e).value) =
      s.st.tick c s.value (s.tickOf p maxPC e).1 (s.tickOf p maxPC e).2 := rfl

/-- The inputs over a run. -/
def MV.ticks (p : VCP) (c : VCfg) (maxPC : Nat) : MV → List (List VOp × MVIn) → List VTick
  | _, [] => []
  | s, e :: es => s.tickOf p maxPC e :: (s.step p c maxPC e).ticks p c maxPC es

theorem run_eq (p : VCP) (c : VCfg) (maxPC : Nat) (es : List (List VOp × MVIn)) : ∀ s : MV,
    ((s.run p c maxPC es).st, (s.run p c maxPC es).value) = s.st.after c s.value (s.ticks p c maxPC es) := by
  induction es with
  | nil => intro s; rfl
  | cons e es ih =>
    intro s
    have := ih (s.step p c maxPC e)
    unfold MV.ticks
    rw [after_cons, ← step_eq]
    exact this

theorem ticks_length (p : VCP) (c : VCfg) (maxPC : Nat) (es : List (List VOp × MVIn)) : ∀ s : MV,
    (s.ticks p c maxPC es).length = es.length := by
  induction es with
  | nil => intro s; rfl
  | cons e es ih => intro s; simp [MV.ticks, ih]

theorem ticks_mem (p : VCP) (c : VCfg) (maxPC : Nat) (es : List (List VOp × MVIn)) : ∀ (s : MV) (t : VTick),
    t ∈ s.ticks p c maxPC es → ∃ s' e, e ∈ es ∧ t = MV.tickOf p maxPC s' e := by
  induction es with
  | nil => intro s t h; cases h
  | cons e es ih =>
    intro s t h
    rcases List.mem_cons.1 h with rfl | h
    · exact ⟨s, e, by simp, rfl⟩
    · obtain ⟨s', e', h1, h2⟩ := ih _ t h
      exact ⟨s', e', by simp [h1], h2⟩

theorem ticks_mode (p : VCP) (c : VCfg) (maxPC : Nat) (s : MV) (es : List (List VOp × MVIn))
    (hg : ∀ e ∈ es, e.2.glacial = false) (hm : 50 ≤ maxPC) : ∀ t ∈ s.ticks p c maxPC es, t.1.glacial = false := by
  intro t ht
  obtain ⟨s', e, he, rfl⟩ := ticks_mem p c maxPC es s t ht
  simp only [MV.tickOf, setupInput, VIn.setTemp, hg e he, Bool.false_or, decide_eq_false_iff_not]
  omega

namespace Props

/-- A newly created valve. -/
def newMV : MV := ⟨0, VState.new [], VMode.init, 6, false, false, 0⟩

/-- **C88, frost protection end to end.** From any state of the valve, whatever user, schedule, mode, occupancy, light,
humidity and statistics do, if the room is below 4.5 C at each of `n` readings (and was at those remembered), the
valve is open to its maximum: after 11 readings outside glacial operation, and in any case after 11 plus one per
percent; and it then calls for heat if that maximum is at least 50% (and at least the 'really open' minimum). -/
theorem C88_frost_end_to_end (p : VCP) (c : VCfg) (hc : c.binary = false) (maxPC : Nat) (s : MV)
    (es : List (List VOp × MVIn)) (hset : ∀ e ∈ es, Settings p e.2.tt.frostC e.2.tt.warmC)
    (hcold : ∀ e ∈ es, -1900 ≤ e.2.temp16 ∧ e.2.temp16 < 72)
    (hv : s.value ≤ min maxPC 100) (htd : s.st.turndownM ≤ 11) (hf : s.st.Full)
    (hmem : s.st.initialised = true → ∀ x ∈ s.st.temps, -1900 ≤ x ∧ x < 72) :
    (11 + (min maxPC 100 - s.value) ≤ es.length → (s.run p c maxPC es).value = min maxPC 100) ∧
    ((c.alwaysGlacial = false ∧ 50 ≤ maxPC ∧ ∀ e ∈ es, e.2.glacial = false) → 11 ≤ es.length →
      (s.run p c maxPC es).value = min maxPC 100) ∧
    (∀ e : List VOp × MVIn, Settings p e.2.tt.frostC e.2.tt.warmC → e.2.temp16 < 72 →
      (s.run p c maxPC es).value = min maxPC 100 → 50 ≤ maxPC → e.2.minOpen ≤ min maxPC 100 →
      (e.2.phys = none ∨ e.2.physOpen = true) → ((s.run p c maxPC es).step p c maxPC e).calling = true) := by
  have h5 : ∀ i : VIn, 80 ≤ coldLimit i := by intro i; unfold coldLimit; omega
  have hm : ∀ t ∈ s.ticks p c maxPC es, t.1.maxPC = min maxPC 100 ∧ t.1.sane := by
    intro t ht
    obtain ⟨s', e, he, rfl⟩ := ticks_mem p c maxPC es s t ht
    refine ⟨rfl, ?_⟩
    have hs := hset e he
    have b := C52_target_bounds p { e.2.tt with mode := (s'.mode.run e.1).read } hs
    refine ⟨b.2.2.2, hs.hi, ?_⟩
    simp only [MV.tickOf, setupInput, VIn.setTemp]; omega
  have ht : ∀ t ∈ s.ticks p c maxPC es, -2000 ≤ t.1.ref16 - 8 ∧ t.1.ref16 < 80 := by
    intro t ht
    obtain ⟨s', e, he, rfl⟩ := ticks_mem p c maxPC es s t ht
    have := hcold e he
    simp only [MV.tickOf, setupInput, VIn.setTemp]; omega
  have key := C47_opens_in_time c hc (min maxPC 100) (s.ticks p c maxPC es) hm s.st s.value hv htd hf
    (fun t h t' _ => ⟨(ht t h).1, by have := (ht t h).2; have := h5 t'.1; omega⟩)
    (fun hi t _ x hx => by have := hmem hi x hx; have := h5 t.1; omega)
  rw [ticks_length, ← run_eq] at key
  refine ⟨key.1, fun ⟨g1, g2, g3⟩ hl => key.2 ⟨g1, ticks_mode p c maxPC s es g3 g2⟩ hl, ?_⟩
  intro e hs ht hval h50 hmin hphys
  have k := (C87_call_for_heat p c maxPC { s.run p c maxPC es with mode := (s.run p c maxPC es).mode.run e.1 } e.2).1
  refine k.2 ⟨?_, ?_, ?_, hphys⟩
  · have b := (C52_target_bounds p { e.2.tt with mode := (((s.run p c maxPC es).mode.run e.1).read) } hs).2.2.1
    have : (MV.read p c maxPC { s.run p c maxPC es with mode := (s.run p c maxPC es).mode.run e.1 } e.2).target =
      computeTarget p { e.2.tt with mode := (((s.run p c maxPC es).mode.run e.1).read) } := rfl
    rw [this]; omega
  · dsimp only; omega
  · dsimp only; omega

/-- A new valve in a freezing room, in FROST mode and vacant for a month, with everything off. -/
def exFreezing : List VOp × MVIn :=
  ([], ⟨⟨VMode.init, 6, 19, 255, false, false, false, false, false, 600, 0, 0⟩, 3 * 16, false, false, false, true, none, false, 15⟩)

example : (newMV.run vcpDefault ⟨false, false, false⟩ 100 (List.replicate 11 exFreezing)).value = 100 :=
  (C88_frost_end_to_end vcpDefault ⟨false, false, false⟩ rfl 100 newMV (List.replicate 11 exFreezing)
    (fun e he => by
      rw [List.eq_of_mem_replicate he]
      exact ⟨by decide, by decide, by decide, by decide +kernel, by decide +kernel, by decide +kernel⟩)
    (fun e he => by rw [List.eq_of_mem_replicate he]; exact ⟨by decide, by decide⟩)
    (by decide) (by decide) (fun h => by cases h) (fun h => by cases h)).2.1
    ⟨rfl, by decide, fun e he => by rw [List.eq_of_mem_replicate he]; rfl⟩ (by simp)

/-! ## C89 -/

/-- **C89.** The 'really open' minimum read is always 1..100; a legal value set reads back; one out of range restores the
default of 15; no other cell changes. -/
theorem C89_min_open (split : Bool) (m : EE) (pc : Byte) :
    (1 ≤ getMinOpen m ∧ getMinOpen m ≤ 100) ∧
    getMinOpen (EM.post (setMinOpen split pc) m) = (if 1 ≤ pc.toNat ∧ pc.toNat ≤ 100 then pc.toNat else 15) ∧
    ∀ a, a ≠ 19 → EM.post (setMinOpen split pc) m a = m a := by
  refine ⟨?_, ?_⟩
  · unfold getMinOpen; dsimp only; split <;> omega
  · unfold setMinOpen EM.post emIf
    by_cases h : pc.toNat > 100 ∨ pc.toNat = 0 ∨ pc.toNat = 15
    · rw [if_pos h]
      simp only [emBind, emRet, List.append_nil, smartErase_eq]
      rw [applyW_wr1]
      refine ⟨?_, fun a ha => EE.upd_other _ _ ha⟩
      unfold getMinOpen
      rw [EE.upd_same]
      have : (0xff : Byte).toNat = 255 := rfl
      rw [this]
      dsimp only
      rw [if_neg (by omega)]
      split <;> omega
    · rw [if_neg h]
      simp only [emBind, emRet, List.append_nil, smartUpdate_eq]
      rw [applyW_wr1]
      refine ⟨?_, fun a ha => EE.upd_other _ _ ha⟩
      unfold getMinOpen
      rw [EE.upd_same]
      dsimp only
      rw [if_pos (by omega), if_pos (by omega)]

example : getMinOpen (EM.post (setMinOpen true 30) fun _ => 0xff) = 30 ∧ getMinOpen (fun _ => 0xff) = 15 := by
  decide +kernel

end Props
end OTR
