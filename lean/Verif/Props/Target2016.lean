import Verif.Model.Target2016
import Verif.Props.Target
/-! # C246: the 2016 target policy -/

namespace OTR.Props
open OTR

theorem sb16_range (p : VCP) (x : TT16) (h : p.sbDefault ≤ p.sbEco ∧ p.sbEco ≤ p.sbFull) :
    p.sbDefault ≤ (if x.minimal p then p.sbDefault else if x.full p then p.sbFull else p.sbEco) ∧
    (if x.minimal p then p.sbDefault else if x.full p then p.sbFull else p.sbEco) ≤ p.sbFull := by
  split
  · omega
  · split <;> omega

/-- **C246** In FROST and in BAKE mode, and with setbacks locked out, both policies choose the same target. -/
theorem C246_agree (p : VCP) (x : TT16) (h : x.mode.warm = false ∨ x.mode.inBake = true ∨ x.lockout = true) :
    computeTarget16 p x = computeTarget p x.toTTIn := by
  unfold computeTarget16 computeTarget
  dsimp only
  by_cases hw : x.mode.warm = true
  · rw [hw]
    simp only [Bool.not_true, Bool.false_eq_true, if_false]
    by_cases hb : x.mode.inBake = true
    · rw [if_pos hb, if_pos hb]
    · rw [if_neg hb, if_neg hb]
      have hl : x.lockout = true := by
        rcases h with h | h | h
        · rw [hw] at h; cases h
        · exact absurd h hb
        · exact h
      rw [if_pos hl, if_pos hl]
  · have hw' : x.mode.warm = false := by simpa using hw
    rw [hw']
    simp only [Bool.not_false, if_true]
    by_cases hc : (!x.longVacant && x.soon && !x.recentUI) = true
    · rw [if_pos hc, if_pos hc]
      generalize sub8 x.warmC _ = a
      split <;> omega
    · rw [if_neg hc, if_neg hc]

/-- **C246** Whatever mode, schedule, occupancy, light, humidity and statistics: the target is at least the FROST setting, at most WARM except in BAKE
when it is at most WARM plus the uplift, and within 5..95 C. -/
theorem C246_bounds (p : VCP) (x : TT16) (hs : Settings p x.frostC x.warmC) :
    x.frostC ≤ computeTarget16 p x ∧
    computeTarget16 p x ≤ (if x.mode.inBake then x.warmC + p.bakeUplift else x.warmC) ∧
    5 ≤ computeTarget16 p x ∧ computeTarget16 p x ≤ 95 := by
  by_cases h : x.mode.warm = false ∨ x.mode.inBake = true ∨ x.lockout = true
  · rw [C246_agree p x h]; exact C52_target_bounds p x.toTTIn hs
  · obtain ⟨h1, h2, h3, h4, h5, h6⟩ := hs
    have hw : x.mode.warm = true := by cases e : x.mode.warm <;> simp [e] at h ⊢
    have hb : x.mode.inBake = false := by cases e : x.mode.inBake <;> simp [e] at h ⊢
    have hl : x.lockout = false := by cases e : x.lockout <;> simp [e] at h ⊢
    have r := sb16_range p x h4
    unfold computeTarget16
    rw [hw, hb, hl]
    simp only [Bool.not_true, Bool.false_eq_true, if_false]
    generalize (if x.minimal p then p.sbDefault else if x.full p then p.sbFull else p.sbEco) = q at *
    rw [sub8_eq (by omega) (by omega)]
    split <;> omega

/-- **C246** In WARM mode (not BAKE): at most the full setback; exactly WARM with setbacks locked out and, unless the room has been vacant for more than a
day, while a schedule is on or the controls were used recently; at most the default setback (1 C) while the room is likely occupied, or shortly before a
scheduled warm period unless vacant for more than a day, or at a comfort setting unless very dark; at a comfort setting never more than the eco setback. -/
theorem C246_setback (p : VCP) (x : TT16) (hs : Settings p x.frostC x.warmC) (hw : x.mode.warm = true) (hb : x.mode.inBake = false) :
    x.warmC ≤ computeTarget16 p x + p.sbFull ∧
    (x.lockout = true → computeTarget16 p x = x.warmC) ∧
    (x.vacancyH ≤ 24 → x.now = true ∨ x.recentUI = true → computeTarget16 p x = x.warmC) ∧
    (x.likelyOccupied = true ∨ (x.vacancyH ≤ 24 ∧ x.soon = true) ∨ (p.warmCom ≤ x.warmC ∧ x.veryDark = false) →
      x.warmC ≤ computeTarget16 p x + p.sbDefault) ∧
    (p.warmCom ≤ x.warmC → x.warmC ≤ computeTarget16 p x + p.sbEco) := by
  obtain ⟨h1, h2, h3, h4, h5, h6⟩ := hs
  have r := sb16_range p x h4
  have hlv : x.vacancyH ≤ 24 → x.lv = false := by
    intro h; unfold TT16.lv TTIn.longLongVacant TTIn.longVacant
    simp; omega
  have hmin : (x.likelyOccupied = true ∨ (x.vacancyH ≤ 24 ∧ x.soon = true) ∨ (p.warmCom ≤ x.warmC ∧ x.veryDark = false)) → x.minimal p = true := by
    intro h
    unfold TT16.minimal
    rcases h with h | ⟨h, g⟩ | ⟨h, g⟩
    · simp [h]
    · simp [hlv h, g]
    · have : p.isCom x.warmC = true := by unfold VCP.isCom; simpa using h
      simp [this, g]
  have hfull : p.warmCom ≤ x.warmC → x.full p = false := by
    intro h
    have : p.isCom x.warmC = true := by unfold VCP.isCom; simpa using h
    unfold TT16.full; simp [this]
  have hallow : x.vacancyH ≤ 24 → x.now = true ∨ x.recentUI = true → x.allow p = false := by
    intro h g
    unfold TT16.allow
    rcases g with g | g <;> simp [hlv h, g]
  unfold computeTarget16
  rw [hw, hb]
  simp only [Bool.not_true, Bool.false_eq_true, if_false]
  refine ⟨?_, ?_, ?_, ?_, ?_⟩
  · generalize (if x.minimal p then p.sbDefault else if x.full p then p.sbFull else p.sbEco) = q at *
    rw [sub8_eq (by omega) (by omega)]
    split
    · omega
    · split <;> omega
  · intro h; rw [if_pos h]
  · intro h g
    rw [hallow h g]
    simp
  · intro h
    rw [hmin h, if_pos rfl, sub8_eq (by omega) (by omega)]
    split
    · omega
    · split <;> omega
  · intro h
    rw [hfull h]
    have q1 : (if x.minimal p then p.sbDefault else if false = true then p.sbFull else p.sbEco) ≤ p.sbEco := by
      simp only [Bool.false_eq_true, if_false]; split <;> omega
    generalize (if x.minimal p then p.sbDefault else if false = true then p.sbFull else p.sbEco) = q at *
    rw [sub8_eq (by omega) (by omega)]
    split
    · omega
    · split <;> omega

/-- **C86, vacancy.** With the default policy too: all else equal, longer vacancy never raises the target, in any mode. -/
theorem C86_longer_vacant_never_warmer (p : VCP) (x : TTIn) (hs : Settings p x.frostC x.warmC) (v : Nat) (hv : x.vacancyH ≤ v) :
    computeTarget p { x with vacancyH := v } ≤ computeTarget p x := by
  obtain ⟨h1, h2, h3, h4, h5, h6⟩ := hs
  have he : ecoOK p x = true → ecoOK p { x with vacancyH := v } = true := by
    intro h
    unfold ecoOK TTIn.longVacant TTIn.confVacant at *
    simp only [Bool.or_eq_true, Bool.and_eq_true, decide_eq_true_eq, Bool.not_eq_true', Bool.and_eq_false_iff, Bool.or_eq_false_iff,
      Bool.not_eq_false', decide_eq_false_iff_not] at *
    generalize (if p.ecoBias x.warmC = true then 17 else 14) = thr at *
    refine ⟨?_, ?_⟩
    · rcases h.1 with h | h
      · exact .inl (by omega)
      · exact .inr h
    · rcases h.2 with ((h | h) | ⟨(h | h) | h, g⟩) | h
      · exact .inl (.inl (.inl (by omega)))
      · exact .inl (.inl (.inr (by omega)))
      · exact .inl (.inl (.inl (by omega)))
      · exact .inl (.inl (.inr (by omega)))
      · exact .inl (.inr ⟨.inr h, g⟩)
      · exact .inr h
  have hf : fullOK p x = true → fullOK p { x with vacancyH := v } = true := by
    intro h
    unfold fullOK TTIn.longVacant at *
    rw [Bool.and_eq_true] at *
    refine ⟨h.1, ?_⟩
    rw [Bool.or_eq_true] at *
    rcases h.2 with h | h
    · left; rw [decide_eq_true_eq] at *; show v > 24; omega
    · exact .inr h
  have hsb : setbackOf p x ≤ setbackOf p { x with vacancyH := v } := by
    rw [setbackOf_eq, setbackOf_eq]
    cases e1 : ecoOK p x with
    | false =>
      simp only [Bool.false_eq_true, if_false]
      exact le_ite (fun _ => le_ite (fun _ => by omega) fun _ => by omega) fun _ => by omega
    | true =>
      rw [he e1]
      cases e2 : fullOK p x with
      | false =>
        simp only [Bool.false_eq_true, if_false, if_true]
        exact le_ite (fun _ => by omega) fun _ => by omega
      | true => rw [hf e2]; simp
  have r := (setbackOf_range p { x with vacancyH := v } h4).2
  unfold computeTarget
  dsimp only
  refine ite_mono (fun _ => ?_) fun _ => ite_mono (fun _ => Nat.le_refl _) fun _ => ite_mono (fun _ => Nat.le_refl _) fun _ => ?_
  · by_cases g : (!({ x with vacancyH := v } : TTIn).longVacant && x.soon && !x.recentUI) = true
    · have g' : (!x.longVacant && x.soon && !x.recentUI) = true := by
        unfold TTIn.longVacant at *
        simp only [Bool.and_eq_true, Bool.not_eq_true', decide_eq_false_iff_not] at *
        have g1 : ¬ v > 24 := g.1.1
        exact ⟨⟨by omega, g.1.2⟩, g.2⟩
      rw [if_pos g, if_pos g']
      omega
    · rw [if_neg g]
      exact le_ite (fun _ => by omega) fun _ => by omega
  · rw [sub8_eq (by omega) (by omega), sub8_eq (by omega) (by omega)]
    by_cases g : ((x.longVacant || x.confVacant || !x.likelyOccupied) && (x.longVacant || !x.now)) = true
    · have g' : ((({ x with vacancyH := v } : TTIn).longVacant || ({ x with vacancyH := v } : TTIn).confVacant || !x.likelyOccupied) &&
          (({ x with vacancyH := v } : TTIn).longVacant || !x.now)) = true := by
        unfold TTIn.longVacant TTIn.confVacant at *
        simp only [Bool.and_eq_true, Bool.or_eq_true, decide_eq_true_eq] at *
        refine ⟨?_, ?_⟩
        · rcases g.1 with (h | h) | h
          · exact .inl (.inl (by omega))
          · exact .inl (.inr (by omega))
          · exact .inr h
        · rcases g.2 with h | h
          · exact .inl (by omega)
          · exact .inr h
      rw [if_pos g, if_pos g']; omega
    · rw [if_neg g]; exact ite_le (fun _ => by omega) fun _ => by omega

theorem unlikely_mono (p : VCP) (x : TT16) (d v : Nat) (hd : x.dm ≤ d) (hv : x.vacancyH ≤ v) (h : x.unlikely p = true) :
    ({ x with dm := d, vacancyH := v } : TT16).unlikely p = true := by
  unfold TT16.unlikely TT16.lv TTIn.longLongVacant TTIn.longVacant at *
  simp only [Bool.or_eq_true, Bool.and_eq_true, decide_eq_true_eq, Bool.not_eq_true'] at *
  generalize (if p.ecoBias x.warmC = true then 15 else 12) = thr at *
  grind

theorem allow_mono (p : VCP) (x : TT16) (d v : Nat) (hd : x.dm ≤ d) (hv : x.vacancyH ≤ v) (h : x.allow p = true) :
    ({ x with dm := d, vacancyH := v } : TT16).allow p = true := by
  have hu := unlikely_mono p x d v hd hv
  unfold TT16.allow TT16.lv TTIn.longLongVacant TTIn.longVacant at *
  simp only [Bool.or_eq_true, Bool.and_eq_true, decide_eq_true_eq, Bool.not_eq_true'] at *
  generalize (if p.ecoBias x.warmC = true then 10 else 20) = thr at *
  grind

theorem minimal_anti (p : VCP) (x : TT16) (d v : Nat) (hd : x.dm ≤ d) (hv : x.vacancyH ≤ v)
    (h : ({ x with dm := d, vacancyH := v } : TT16).minimal p = true) : x.minimal p = true := by
  unfold TT16.minimal TT16.lv TTIn.longLongVacant TTIn.longVacant at *
  simp only [Bool.or_eq_true, Bool.and_eq_true, decide_eq_true_eq, Bool.not_eq_true', decide_eq_false_iff_not, Bool.or_eq_false_iff] at *
  generalize (if p.ecoBias x.warmC = true then 15 else 12) = thr at *
  rcases h with ((((h | h) | ⟨⟨⟨h, h'⟩, g⟩, k⟩) | ⟨⟨h, h'⟩, g⟩) | ⟨⟨⟨h, h'⟩, g⟩, k⟩) | ⟨h, g⟩
  · exact .inl (.inl (.inl (.inl (.inl h))))
  · exact .inl (.inl (.inl (.inl (.inr h))))
  · exact .inl (.inl (.inl (.inr ⟨⟨⟨⟨by omega, by omega⟩, h'⟩, g⟩, k⟩)))
  · exact .inl (.inl (.inr ⟨⟨⟨by omega, by omega⟩, h'⟩, g⟩))
  · exact .inl (.inr ⟨⟨⟨⟨by omega, by omega⟩, h'⟩, by omega⟩, k⟩)
  · exact .inr ⟨⟨by omega, by omega⟩, g⟩

theorem full_mono16 (p : VCP) (x : TT16) (d v : Nat) (hd : x.dm ≤ d) (hv : x.vacancyH ≤ v) (h : x.full p = true) :
    ({ x with dm := d, vacancyH := v } : TT16).full p = true := by
  have hu := unlikely_mono p x d v hd hv
  unfold TT16.full TTIn.longLongVacant at *
  simp only [Bool.or_eq_true, Bool.and_eq_true, decide_eq_true_eq, Bool.not_eq_true'] at *
  grind

/-- **C246** All else equal, longer darkness and longer vacancy never raise the target, in any mode. -/
theorem C246_longer_never_warmer (p : VCP) (x : TT16) (hs : Settings p x.frostC x.warmC) (d v : Nat)
    (hd : x.dm ≤ d) (hv : x.vacancyH ≤ v) : computeTarget16 p { x with dm := d, vacancyH := v } ≤ computeTarget16 p x := by
  by_cases hw : x.mode.warm = false
  · rw [C246_agree p x (.inl hw), C246_agree p { x with dm := d, vacancyH := v } (.inl hw)]
    have a := C86_darker_never_warmer p x.toTTIn hs d hd
    have b := C86_longer_vacant_never_warmer p { x.toTTIn with dm := d } hs v hv
    exact Nat.le_trans b a
  have hw : x.mode.warm = true := by simpa using hw
  obtain ⟨h1, h2, h3, h4, h5, h6⟩ := hs
  have a1 := allow_mono p x d v hd hv
  have a2 := minimal_anti p x d v hd hv
  have a3 := full_mono16 p x d v hd hv
  have r := sb16_range p { x with dm := d, vacancyH := v } h4
  have r' := sb16_range p x h4
  unfold computeTarget16
  dsimp only
  rw [hw]
  simp only [Bool.not_true, Bool.false_eq_true, if_false]
  refine ite_mono (fun _ => Nat.le_refl _) fun _ => ite_mono (fun _ => Nat.le_refl _) fun _ => ?_
  have hq : (if x.minimal p then p.sbDefault else if x.full p then p.sbFull else p.sbEco) ≤
      (if ({ x with dm := d, vacancyH := v } : TT16).minimal p then p.sbDefault else if ({ x with dm := d, vacancyH := v } : TT16).full p then p.sbFull
        else p.sbEco) := by
    by_cases m : ({ x with dm := d, vacancyH := v } : TT16).minimal p = true
    · rw [if_pos m, if_pos (a2 m)]; omega
    · rw [if_neg m]
      by_cases m' : x.minimal p = true
      · rw [if_pos m']; split <;> omega
      · rw [if_neg m']
        by_cases f : x.full p = true
        · rw [if_pos f, if_pos (a3 f)]; omega
        · rw [if_neg f]; split <;> omega
  generalize (if x.minimal p then p.sbDefault else if x.full p then p.sbFull else p.sbEco) = q at *
  generalize (if ({ x with dm := d, vacancyH := v } : TT16).minimal p then p.sbDefault else if ({ x with dm := d, vacancyH := v } : TT16).full p then
    p.sbFull else p.sbEco) = q' at *
  rw [sub8_eq (by omega) (by omega), sub8_eq (by omega) (by omega)]
  by_cases g : x.allow p = true
  · rw [if_pos g, if_pos (a1 g)]; omega
  · rw [if_neg g]; split <;> omega

/-- The policy at work: 19 C, dark for an hour, nobody there for three hours, little used hour: the full setback; just before a schedule: the least. -/
def exTT16 : TT16 := ⟨⟨⟨true, 0⟩, 6, 19, 3, false, false, false, false, false, 130, 0, 0⟩, true, true, false, false⟩

example : computeTarget16 vcpDefault exTT16 = 13 ∧ computeTarget16 vcpDefault { exTT16 with dm := 60 } = 16 ∧
    computeTarget16 vcpDefault { exTT16 with soon := true } = 18 ∧ computeTarget16 vcpDefault { exTT16 with now := true } = 19 ∧
    Settings vcpDefault exTT16.frostC exTT16.warmC := by
  refine ⟨by decide +kernel, by decide +kernel, by decide +kernel, by decide +kernel, ?_⟩
  exact ⟨by decide, by decide, by decide, by decide +kernel, by decide +kernel, by decide +kernel⟩

/-- **C246** At every reading of the valve with this policy: it calls for heat exactly when the room (to the nearest degree) is under target, the valve was open at
least 50% and at least its 'really open' minimum, and so was any physical device; BAKE ends once the target is reached; the position never exceeds 100%. -/
theorem C246_call_for_heat (p : VCP) (c : VCfg) (maxPC : Nat) (s : MV) (x : MV16) :
    ((s.read16 p c maxPC x).calling = true ↔
      (x.temp16 + 8) / 16 < (s.read16 p c maxPC x).target ∧ 50 ≤ s.value ∧ x.minOpen ≤ s.value ∧ (x.phys = none ∨ x.physOpen = true)) ∧
    ((s.read16 p c maxPC x).under = true ↔ (x.temp16 + 8) / 16 < (s.read16 p c maxPC x).target) ∧
    ((s.read16 p c maxPC x).under = false → (s.read16 p c maxPC x).mode.inBake = false) ∧
    (s.value ≤ 100 → (s.read16 p c maxPC x).value ≤ 100) := by
  have e1 : (s.read16 p c maxPC x).calling = (!(decide (((s.read16 p c maxPC x).target : Int) ≤ (x.temp16 + 8) / 16)) &&
      decide (s.value ≥ 50) && ((x.phys.isNone || x.physOpen) && decide (s.value ≥ x.minOpen))) := rfl
  have e2 : (s.read16 p c maxPC x).under = !(decide (((s.read16 p c maxPC x).target : Int) ≤ (x.temp16 + 8) / 16)) := rfl
  refine ⟨?_, ?_, ?_, ?_⟩
  · rw [e1]
    generalize (s.read16 p c maxPC x).target = T
    simp only [Bool.and_eq_true, Bool.not_eq_true', decide_eq_false_iff_not,
      decide_eq_true_eq, Bool.or_eq_true, Option.isNone_iff_eq_none, Int.not_le]
    constructor
    · rintro ⟨⟨h1, h2⟩, h3, h4⟩; exact ⟨h1, h2, h4, h3⟩
    · rintro ⟨h1, h2, h3, h4⟩; exact ⟨⟨h1, h2⟩, h4, h3⟩
  · rw [e2]
    generalize (s.read16 p c maxPC x).target = T
    simp only [Bool.not_eq_true', decide_eq_false_iff_not, Int.not_le]
  · intro h
    simp only [MV.read16] at *
    rw [Bool.not_eq_eq_eq_not] at h
    rw [if_pos (by simpa using h)]
    simp [VMode.cancelBake, VMode.inBake]
  · intro h
    simp only [MV.read16]
    refine (C45_limits c s.st s.value _ x.phys).2 h ?_
    simp only [setupInput16, VIn.setTemp]
    omega

end OTR.Props

namespace OTR

/-- One minute of the valve's life with this policy (as `MV.step`). -/
def MV.step16 (p : VCP) (c : VCfg) (maxPC : Nat) (s : MV) (e : List VOp × MV16) : MV :=
  ({ s with mode := s.mode.run e.1 }).read16 p c maxPC e.2

/-- Any number of minutes. -/
def MV.run16 (p : VCP) (c : VCfg) (maxPC : Nat) (s : MV) (es : List (List VOp × MV16)) : MV := es.foldl (MV.step16 p c maxPC) s

/-- What the valve state machine is given at a reading. -/
def MV.tickOf16 (p : VCP) (maxPC : Nat) (s : MV) (e : List VOp × MV16) : VTick :=
  (setupInput16 (min maxPC 100) (decide (s.st.filtering ≠ 0)) { e.2 with tt := { e.2.tt with mode := (s.mode.run e.1).read } }
    (computeTarget16 p { e.2.tt with mode := (s.mode.run e.1).read }), e.2.phys)

theorem step16_eq (p : VCP) (c : VCfg) (maxPC : Nat) (s : MV) (e : List VOp × MV16) :
    ((s.step16 p c maxPC e).st, (s.step16 p c maxPC e).value) =
      s.st.tick c s.value (s.tickOf16 p maxPC e).1 (s.tickOf16 p maxPC e).2 := rfl

/-- The inputs over a run. -/
def MV.ticks16 (p : VCP) (c : VCfg) (maxPC : Nat) : MV → List (List VOp × MV16) → List VTick
  | _, [] => []
  | s, e :: es => s.tickOf16 p maxPC e :: (s.step16 p c maxPC e).ticks16 p c maxPC es

theorem run16_eq (p : VCP) (c : VCfg) (maxPC : Nat) (es : List (List VOp × MV16)) : ∀ s : MV,
    ((s.run16 p c maxPC es).st, (s.run16 p c maxPC es).value) = s.st.after c s.value (s.ticks16 p c maxPC es) := by
  induction es with
  | nil => intro s; rfl
  | cons e es ih =>
    intro s
    have := ih (s.step16 p c maxPC e)
    unfold MV.ticks16
    rw [after_cons, ← step16_eq]
    exact this

theorem ticks16_length (p : VCP) (c : VCfg) (maxPC : Nat) (es : List (List VOp × MV16)) : ∀ s : MV,
    (s.ticks16 p c maxPC es).length = es.length := by
  induction es with
  | nil => intro s; rfl
  | cons e es ih => intro s; simp [MV.ticks16, ih]

theorem ticks16_mem (p : VCP) (c : VCfg) (maxPC : Nat) (es : List (List VOp × MV16)) : ∀ (s : MV) (t : VTick),
    t ∈ s.ticks16 p c maxPC es → ∃ s' e, e ∈ es ∧ t = MV.tickOf16 p maxPC s' e := by
  induction es with
  | nil => intro s t h; cases h
  | cons e es ih =>
    intro s t h
    rcases List.mem_cons.1 h with rfl | h
    · exact ⟨s, e, by simp, rfl⟩
    · obtain ⟨s', e', h1, h2⟩ := ih _ t h
      exact ⟨s', e', by simp [h1], h2⟩

end OTR

namespace OTR.Props
open OTR

/-- **C246, frost protection end to end** with this policy: from any state of the valve, whatever user, schedule, mode, occupancy, light, humidity and statistics
do, if the room is below 4.5 C at each reading (and was at those remembered), the valve is open to its maximum after 11 readings outside glacial operation, and in
any case after 11 plus one per percent; and it then calls for heat if that maximum is at least 50% (and at least the 'really open' minimum). -/
theorem C246_frost_end_to_end (p : VCP) (c : VCfg) (hc : c.binary = false) (maxPC : Nat) (s : MV)
    (es : List (List VOp × MV16)) (hset : ∀ e ∈ es, Settings p e.2.tt.frostC e.2.tt.warmC)
    (hcold : ∀ e ∈ es, -1900 ≤ e.2.temp16 ∧ e.2.temp16 < 72)
    (hv : s.value ≤ min maxPC 100) (htd : s.st.turndownM ≤ 11) (hf : s.st.Full)
    (hmem : s.st.initialised = true → ∀ x ∈ s.st.temps, -1900 ≤ x ∧ x < 72) :
    (11 + (min maxPC 100 - s.value) ≤ es.length → (s.run16 p c maxPC es).value = min maxPC 100) ∧
    ((c.alwaysGlacial = false ∧ ∀ e ∈ es, e.2.glacial = false) → 11 ≤ es.length →
      (s.run16 p c maxPC es).value = min maxPC 100) ∧
    (∀ e : List VOp × MV16, Settings p e.2.tt.frostC e.2.tt.warmC → e.2.temp16 < 72 →
      (s.run16 p c maxPC es).value = min maxPC 100 → 50 ≤ maxPC → e.2.minOpen ≤ min maxPC 100 →
      (e.2.phys = none ∨ e.2.physOpen = true) → ((s.run16 p c maxPC es).step16 p c maxPC e).calling = true) := by
  have h5 : ∀ i : VIn, 80 ≤ coldLimit i := by intro i; unfold coldLimit; omega
  have hm : ∀ t ∈ s.ticks16 p c maxPC es, t.1.maxPC = min maxPC 100 ∧ t.1.sane := by
    intro t ht
    obtain ⟨s', e, he, rfl⟩ := ticks16_mem p c maxPC es s t ht
    refine ⟨rfl, ?_⟩
    have hs := hset e he
    have b := C246_bounds p { e.2.tt with mode := (s'.mode.run e.1).read } hs
    refine ⟨b.2.2.2, Nat.zero_le _, ?_⟩
    simp only [MV.tickOf16, setupInput16, VIn.setTemp]; omega
  have ht : ∀ t ∈ s.ticks16 p c maxPC es, -2000 ≤ t.1.ref16 - 8 ∧ t.1.ref16 < 80 := by
    intro t ht
    obtain ⟨s', e, he, rfl⟩ := ticks16_mem p c maxPC es s t ht
    have := hcold e he
    simp only [MV.tickOf16, setupInput16, VIn.setTemp]; omega
  have hg : (∀ e ∈ es, e.2.glacial = false) → ∀ t ∈ s.ticks16 p c maxPC es, t.1.glacial = false := by
    intro g t ht
    obtain ⟨s', e, he, rfl⟩ := ticks16_mem p c maxPC es s t ht
    exact g e he
  have key := C47_opens_in_time c hc (min maxPC 100) (s.ticks16 p c maxPC es) hm s.st s.value hv htd hf
    (fun t h t' _ => ⟨(ht t h).1, by have := (ht t h).2; have := h5 t'.1; omega⟩)
    (fun hi t _ x hx => by have := hmem hi x hx; have := h5 t.1; omega)
  rw [ticks16_length, ← run16_eq] at key
  refine ⟨key.1, fun ⟨g1, g3⟩ hl => key.2 ⟨g1, hg g3⟩ hl, ?_⟩
  intro e hs ht hval h50 hmin hphys
  have k := (C246_call_for_heat p c maxPC { s.run16 p c maxPC es with mode := (s.run16 p c maxPC es).mode.run e.1 } e.2).1
  refine k.2 ⟨?_, ?_, ?_, hphys⟩
  · have b := (C246_bounds p { e.2.tt with mode := (((s.run16 p c maxPC es).mode.run e.1).read) } hs).2.2.1
    have : (MV.read16 p c maxPC { s.run16 p c maxPC es with mode := (s.run16 p c maxPC es).mode.run e.1 } e.2).target =
      computeTarget16 p { e.2.tt with mode := (((s.run16 p c maxPC es).mode.run e.1).read) } := rfl
    rw [this]; omega
  · dsimp only; omega
  · dsimp only; omega

/-- A new valve in a freezing room, in FROST mode and vacant for a month. -/
def exFreezing16 : List VOp × MV16 :=
  ([], ⟨{ exTT16 with mode := VMode.init, vacancyH := 255, dm := 600 }, 3 * 16, false, false, false, none, false, 15⟩)

example : (newMV.run16 vcpDefault ⟨false, false, false⟩ 100 (List.replicate 11 exFreezing16)).value = 100 :=
  (C246_frost_end_to_end vcpDefault ⟨false, false, false⟩ rfl 100 newMV (List.replicate 11 exFreezing16)
    (fun e he => by
      rw [List.eq_of_mem_replicate he]
      exact ⟨by decide, by decide, by decide, by decide +kernel, by decide +kernel, by decide +kernel⟩)
    (fun e he => by rw [List.eq_of_mem_replicate he]; exact ⟨by decide, by decide⟩)
    (by decide) (by decide) (fun h => by cases h) (fun h => by cases h)).2.1
    ⟨rfl, fun e he => by rw [List.eq_of_mem_replicate he]; rfl⟩ (by simp)

end OTR.Props
