import Verif.Props.EndToEnd
/-!
# C198–C200: the control loop holds the temperature

The valve together with the room it heats. Nothing is assumed of the room but that its temperature (as read) does not change by more than a
sixteenth of a degree a minute, and that it stops falling once the valve has been fully open for `L` readings, and stops rising once the valve has been
closed for `L` readings: every such room is kept near its target, however it behaves otherwise.
-/

namespace OTR.Props
open OTR

/-! ## Specification -/

/-- The valve just before reading `k` of an unending series of readings, one a minute. -/
def valveAt (v : ValveSetup) (es : Nat → Reading) : Nat → MV
  | 0 => newMV
  | k + 1 => (valveAt v es k).step v.p v.c v.maxPC (es k)

/-- The temperature read at reading `k`, in sixteenths of a degree. -/
def tempAt (es : Nat → Reading) (k : Nat) : Int := (es k).2.temp16

/-- The valve's position from reading `k` on. -/
def posAt (v : ValveSetup) (es : Nat → Reading) (k : Nat) : Nat := (valveAt v es (k + 1)).value

/-- The target temperature at reading `k`, in degrees. -/
def targetAt (v : ValveSetup) (es : Nat → Reading) (k : Nat) : Nat := (valveAt v es (k + 1)).target

/-- Open to the allowed maximum at the last `L` readings up to reading `k`. -/
def HeldOpen (v : ValveSetup) (es : Nat → Reading) (L k : Nat) : Prop := L ≤ k + 1 ∧ ∀ j, j < L → posAt v es (k - j) = min v.maxPC 100

/-- Closed at the last `L` readings up to reading `k`. -/
def HeldClosed (v : ValveSetup) (es : Nat → Reading) (L k : Nat) : Prop := L ≤ k + 1 ∧ ∀ j, j < L → posAt v es (k - j) = 0

/-- The valve is set up to open at least half way and is not in glacial mode; settings are allowed ones; room temperatures are between -118C and
62C and change by at most 1/16C a minute. -/
structure PlainRoom (v : ValveSetup) (es : Nat → Reading) : Prop where
  half : 50 ≤ v.maxPC
  brisk : v.c.alwaysGlacial = false ∧ ∀ k, (es k).2.glacial = false
  settings : ∀ k, Settings v.p (es k).2.tt.frostC (es k).2.tt.warmC
  range : ∀ k, -1900 ≤ tempAt es k ∧ tempAt es k ≤ 1000
  slow : ∀ k, tempAt es (k + 1) ≤ tempAt es k + 1 ∧ tempAt es k ≤ tempAt es (k + 1) + 1

/-! ## The valve's part -/

theorem loop_sane {v : ValveSetup} {es : Nat → Reading} (hr : PlainRoom v es) (k : Nat) (s : MV) :
    (s.tickOf v.p v.maxPC (es k)).1.sane ∧ 5 ≤ (s.tickOf v.p v.maxPC (es k)).1.target := by
  have tb := C52_target_bounds v.p { (es k).2.tt with mode := (s.mode.run (es k).1).read } (hr.settings k)
  exact ⟨⟨tb.2.2.2, (hr.settings k).hi, by show min _ 100 ≤ 100; omega⟩, tb.2.2.1⟩

/-- With a temperature that changes slowly the readings are never filtered. -/
theorem loop_temps {v : ValveSetup} {es : Nat → Reading} (hr : PlainRoom v es) (k : Nat) :
    (valveAt v es (k + 1)).st.initialised = true ∧ (valveAt v es (k + 1)).st.filtering = 0 ∧
      (valveAt v es (k + 1)).st.temps = (List.range 16).map fun j => tempAt es (k - j) := by
  have near : ∀ k, (tempAt es k - tempAt es (k - 5)).natAbs ≤ 8 := by
    intro k
    have h := fun j => hr.slow j
    rcases k with _ | _ | _ | _ | _ | k
    · simp
    · have := h 0; simp only [Nat.zero_add, show 0 + 1 - 5 = 0 from rfl] at *; omega
    · have := h 0; have := h 1; simp only [Nat.zero_add, Nat.reduceAdd, show 2 - 5 = 0 from rfl] at *; omega
    · have := h 0; have := h 1; have := h 2; simp only [Nat.zero_add, Nat.reduceAdd, show 3 - 5 = 0 from rfl] at *; omega
    · have := h 0; have := h 1; have := h 2; have := h 3; simp only [Nat.zero_add, Nat.reduceAdd, show 4 - 5 = 0 from rfl] at *; omega
    · have := h k; have := h (k + 1); have := h (k + 2); have := h (k + 3); have := h (k + 4)
      have e : k + 1 + 1 + 1 + 1 + 1 - 5 = k := by omega
      rw [e]
      simp only [Nat.add_assoc, Nat.reduceAdd] at *
      omega
  have filt : ∀ (s : VState) (val : Nat) (i : VIn) (p : Option Nat) (g : Nat → Int), (if s.initialised then s.filtering else 0) = 0 → s.filtering = 0 →
      (s.prepare val i p).temps = (List.range 16).map g → (g 0 - g 5).natAbs ≤ 8 → (s.prepare val i p).filtering = 0 := by
    intro s val i p g _ h0 ht hn
    have e := (prepare_fields s val i p).2.2.2.2.2
    rw [e] at ht
    obtain ⟨init, f, mv, td, tu, cu, pv, ts⟩ := s
    dsimp only at h0 ht
    subst h0
    unfold VState.prepare
    cases init with
    | false =>
      simp only [Bool.false_eq_true, if_false, gt_iff_lt, Nat.not_lt_zero, false_and, Nat.zero_ne_one] at ht ⊢
      rw [if_neg]
      rintro ⟨_, hgt⟩
      unfold VState.rawDelta at hgt
      dsimp only at hgt
      rw [ht] at hgt
      have : (List.map g (List.range 16)).getD 0 0 - (List.map g (List.range 16)).getD (min 5 15) 0 = g 0 - g 5 := rfl
      rw [this] at hgt
      omega
    | true =>
      simp only [if_true, gt_iff_lt, Nat.not_lt_zero, false_and, if_false, Nat.zero_ne_one] at ht ⊢
      rw [if_neg]
      rintro ⟨_, hgt⟩
      unfold VState.rawDelta at hgt
      dsimp only at hgt
      rw [ht] at hgt
      have : (List.map g (List.range 16)).getD 0 0 - (List.map g (List.range 16)).getD (min 5 15) 0 = g 0 - g 5 := rfl
      rw [this] at hgt
      omega
  induction k with
  | zero =>
    have e : (valveAt v es 1).st = (newMV.st.tick v.c newMV.value (newMV.tickOf v.p v.maxPC (es 0)).1 (newMV.tickOf v.p v.maxPC (es 0)).2).1 := rfl
    obtain ⟨_, _, t3, t4, t5, _, _⟩ := tick_fields v.c newMV.st newMV.value (newMV.tickOf v.p v.maxPC (es 0)).1 (newMV.tickOf v.p v.maxPC (es 0)).2
    have hT : (newMV.st.prepare newMV.value (newMV.tickOf v.p v.maxPC (es 0)).1 ((newMV.tickOf v.p v.maxPC (es 0)).2.map Prod.fst)).temps =
        (List.range 16).map fun j => tempAt es (0 - j) := by
      rw [(prepare_fields _ _ _ _).2.2.2.2.2]
      have : (newMV.tickOf v.p v.maxPC (es 0)).1.ref16 - 8 = tempAt es 0 := by
        show tempAt es 0 + 8 - 8 = _
        omega
      rw [this]
      have hz : ∀ j, 0 - j = 0 := fun j => Nat.zero_sub j
      simp only [hz]
      rfl
    rw [show (0 : Nat) + 1 = 1 from rfl, e, t4, t5]
    exact ⟨t3, filt _ _ _ _ _ rfl rfl hT (near 0), hT⟩
  | succ k ih =>
    obtain ⟨h1, h2, h3⟩ := ih
    generalize hs : valveAt v es (k + 1) = s at h1 h2 h3
    have e : (valveAt v es (k + 1 + 1)).st = (s.st.tick v.c s.value (s.tickOf v.p v.maxPC (es (k + 1))).1 (s.tickOf v.p v.maxPC (es (k + 1))).2).1 := by
      rw [← hs]; rfl
    obtain ⟨_, _, t3, t4, t5, _, _⟩ := tick_fields v.c s.st s.value (s.tickOf v.p v.maxPC (es (k + 1))).1 (s.tickOf v.p v.maxPC (es (k + 1))).2
    have hT : (s.st.prepare s.value (s.tickOf v.p v.maxPC (es (k + 1))).1 ((s.tickOf v.p v.maxPC (es (k + 1))).2.map Prod.fst)).temps =
        (List.range 16).map fun j => tempAt es (k + 1 - j) := by
      rw [(prepare_fields _ _ _ _).2.2.2.2.2, h1, h3]
      have : (s.tickOf v.p v.maxPC (es (k + 1))).1.ref16 - 8 = tempAt es (k + 1) := by
        show tempAt es (k + 1) + 8 - 8 = _
        omega
      rw [this]
      have hz : ∀ j, k + 1 - (j + 1) = k - j := fun j => by omega
      show _ :: _ = tempAt es (k + 1 - 0) :: (List.range 15).map fun j => tempAt es (k + 1 - (j + 1))
      simp only [hz]
      rfl
    rw [e, t4, t5]
    exact ⟨t3, filt _ _ _ _ _ (by rw [h1]; exact h2) h2 hT (near (k + 1)), hT⟩

theorem prop_low (ag nd : Bool) (val : Nat) (i : VIn) (err rise : Int) (h1 : err ≤ -13) (h2 : -1000 ≤ err) (hv : val ≤ i.maxPC) :
    propCompute ag false false false nd val i err rise = i.maxPC := by
  have hb : decide (err < 0) = true := by simp; omega
  unfold propCompute
  simp only [hb, Bool.and_false, Bool.not_true, Bool.false_and, Bool.true_and, Bool.not_false, Bool.or_false, Bool.false_eq_true, if_false, if_true,
    decide_eq_true_eq]
  by_cases hm : val ≥ i.maxPC
  · rw [if_pos hm]; omega
  · rw [if_neg hm]
    have hw : decide (err < -(if i.wide = true then (12 : Int) else 6)) = true := by split <;> simp <;> omega
    rw [hw]
    have hs : 0 < min 21 (err.natAbs / (if i.wide = true then 8 else 4) % 256) := by split <;> omega
    simp only [Bool.or_true, Bool.true_and, decide_eq_true_eq, gt_iff_lt]
    rw [if_pos hs]

theorem prop_high (ag nu : Bool) (val : Nat) (i : VIn) (err rise : Int) (h1 : 8 ≤ err) (h2 : err < 1024) (hr : 1 ≤ rise) (hw : i.fast = true → i.wide = false) :
    propCompute ag false false nu false val i err rise ≤ val - 2 ∧ propCompute ag false false nu false val i err rise ≤ 49 := by
  have hb : decide (err < 0) = false := by simp; omega
  unfold propCompute
  simp only [hb, Bool.and_false, Bool.not_true, Bool.false_and, Bool.true_and, Bool.not_false, Bool.or_false, Bool.false_eq_true, if_false, if_true,
    decide_eq_true_eq]
  by_cases hz : (val == 0) = true
  · rw [if_pos hz]
    have : val = 0 := by simpa using hz
    omega
  · rw [if_neg hz]
    have hwb : decide (err < -(if i.wide = true then (12 : Int) else 6)) = false := by
      split <;> simp <;> omega
    have hwa : decide (err > 6) = true := by simp; omega
    rw [hwb, hwa]
    simp only [Bool.or_false, Bool.true_and]
    cases hf : i.fast with
    | true =>
      rw [hw hf]
      simp only [Bool.false_eq_true, if_false, Bool.true_and, decide_eq_true_eq, gt_iff_lt]
      have hs : 2 ≤ min 21 (err.natAbs / 4 % 256) := by omega
      generalize min 21 (err.natAbs / 4 % 256) = sl at hs ⊢
      rw [if_pos (by omega)]
      unfold constrainI
      constructor <;> (repeat' split) <;> omega
    | false =>
      have hs : 0 < min 21 (err.natAbs / (if i.wide = true then 8 else 4) % 256) := by split <;> omega
      generalize min 21 (err.natAbs / (if i.wide = true then 8 else 4) % 256) = sl at hs ⊢
      have hs0 : (sl == 0) = false := by simp; omega
      have r1 : decide (rise < 0) = false := by simp; omega
      have r2 : decide (rise ≤ 0) = false := by simp; omega
      have r3 : decide (rise > 0) = true := by simp; omega
      rw [hs0, r1, r2, r3]
      simp only [Bool.false_and, Bool.false_eq_true, if_false, Bool.and_false, ite_self, if_true]
      unfold constrainI
      constructor <;> (repeat' split) <;> omega

theorem coldB_iff (t : Int) (i : VIn) (h : -2048 ≤ t ∧ t ≤ 2047) : isCold true t i = true ↔ t < 16 * (i.target : Int) := by
  unfold isCold
  dsimp only
  rw [i8cast_id (by omega)]
  simp only [if_true, decide_eq_true_eq]
  omega

theorem hotB_iff (t : Int) (i : VIn) (h : -2048 ≤ t ∧ t ≤ 2047) : isHot true t i = true ↔ 16 * (i.target : Int) + 16 ≤ t := by
  unfold isHot
  dsimp only
  rw [i8cast_id (by omega)]
  simp only [if_true, decide_eq_true_eq]
  omega

/-- Well below the target the valve does not close, and opens fully unless held. -/
theorem low_zone (c : VCfg) (hg : c.alwaysGlacial = false) (s : VState) (val : Nat) (i : VIn) (hf : s.filtering = 0) (hs : i.sane) (hgl : i.glacial = false)
    (hr : -2000 ≤ i.ref16 ∧ i.ref16 ≤ 1100) (hlow : i.ref16 - 8 ≤ 16 * (i.target : Int) - 9) (hv : val ≤ i.maxPC) :
    val ≤ s.compute c val i ∧ s.compute c val i ≤ i.maxPC ∧ (s.turndownM = 0 → s.compute c val i = i.maxPC) := by
  have hadj : s.adj16 i = i.ref16 := by unfold VState.adj16; rw [if_neg (by omega)]
  have hhi : i.higher ≤ 95 := by unfold VIn.higher; obtain ⟨a, b, _⟩ := hs; omega
  have hth : i.target ≤ i.higher := by unfold VIn.higher; omega
  have ht95 := hs.1
  have hnot : isHot c.binary i.ref16 i = false := by
    rw [Bool.eq_false_iff]
    intro h
    cases hb : c.binary with
    | true => rw [hb, hotB_iff _ _ (by omega)] at h; omega
    | false => rw [hb, isHot_iff _ _ (by omega) hhi] at h; omega
  unfold VState.compute
  dsimp only
  rw [hadj, hnot, hg, hgl, hf]
  simp only [Bool.or_false, Bool.and_false, Bool.false_and, Bool.false_eq_true, if_false, ne_eq, not_true, decide_false]
  by_cases hc : isCold c.binary i.ref16 i = true
  · rw [if_pos hc]
    by_cases ht : s.turndownM = 0
    · simp [ht, hv]
    · by_cases hb : i.bake = true
      · simp [hb, hv]
      · simp [ht, hb, hv]
  · rw [if_neg hc]
    cases hb : c.binary with
    | true => rw [hb, coldB_iff _ _ (by omega)] at hc; omega
    | false =>
      simp only [Bool.not_false, if_true]
      by_cases hbk : i.bake = true
      · simp [hbk, hv]
      · rw [if_neg hbk]
        have herr : i.ref16 - (i.target : Int) * 16 - 12 ≤ -13 := by omega
        rw [hb, isCold_iff _ _ (by omega)] at hc
        have herr2 : -1000 ≤ i.ref16 - (i.target : Int) * 16 - 12 := by omega
        generalize i.ref16 - (i.target : Int) * 16 - 12 = err at *
        have hd := (propCompute_dir c.aggressive false false (decide ¬s.turndownM = 0) (decide ¬s.turnupM = 0) val i err (s.rawDelta 1)).2 (by omega)
        refine ⟨hd.1, by omega, fun ht => ?_⟩
        have hn : (decide ¬s.turndownM = 0) = false := by simp [ht]
        rw [hn]
        exact prop_low _ _ _ _ _ _ herr herr2 hv

/-- Well above the target the valve does not open; and if the temperature is rising it closes, by 2% and to below 50% at least, unless held. -/
theorem high_zone (c : VCfg) (hg : c.alwaysGlacial = false) (s : VState) (val : Nat) (i : VIn) (hf : s.filtering = 0) (hs : i.sane) (hgl : i.glacial = false)
    (hr : -2000 ≤ i.ref16 ∧ i.ref16 ≤ 1010) (h5 : 5 ≤ i.target) (hhigh : 16 * (i.target : Int) + 12 ≤ i.ref16 - 8) (hb : i.bake = false)
    (hw : i.fast = true → i.wide = false) :
    s.compute c val i ≤ val ∧ (s.turnupM = 0 → 1 ≤ s.rawDelta 1 → s.compute c val i ≤ val - 2 ∧ s.compute c val i ≤ 49) := by
  have hadj : s.adj16 i = i.ref16 := by unfold VState.adj16; rw [if_neg (by omega)]
  have hnot : isCold c.binary i.ref16 i = false := by
    rw [Bool.eq_false_iff]
    intro h
    cases hbi : c.binary with
    | true => rw [hbi, coldB_iff _ _ (by omega)] at h; omega
    | false => rw [hbi, isCold_iff _ _ (by omega)] at h; omega
  unfold VState.compute
  dsimp only
  rw [hadj, hnot, hg, hgl, hf, hb]
  simp only [Bool.or_false, Bool.and_false, Bool.false_and, Bool.false_eq_true, if_false, ne_eq, not_true, decide_false]
  by_cases hh : isHot c.binary i.ref16 i = true
  · rw [if_pos hh]
    constructor
    · split <;> omega
    · intro hu _
      rw [if_neg (by simp [hu])]
      omega
  · rw [if_neg hh]
    cases hbi : c.binary with
    | true => rw [hbi, hotB_iff _ _ (by omega)] at hh; omega
    | false =>
      simp only [Bool.not_false, if_true]
      refine ⟨(propCompute_dir _ _ _ _ _ _ _ _ _).1 (by omega), fun hu hri => ?_⟩
      have hn : (decide ¬s.turnupM = 0) = false := by simp [hu]
      rw [hn]
      exact prop_high _ _ _ _ _ _ (by omega) (by omega) hri hw


/-- Well above the warm target with the temperature not falling the valve closes, by 1% at least, unless held. -/
theorem prop_flat (ag nu : Bool) (val : Nat) (i : VIn) (err rise : Int) (h1 : 8 ≤ err) (h2 : err < 1024) (hr : 0 ≤ rise) (hw : i.fast = true → i.wide = false)
    (hm : i.maxTarget ≤ i.target) : propCompute ag false false nu false val i err rise ≤ val - 1 := by
  have hb : decide (err < 0) = false := by simp; omega
  have hhi : i.higher = i.target := by unfold VIn.higher; omega
  unfold propCompute
  simp only [hb, hhi, Nat.sub_self, Bool.and_false, Bool.false_and, Bool.true_and, Bool.not_false, Bool.or_false, Bool.false_eq_true, if_false,
    decide_eq_true_eq]
  by_cases hz : (val == 0) = true
  · rw [if_pos hz]
    have : val = 0 := by simpa using hz
    omega
  · rw [if_neg hz]
    have hwb : decide (err < -(if i.wide = true then (12 : Int) else 6)) = false := by
      split <;> simp <;> omega
    have hwa : decide (err > 6) = true := by simp; omega
    have hwm : err - ((0 : Nat) : Int) * 16 > 6 := by simp; omega
    rw [hwb, hwa, if_pos hwm]
    simp only [Bool.or_false, Bool.true_and]
    cases hf : i.fast with
    | true =>
      rw [hw hf]
      simp only [Bool.false_eq_true, if_false, Bool.true_and, decide_eq_true_eq, gt_iff_lt]
      have hs : 2 ≤ min 21 (err.natAbs / 4 % 256) := by omega
      generalize min 21 (err.natAbs / 4 % 256) = sl at hs ⊢
      rw [if_pos (by omega)]
      unfold constrainI
      (repeat' split) <;> omega
    | false =>
      have hs : 0 < min 21 (err.natAbs / (if i.wide = true then 8 else 4) % 256) := by split <;> omega
      generalize min 21 (err.natAbs / (if i.wide = true then 8 else 4) % 256) = sl at hs ⊢
      have hs0 : (sl == 0) = false := by simp; omega
      have r1 : decide (rise < 0) = false := by simp; omega
      rw [hs0, r1]
      simp only [Bool.false_and, Bool.false_eq_true, if_false, Bool.and_false]
      unfold constrainI
      (repeat' split) <;> omega

theorem flat_zone (c : VCfg) (hg : c.alwaysGlacial = false) (s : VState) (val : Nat) (i : VIn) (hf : s.filtering = 0) (hgl : i.glacial = false)
    (hr : -2000 ≤ i.ref16 ∧ i.ref16 ≤ 1010) (hhigh : 16 * (i.target : Int) + 12 ≤ i.ref16 - 8) (hb : i.bake = false)
    (hw : i.fast = true → i.wide = false) (hm : i.maxTarget ≤ i.target) (h5 : 5 ≤ i.target) (hu : s.turnupM = 0) (hri : 0 ≤ s.rawDelta 1) :
    s.compute c val i ≤ val - 1 := by
  have hadj : s.adj16 i = i.ref16 := by unfold VState.adj16; rw [if_neg (by omega)]
  have hnot : isCold c.binary i.ref16 i = false := by
    rw [Bool.eq_false_iff]
    intro h
    cases hbi : c.binary with
    | true => rw [hbi, coldB_iff _ _ (by omega)] at h; omega
    | false => rw [hbi, isCold_iff _ _ (by omega)] at h; omega
  unfold VState.compute
  dsimp only
  rw [hadj, hnot, hg, hgl, hf, hb]
  simp only [Bool.or_false, Bool.and_false, Bool.false_eq_true, if_false, ne_eq, not_true, decide_false]
  by_cases hh : isHot c.binary i.ref16 i = true
  · rw [if_pos hh, if_neg (by simp [hu])]
    omega
  · rw [if_neg hh]
    cases hbi : c.binary with
    | true => rw [hbi, hotB_iff _ _ (by omega)] at hh; omega
    | false =>
      simp only [Bool.not_false, if_true]
      have hn : (decide ¬s.turnupM = 0) = false := by simp [hu]
      rw [hn]
      exact prop_flat _ _ _ _ _ _ (by omega) (by omega) hri hw hm

/-! ## One reading -/

/-- Minutes until the valve may open again. -/
def tdAt (v : ValveSetup) (es : Nat → Reading) (k : Nat) : Nat := (valveAt v es (k + 1)).st.turndownM
/-- Minutes until the valve may close again. -/
def tuAt (v : ValveSetup) (es : Nat → Reading) (k : Nat) : Nat := (valveAt v es (k + 1)).st.turnupM

/-- What a reading does to position, timers and target. -/
theorem loop_step (v : ValveSetup) (s : MV) (e : Reading) :
    (s.step v.p v.c v.maxPC e).value = (s.st.prepare s.value (s.tickOf v.p v.maxPC e).1 ((s.tickOf v.p v.maxPC e).2.map Prod.fst)).compute v.c s.value (s.tickOf v.p v.maxPC e).1 ∧
    (s.step v.p v.c v.maxPC e).st.turndownM = (if (s.step v.p v.c v.maxPC e).value < s.value then 11 else s.st.turndownM - 1) ∧
    (s.step v.p v.c v.maxPC e).st.turnupM = (if (s.step v.p v.c v.maxPC e).value > s.value then 10 else s.st.turnupM - 1) ∧
    (s.step v.p v.c v.maxPC e).target = (s.tickOf v.p v.maxPC e).1.target ∧
    (s.value ≤ min v.maxPC 100 → (s.step v.p v.c v.maxPC e).value ≤ min v.maxPC 100) := by
  obtain ⟨t1, t2, _⟩ := tick_fields v.c s.st s.value (s.tickOf v.p v.maxPC e).1 (s.tickOf v.p v.maxPC e).2
  refine ⟨rfl, t1, t2, rfl, fun h => ?_⟩
  have lim := (C45_limits v.c s.st s.value (s.tickOf v.p v.maxPC e).1 (s.tickOf v.p v.maxPC e).2).1
  have e1 : (s.step v.p v.c v.maxPC e).value = (s.st.tick v.c s.value (s.tickOf v.p v.maxPC e).1 (s.tickOf v.p v.maxPC e).2).2 := rfl
  have e2 : (s.tickOf v.p v.maxPC e).1.maxPC = min v.maxPC 100 := rfl
  rw [← e1, e2] at lim
  by_cases hlt : s.value < (s.step v.p v.c v.maxPC e).value
  · exact lim hlt
  · omega

theorem loop_bounds (v : ValveSetup) (es : Nat → Reading) (k : Nat) :
    (valveAt v es k).value ≤ min v.maxPC 100 ∧ (valveAt v es k).st.turndownM ≤ 11 ∧ (valveAt v es k).st.turnupM ≤ 10 := by
  induction k with
  | zero => exact ⟨Nat.zero_le _, Nat.zero_le _, Nat.zero_le _⟩
  | succ k ih =>
    obtain ⟨_, h2, h3, _, h5⟩ := loop_step v (valveAt v es k) (es k)
    refine ⟨h5 ih.1, ?_, ?_⟩
    · show ((valveAt v es k).step v.p v.c v.maxPC (es k)).st.turndownM ≤ 11
      rw [h2]; split <;> omega
    · show ((valveAt v es k).step v.p v.c v.maxPC (es k)).st.turnupM ≤ 10
      rw [h3]; split <;> omega

theorem loop_in (v : ValveSetup) (s : MV) (e : Reading) :
    (s.tickOf v.p v.maxPC e).1.ref16 - 8 = e.2.temp16 ∧ (s.tickOf v.p v.maxPC e).1.maxPC = min v.maxPC 100 ∧
    (s.tickOf v.p v.maxPC e).1.glacial = (e.2.glacial || decide (min v.maxPC 100 < 50)) ∧
    ((s.tickOf v.p v.maxPC e).1.fast = true → (s.tickOf v.p v.maxPC e).1.wide = false) ∧
    (s.tickOf v.p v.maxPC e).1.bake = (s.mode.run e.1).read.inBake ∧ (s.tickOf v.p v.maxPC e).1.maxTarget = e.2.tt.warmC := by
  refine ⟨?_, rfl, rfl, ?_, rfl, rfl⟩
  · show e.2.temp16 + 8 - 8 = _; omega
  · intro h
    have : (e.2.veryRecentUI || e.2.newOcc) = true := h
    show (!(e.2.veryRecentUI || e.2.newOcc) && _) = false
    rw [this]; rfl

theorem loop_low {v : ValveSetup} {es : Nat → Reading} (hr : PlainRoom v es) (k : Nat)
    (hlow : tempAt es (k + 1) ≤ 16 * (targetAt v es (k + 1) : Int) - 9) :
    posAt v es k ≤ posAt v es (k + 1) ∧ tdAt v es (k + 1) = tdAt v es k - 1 ∧ (tdAt v es k ≤ 1 → posAt v es (k + 1) = min v.maxPC 100) := by
  unfold posAt tdAt targetAt at *
  have tmp := loop_temps hr (k + 1)
  have bnd := loop_bounds v es (k + 1)
  have rg := hr.range (k + 1)
  have st1 : valveAt v es (k + 1 + 1) = (valveAt v es (k + 1)).step v.p v.c v.maxPC (es (k + 1)) := rfl
  rw [st1] at tmp hlow ⊢
  have tmp2 := loop_temps hr k
  generalize valveAt v es (k + 1) = s at *
  obtain ⟨e1, e2, e3, e4, _⟩ := loop_step v s (es (k + 1))
  obtain ⟨i1, i2, i3, i4, _⟩ := loop_in v s (es (k + 1))
  have sn := loop_sane hr (k + 1) s
  have hflt : (s.st.prepare s.value (s.tickOf v.p v.maxPC (es (k + 1))).1 ((s.tickOf v.p v.maxPC (es (k + 1))).2.map Prod.fst)).filtering = 0 :=
    (tick_fields v.c s.st s.value (s.tickOf v.p v.maxPC (es (k + 1))).1 (s.tickOf v.p v.maxPC (es (k + 1))).2).2.2.2.2.1.symm.trans tmp.2.1
  have pf := (prepare_fields s.st s.value (s.tickOf v.p v.maxPC (es (k + 1))).1 ((s.tickOf v.p v.maxPC (es (k + 1))).2.map Prod.fst)).1
  have hgl : (s.tickOf v.p v.maxPC (es (k + 1))).1.glacial = false := by
    rw [i3, hr.brisk.2]
    have := hr.half
    simp; omega
  rw [e4] at hlow
  unfold tempAt at *
  have lz := low_zone v.c hr.brisk.1 _ s.value _ hflt sn.1 hgl (by omega) (by omega) (by rw [i2]; exact bnd.1)
  rw [← e1, i2, pf] at lz
  refine ⟨lz.1, ?_, fun h => lz.2.2 (by omega)⟩
  rw [e2, if_neg (by omega)]

theorem loop_high {v : ValveSetup} {es : Nat → Reading} (hr : PlainRoom v es) (k : Nat)
    (hnb : ((valveAt v es (k + 1)).mode.run (es (k + 1)).1).read.inBake = false)
    (hhigh : 16 * (targetAt v es (k + 1) : Int) + 12 ≤ tempAt es (k + 1)) :
    posAt v es (k + 1) ≤ posAt v es k ∧ tuAt v es (k + 1) = tuAt v es k - 1 ∧
    (tuAt v es k ≤ 1 → tempAt es k < tempAt es (k + 1) → posAt v es (k + 1) ≤ posAt v es k - 2 ∧ posAt v es (k + 1) ≤ 49) ∧
    (tuAt v es k ≤ 1 → tempAt es k ≤ tempAt es (k + 1) → (es (k + 1)).2.tt.warmC ≤ targetAt v es (k + 1) → posAt v es (k + 1) ≤ posAt v es k - 1) := by
  unfold posAt tuAt targetAt at *
  have tmp := loop_temps hr (k + 1)
  have rg := hr.range (k + 1)
  have st1 : valveAt v es (k + 1 + 1) = (valveAt v es (k + 1)).step v.p v.c v.maxPC (es (k + 1)) := rfl
  rw [st1] at tmp hhigh ⊢
  generalize valveAt v es (k + 1) = s at *
  obtain ⟨e1, e2, e3, e4, _⟩ := loop_step v s (es (k + 1))
  obtain ⟨i1, i2, i3, i4, i5, i6⟩ := loop_in v s (es (k + 1))
  have sn := loop_sane hr (k + 1) s
  have tf := tick_fields v.c s.st s.value (s.tickOf v.p v.maxPC (es (k + 1))).1 (s.tickOf v.p v.maxPC (es (k + 1))).2
  have hflt : (s.st.prepare s.value (s.tickOf v.p v.maxPC (es (k + 1))).1 ((s.tickOf v.p v.maxPC (es (k + 1))).2.map Prod.fst)).filtering = 0 :=
    tf.2.2.2.2.1.symm.trans tmp.2.1
  have htmp : (s.st.prepare s.value (s.tickOf v.p v.maxPC (es (k + 1))).1 ((s.tickOf v.p v.maxPC (es (k + 1))).2.map Prod.fst)).temps = _ :=
    tf.2.2.2.1.symm.trans tmp.2.2
  have hrise : (s.st.prepare s.value (s.tickOf v.p v.maxPC (es (k + 1))).1 ((s.tickOf v.p v.maxPC (es (k + 1))).2.map Prod.fst)).rawDelta 1 = tempAt es (k + 1) - tempAt es k := by
    unfold VState.rawDelta
    rw [htmp]
    rfl
  have pf := (prepare_fields s.st s.value (s.tickOf v.p v.maxPC (es (k + 1))).1 ((s.tickOf v.p v.maxPC (es (k + 1))).2.map Prod.fst)).2.1
  have hgl : (s.tickOf v.p v.maxPC (es (k + 1))).1.glacial = false := by
    rw [i3, hr.brisk.2]
    have := hr.half
    simp; omega
  rw [e4] at hhigh ⊢
  have rg2 : (es (k + 1)).2.temp16 = tempAt es (k + 1) := rfl
  have hz := high_zone v.c hr.brisk.1 _ s.value _ hflt sn.1 hgl (by omega) sn.2 (by omega) (i5.trans hnb) i4
  rw [← e1, pf, hrise] at hz
  refine ⟨hz.1, ?_, fun h1 h2 => hz.2 (by omega) (by omega), fun h1 h2 h3 => ?_⟩
  · rw [e3, if_neg (by omega)]
  · have fz := flat_zone v.c hr.brisk.1 _ s.value _ hflt hgl (by omega) (by omega) (i5.trans hnb) i4 (by rw [i6]; exact h3) sn.2 (by rw [pf]; omega) (by rw [hrise]; omega)
    rw [← e1] at fz
    exact fz

/-! ## Runs -/

/-- How many readings the valve has been fully open. -/
def openRun (v : ValveSetup) (es : Nat → Reading) : Nat → Nat
  | 0 => if posAt v es 0 = min v.maxPC 100 then 1 else 0
  | k + 1 => if posAt v es (k + 1) = min v.maxPC 100 then openRun v es k + 1 else 0

/-- How many readings the valve has been closed. -/
def closedRun (v : ValveSetup) (es : Nat → Reading) : Nat → Nat
  | 0 => if posAt v es 0 = 0 then 1 else 0
  | k + 1 => if posAt v es (k + 1) = 0 then closedRun v es k + 1 else 0

theorem openRun_held (v : ValveSetup) (es : Nat → Reading) (k : Nat) : ∀ L, L ≤ openRun v es k → HeldOpen v es L k := by
  induction k with
  | zero =>
    intro L h
    unfold openRun at h
    by_cases hp : posAt v es 0 = min v.maxPC 100
    · rw [if_pos hp] at h
      exact ⟨h, fun j hj => by rw [show 0 - j = 0 by omega]; exact hp⟩
    · rw [if_neg hp] at h
      exact ⟨by omega, fun j hj => by omega⟩
  | succ k ih =>
    intro L h
    unfold openRun at h
    by_cases hp : posAt v es (k + 1) = min v.maxPC 100
    · rw [if_pos hp] at h
      obtain ⟨h1, h2⟩ := ih (L - 1) (by omega)
      refine ⟨by omega, fun j hj => ?_⟩
      cases j with
      | zero => exact hp
      | succ j => rw [show k + 1 - (j + 1) = k - j by omega]; exact h2 j (by omega)
    · rw [if_neg hp] at h
      exact ⟨by omega, fun j hj => by omega⟩

theorem closedRun_held (v : ValveSetup) (es : Nat → Reading) (k : Nat) : ∀ L, L ≤ closedRun v es k → HeldClosed v es L k := by
  induction k with
  | zero =>
    intro L h
    unfold closedRun at h
    by_cases hp : posAt v es 0 = 0
    · rw [if_pos hp] at h
      exact ⟨h, fun j hj => by rw [show 0 - j = 0 by omega]; exact hp⟩
    · rw [if_neg hp] at h
      exact ⟨by omega, fun j hj => by omega⟩
  | succ k ih =>
    intro L h
    unfold closedRun at h
    by_cases hp : posAt v es (k + 1) = 0
    · rw [if_pos hp] at h
      obtain ⟨h1, h2⟩ := ih (L - 1) (by omega)
      refine ⟨by omega, fun j hj => ?_⟩
      cases j with
      | zero => exact hp
      | succ j => rw [show k + 1 - (j + 1) = k - j by omega]; exact h2 j (by omega)
    · rw [if_neg hp] at h
      exact ⟨by omega, fun j hj => by omega⟩

/-- Readings until the valve is sure to have been open for `L`, in the low zone. -/
def lag (v : ValveSetup) (es : Nat → Reading) (L k : Nat) : Nat := tdAt v es k + (L - openRun v es k)

theorem lag_le (v : ValveSetup) (es : Nat → Reading) (L k : Nat) : lag v es L k ≤ 11 + L := by
  have := (loop_bounds v es (k + 1)).2.1
  unfold lag tdAt
  omega

theorem lag_falls {v : ValveSetup} {es : Nat → Reading} (hr : PlainRoom v es) (L k : Nat)
    (hlow : tempAt es (k + 1) ≤ 16 * (targetAt v es (k + 1) : Int) - 9) : lag v es L (k + 1) ≤ lag v es L k - 1 := by
  obtain ⟨h1, h2, h3⟩ := loop_low hr k hlow
  have hm : posAt v es (k + 1) ≤ min v.maxPC 100 := (loop_bounds v es (k + 1 + 1)).1
  unfold lag
  rw [h2]
  have hrun : openRun v es (k + 1) = if posAt v es (k + 1) = min v.maxPC 100 then openRun v es k + 1 else 0 := rfl
  by_cases hp : posAt v es (k + 1) = min v.maxPC 100
  · rw [hrun, if_pos hp]
    omega
  · rw [hrun, if_neg hp]
    have hz : openRun v es k = 0 := by
      cases k with
      | zero => show (if _ then _ else _) = 0; rw [if_neg (by omega)]
      | succ k => show (if _ then _ else _) = 0; rw [if_neg (by omega)]
    have : ¬tdAt v es k ≤ 1 := fun h => hp (h3 h)
    omega

/-- How far the valve is from closed, in steps. -/
def steps (n : Nat) : Nat := if 50 ≤ n then 26 else (n + 1) / 2

def closing (v : ValveSetup) (es : Nat → Reading) (L k : Nat) : Nat := tuAt v es k + steps (posAt v es k) + (L - closedRun v es k)

theorem closing_le (v : ValveSetup) (es : Nat → Reading) (L k : Nat) : closing v es L k ≤ 36 + L := by
  have := (loop_bounds v es (k + 1)).2.2
  unfold closing tuAt
  have : steps (posAt v es k) ≤ 26 := by unfold steps; split <;> omega
  omega

theorem steps_mono {a b : Nat} (h : a ≤ b) : steps a ≤ steps b := by
  unfold steps
  (repeat' split) <;> omega

theorem closedRun_step (v : ValveSetup) (es : Nat → Reading) (k : Nat) (h : posAt v es (k + 1) ≤ posAt v es k) :
    closedRun v es k ≤ closedRun v es (k + 1) ∧ (posAt v es (k + 1) = 0 → closedRun v es (k + 1) = closedRun v es k + 1) := by
  have hrun : closedRun v es (k + 1) = if posAt v es (k + 1) = 0 then closedRun v es k + 1 else 0 := rfl
  by_cases hp : posAt v es (k + 1) = 0
  · rw [hrun, if_pos hp]; exact ⟨by omega, fun _ => rfl⟩
  · rw [hrun, if_neg hp]
    have hz : closedRun v es k = 0 := by
      cases k with
      | zero => show (if _ then _ else _) = 0; rw [if_neg (by omega)]
      | succ k => show (if _ then _ else _) = 0; rw [if_neg (by omega)]
    exact ⟨by omega, fun h => absurd h hp⟩

theorem closing_falls {v : ValveSetup} {es : Nat → Reading} (hr : PlainRoom v es) (L k : Nat)
    (hnb : ((valveAt v es (k + 1)).mode.run (es (k + 1)).1).read.inBake = false)
    (hhigh : 16 * (targetAt v es (k + 1) : Int) + 12 ≤ tempAt es (k + 1)) :
    closing v es L (k + 1) ≤ closing v es L k ∧
    (tempAt es k < tempAt es (k + 1) → closing v es L (k + 1) ≤ closing v es L k - 1) := by
  obtain ⟨h1, h2, h3, _⟩ := loop_high hr k hnb hhigh
  obtain ⟨r1, r2⟩ := closedRun_step v es k h1
  have sm := steps_mono h1
  unfold closing
  rw [h2]
  refine ⟨by omega, fun hri => ?_⟩
  by_cases ht : tuAt v es k = 0
  · obtain ⟨a, b⟩ := h3 (by omega) hri
    by_cases hp : posAt v es k = 0
    · have := r2 (by omega)
      have hq : posAt v es (k + 1) = 0 := by omega
      rw [hq, hp, show steps 0 = 0 from rfl]
      omega
    · have : steps (posAt v es (k + 1)) < steps (posAt v es k) := by
        unfold steps
        (repeat' split) <;> omega
      omega
  · omega

/-! ## C198: kept warm -/

/-- The floor, from any reading at which it holds. -/
theorem warm_from {v : ValveSetup} {es : Nat → Reading} (hr : PlainRoom v es) (t L : Nat) (ht : ∀ k, t ≤ targetAt v es k)
    (heats : ∀ k, HeldOpen v es L k → tempAt es k ≤ 16 * (t : Int) - 9 → tempAt es k ≤ tempAt es (k + 1)) (b : Int) (hb : b ≤ 16 * (t : Int) - 9) (k0 : Nat)
    (h0 : b ≤ tempAt es k0) (n : Nat) : b - 11 - L ≤ tempAt es (k0 + n) := by
  suffices h : tempAt es (k0 + n) > 16 * (t : Int) - 9 ∨ b - 11 - L + lag v es L (k0 + n) ≤ tempAt es (k0 + n) by omega
  induction n with
  | zero => have := lag_le v es L k0; rw [Nat.add_zero]; omega
  | succ n ih =>
    rw [show k0 + (n + 1) = k0 + n + 1 by omega]
    generalize k0 + n = k at *
    by_cases hA : tempAt es (k + 1) > 16 * (t : Int) - 9
    · exact .inl hA
    have hf := lag_falls hr L k (by have := ht (k + 1); omega)
    have hl := lag_le v es L (k + 1)
    have hs := hr.slow k
    right
    by_cases hz : lag v es L k = 0
    · by_cases hk : tempAt es k ≤ 16 * (t : Int) - 9
      · have := heats k (openRun_held v es k L (by unfold lag at hz; omega)) hk
        omega
      · omega
    · omega

/-- **C198, kept warm.** Whatever the user, schedule and occupancy do, if the target is never below `t`, and the room (when below `t` less 9/16C) does
not cool once the radiator has been fully open for `L` readings, then the room is never colder than `(11 + L)/16`C below the lower of where it started
and `t` less 9/16C. -/
theorem C198_kept_warm {v : ValveSetup} {es : Nat → Reading} (hr : PlainRoom v es) (t L : Nat) (ht : ∀ k, t ≤ targetAt v es k)
    (heats : ∀ k, HeldOpen v es L k → tempAt es k ≤ 16 * (t : Int) - 9 → tempAt es k ≤ tempAt es (k + 1)) (k : Nat) :
    min (tempAt es 0) (16 * (t : Int) - 9) - 11 - L ≤ tempAt es k := by
  have := warm_from hr t L ht heats (min (tempAt es 0) (16 * (t : Int) - 9)) (by omega) 0 (by omega) k
  rwa [Nat.zero_add] at this

/-- With the frost setting for `t`: the room does not freeze, whatever is done with the controls. -/
theorem C198_no_frost {v : ValveSetup} {es : Nat → Reading} (hr : PlainRoom v es) (t L : Nat) (ht : ∀ k, t ≤ (es k).2.tt.frostC)
    (heats : ∀ k, HeldOpen v es L k → tempAt es k ≤ 16 * (t : Int) - 9 → tempAt es k ≤ tempAt es (k + 1)) (k : Nat) :
    min (tempAt es 0) (16 * (t : Int) - 9) - 11 - L ≤ tempAt es k := by
  refine C198_kept_warm hr t L (fun k => ?_) heats k
  have tb := C52_target_bounds v.p { (es k).2.tt with mode := ((valveAt v es k).mode.run (es k).1).read } (hr.settings k)
  exact Nat.le_trans (ht k) tb.1

/-! ## C199: not overheated -/

/-- BAKE is not used: neither started by the user nor by a mode setting. -/
def NoBoost (es : Nat → Reading) : Prop := ∀ k, VOp.startBake ∉ (es k).1 ∧ ∀ n, VOp.set n ∈ (es k).1 → n ≠ 2

theorem loop_no_bake {v : ValveSetup} {es : Nat → Reading} (h : NoBoost es) (k : Nat) :
    (valveAt v es k).mode.bakeM = 0 ∧ ((valveAt v es k).mode.run (es k).1).read.inBake = false := by
  have key : ∀ k, (valveAt v es k).mode.bakeM = 0 := by
    intro k
    induction k with
    | zero => rfl
    | succ k ih =>
      have hm := mode_no_bake (es k).1 (h k) _ ih
      show (if _ then _ else _ : VMode).bakeM = 0
      split
      · rfl
      · unfold VMode.read; simp [hm]
  refine ⟨key k, ?_⟩
  have hm := mode_no_bake (es k).1 (h k) _ (key k)
  unfold VMode.inBake VMode.read
  simp [hm]

theorem cool_from {v : ValveSetup} {es : Nat → Reading} (hr : PlainRoom v es) (hb : NoBoost es) (t L : Nat) (ht : ∀ k, targetAt v es k ≤ t)
    (cools : ∀ k, HeldClosed v es L k → 16 * (t : Int) + 12 ≤ tempAt es k → tempAt es (k + 1) ≤ tempAt es k) (b : Int) (hbb : 16 * (t : Int) + 12 ≤ b)
    (k0 : Nat) (h0 : tempAt es k0 ≤ b) (n : Nat) : tempAt es (k0 + n) ≤ b + 36 + L := by
  suffices h : tempAt es (k0 + n) < 16 * (t : Int) + 12 ∨ tempAt es (k0 + n) + closing v es L (k0 + n) ≤ b + 36 + L by omega
  induction n with
  | zero => have := closing_le v es L k0; rw [Nat.add_zero]; omega
  | succ n ih =>
    rw [show k0 + (n + 1) = k0 + n + 1 by omega]
    generalize k0 + n = k at *
    by_cases hA : tempAt es (k + 1) < 16 * (t : Int) + 12
    · exact .inl hA
    have hf := closing_falls hr L k (loop_no_bake hb (k + 1)).2 (by have := ht (k + 1); omega)
    have hl := closing_le v es L (k + 1)
    have hs := hr.slow k
    right
    by_cases hri : tempAt es k < tempAt es (k + 1)
    · have h2 := hf.2 hri
      by_cases hz : closing v es L k = 0
      · by_cases hk : 16 * (t : Int) + 12 ≤ tempAt es k
        · have := cools k (closedRun_held v es k L (by unfold closing at hz; omega)) hk
          omega
        · omega
      · omega
    · have := hf.1
      omega

/-- **C199, not overheated.** If the target is never above `t`, BAKE is not used, and the room (when above `t` plus 3/4C) does not warm once the
radiator has been closed for `L` readings, then the room is never warmer than `(36 + L)/16`C above the higher of where it started and `t` plus 3/4C. -/
theorem C199_not_overheated {v : ValveSetup} {es : Nat → Reading} (hr : PlainRoom v es) (hb : NoBoost es) (t L : Nat) (ht : ∀ k, targetAt v es k ≤ t)
    (cools : ∀ k, HeldClosed v es L k → 16 * (t : Int) + 12 ≤ tempAt es k → tempAt es (k + 1) ≤ tempAt es k) (k : Nat) :
    tempAt es k ≤ max (tempAt es 0) (16 * (t : Int) + 12) + 36 + L := by
  have := cool_from hr hb t L ht cools (max (tempAt es 0) (16 * (t : Int) + 12)) (by omega) 0 (by omega) k
  rwa [Nat.zero_add] at this

/-- With the warm setting for `t`. -/
theorem C199_warm_setting {v : ValveSetup} {es : Nat → Reading} (hr : PlainRoom v es) (hb : NoBoost es) (t L : Nat) (ht : ∀ k, (es k).2.tt.warmC ≤ t)
    (cools : ∀ k, HeldClosed v es L k → 16 * (t : Int) + 12 ≤ tempAt es k → tempAt es (k + 1) ≤ tempAt es k) (k : Nat) :
    tempAt es k ≤ max (tempAt es 0) (16 * (t : Int) + 12) + 36 + L := by
  refine C199_not_overheated hr hb t L (fun k => ?_) cools k
  have tb := C52_target_bounds v.p { (es k).2.tt with mode := ((valveAt v es k).mode.run (es k).1).read } (hr.settings k)
  rw [if_neg (by rw [(loop_no_bake hb k).2]; simp)] at tb
  exact Nat.le_trans tb.2.1 (ht k)

/-! ## C200: recovery from below -/

/-- **C200, warmed up.** If moreover the room warms by 1/16C in any `H` readings in which it is below `t` less 9/16C with the radiator open for `L` readings, then, started
`d/16`C or less below that, after `11 + L + H*(d + 12 + L)` readings it is never again more than `(11 + L)/16`C below. -/
theorem C200_warmed_up {v : ValveSetup} {es : Nat → Reading} (hr : PlainRoom v es) (t L H d : Nat) (ht : ∀ k, t ≤ targetAt v es k)
    (heats : ∀ k, HeldOpen v es L k → tempAt es k ≤ 16 * (t : Int) - 9 → tempAt es k ≤ tempAt es (k + 1))
    (warms : ∀ k, (∀ j, j < H → HeldOpen v es L (k + j) ∧ tempAt es (k + j) ≤ 16 * (t : Int) - 9) → tempAt es k + 1 ≤ tempAt es (k + H))
    (h0 : 16 * (t : Int) - 9 ≤ tempAt es 0 + d) :
    (∃ k, k ≤ 11 + L + H * (d + 12 + L) ∧ 16 * (t : Int) - 9 < tempAt es k) ∧
    ∀ k, 11 + L + H * (d + 12 + L) ≤ k → 16 * (t : Int) - 9 - 11 - L ≤ tempAt es k := by
  have key : ∃ k, k ≤ 11 + L + H * (d + 12 + L) ∧ 16 * (t : Int) - 9 < tempAt es k := by
    apply Classical.byContradiction
    intro hno
    have hall : ∀ k, k ≤ 11 + L + H * (d + 12 + L) → tempAt es k ≤ 16 * (t : Int) - 9 := by
      intro k hk
      apply Classical.byContradiction
      intro h
      exact hno ⟨k, hk, by omega⟩
    have hlag : ∀ k, k ≤ 11 + L + H * (d + 12 + L) → lag v es L k ≤ 11 + L - k := by
      intro k
      induction k with
      | zero => intro _; have := lag_le v es L 0; omega
      | succ k ih =>
        intro hk
        have := ih (by omega)
        have := lag_falls hr L k (by have := ht (k + 1); have := hall (k + 1) hk; omega)
        omega
    have hheld : ∀ k, 11 + L ≤ k → k ≤ 11 + L + H * (d + 12 + L) → HeldOpen v es L k := by
      intro k h1 h2
      have := hlag k h2
      exact openRun_held v es k L (by unfold lag at this; omega)
    have hup : ∀ i : Nat, i ≤ d + 12 + L → tempAt es (11 + L) + i ≤ tempAt es (11 + L + H * i) := by
      intro i
      induction i with
      | zero => intro _; rw [Nat.mul_zero, Nat.add_zero]; omega
      | succ i ih =>
        intro hi
        have h1 := ih (by omega)
        have hle : H * (i + 1) ≤ H * (d + 12 + L) := Nat.mul_le_mul_left H hi
        rw [Nat.mul_succ] at hle ⊢
        have := warms (11 + L + H * i) (fun j hj => ⟨hheld _ (by omega) (by omega), hall _ (by omega)⟩)
        rw [show 11 + L + (H * i + H) = 11 + L + H * i + H by omega]
        omega
    have hlo := C198_kept_warm hr t L ht heats (11 + L)
    have h1 := hup (d + 12 + L) (Nat.le_refl _)
    have h2 := hall _ (Nat.le_refl _)
    omega
  refine ⟨key, fun k hk => ?_⟩
  obtain ⟨k0, hk0, h⟩ := key
  have := warm_from hr t L ht heats (16 * (t : Int) - 9) (by omega) k0 (by omega) (k - k0)
  rwa [show k0 + (k - k0) = k by omega] at this

/-! ## C201: recovery from above -/

/-- Readings with the temperature not falling until the valve is sure to have been closed for `L`, in the high zone. -/
def shutting (v : ValveSetup) (es : Nat → Reading) (L k : Nat) : Nat := tuAt v es k + posAt v es k + (L - closedRun v es k)

theorem shutting_le (v : ValveSetup) (es : Nat → Reading) (L k : Nat) : shutting v es L k ≤ 110 + L := by
  have := loop_bounds v es (k + 1)
  unfold shutting tuAt posAt
  omega

theorem shutting_falls {v : ValveSetup} {es : Nat → Reading} (hr : PlainRoom v es) (L k : Nat)
    (hnb : ((valveAt v es (k + 1)).mode.run (es (k + 1)).1).read.inBake = false)
    (hwm : (es (k + 1)).2.tt.warmC ≤ targetAt v es (k + 1)) (hhigh : 16 * (targetAt v es (k + 1) : Int) + 12 ≤ tempAt es (k + 1)) :
    shutting v es L (k + 1) ≤ shutting v es L k ∧
    (tempAt es k ≤ tempAt es (k + 1) → shutting v es L (k + 1) ≤ shutting v es L k - 1) := by
  obtain ⟨h1, h2, _, h3⟩ := loop_high hr k hnb hhigh
  obtain ⟨r1, r2⟩ := closedRun_step v es k h1
  unfold shutting
  rw [h2]
  refine ⟨by omega, fun hri => ?_⟩
  by_cases ht : tuAt v es k = 0
  · have a := h3 (by omega) hri hwm
    by_cases hp : posAt v es k = 0
    · have := r2 (by omega)
      omega
    · omega
  · omega

/-- **C201, cooled down.** If the target is the warm setting (not set back) and never above `t`, BAKE is not used, and the room, when above `t` plus 3/4C with the radiator
closed for `L` readings, does not warm, and cools by 1/16C in any `H` such readings, then, started `d/16`C or less above that, after
`d + 2*L + 221 + H*(d + 37 + L)` readings it has been below and is never again more than `(36 + L)/16`C above. -/
theorem C201_cooled_down {v : ValveSetup} {es : Nat → Reading} (hr : PlainRoom v es) (hb : NoBoost es) (t L H d : Nat) (ht : ∀ k, targetAt v es k ≤ t)
    (hwm : ∀ k, (es k).2.tt.warmC ≤ targetAt v es k)
    (cools : ∀ k, HeldClosed v es L k → 16 * (t : Int) + 12 ≤ tempAt es k → tempAt es (k + 1) ≤ tempAt es k)
    (falls : ∀ k, (∀ j, j < H → HeldClosed v es L (k + j) ∧ 16 * (t : Int) + 12 ≤ tempAt es (k + j)) → tempAt es (k + H) + 1 ≤ tempAt es k)
    (h0 : tempAt es 0 ≤ 16 * (t : Int) + 12 + d) :
    (∃ k, k ≤ d + 2 * L + 221 + H * (d + 37 + L) ∧ tempAt es k < 16 * (t : Int) + 12) ∧
    ∀ k, d + 2 * L + 221 + H * (d + 37 + L) ≤ k → tempAt es k ≤ 16 * (t : Int) + 12 + 36 + L := by
  have key : ∃ k, k ≤ d + 2 * L + 221 + H * (d + 37 + L) ∧ tempAt es k < 16 * (t : Int) + 12 := by
    apply Classical.byContradiction
    intro hno
    have hall : ∀ k, k ≤ d + 2 * L + 221 + H * (d + 37 + L) → 16 * (t : Int) + 12 ≤ tempAt es k := by
      intro k hk
      apply Classical.byContradiction
      intro h
      exact hno ⟨k, hk, by omega⟩
    have hfall : ∀ k, k + 1 ≤ d + 2 * L + 221 + H * (d + 37 + L) → _ := fun k hk =>
      shutting_falls hr L k (loop_no_bake hb (k + 1)).2 (hwm (k + 1)) (by have := ht (k + 1); have := hall (k + 1) hk; omega)
    have hpot : ∀ k : Nat, k ≤ d + 2 * L + 221 + H * (d + 37 + L) →
        shutting v es L k = 0 ∨ tempAt es k - (16 * (t : Int) + 12) + 2 * shutting v es L k + k ≤ d + 220 + 2 * L := by
      intro k
      induction k with
      | zero => intro _; have := shutting_le v es L 0; omega
      | succ k ih =>
        intro hk
        have hs := hr.slow k
        obtain ⟨f1, f2⟩ := hfall k hk
        rcases ih (by omega) with h | h
        · left; omega
        · by_cases hri : tempAt es k ≤ tempAt es (k + 1)
          · have := f2 hri
            omega
          · omega
    have hz : ∀ n : Nat, d + 2 * L + 221 + n ≤ d + 2 * L + 221 + H * (d + 37 + L) → shutting v es L (d + 2 * L + 221 + n) = 0 := by
      intro n hn
      have := hpot _ hn
      have := hall _ hn
      omega
    have hheld : ∀ k, d + 2 * L + 221 ≤ k → k ≤ d + 2 * L + 221 + H * (d + 37 + L) → HeldClosed v es L k := by
      intro k h1 h2
      have := hz (k - (d + 2 * L + 221)) (by omega)
      rw [show d + 2 * L + 221 + (k - (d + 2 * L + 221)) = k by omega] at this
      exact closedRun_held v es k L (by unfold shutting at this; omega)
    have hdown : ∀ i : Nat, i ≤ d + 37 + L → tempAt es (d + 2 * L + 221 + H * i) + i ≤ tempAt es (d + 2 * L + 221) := by
      intro i
      induction i with
      | zero => intro _; rw [Nat.mul_zero, Nat.add_zero]; omega
      | succ i ih =>
        intro hi
        have h1 := ih (by omega)
        have hle : H * (i + 1) ≤ H * (d + 37 + L) := Nat.mul_le_mul_left H hi
        rw [Nat.mul_succ] at hle ⊢
        have := falls (d + 2 * L + 221 + H * i) (fun j hj => ⟨hheld _ (by omega) (by omega), hall _ (by omega)⟩)
        rw [show d + 2 * L + 221 + (H * i + H) = d + 2 * L + 221 + H * i + H by omega]
        omega
    have hhi := C199_not_overheated hr hb t L ht cools (d + 2 * L + 221)
    have h1 := hdown (d + 37 + L) (Nat.le_refl _)
    have h2 := hall _ (Nat.le_refl _)
    omega
  refine ⟨key, fun k hk => ?_⟩
  obtain ⟨k0, hk0, h⟩ := key
  have := cool_from hr hb t L ht cools (16 * (t : Int) + 12) (by omega) k0 (by omega) (k - k0)
  rwa [show k0 + (k - k0) = k by omega] at this

/-! ## A room -/

/-- A room that warms by 1/16C a reading with the valve fully open and loses as much with it closed (between -118C and 62C), started at `t0`. -/
def simRoom (v : ValveSetup) (e : Int → Reading) (t0 : Int) : Nat → MV × Int
  | 0 => (newMV, t0)
  | k + 1 =>
    let s := (simRoom v e t0 k).1.step v.p v.c v.maxPC (e (simRoom v e t0 k).2)
    (s, if s.value = min v.maxPC 100 then min 1000 ((simRoom v e t0 k).2 + 1)
        else if s.value = 0 then max (-1900) ((simRoom v e t0 k).2 - 1) else (simRoom v e t0 k).2)

def simReadings (v : ValveSetup) (e : Int → Reading) (t0 : Int) (k : Nat) : Reading := e (simRoom v e t0 k).2

theorem sim_valve (v : ValveSetup) (e : Int → Reading) (t0 : Int) (k : Nat) : valveAt v (simReadings v e t0) k = (simRoom v e t0 k).1 := by
  induction k with
  | zero => rfl
  | succ k ih => unfold valveAt; rw [ih]; rfl

/-- WARM at 19C, not set back. -/
def simWarm (t : Int) : Reading :=
  ([.setWarm true], ⟨⟨VMode.init, 6, 19, 0, true, false, false, false, true, 0, 0, 0⟩, t, false, false, false, false, none, false, 15⟩)

theorem sim_settings : Settings vcpDefault 6 19 := ⟨by decide, by decide, by decide, by decide +kernel, by decide +kernel, by decide +kernel⟩

theorem sim_temp (t0 : Int) (k : Nat) : tempAt (simReadings exSetup simWarm t0) k = (simRoom exSetup simWarm t0 k).2 := rfl

theorem sim_range (t0 : Int) (h : -1900 ≤ t0 ∧ t0 ≤ 1000) (k : Nat) : -1900 ≤ (simRoom exSetup simWarm t0 k).2 ∧ (simRoom exSetup simWarm t0 k).2 ≤ 1000 := by
  induction k with
  | zero => exact h
  | succ k ih =>
    unfold simRoom
    dsimp only
    (repeat' split) <;> omega

theorem sim_next (t0 : Int) (k : Nat) : tempAt (simReadings exSetup simWarm t0) (k + 1) =
    if posAt exSetup (simReadings exSetup simWarm t0) k = 100 then min 1000 (tempAt (simReadings exSetup simWarm t0) k + 1)
    else if posAt exSetup (simReadings exSetup simWarm t0) k = 0 then max (-1900) (tempAt (simReadings exSetup simWarm t0) k - 1)
    else tempAt (simReadings exSetup simWarm t0) k := by
  unfold posAt
  rw [sim_valve]
  rfl

theorem sim_plain (t0 : Int) (h : -1900 ≤ t0 ∧ t0 ≤ 1000) : PlainRoom exSetup (simReadings exSetup simWarm t0) where
  half := by decide
  brisk := ⟨rfl, fun _ => rfl⟩
  settings := fun _ => sim_settings
  range := fun k => sim_range t0 h k
  slow := fun k => by
    have := sim_range t0 h k
    rw [← sim_temp] at this
    rw [sim_next]
    (repeat' split) <;> omega

theorem sim_noboost (t0 : Int) : NoBoost (simReadings exSetup simWarm t0) := fun k =>
  ⟨fun h => by have : VOp.startBake ∈ [VOp.setWarm true] := h; simp at this, fun n h => by have : VOp.set n ∈ [VOp.setWarm true] := h; simp at this⟩

theorem sim_target (t0 : Int) (k : Nat) : targetAt exSetup (simReadings exSetup simWarm t0) k = 19 := by
  have hb := (loop_no_bake (v := exSetup) (sim_noboost t0) k).2
  have e : targetAt exSetup (simReadings exSetup simWarm t0) k = computeTarget vcpDefault
      { (simReadings exSetup simWarm t0 k).2.tt with mode := ((valveAt exSetup (simReadings exSetup simWarm t0) k).mode.run (simReadings exSetup simWarm t0 k).1).read } := rfl
  rw [e]
  unfold computeTarget
  dsimp only
  have hw : ((valveAt exSetup (simReadings exSetup simWarm t0) k).mode.run (simReadings exSetup simWarm t0 k).1).read.warm = true := rfl
  rw [hw, hb]
  rfl

/-- Every hypothesis of C198–C201 holds in this room (with `L = 1`, `H = 1`), from any temperature: so it is kept between 17.7C and 22.1C, once there. -/
example (t0 : Int) (h : -1900 ≤ t0 ∧ t0 ≤ 1000) :
    (∃ N, ∀ k, N ≤ k → 283 ≤ tempAt (simReadings exSetup simWarm t0) k) ∧ (∃ N, ∀ k, N ≤ k → tempAt (simReadings exSetup simWarm t0) k ≤ 353) := by
  have p1 : ∀ k, HeldOpen exSetup (simReadings exSetup simWarm t0) 1 k → posAt exSetup (simReadings exSetup simWarm t0) k = 100 := fun k hk => hk.2 0 (by omega)
  have p2 : ∀ k, HeldClosed exSetup (simReadings exSetup simWarm t0) 1 k → posAt exSetup (simReadings exSetup simWarm t0) k = 0 := fun k hk => hk.2 0 (by omega)
  constructor
  · refine ⟨_, (C200_warmed_up (sim_plain t0 h) 19 1 1 3000 (fun k => by rw [sim_target]; omega) (fun k hk hl => ?_) (fun k hk => ?_) ?_).2⟩
    · rw [sim_next, if_pos (p1 k hk)]; omega
    · obtain ⟨h1, h2⟩ := hk 0 (by omega)
      rw [Nat.add_zero] at h1 h2
      rw [sim_next, if_pos (p1 k h1)]; omega
    · show _ ≤ t0 + _; omega
  · refine ⟨_, (C201_cooled_down (sim_plain t0 h) (sim_noboost t0) 19 1 1 3000 (fun k => by rw [sim_target]; omega) (fun k => by rw [sim_target]; exact Nat.le_refl 19)
      (fun k hk hl => ?_) (fun k hk => ?_) ?_).2⟩
    · have e := p2 k hk
      rw [sim_next, if_neg (by omega), if_pos e]; omega
    · obtain ⟨h1, h2⟩ := hk 0 (by omega)
      rw [Nat.add_zero] at h1 h2
      have e := p2 k h1
      rw [sim_next, if_neg (by omega), if_pos e]; omega
    · show t0 ≤ _; omega

/-! ## Set back, the valve may hold -/

/-- WARM for one reading, then FROST (at 6C), in a room that stays at 18C. -/
def holdReadings (k : Nat) : Reading :=
  ([.setWarm (k == 0)], ⟨⟨VMode.init, 6, 19, 0, true, false, false, false, true, 0, 0, 0⟩, 18 * 16, false, false, false, false, none, false, 15⟩)

/-- C201 does need the target to be the warm setting: set back, a valve in a room that does not cool stays nearly half open for ever, 12C above the target (the comment at
ModelledRadValveState.h 825-838 accepts this). -/
theorem C201_setback_holds :
    PlainRoom exSetup holdReadings ∧ NoBoost holdReadings ∧ (∀ k, 1 ≤ k → targetAt exSetup holdReadings k = 6) ∧
    (∀ k, tempAt holdReadings k = 18 * 16) ∧ ∀ k, 80 ≤ k → posAt exSetup holdReadings k = 49 := by
  have hfix : (valveAt exSetup holdReadings 80).step vcpDefault exSetup.c 100 (holdReadings 1) = valveAt exSetup holdReadings 80 := by decide +kernel
  have hall : ∀ n, valveAt exSetup holdReadings (80 + n) = valveAt exSetup holdReadings 80 := by
    intro n
    induction n with
    | zero => rfl
    | succ n ih =>
      show (valveAt exSetup holdReadings (80 + n)).step vcpDefault exSetup.c 100 (holdReadings (80 + n)) = _
      rw [ih, show holdReadings (80 + n) = holdReadings 1 by
        unfold holdReadings
        rw [show (80 + n == 0) = (1 == 0) by simp]]
      exact hfix
  refine ⟨⟨by decide, ⟨rfl, fun _ => rfl⟩, fun _ => sim_settings,
    fun _ => ⟨by show (-1900 : Int) ≤ 18 * 16; omega, by show (18 * 16 : Int) ≤ 1000; omega⟩, fun _ => ⟨by show (18 * 16 : Int) ≤ 18 * 16 + 1; omega, by show (18 * 16 : Int) ≤ 18 * 16 + 1; omega⟩⟩,
    fun k => ⟨fun h => ?_, fun n h => ?_⟩, fun k hk => ?_, fun _ => rfl, fun k hk => ?_⟩
  · have : VOp.startBake ∈ [VOp.setWarm (k == 0)] := h; simp at this
  · have : VOp.set n ∈ [VOp.setWarm (k == 0)] := h; simp at this
  · obtain ⟨k, rfl⟩ : ∃ j, k = j + 1 := ⟨k - 1, by omega⟩
    rfl
  · unfold posAt
    have := hall (k + 1 - 80)
    rw [show 80 + (k + 1 - 80) = k + 1 by omega] at this
    rw [this]
    decide +kernel

end OTR.Props
