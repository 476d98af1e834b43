import Verif.Model.RamSchedule
import Verif.Props.Schedule
/-!
# Property C251: a schedule after any history of calls, in RAM and in EEPROM
-/

namespace OTR

/-- The call changes schedule `which` (a refused setting does not). -/
def SchedOp.touches (which : Nat) : SchedOp → Bool
  | .set t w => w == which && decide (t < minsPerDay)
  | .clear w => w == which

/-! ## Lemmas -/

/-- The byte of schedule `w` after a call. -/
def schedByte (w : Nat) (b : Byte) : SchedOp → Byte
  | .set t w' => if w' = w ∧ t < 1440 then programmeByte t else b
  | .clear w' => if w' = w then 0xff else b

theorem schedByte_quiet (w : Nat) (ops : List SchedOp) (h : ∀ o ∈ ops, o.touches w = false) (b : Byte) :
    ops.foldl (schedByte w) b = b := by
  induction ops generalizing b with
  | nil => rfl
  | cons o os ih =>
    rw [List.foldl_cons, ih (fun o ho => h o (List.mem_cons_of_mem _ ho))]
    have := h o List.mem_cons_self
    cases o with
    | set t w' =>
      simp only [SchedOp.touches, Bool.and_eq_false_iff, beq_eq_false_iff_ne, decide_eq_false_iff_not] at this
      simp only [schedByte]
      rw [if_neg (by omega)]
    | clear w' =>
      simp only [SchedOp.touches, beq_eq_false_iff_ne] at this
      simp only [schedByte]; rw [if_neg this]

theorem RamSched.step_len (s : RamSched) (o : SchedOp) : (s.step o).slots.length = s.slots.length := by
  cases o with
  | set t w =>
    simp only [RamSched.step, RamSched.set]
    by_cases h : w ≥ s.slots.length
    · rw [if_pos h]
    · rw [if_neg h]
      by_cases h2 : t ≥ 1440
      · rw [if_pos h2]
      · rw [if_neg h2]; simp
  | clear w =>
    simp only [RamSched.step, RamSched.clear]
    by_cases h : w ≥ s.slots.length
    · rw [if_pos h]
    · rw [if_neg h]; simp

theorem RamSched.step_get (s : RamSched) (o : SchedOp) (w : Nat) (hw : w < s.slots.length) :
    (s.step o).slots[w]?.getD 0 = schedByte w (s.slots[w]?.getD 0) o := by
  cases o with
  | set t w' =>
    simp only [RamSched.step, RamSched.set, schedByte]
    by_cases h : w' ≥ s.slots.length
    · rw [if_pos h, if_neg (by omega)]
    · rw [if_neg h]
      by_cases h2 : t ≥ 1440
      · rw [if_pos h2, if_neg (by omega)]
      · rw [if_neg h2]
        by_cases e : w' = w
        · subst e; rw [if_pos ⟨rfl, by omega⟩]; simp [List.getElem?_set, hw]
        · rw [if_neg (by omega)]; simp [List.getElem?_set, e]
  | clear w' =>
    simp only [RamSched.step, RamSched.clear, schedByte]
    by_cases h : w' ≥ s.slots.length
    · rw [if_pos h, if_neg (by omega)]
    · rw [if_neg h]
      by_cases e : w' = w
      · subst e; rw [if_pos rfl]; simp [List.getElem?_set, hw]
      · rw [if_neg e]; simp [List.getElem?_set, e]

theorem RamSched.run_len (ops : List SchedOp) (s : RamSched) : (s.run ops).slots.length = s.slots.length := by
  induction ops generalizing s with
  | nil => rfl
  | cons o os ih =>
    show ((s.step o).run os).slots.length = _
    rw [ih, RamSched.step_len]

theorem RamSched.run_get (ops : List SchedOp) (s : RamSched) (w : Nat) (hw : w < s.slots.length) :
    (s.run ops).slots[w]?.getD 0 = ops.foldl (schedByte w) (s.slots[w]?.getD 0) := by
  induction ops generalizing s with
  | nil => rfl
  | cons o os ih =>
    show ((s.step o).run os).slots[w]?.getD 0 = _
    rw [ih _ (by rw [RamSched.step_len]; exact hw), RamSched.step_get s o w hw]; rfl

theorem RamSched.new_eq (junk : List Byte) :
    RamSched.new junk = (⟨junk⟩ : RamSched).run ((List.range junk.length).map .clear) := by
  unfold RamSched.new RamSched.run
  rw [List.foldl_map]; rfl

theorem RamSched.new_len (junk : List Byte) : (RamSched.new junk).slots.length = junk.length := by
  rw [RamSched.new_eq, RamSched.run_len]

theorem clears_byte (w n : Nat) (hw : w < n) (b : Byte) :
    ((List.range n).map SchedOp.clear).foldl (schedByte w) b = 0xff := by
  induction n generalizing b with
  | zero => omega
  | succ n ih =>
    rw [List.range_succ, List.map_append, List.foldl_append]
    simp only [List.map_cons, List.map_nil, List.foldl_cons, List.foldl_nil, schedByte]
    by_cases e : n = w
    · rw [if_pos e]
    · rw [if_neg e]; exact ih (by omega) b

theorem RamSched.new_get (junk : List Byte) (w : Nat) (hw : w < junk.length) :
    (RamSched.new junk).slots[w]?.getD 0 = 0xff := by
  rw [RamSched.new_eq, RamSched.run_get _ _ _ hw]
  exact clears_byte w _ hw _

theorem schedStep_get (split : Bool) (m : EE) (o : SchedOp) (w : Nat) (hw : w < 2) :
    schedStep split m o (12 + w) = schedByte w (m (12 + w)) o := by
  cases o with
  | set t w' =>
    show (schedSet split t w').post m (12 + w) = _
    simp only [schedByte]
    by_cases h1 : w' ≥ 2
    · have : (schedSet split t w').post m = m := by simp [EM.post, schedSet, emIf, h1, emRet]
      rw [this, if_neg (by omega)]
    · by_cases h2 : t ≥ 1440
      · have : (schedSet split t w').post m = m := by simp [EM.post, schedSet, emIf, h1, h2, emRet]
        rw [this, if_neg (by omega)]
      · have e : schedSet split t w' m = (true, wr1 m (12 + w') (programmeByte t)) := by
          simp [schedSet, emIf, h1, h2, emRet, emBind, smartUpdate_eq]
        have ep : (schedSet split t w').post m = m.upd (12 + w') (programmeByte t) := by
          simp only [EM.post, e, applyW_wr1]
        rw [ep]
        by_cases e : w' = w
        · subst e; rw [EE.upd_same, if_pos ⟨rfl, by omega⟩]
        · rw [EE.upd_other _ _ (by omega), if_neg (by omega)]
  | clear w' =>
    show (schedClear w').post m (12 + w) = _
    simp only [schedByte]
    by_cases h : w' ≥ 2
    · have e : (schedClear w').post m = m := by simp [EM.post, schedClear, emIf, h, emRet]
      rw [e, if_neg (by omega)]
    · have e : (schedClear w').post m = m.upd (12 + w') 0xff := by
        simp only [EM.post, schedClear, emIf, h, if_false, emBind, emRet, smartErase_eq]
        simp [applyW_wr1]
      rw [e]
      by_cases e : w' = w
      · subst e; rw [EE.upd_same, if_pos rfl]
      · rw [EE.upd_other _ _ (by omega), if_neg e]

theorem schedRun_get (split : Bool) (ops : List SchedOp) (m : EE) (w : Nat) (hw : w < 2) :
    schedRun split m ops (12 + w) = ops.foldl (schedByte w) (m (12 + w)) := by
  induction ops generalizing m with
  | nil => rfl
  | cons o os ih =>
    show schedRun split (schedStep split m o) os (12 + w) = _
    rw [ih, schedStep_get split m o w hw]; rfl

/-- A schedule in RAM of two slots read as EEPROM contents. -/
theorem RamSched.on_eq_ee (s : RamSched) (m : EE) (hl : s.slots.length = 2)
    (h : ∀ w, w < 2 → s.slots[w]?.getD 0 = m (12 + w)) (w : Nat) : s.on w = schedOn m w := by
  unfold RamSched.on schedOn
  rw [hl]
  by_cases hw : w ≥ 2
  · rw [if_pos hw, if_pos hw]
  · rw [if_neg hw, if_neg hw, h w (by omega)]

theorem RamSched.all_eq_ee (s : RamSched) (m : EE) (hl : s.slots.length = 2)
    (h : ∀ w, w < 2 → s.slots[w]?.getD 0 = m (12 + w)) (dur : Nat) :
    (∀ w, s.on w = schedOn m w) ∧ (∀ w, s.off dur w = schedOff m dur w) ∧ (∀ mm, s.onNow dur mm = schedOnNow m dur mm) ∧
    (∀ mm, s.onSoon dur mm = schedOnSoon m dur mm) ∧ s.anySet = schedAnySet m ∧
    (∀ mm v, s.apply dur mm v = applySched m dur mm v) := by
  have h1 : ∀ w, s.on w = schedOn m w := RamSched.on_eq_ee s m hl h
  have h2 : ∀ w, s.off dur w = schedOff m dur w := by
    intro w; unfold RamSched.off schedOff; rw [h1]
  have h3 : ∀ mm, s.onNow dur mm = schedOnNow m dur mm := by
    intro mm
    unfold RamSched.onNow schedOnNow
    have : s.onNow1 dur mm = schedOnNow1 m dur mm := by
      funext w; unfold RamSched.onNow1 schedOnNow1; rw [h1, h2]
    rw [hl, this]
  refine ⟨h1, h2, h3, ?_, ?_, ?_⟩
  · intro mm; unfold RamSched.onSoon schedOnSoon; dsimp only; rw [h3]
  · unfold RamSched.anySet schedAnySet
    rw [hl]
    show ([0, 1].any _) = ([0, 1].any _)
    simp only [List.any_cons, List.any_nil, h 0 (by omega), h 1 (by omega)]
  · intro mm v
    unfold RamSched.apply applySched
    have : s.apply1 dur mm = applySched1 m dur mm := by
      funext v w; unfold RamSched.apply1 applySched1; rw [h1, h2, h3]
    rw [hl, this]

theorem RamSched.on_eq (s : RamSched) (w : Nat) :
    s.on w = if w < s.slots.length ∧ (s.slots[w]?.getD 0).toNat ≤ 239 then spanStart (s.slots[w]?.getD 0) else 65535 := by
  unfold RamSched.on
  by_cases h1 : w ≥ s.slots.length
  · rw [if_pos h1, if_neg (by omega)]
  · rw [if_neg h1]
    dsimp only
    by_cases h2 : (s.slots[w]?.getD 0).toNat > 239
    · rw [if_pos h2, if_neg (by omega)]
    · rw [if_neg h2, if_pos (by omega), (onTimeFromByte_eq _ (by omega)).1]

theorem RamSched.off_eq (s : RamSched) (dur w : Nat) (hd : dur ≤ 255) (hs : s.on w ≠ 65535) :
    s.on w < 1440 ∧ s.off dur w = (s.on w + 36 + dur) % 1440 := by
  have hlt : s.on w < 1440 := by
    rw [RamSched.on_eq] at hs ⊢
    by_cases h : w < s.slots.length ∧ (s.slots[w]?.getD 0).toNat ≤ 239
    · rw [if_pos h]; exact (onTimeFromByte_eq _ h.2).2
    · rw [if_neg h] at hs; exact absurd rfl hs
  refine ⟨hlt, ?_⟩
  unfold RamSched.off
  rw [if_neg hs]
  dsimp only
  split <;> omega

namespace Props

/-- **C251.** However many schedules there are and whatever was called before, the last accepted setting of a schedule
decides it: it starts the pre-warm period before the time asked for (rounded down to 6 minutes) and ends `dur` minutes after. -/
theorem C251_last_set (junk : List Byte) (pre post : List SchedOp) (t which dur : Nat) (hd : dur ≤ 255)
    (hw : which < junk.length) (ht : t < minsPerDay) (hq : ∀ o ∈ post, o.touches which = false) :
    let s := (RamSched.new junk).run (pre ++ .set t which :: post)
    s.on which = (t - t % 6 + minsPerDay - prewarmMins) % minsPerDay ∧ s.off dur which = (t - t % 6 + dur) % minsPerDay ∧
    s.anySet = true := by
  intro s
  have hl : s.slots.length = junk.length := by show ((RamSched.new junk).run _).slots.length = _; rw [RamSched.run_len, RamSched.new_len]
  have hb : s.slots[which]?.getD 0 = programmeByte t := by
    show ((RamSched.new junk).run _).slots[which]?.getD 0 = _
    rw [RamSched.run_get _ _ _ (by rw [RamSched.new_len]; exact hw), List.foldl_append, List.foldl_cons, schedByte_quiet which post hq]
    simp [schedByte, ht]
  have eb : (programmeByte t).toNat = t / 6 := by simp only [programmeByte, UInt8.toNat_ofNat']; omega
  have ho : s.on which = (t - t % 6 + 1440 - 36) % 1440 := by
    rw [RamSched.on_eq, hb, if_pos ⟨by omega, by rw [eb]; omega⟩]
    unfold spanStart; rw [eb]; omega
  refine ⟨ho, ?_, ?_⟩
  · rw [(RamSched.off_eq s dur which hd (by omega)).2, ho]; omega
  · unfold RamSched.anySet
    rw [List.any_eq_true]
    exact ⟨which, List.mem_range.2 (by omega), by rw [hb, eb]; simp; omega⟩

/-- **C251.** A schedule cleared, or never set, since: unset. -/
theorem C251_cleared (junk : List Byte) (pre post : List SchedOp) (which dur : Nat)
    (hq : ∀ o ∈ post, o.touches which = false) :
    let s := (RamSched.new junk).run (pre ++ .clear which :: post)
    let s' := (RamSched.new junk).run post
    s.on which = noSched ∧ s.off dur which = noSched ∧ s'.on which = noSched ∧ s'.off dur which = noSched := by
  intro s s'
  have key : ∀ q : RamSched, q.slots.length = junk.length → (which < junk.length → q.slots[which]?.getD 0 = 0xff) →
      q.on which = noSched ∧ q.off dur which = noSched := by
    intro q hl hb
    have h1 : q.on which = 65535 := by
      rw [RamSched.on_eq]
      by_cases hw : which < junk.length
      · rw [hb hw, if_neg]; rintro ⟨_, h⟩; exact absurd h (by decide)
      · rw [if_neg (by omega)]
    exact ⟨h1, by unfold RamSched.off; rw [h1]; rfl⟩
  have k1 := key s (by show ((RamSched.new junk).run _).slots.length = _; rw [RamSched.run_len, RamSched.new_len]) (by
    intro hw
    show ((RamSched.new junk).run _).slots[which]?.getD 0 = _
    rw [RamSched.run_get _ _ _ (by rw [RamSched.new_len]; exact hw), List.foldl_append, List.foldl_cons, schedByte_quiet which post hq]
    simp [schedByte])
  have k2 := key s' (by show ((RamSched.new junk).run _).slots.length = _; rw [RamSched.run_len, RamSched.new_len]) (by
    intro hw
    show ((RamSched.new junk).run _).slots[which]?.getD 0 = _
    rw [RamSched.run_get _ _ _ (by rw [RamSched.new_len]; exact hw), schedByte_quiet which post hq]
    exact RamSched.new_get junk which hw)
  exact ⟨k1.1, k1.2, k2.1, k2.2⟩

/-- **C251.** "On now" is being within the pre-warm or on period of a set schedule, midnight included; "on soon" is the
same 54 minutes ahead. -/
theorem C251_on_now (s : RamSched) (dur mm : Nat) (hd : dur ≤ 255) :
    (s.onNow dur mm = true ↔ mm < minsPerDay ∧ ∃ w, w < s.slots.length ∧ s.on w ≠ noSched ∧ InSpan mm (s.on w) (prewarmMins + dur)) ∧
    (s.onSoon dur mm = true ↔ mm < minsPerDay ∧ s.onNow dur ((mm + preprewarmMins) % minsPerDay) = true) := by
  refine ⟨?_, ?_⟩
  · unfold RamSched.onNow
    by_cases hm : mm ≥ 1440
    · rw [if_pos hm]; simp; omega
    · rw [if_neg hm, List.any_eq_true]
      have key : ∀ w, s.onNow1 dur mm w = true ↔ s.on w ≠ 65535 ∧ InSpan mm (s.on w) (36 + dur) := by
        intro w
        unfold RamSched.onNow1
        by_cases h : s.on w = 65535
        · rw [if_pos h]; simp [h]
        · rw [if_neg h]
          obtain ⟨h1, h2⟩ := RamSched.off_eq s dur w hd h
          have hsp := inSpan_iff (mm := mm) (s := s.on w) (n := 36 + dur) h1 (by omega) (by omega) (by omega)
          have he : (if s.on w + (36 + dur) ≥ 1440 then s.on w + (36 + dur) - 1440 else s.on w + (36 + dur)) = s.off dur w := by
            rw [h2]; split <;> omega
          rw [he] at hsp
          rw [hsp]
          dsimp only
          by_cases hc : s.on w < s.off dur w
          · rw [if_pos hc, if_pos hc]; simp [h]
          · rw [if_neg hc, if_neg hc]; simp [h]
      constructor
      · rintro ⟨w, hw, hk⟩; exact ⟨by omega, w, List.mem_range.1 hw, (key w).1 hk⟩
      · rintro ⟨_, w, hw, hk⟩; exact ⟨w, List.mem_range.2 hw, (key w).2 hk⟩
  · unfold RamSched.onSoon
    by_cases hm : mm ≥ 1440
    · rw [if_pos hm]; simp; omega
    · rw [if_neg hm]
      have : (if mm + 54 ≥ 1440 then mm + 54 - 1440 else mm + 54) = (mm + 54) % 1440 := by split <;> omega
      dsimp only
      rw [this]
      exact ⟨fun h => ⟨by omega, h⟩, fun h => h.2⟩

/-- **C251.** With two schedules the RAM and the EEPROM variants cannot be told apart: from cleared schedules, the same calls
give the same answers to every question, and drive a valve's mode alike. -/
theorem C251_same_as_eeprom (split : Bool) (junk : List Byte) (hj : junk.length = maxSchedules) (m : EE)
    (hm : ∀ w, w < maxSchedules → m (eeSchedule + w) = 0xff) (ops : List SchedOp) (dur : Nat) :
    let s := (RamSched.new junk).run ops
    let e := schedRun split m ops
    (∀ w, s.on w = schedOn e w) ∧ (∀ w, s.off dur w = schedOff e dur w) ∧ (∀ mm, s.onNow dur mm = schedOnNow e dur mm) ∧
    (∀ mm, s.onSoon dur mm = schedOnSoon e dur mm) ∧ s.anySet = schedAnySet e ∧
    (∀ mm v, s.apply dur mm v = applySched e dur mm v) ∧
    ∀ t w, (s.set t w).2 = (schedSet split t w e).1 := by
  intro s e
  have hl : s.slots.length = 2 := by show ((RamSched.new junk).run _).slots.length = _; rw [RamSched.run_len, RamSched.new_len, hj]
  have hb : ∀ w, w < 2 → s.slots[w]?.getD 0 = e (12 + w) := by
    intro w hw
    show ((RamSched.new junk).run ops).slots[w]?.getD 0 = schedRun split m ops (12 + w)
    rw [RamSched.run_get _ _ _ (by rw [RamSched.new_len, hj]; exact hw), schedRun_get split ops m w hw,
      RamSched.new_get junk w (by rw [hj]; exact hw), hm w hw]
  obtain ⟨h1, h2, h3, h4, h5, h6⟩ := RamSched.all_eq_ee s e hl hb dur
  refine ⟨h1, h2, h3, h4, h5, h6, ?_⟩
  intro t w
  unfold RamSched.set
  rw [hl]
  by_cases a : w ≥ 2
  · have : schedSet split t w e = (false, []) := by simp [schedSet, emIf, a, emRet]
    rw [this, if_pos a]
  · by_cases b : t ≥ 1440
    · have : schedSet split t w e = (false, []) := by simp [schedSet, emIf, a, b, emRet]
      rw [this, if_neg a, if_pos b]
    · have : schedSet split t w e = (true, wr1 e (12 + w) (programmeByte t)) := by
        simp [schedSet, emIf, a, b, emRet, emBind, smartUpdate_eq]
      rw [this, if_neg a, if_neg b]

/-- Cases: three schedules, one reset, one cleared, one refused; 01:03 programmed means on from 00:24 to 02:00. -/
example :
    let s := (RamSched.new [1, 2, 3]).run [.set 600 1, .set 63 0, .set 1000 2, .clear 2, .set 1440 0, .set 5 7]
    s.on 0 = 24 ∧ s.off 60 0 = 120 ∧ s.on 1 = 564 ∧ s.on 2 = 65535 ∧ s.on 7 = 65535 ∧ s.anySet = true ∧
    s.onNow 60 24 = true ∧ s.onNow 60 120 = false ∧ s.onSoon 60 (1440 - 30) = true ∧
    (RamSched.new [1, 2, 3]).anySet = false := by decide

end Props
end OTR
