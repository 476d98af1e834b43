import Verif.Model.Valve
/-! # Lemmas on valve control -/

namespace OTR

theorem ite_le {p : Prop} [Decidable p] {a b n : Nat} (ha : p → a ≤ n) (hb : ¬ p → b ≤ n) : (if p then a else b) ≤ n := by
  split
  · exact ha ‹_›
  · exact hb ‹_›

theorem le_ite {p : Prop} [Decidable p] {a b n : Nat} (ha : p → n ≤ a) (hb : ¬ p → n ≤ b) : n ≤ (if p then a else b) := by
  split
  · exact ha ‹_›
  · exact hb ‹_›

theorem constrainI_le (v : Nat) (k : Int) (hk : 0 ≤ k) : (constrainI ((v : Int) - k) 0 (50 - 1)).toNat ≤ v ∧
    (constrainI ((v : Int) - k) 0 (50 - 1)).toNat ≤ 49 := by
  unfold constrainI; split
  · simp
  · split <;> omega

/-- What the proportional part may do. -/
theorem propCompute_dir (ag gl f nu nd : Bool) (v : Nat) (i : VIn) (err rise : Int) :
    (0 ≤ err → propCompute ag gl f nu nd v i err rise ≤ v) ∧
    (err < 0 → v ≤ propCompute ag gl f nu nd v i err rise ∧
      (propCompute ag gl f nu nd v i err rise ≤ max v i.maxPC)) := by
  constructor
  · intro h
    have hb : decide (err < 0) = false := by simp; omega
    unfold propCompute
    simp only [hb, Bool.false_and, Bool.not_false, Bool.true_and, Bool.and_false, Bool.false_eq_true, if_false]
    generalize (min 21 (err.natAbs / (if (i.wide || f) = true then 8 else 4) % 256)) = slew
    have h1 := (constrainI_le v slew (by omega)).1
    have h2 := (constrainI_le v 2 (by omega)).1
    refine ite_le (fun _ => by omega) fun _ => ?_
    refine ite_le (fun _ => by omega) fun _ => ?_
    refine ite_le (fun _ => h1) fun _ => ?_
    refine ite_le (fun _ => by omega) fun _ => ?_
    refine ite_le (fun _ => by omega) fun _ => ?_
    refine ite_le (fun _ => h2) fun _ => ?_
    refine ite_le (fun _ => by omega) fun _ => ?_
    omega
  · intro h
    have hb : decide (err < 0) = true := by simp; omega
    unfold propCompute
    simp only [hb, Bool.false_and, Bool.not_false, Bool.true_and, Bool.and_false, Bool.not_true, if_true,
      Bool.false_eq_true, if_false]
    have hwa : decide (err > if f = true then (28 : Int) else 6) = false := by cases f <;> simp <;> omega
    simp only [hwa, Bool.and_false, Bool.false_and, Bool.false_eq_true, if_false]
    generalize (min 21 (err.natAbs / (if (i.wide || f) = true then 8 else 4) % 256)) = slew
    by_cases hm : v ≥ i.maxPC
    · simp only [hm, decide_true, if_true]
      split <;> omega
    · simp only [hm, decide_false, Bool.false_eq_true, if_false]
      constructor
      · refine le_ite (fun _ => by omega) fun _ => ?_
        refine le_ite (fun _ => by omega) fun _ => ?_
        refine le_ite (fun _ => by omega) fun _ => ?_
        refine le_ite (fun _ => by omega) fun _ => ?_
        refine le_ite (fun _ => ?_) fun _ => by omega
        split <;> omega
      · refine ite_le (fun _ => by omega) fun _ => ?_
        refine ite_le (fun _ => by omega) fun _ => ?_
        refine ite_le (fun _ => by omega) fun _ => ?_
        refine ite_le (fun _ => by omega) fun _ => ?_
        refine ite_le (fun _ => ?_) fun _ => by omega
        split <;> omega

theorem propCompute_hold (ag gl f nu nd : Bool) (v : Nat) (i : VIn) (err rise : Int) :
    (nu = true → propCompute ag gl f nu nd v i err rise ≤ v) ∧
    (nd = true → v ≤ propCompute ag gl f nu nd v i err rise) := by
  constructor
  · rintro rfl
    by_cases h : err < 0
    · unfold propCompute; simp [h]
    · exact (propCompute_dir ag gl f true nd v i err rise).1 (by omega)
  · rintro rfl
    by_cases h : err < 0
    · exact ((propCompute_dir ag gl f nu true v i err rise).2 h).1
    · unfold propCompute; simp [h]

theorem propCompute_glacial (ag f nu nd : Bool) (v : Nat) (i : VIn) (err rise : Int) :
    propCompute ag true f nu nd v i err rise ≤ v + 1 ∧ v ≤ propCompute ag true f nu nd v i err rise + 1 := by
  unfold propCompute
  simp only [Bool.not_true, Bool.false_and, Bool.and_false, Bool.false_eq_true, if_false]
  constructor
  · repeat' first | omega | refine ite_le (fun _ => ?_) fun _ => ?_
  · have key : ∀ n, v - 1 ≤ n → v ≤ n + 1 := by omega
    apply key
    repeat' first | omega | refine le_ite (fun _ => ?_) fun _ => ?_

/-- While calling for heat and with the temperature static the valve moves, unless held or at its limit. -/
theorem propCompute_nohover (ag gl f nu nd : Bool) (v : Nat) (i : VIn) (err : Int) (hv : 50 ≤ v) :
    (0 ≤ err → propCompute ag gl f nu false v i err 0 < v) ∧
    (err < 0 → v < i.maxPC → v < propCompute ag gl f false nd v i err 0) := by
  have hcall : decide (v ≥ 50) = true := by simp; omega
  constructor
  · intro h
    have hb : decide (err < 0) = false := by simp; omega
    have hv0 : (v == 0) = false := by simp; omega
    unfold propCompute
    simp only [hb, Bool.false_and, Bool.not_false, Bool.true_and, Bool.and_false, Bool.false_eq_true, if_false, hv0, hcall,
      Bool.not_true]
    generalize (min 21 (err.natAbs / (if (i.wide || f) = true then 8 else 4) % 256)) = slew
    have e1 : decide ((0 : Int) > 0) = false := by decide
    have e2 : decide ((0 : Int) ≥ 0) = true := by decide
    simp only [e1, e2, Bool.and_false, Bool.false_eq_true, if_false, if_true]
    by_cases hcc : (!gl && (i.fast || decide (err < -if (i.wide || f) = true then 12 else 6)) && decide (slew > 0)) = true <;>
      simp only [hcc, if_true, Bool.false_eq_true, if_false]
    · have := (constrainI_le v slew (by omega)).2; omega
    · omega
  · intro h hm
    have hb : decide (err < 0) = true := by simp; omega
    have hm' : decide (v ≥ i.maxPC) = false := by simp; omega
    have hwa : decide (err > if f = true then (28 : Int) else 6) = false := by cases f <;> simp <;> omega
    have e2 : decide ((0 : Int) ≤ 0) = true := by decide
    unfold propCompute
    simp only [hb, hm', hcall, hwa, e2, Bool.false_and, Bool.not_false, Bool.true_and, Bool.and_false, Bool.not_true,
      if_true, Bool.false_eq_true, if_false, Bool.and_true]
    generalize (min 21 (err.natAbs / (if (i.wide || f) = true then 8 else 4) % 256)) = slew
    refine Nat.lt_of_succ_le (le_ite (fun _ => by omega) fun _ => ?_)
    split <;> omega

/-! ## The whole computation -/

theorem compute_le (c : VCfg) (s : VState) (v : Nat) (i : VIn) (h : v < s.compute c v i) :
    s.compute c v i ≤ i.maxPC := by
  unfold VState.compute at *
  dsimp only at *
  split at h <;> rename_i hc
  · rw [if_pos hc]
    split at h <;> rename_i h2
    · omega
    · rw [if_neg h2]
      split at h <;> rename_i h3
      · rw [if_pos h3]; simp at h3; omega
      · rw [if_neg h3]; exact Nat.le_refl _
  · rw [if_neg hc]
    split at h <;> rename_i h2
    · split at h <;> omega
    · rw [if_neg h2]
      split at h <;> rename_i h3
      · rw [if_pos h3]
        split at h <;> rename_i h4
        · rw [if_pos h4]; exact Nat.le_refl _
        · rw [if_neg h4]
          generalize hf : decide (s.filtering ≠ 0) = f at *
          generalize decide (s.turndownM ≠ 0) = nu at *
          generalize decide (s.turnupM ≠ 0) = nd at *
          generalize s.adj16 i - (i.target : Int) * 16 - 12 = err at *
          have := propCompute_dir c.aggressive (c.alwaysGlacial || i.glacial) f nu nd v i err (s.rawDelta 1)
          by_cases he : err < 0
          · have := (this.2 he).2; omega
          · have := this.1 (by omega); omega
      · omega

/-- Opening while the reopen hold is in force only happens for BAKE. -/
theorem compute_noUp (c : VCfg) (s : VState) (v : Nat) (i : VIn) (hold : s.turndownM ≠ 0) (hb : i.bake = false) :
    s.compute c v i ≤ v := by
  unfold VState.compute
  dsimp only
  have e : decide (s.turndownM ≠ 0) = true := by simp [hold]
  rw [e, hb]
  split
  · simp
  · split
    · split <;> omega
    · split
      · simp only [Bool.false_eq_true, if_false]
        exact (propCompute_hold _ _ _ true _ v i _ _).1 rfl
      · exact Nat.le_refl _

/-- Closing while the reclose hold is in force only happens to respect the maximum opening. -/
theorem compute_noDown (c : VCfg) (s : VState) (v : Nat) (i : VIn) (hold : s.turnupM ≠ 0) (h : s.compute c v i < v) :
    s.compute c v i = i.maxPC := by
  unfold VState.compute at *
  dsimp only at *
  have e : decide (s.turnupM ≠ 0) = true := by simp [hold]
  rw [e] at h ⊢
  split at h <;> rename_i hc
  · rw [if_pos hc]
    split at h <;> rename_i h2
    · omega
    · rw [if_neg h2]
      split at h <;> rename_i h3
      · omega
      · rw [if_neg h3]
  · rw [if_neg hc]
    split at h <;> rename_i h2
    · simp at h
    · rw [if_neg h2]
      split at h <;> rename_i h3
      · rw [if_pos h3]
        split at h <;> rename_i h4
        · rw [if_pos h4]
        · have := (propCompute_hold c.aggressive (c.alwaysGlacial || i.glacial) (decide (s.filtering ≠ 0))
            (decide (s.turndownM ≠ 0)) true v i (s.adj16 i - (i.target : Int) * 16 - 12) (s.rawDelta 1)).2 rfl
          omega
      · omega

theorem i8cast_id {x : Int} (h : -128 ≤ x ∧ x ≤ 127) : i8cast x = x := by unfold i8cast; omega

theorem isCold_iff (t : Int) (i : VIn) (h : -2048 ≤ t ∧ t ≤ 2047) :
    isCold false t i = true ↔ t < 16 * max ((i.target : Int) - 7) 5 := by
  unfold isCold
  dsimp only
  rw [i8cast_id (by omega)]
  simp only [Bool.false_eq_true, if_false, decide_eq_true_eq]
  omega

theorem isHot_iff (t : Int) (i : VIn) (h : -2048 ≤ t ∧ t ≤ 2047) (hh : i.higher ≤ 95) :
    isHot false t i = true ↔ 16 * (min (i.higher + 7) 95 : Int) + 16 ≤ t := by
  unfold isHot
  dsimp only
  rw [i8cast_id (by omega)]
  simp only [Bool.false_eq_true, if_false, decide_eq_true_eq]
  omega

/-! ## Ticks -/

theorem prepare_fields (s : VState) (v : Nat) (i : VIn) (p : Option Nat) :
    (s.prepare v i p).turndownM = s.turndownM - 1 ∧ (s.prepare v i p).turnupM = s.turnupM - 1 ∧
    (s.prepare v i p).cumulative = s.cumulative ∧ (s.prepare v i p).initialised = true ∧
    (s.prepare v i p).prevPC = (if s.initialised then s.prevPC else p.getD v) ∧
    (s.prepare v i p).temps =
      (i.ref16 - 8) :: (if s.initialised then s.temps else List.replicate 16 (i.ref16 - 8)).take 15 := by
  obtain ⟨init, f, mv, td, tu, cu, pv, ts⟩ := s
  unfold VState.prepare
  cases init <;> simp only [Bool.false_eq_true, if_false, if_true] <;> (repeat' split) <;> simp

theorem tick_snd (c : VCfg) (s : VState) (v : Nat) (i : VIn) (p : Option (Nat × Nat)) :
    (s.tick c v i p).2 = (s.prepare v i (p.map Prod.fst)).compute c v i := rfl

theorem tick_fields (c : VCfg) (s : VState) (v : Nat) (i : VIn) (p : Option (Nat × Nat)) :
    (s.tick c v i p).1.turndownM = (if (s.tick c v i p).2 < v then 11 else s.turndownM - 1) ∧
    (s.tick c v i p).1.turnupM = (if (s.tick c v i p).2 > v then 10 else s.turnupM - 1) ∧
    (s.tick c v i p).1.initialised = true ∧
    (s.tick c v i p).1.temps = (s.prepare v i (p.map Prod.fst)).temps ∧
    (s.tick c v i p).1.filtering = (s.prepare v i (p.map Prod.fst)).filtering ∧
    (s.tick c v i p).1.prevPC = (p.map Prod.snd).getD (s.tick c v i p).2 ∧
    (s.tick c v i p).1.moved = ((s.tick c v i p).2 != v) := by
  obtain ⟨h1, h2, h3, h4, h5, h6⟩ := prepare_fields s v i (p.map Prod.fst)
  rw [tick_snd]
  unfold VState.tick
  dsimp only
  generalize s.prepare v i (p.map Prod.fst) = t at *
  generalize t.compute c v i = n at *
  by_cases hgt : n > v
  · have hlt : ¬ n < v := by omega
    simp [hgt, hlt, h1, h4]
  · by_cases hlt : n < v
    · simp [hgt, hlt, h2, h4]
    · simp [hgt, hlt, h1, h2, h4]

end OTR
